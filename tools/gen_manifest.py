#!/usr/bin/env python3
"""Writes MANIFEST.json from the table below."""
import json, os
C = []
def c(prop, status, theorems, note):
    C.append({"property": prop, "status": status, "theorems": theorems, "note": note})

P = "Verif.Cpio."
Q = "Verif.Companion."
c("C01", "proved", [P+"C01_cpio_roundtrip", P+"C01_cpio_roundtrip_ok"], "all sessions of calls; reader is an independent newc reader")
c("C02", "proved", [P+"C02_cpio_alignment", P+"C02_cpio_body_alignment"], "")
c("C03", "proved", [P+"C03_cpio_inodes", P+"C03_cpio_inodes_exhausted", P+"C03_every_call_fails"], "the full archive of 2^32-1 members is shown reachable")
c("C04", "proved", [P+"C04_cpio_atomic"], "")
c("C05", "partial", [P+"C05_cpio_size_limits_partial", P+"C05_cpio_panics_at_boundary", Q+"C05_companions_no_panic"], "the full claim is false of the code at exactly one length (witness proved); it holds at every other length and for every archive the stub builds")
c("C06", "proved", [Q+"C06_companions_order_independent"], "")
c("C07", "proved", [Q+"C07_trailer_only_last"], "")
V = "Verif.Version."
O = "Verif.OsRelease."
G = "Verif.Generation."
S = "Verif.StubName."
c("C24", "proved", [G+"C24_limit", G+"C24_no_limit", G+"C24_order_irrelevant", "Verif.Tool.C24_run_order"], "")
c("C25", "proved", [G+"C25_link_version", G+"C25_link_version_injective", G+"C25_link_rejected", G+"C25_link_rejected_two", "Verif.Tool.C25_bad_link_aborts"], "")
c("C26", "proved", [S+"C26_stub_name_injective", S+"C26_stub_name_determined", "Verif.Tool.C26_other_entries_kept"], "SHA-256 abstract; the only exception is an explicit collision between the two hashed documents")
c("C27", "proved", [S+"C27_stub_lookup_finds", S+"C27_stub_lookup_exact", S+"C27_lookup_iff"], "The last theorem says exactly which names the lookup of a generation accepts.")
c("C43", "proved", [V+"C43_version_order", V+"C43_version_total_order"], "")
c("C44", "proved", [V+"C44_version_grammar", V+"C44_version_parses", V+"C44_version_distinct"], "")
c("C45", "partial", [O+"C45_osrelease_roundtrip_partial", O+"C45_osrelease_roundtrip_iff", O+"C45_osrelease_newline_injection", O+"C45_osrelease_not_roundtrip"], "false for values that would need quoting (negation proved); the maps that are read back are characterised exactly")
c("C46", "proved", [O+"C46_osrelease_meaning", O+"C46_osrelease_comments", O+"C46_osrelease_comments_anywhere", O+"C46_osrelease_last_wins", O+"C46_osrelease_unterminated"], "for all files made of well-formed lines, including quoting, escapes and continuation lines")
c("C47", "partial", [G+"C47_describe_unique", G+"C47_measurement_name_unique", G+"C47_title_unique_partial", G+"C47_title_unique_same_label_partial", G+"C47_title_not_unique"], "titles are not unique when a specialisation name contains text imitating a title (negation proved)")
c("C48", "partial", ["Verif.C48_efi_path_roundtrip_partial", "Verif.C48_efi_path_roundtrip_iff", "Verif.C48_efi_path_outside", "Verif.C48_backslash"], "false for file names containing a backslash (negation proved), true for all others")
T = "Verif.Stub."
c("C08", "proved", [T+"C08_only_verified_started", T+"C08_started_once", T+"C08_mismatch_stops"], "every run of the stub on every firmware")
c("C09", "proved", [T+"C09_embedded_cmdline", T+"C09_cmdline_sources"], "")
c("C10", "proved", [T+"C10_custom_cmdline_measured"], "the TPM counts as usable if it can be opened at the time of the measurement")
c("C11", "proved", [T+"C11_secure_boot_fails_closed"], "")
c("C12", "proved", [T+"C12_initrd_handed_over", T+"C12_concatenation", T+"C58_companions_exact"], "")
c("C13", "proved", [T+"C13_companions_measured", T+"C13_companions_submitted"], "")
c("C14", "proved", [T+"C14_boot_measurements", T+"C14_pcr11_sequence", T+"C14_order_irrelevant", T+"C14_permutation"], "")
c("C20", "proved", [T+"C20_state_restored", T+"C20_restored_or_panic", T+"C20_failure_reported", T+"C20_leak_on_install_failure"], "C20_leak_on_install_failure records what is not cleaned up when the second protocol cannot be installed")
c("C21", "partial", [T+"C21_not_overwritten_partial", T+"C21_only_exported", T+"C21_export_works", T+"C21_stub_variables_attempted_partial", T+"C21_overwritten_on_fault"], "false if the firmware denies the existence of an existing variable (witness proved); holds in every other case. StubInfo and StubFeatures are attempted if the protocol of the loaded image can be opened; otherwise the function returns at once")
c("C22", "partial", [T+"C22_firmware_revision_partial", T+"C22_firmware_revision_wrong"], "false of the code: the mask is 20 bits wide; exact condition and witness proved")
c("C23", "partial", [T+"C23_not_failed_partial", T+"C23_truthful_partial", T+"C23_unmeasured"], "false if the TPM disappears after the first look (witness proved); holds otherwise")
c("C15", "proved", [T+"C15_names_bijective", T+"C15_only_canonical_names", T+"C15_excluded"], "")
c("C16", "proved", [T+"C16_load_memory_safe"], "")
c("C17", "proved", [T+"C17_load_contents", T+"C17_load_accepts", T+"C17_load_deterministic"], "")
c("C18", "proved", [T+"C18_pages", T+"C18_allocated", T+"C20_state_restored"], "the pages freed when the kernel returns are part of C20_state_restored")
c("C19", "proved", [T+"C19_load_file_answers", T+"C19_writes_only_buffer", T+"C19_two_step_protocol", T+"C19_device_path", T+"C19_size_not_updated"], "C19_size_not_updated records that the size is not written back on success")
c("C57", "proved", [T+"C57_icache_range"], "")

I = "Verif.Tool."
c("C28", "proved", [I+"C28_not_overwritten", I+"C28_installed"], "SHA-256 abstract; the only exception is an explicit collision between the two contents")
c("C29", "proved", [I+"C29_roots_kept", I+"C29_only_collected"], "at every moment, with arbitrary failures and listing orders")
c("C30", "proved", [I+"C30_exact", I+"C30_order_independent", I+"C30_idempotent", I+"C30_undeletable"], "")
c("C31", "proved", [I+"C31_foreign_files"], "every interruption of every run")
c("C32", "proved", [I+"C32_malformed_generation", I+"C32_unreadable_generation"], "")
c("C33", "proved", [I+"C33_no_readable_generation", I+"C33_bad_link"], "")
c("C34", "proved", [I+"C34_failed_or_killed", I+"C34_failed"], "")
c("C35", "proved", [I+"C35_atomic"], "")
c("C36", "proved", [I+"C36_power_loss"], "for kernels, initrds and loader.conf; boot entries and the boot loader are renamed without being synced first, an example beside the theorem shows that they can be torn")
c("C37", "proved", [I+"C37_before_collection", I+"C37_during_collection"], "")
c("C38", "proved", [I+"C38_considered_generations_boot", I+"Sample.C38_name_with_slash"], "for specialisations whose names are file names; with a slash in the name it is false (witness)")
c("C39", "proved", [I+"C39_history_sound", I+"C39_installed_stays_bootable", I+"C39_all_entries_boot", I+"C39_history_then_boot"], "entries of generations that are no longer considered can become unbootable while garbage is being collected, hence the restriction to considered generations")
c("C40", "proved", [I+"C40_idempotent", I+"Sample.C40_needs_release"], "for generations with distinct names whose measurements are there; with a boot loader whose version cannot be read every run but the first fails (witness proved)")
c("C41", "proved", [I+"C41_sections", I+"C41_stub_reads", I+"C41_hash_checks_pass", I+"C41_only_this_starts", I+"C41_starts", I+"C41_install_then_boot"], "for kernel paths and command lines that the firmware's 16 bit strings can hold; other characters make the stub refuse to boot")
c("C42", "proved", [I+"C42_loader_untouched", I+"C42_loader_current", I+"Sample.C42_needs_faultless", I+"Sample.C42_pair_replaced_together"], "for runs without I/O errors; a transient error downgrades the boot loader, and the two binaries are replaced together (witnesses proved)")
c("C49", "proved", [I+"C49_signed", I+"C49_signed_interrupted", I+"C49_program_signed"], "")
c("C50", "proved", [I+"C50_loader_measured", I+"C50_loader_measured_after", I+"Sample.C50_needs_covered"], "for runs that start with the binaries covered by the current measurement, as stated; false across two interrupted updates (witness proved)")
c("C51", "proved", [I+"C51_measurement_present", I+"C51_measurement_exact"], "")
c("C52", "proved", [I+"C52_contiguous", I+"C52_no_overlap", I+"Sample.C52_wraps"], "for stubs whose last section ends below 4 GiB; the offset wraps for malformed stubs (witness proved)")
c("C53", "proved", [I+"C53_file_section", I+"C53_file_no_section", T+"C53_memory_section", T+"C53_memory_no_section", T+"C53_memory_size"], "")
c("C54", "proved", [I+"C54_no_leftovers"], "")
c("C55", "proved", [I+"C55_one_entry_each", I+"C54_no_leftovers", I+"Sample.C55_needs_measurement"], "with measured boot, for generations whose measurements are there; a missing measurement leads to two entries (witness proved)")
c("C56", "proved", [I+"C56_loader_conf"], "")
c("C58", "proved", [T+"C58_companions_exact"], "file names are assumed not to contain a backslash; completeness for volumes that answer without errors, with fewer than 2^24 entries per directory and files below 4 GiB")
c("C59", "proved", [T+"C59_optional_failures_do_not_stop_the_boot"], "")
c("C60", "proved", [T+"C60_loader_features"], "")
c("C61", "proved", [I+"C61_considered_iff", I+"C61_considered_said", I+"C61_said_considered", I+"C61_unnumbered", G+"C25_link_number"], "bootspec documents are given as values: reading boot.json and synthesising a bootspec are external libraries")
c("C62", "proved", [G+"C62_menu_texts"], "")
c("C63", "proved", [I+"C63_same_as_contents", I+"C63_private", I+"C63_nothing_left", I+"C63_objcopy_arguments", I+"Sample.C63_needs_distinct_names"], "the random names are assumed to be different (32 random alphanumerical characters); a file left when the installer is killed is not covered")
c("C64", "proved", [I+"C64_succeeds", I+"C64_recovers", I+"C64_recovers_and_boots", I+"C64_sound_entries_legible", I+"C64_fresh_machine", I+"Sample.C64_power_loss_can_block", I+"Sample.C64_malformed_loader_blocks"], "earlier runs are assumed to have used tools that are faithful when they succeed and a boot loader whose version can be read; after a power failure that tears a boot entry, and after a malformed boot loader was installed, every later run panics (witnesses proved)")
c("C65", "proved", [T+"C65_writes", T+"C65_other_variables_unchanged", T+"C65_foreign_vendor"], "every run of the stub on every firmware; what the kernel does to the variables is its own affair")

c("C66", "proved", [I+"C66_names_apart", I+"C66_case_insensitive"], "the file system of the model itself is case-sensitive; the theorem says that this makes no difference between the files of one run")
c("C67", "proved", [I+"C67_panic_causes", I+"C67_panic_causes_cli", I+"C67_never_panics"], "each cause is shown to occur; damage by a power failure is C64_power_loss_can_block. Paths and names that are not UTF-8 (install.rs 622) are not modelled")

c("C68", "proved", [T+"C68_pcr_values", T+"C68_pcr11_identifies", T+"C68_pcrs_identify_boot"], "for TPMs that carry out every measurement; a failed measurement does not stop the boot (C59). The TPM itself is specified in Spec/Pcr.lean: extending replaces the value v by hash(v ++ hash(data))")

B="Verif.Bootspec."
c("C69", "proved", [B+"C69_document", B+"C69_installed_iff", B+"C69_readable_iff", B+"C69_installer_reads", B+"C69_considered_iff"], "for documents in which no object has a name twice (serde_json maps cannot); the bootspec crate's own parsing and synthesis are parameters. C69_installer_reads ties this to the installer model: with Env.bootJson taken from these sources its read step gives exactly what from_link gives")

c("C70", "proved", [I+"C70_secure_boot", I+"C70_attacker", I+"C70_signs_nothing_else"], "assumes that the firmware accepts only what runs of the installer had signed, loads images as the PE specification says, and that file names contain neither slash nor backslash; a collision is exhibited as a file on the ESP")

X="Verif.Tpm."
c("C71", "proved", [X+"C71_event_log", X+"C71_log_replays", X+"C71_effect", X+"C71_one_measurement", X+"C71_closed", X+"C71_probe", X+"C71_pcrs"], "the device is specified after the TCG EFI protocol specification (Model/Tpm); C71_one_measurement says that the device does in each measurement what the stub's trace says, C71_event_log and C71_log_replays speak about the device after the whole trace")

c("C72", "proved", [Q+"C72_literal_exact", Q+"C72_literal_agrees", Q+"C72_literal_succeeds"], "extraction by the independent reader of Spec/Newc; no caller in the repository, part of the public API")

c("C73", "proved", [I+"C73_bits", I+"C73_loader", I+"C73_entry", I+"C73_only", I+"C73_not_repaired"], "permission bits are a function of the record of changes (Spec/Modes); C73_not_repaired is the witness for the last sentence")

c("C74", "proved", ["Verif.Spelling.C74_names", "Verif.Spelling.C74_entry_name", "Verif.Spelling.C74_measurement_name", "Verif.Spelling.C74_base32"], "base 32 is specified by the bits the digits stand for, decimal numbers by Nat.toDigits of Lean's library; neither spec nor statements use the model's encoders")

c("C75", "proved", [T+"C75_image", T+"C75_companions", T+"C75_with_tpm"], "carriedOut and skipped count outcomes in the trace of effects; they do not use the model's counters")

c("C76", "proved", [P+"C76_answers"], "the answers are specified as a function of the number of members and of lengths")

c("C77", "proved", ["Verif.Calendar.C77_calendar", "Verif.Calendar.C77_one_day", "Verif.Calendar.C77_chronological", I+"C77_dates", I+"C77_menu_date"],
  "the calendar is specified by counting days from 1970-01-01; the time crate's computation is modelled by another one with the same documented result")

c("C78", "proved", [I+"C78_refused", I+"C78_as_told", I+"C78_settled", I+"C78_succeeds", I+"C78_boot_loader", I+"C78_boots", I+"C78_defaults"],
  "from the parsed command line on (clap is not modelled, its default values are); everything proved about the installer's run applies to the program by C78_as_told, in the outside world of at most two operations later")

c("C79", "proved", [I+"C79_warned_or_collected", I+"C79_warning", I+"C79_exact", I+"C79_advice_works", I+"C79_advice_harmless", I+"C79_advice_ends", I+"C79_finding_again", I+"C79_finding_transient"],
  "nix-env is represented by removing the links with the listed numbers from the command line; C79_finding_again: with a limit one round may not be enough; C79_finding_transient: a failure while reading makes the installer advise to delete an intact generation")

c("C80", "proved", [I+"C80_only_reads", I+"C80_sign_store_path", I+"C80_build_and_sign_stub", I+"C80_sign_and_copy", I+"C80_verify_sound", I+"C80_verify", I+"C80_signed_verifies", I+"C80_signing_succeeds", I+"C80_stub_succeeds", I+"C80_default_methods"],
  "sbsign, sbverify and objcopy are any programs; FaithfulTools and SignaturesVerify are assumed of them where sections or acceptance are claimed")

c("C81", "proved", [I+"C81_contents", I+"C81_own_places", I+"C81_elsewhere", I+"C81_finding_references"],
  "a 2-safety property; C81_finding_references: an entry that refers to a file outside EFI/nixos (none of the installer's own do) makes the existence of that file matter, so the hypothesis of C81_own_places is needed")

c("C82", "proved", [T+"C82_boot_footprint", T+"C82_other_file"],
  "relational: main is equal as a function on both volumes; C82_other_file is the case of one file")

c("C83", "proved", [T+"C83_texts", T+"C83_one_reading", T+"C83_finding_binary"],
  "the reader of UTF-16 is written from the Unicode standard; for the lower half of the firmware revision see C22")

c("C84", "proved", ["Verif.Menu.C84_item", "Verif.Menu.C84_shown", "Verif.Menu.C84_newest_first", "Verif.Menu.C84_default", "Verif.Menu.C84_finding_line_break"],
  "the reader and the comparison of versions are written after systemd-boot (line_get_key_value, strverscmp_improved, boot_entry_compare) in Spec/SystemdBoot; systemd-boot itself is not part of the repository")

c("C85", "proved", [I+"C85_one_temporary", I+"C85_none_left", I+"C85_room"],
  "which files are to be installed is the specification of C35; the temporary directory of the run is not on the ESP (C63)")

c("C86", "proved", [I+"C86_alone", I+"C86_undisturbed", I+"C86_contents", I+"C86_considered_generations_boot"],
  "other processes get a turn before every system call on a written file system; C86_alone: without them this is the model used elsewhere")
c("C87", "partial", [I+"C87_other_places_partial", I+"C87_same_partition"],
  "false of the code for two runs on the same boot partition (witness C87_same_partition: the installer takes no lock); proved for installers for different places")
c("C88", "proved", [I+"C88_own_places", I+"C88_removes_last", I+"C88_keeps_own"],
  "no assumption on the other processes")

c("C89", "proved", [I+"C89_named_for_key", I+"C89_only_current_key", I+"C89_considered_resigned"],
  "the keys may be exchanged in place: of the store only kernels and initrds of considered generations need to stay the same")

c("C90", "proved", [I+"C90_left_alone", I+"C90_each_boots"], "mount points and directory for measurements are not below each other")

c("C91", "partial", [I+"C91_measured_everywhere_partial", I+"Sample.C91_measurement_replaced", I+"Sample.C91_loader_measurement_replaced"],
  "proved for generations that no partition had an entry for before, if the images made for a generation have one measurement; false in general, with witnesses: a partition added after an update of lanzaboote replaces the measurements of the entries that are kept on the others, and a partition that is new after a rollback of systemd that of the boot loader")

c("C92", "proved", [I+"C92_synced_boots", I+"C92_after_the_run", I+"Sample.C92_loader_can_be_torn"], "for the generations; the boot loader is installed after the sync and not synced, a witness shows that it can be torn after a successful run")

c("C93", "proved", [I+"C93_next_update", I+"C93_still_bootable", I+"C93_entries_survive", I+"Sample.C93_needs_measurements"], "the operating system does not fail in these runs; a witness shows that all generations can be lost if the measurements are new")

c("C94", "partial", [I+"C94_companions_kept_partial", I+"C94_own_companions_removed", I+"C94_boots_without", I+"Sample.C94_witness"], "false for the directories of boot entries, which garbage collection removes (proved for every entry, with a witness); proved for the credentials for all entries")

c("C95", "proved", [I+"C95_predicted", I+"C95_identifies", I+"C95_new_entries"], "objcopy keeps the stub's sections and puts the new ones behind them (hypothesis KeepsSections)")

c("C96", "partial", [I+"C96_signed_partial", I+"C96_unsigned", I+"Sample.C96_witness"], "false of the code: an I/O error in the question whether the keys exist counts as 'no keys', and all boot entries are replaced by unsigned ones (witness); proved: signed if unsigned binaries are not allowed or one of the questions is answered with yes, nothing signed otherwise")

c("C97", "partial", [I+"C97_entries_partial", I+"C97_default_partial", I+"Sample.C97_witness"], "false of the code: garbage collection removes kernels before the boot entries that need them, so that the entry of a deleted generation, which can be the default entry, does not boot after an interruption (witness); proved: this is so only for entries that were there before and that the complete run removes")

c("C98", "proved", [I+"C98_entries_measured", I+"C98_at_any_moment", I+"Sample.C98_begun_later"], "invariant over histories; the operating system does not fail within the runs; generation numbers are not used again for other systems. The starting condition is needed: if measurements begin together with an update, the remaining entry of a generation can have the measurement of another image (witness)")

c("C99", "proved", [I+"C99_bounded", I+"C99_generations", I+"C99_over_time"], "counted from the exact result of garbage collection (C54) and one entry per generation (C55); over time with measurements from the start (C98); without measured boot C99_bounded and C39")

c("C100", "proved", [I+"C100_entry_left_alone", I+"C100_assessment_survives", I+"C100_no_new_tries", I+"C100_begins"], "the operating system does not fail in the updates, and with measured boot the entry has a measurement; otherwise the generation gets a second entry with new tries (C98_begun_later, C96)")

c("C101", "proved", ["Verif.Menu.C101_default", "Verif.Menu.C101_over_time", I+"C101_made_for"], "the sort keys of the generations are the same; other systems on the partition have greater ones or none; the order of systemd-boot is that of Spec/SystemdBoot")

c("C102", "proved", [I+"C102_listing_order", I+"C102_same_until_collection", I+"C102_again", I+"Sample.C102_two_entries"], "no operation fails and listings are complete; Sample.C102_two_entries shows that the hypothesis about two entries is needed")

c("C103", "proved", [T+"C103_memory", T+"C103_left_behind"], "heap and stack of the stub itself are not modelled; a panic ends the boot and is not a return")

c("C104", "proved", [I+"C104_exactly", I+"C104_past", I+"C104_histories", I+"C104_over_time", I+"Sample.C104_two_ways"], "same contents up to collisions of SHA-256; the two boot loader binaries depend on the past by design (no downgrade, C42); with measured boot the sequences are those of C98")

c("C105", "proved", [I+"C105_new_entry", I+"C105_new_secrets", I+"C105_kept_meanwhile", I+"C105_kept", I+"C105_not_refreshed", I+"Sample.C105_stale_secrets"], "up to collisions of SHA-256")

c("C106", "partial", [I+"C106_without_specialisations_partial", I+"C106_as_many", I+"Sample.C106_too_many"], "false of the code: specialisations are measured like generations but the limit does not count them (witness: limit 1, two measurements); holds if the considered generations have no specialisations; as many as considered generations and specialisations in general")
c("C107", "partial", [I+"C107_status_partial", I+"C107_status_measured", I+"C107_goes_on", I+"Sample.C107_failure_unnoticed"], "the first half is false of the code: the hook has no set -e, its exit status is that of the last partition, or of systemd-pcrlock with measured boot (witness: full first partition, status 0); the second half is proved in full")

c("C108", "partial", [I+"C108_after_service_partial", I+"C108_repaired", I+"Sample.C108_locked_out"], "false of the code: the files for the enrolment are written before anything is signed, so an interruption between them leads to an enrolment with unsigned boot loaders (witness); holds once the service has ended without I/O errors, after any history; after an interruption at any moment, a successful run of the installer before the restart repairs the installation")

c("C109", "proved", [I+"C109_unchanged", I+"C109_still_boots", I+"C109_power_failure", I+"C109_success"], "if garbage collection has started all considered generations are installed: C37")

c("C110", "partial", [I+"C110_written", I+"C110_new_generations_partial", I+"C110_not_updated", I+"Sample.C110_old_stub"], "false of the code: generations that are installed keep the stub they were installed with; a run that is given another stub changes no file (proved in general, and with a witness). Proved: what a run writes has the stub it is given, and so have after success all generations that had no boot entry for the key in use")

c("C111", "partial", [I+"C111_covered_partial", I+"C111_unlocks_partial", I+"C111_enrolled_iff", I+"Sample.C111_unmeasured"], "false of the code: the service looks at the status of systemd-pcrlock make-policy only, so it enrols a policy without the generations after an installation that failed (witness). Proved: exactly when a policy is enrolled, that it covers all considered generations if the installation on the last partition worked, and with one partition that each of them then has a boot entry whose very measurement is in the policy")

c("C112", "partial", [I+"C112_lost_partial", I+"C112_restored_partial", I+"C112_own_files_partial", I+"C112_damage_stays", I+"Sample.C112_damage_unnoticed"], "false of the code for damaged kernels and initrds: only their existence is checked, so further runs succeed without a change and the generation cannot be booted (proved in general, and with a witness). Proved: a generation can be booted after the run whatever else is damaged if the kernels and initrds of its own boot entries, if it has any, are intact or missing; whatever has disappeared is restored, the run succeeds if nothing else stands in the way, and a boot loader without a valid signature is replaced")

c("C113", "partial", [I+"C113_newest_partial", I+"C113_new_partial", I+"C113_choice_ignored", I+"C113_removed", I+"Sample.InMenu.C113_not_switched"], "false of the code: the hook ignores which system it is called for, so the newest generation boots whichever one is the current (general theorem and witness), and with a limit the entry of the current generation can even be removed (general theorem). Proved: the current generation is what boots if it is the newest and has tries left, in particular if the run has installed it for the first time")

here = os.path.dirname(os.path.abspath(__file__))
json.dump({"claims": C}, open(os.path.join(here, "..", "MANIFEST.json"), "w"), indent=1)
