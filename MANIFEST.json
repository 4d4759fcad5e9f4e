{
 "claims": [
  {
   "property": "C01",
   "status": "proved",
   "theorems": [
    "Verif.Cpio.C01_cpio_roundtrip",
    "Verif.Cpio.C01_cpio_roundtrip_ok"
   ],
   "note": "all sessions of calls; reader is an independent newc reader"
  },
  {
   "property": "C02",
   "status": "proved",
   "theorems": [
    "Verif.Cpio.C02_cpio_alignment",
    "Verif.Cpio.C02_cpio_body_alignment"
   ],
   "note": ""
  },
  {
   "property": "C03",
   "status": "proved",
   "theorems": [
    "Verif.Cpio.C03_cpio_inodes",
    "Verif.Cpio.C03_cpio_inodes_exhausted",
    "Verif.Cpio.C03_every_call_fails"
   ],
   "note": "the full archive of 2^32-1 members is shown reachable"
  },
  {
   "property": "C04",
   "status": "proved",
   "theorems": [
    "Verif.Cpio.C04_cpio_atomic"
   ],
   "note": ""
  },
  {
   "property": "C05",
   "status": "partial",
   "theorems": [
    "Verif.Cpio.C05_cpio_size_limits_partial",
    "Verif.Cpio.C05_cpio_panics_at_boundary",
    "Verif.Companion.C05_companions_no_panic"
   ],
   "note": "the full claim is false of the code at exactly one length (witness proved); it holds at every other length and for every archive the stub builds"
  },
  {
   "property": "C06",
   "status": "proved",
   "theorems": [
    "Verif.Companion.C06_companions_order_independent"
   ],
   "note": ""
  },
  {
   "property": "C07",
   "status": "proved",
   "theorems": [
    "Verif.Companion.C07_trailer_only_last"
   ],
   "note": ""
  },
  {
   "property": "C24",
   "status": "proved",
   "theorems": [
    "Verif.Generation.C24_limit",
    "Verif.Generation.C24_no_limit",
    "Verif.Generation.C24_order_irrelevant",
    "Verif.Tool.C24_run_order"
   ],
   "note": ""
  },
  {
   "property": "C25",
   "status": "proved",
   "theorems": [
    "Verif.Generation.C25_link_version",
    "Verif.Generation.C25_link_version_injective",
    "Verif.Generation.C25_link_rejected",
    "Verif.Generation.C25_link_rejected_two",
    "Verif.Tool.C25_bad_link_aborts"
   ],
   "note": ""
  },
  {
   "property": "C26",
   "status": "proved",
   "theorems": [
    "Verif.StubName.C26_stub_name_injective",
    "Verif.StubName.C26_stub_name_determined",
    "Verif.Tool.C26_other_entries_kept"
   ],
   "note": "SHA-256 abstract; the only exception is an explicit collision between the two hashed documents"
  },
  {
   "property": "C27",
   "status": "proved",
   "theorems": [
    "Verif.StubName.C27_stub_lookup_finds",
    "Verif.StubName.C27_stub_lookup_exact",
    "Verif.StubName.C27_lookup_iff"
   ],
   "note": "The last theorem says exactly which names the lookup of a generation accepts."
  },
  {
   "property": "C43",
   "status": "proved",
   "theorems": [
    "Verif.Version.C43_version_order",
    "Verif.Version.C43_version_total_order"
   ],
   "note": ""
  },
  {
   "property": "C44",
   "status": "proved",
   "theorems": [
    "Verif.Version.C44_version_grammar",
    "Verif.Version.C44_version_parses",
    "Verif.Version.C44_version_distinct"
   ],
   "note": ""
  },
  {
   "property": "C45",
   "status": "partial",
   "theorems": [
    "Verif.OsRelease.C45_osrelease_roundtrip_partial",
    "Verif.OsRelease.C45_osrelease_roundtrip_iff",
    "Verif.OsRelease.C45_osrelease_newline_injection",
    "Verif.OsRelease.C45_osrelease_not_roundtrip"
   ],
   "note": "false for values that would need quoting (negation proved); the maps that are read back are characterised exactly"
  },
  {
   "property": "C46",
   "status": "proved",
   "theorems": [
    "Verif.OsRelease.C46_osrelease_meaning",
    "Verif.OsRelease.C46_osrelease_comments",
    "Verif.OsRelease.C46_osrelease_comments_anywhere",
    "Verif.OsRelease.C46_osrelease_last_wins",
    "Verif.OsRelease.C46_osrelease_unterminated"
   ],
   "note": "for all files made of well-formed lines, including quoting, escapes and continuation lines"
  },
  {
   "property": "C47",
   "status": "partial",
   "theorems": [
    "Verif.Generation.C47_describe_unique",
    "Verif.Generation.C47_measurement_name_unique",
    "Verif.Generation.C47_title_unique_partial",
    "Verif.Generation.C47_title_unique_same_label_partial",
    "Verif.Generation.C47_title_not_unique"
   ],
   "note": "titles are not unique when a specialisation name contains text imitating a title (negation proved)"
  },
  {
   "property": "C48",
   "status": "partial",
   "theorems": [
    "Verif.C48_efi_path_roundtrip_partial",
    "Verif.C48_efi_path_roundtrip_iff",
    "Verif.C48_efi_path_outside",
    "Verif.C48_backslash"
   ],
   "note": "false for file names containing a backslash (negation proved), true for all others"
  },
  {
   "property": "C08",
   "status": "proved",
   "theorems": [
    "Verif.Stub.C08_only_verified_started",
    "Verif.Stub.C08_started_once",
    "Verif.Stub.C08_mismatch_stops"
   ],
   "note": "every run of the stub on every firmware"
  },
  {
   "property": "C09",
   "status": "proved",
   "theorems": [
    "Verif.Stub.C09_embedded_cmdline",
    "Verif.Stub.C09_cmdline_sources"
   ],
   "note": ""
  },
  {
   "property": "C10",
   "status": "proved",
   "theorems": [
    "Verif.Stub.C10_custom_cmdline_measured"
   ],
   "note": "the TPM counts as usable if it can be opened at the time of the measurement"
  },
  {
   "property": "C11",
   "status": "proved",
   "theorems": [
    "Verif.Stub.C11_secure_boot_fails_closed"
   ],
   "note": ""
  },
  {
   "property": "C12",
   "status": "proved",
   "theorems": [
    "Verif.Stub.C12_initrd_handed_over",
    "Verif.Stub.C12_concatenation",
    "Verif.Stub.C58_companions_exact"
   ],
   "note": ""
  },
  {
   "property": "C13",
   "status": "proved",
   "theorems": [
    "Verif.Stub.C13_companions_measured",
    "Verif.Stub.C13_companions_submitted"
   ],
   "note": ""
  },
  {
   "property": "C14",
   "status": "proved",
   "theorems": [
    "Verif.Stub.C14_boot_measurements",
    "Verif.Stub.C14_pcr11_sequence",
    "Verif.Stub.C14_order_irrelevant",
    "Verif.Stub.C14_permutation"
   ],
   "note": ""
  },
  {
   "property": "C20",
   "status": "proved",
   "theorems": [
    "Verif.Stub.C20_state_restored",
    "Verif.Stub.C20_restored_or_panic",
    "Verif.Stub.C20_failure_reported",
    "Verif.Stub.C20_leak_on_install_failure"
   ],
   "note": "C20_leak_on_install_failure records what is not cleaned up when the second protocol cannot be installed"
  },
  {
   "property": "C21",
   "status": "partial",
   "theorems": [
    "Verif.Stub.C21_not_overwritten_partial",
    "Verif.Stub.C21_only_exported",
    "Verif.Stub.C21_export_works",
    "Verif.Stub.C21_stub_variables_attempted_partial",
    "Verif.Stub.C21_overwritten_on_fault"
   ],
   "note": "false if the firmware denies the existence of an existing variable (witness proved); holds in every other case. StubInfo and StubFeatures are attempted if the protocol of the loaded image can be opened; otherwise the function returns at once"
  },
  {
   "property": "C22",
   "status": "partial",
   "theorems": [
    "Verif.Stub.C22_firmware_revision_partial",
    "Verif.Stub.C22_firmware_revision_wrong"
   ],
   "note": "false of the code: the mask is 20 bits wide; exact condition and witness proved"
  },
  {
   "property": "C23",
   "status": "partial",
   "theorems": [
    "Verif.Stub.C23_not_failed_partial",
    "Verif.Stub.C23_truthful_partial",
    "Verif.Stub.C23_unmeasured"
   ],
   "note": "false if the TPM disappears after the first look (witness proved); holds otherwise"
  },
  {
   "property": "C15",
   "status": "proved",
   "theorems": [
    "Verif.Stub.C15_names_bijective",
    "Verif.Stub.C15_only_canonical_names",
    "Verif.Stub.C15_excluded"
   ],
   "note": ""
  },
  {
   "property": "C16",
   "status": "proved",
   "theorems": [
    "Verif.Stub.C16_load_memory_safe"
   ],
   "note": ""
  },
  {
   "property": "C17",
   "status": "proved",
   "theorems": [
    "Verif.Stub.C17_load_contents",
    "Verif.Stub.C17_load_accepts",
    "Verif.Stub.C17_load_deterministic"
   ],
   "note": ""
  },
  {
   "property": "C18",
   "status": "proved",
   "theorems": [
    "Verif.Stub.C18_pages",
    "Verif.Stub.C18_allocated",
    "Verif.Stub.C20_state_restored"
   ],
   "note": "the pages freed when the kernel returns are part of C20_state_restored"
  },
  {
   "property": "C19",
   "status": "proved",
   "theorems": [
    "Verif.Stub.C19_load_file_answers",
    "Verif.Stub.C19_writes_only_buffer",
    "Verif.Stub.C19_two_step_protocol",
    "Verif.Stub.C19_device_path",
    "Verif.Stub.C19_size_not_updated"
   ],
   "note": "C19_size_not_updated records that the size is not written back on success"
  },
  {
   "property": "C57",
   "status": "proved",
   "theorems": [
    "Verif.Stub.C57_icache_range"
   ],
   "note": ""
  },
  {
   "property": "C28",
   "status": "proved",
   "theorems": [
    "Verif.Tool.C28_not_overwritten",
    "Verif.Tool.C28_installed"
   ],
   "note": "SHA-256 abstract; the only exception is an explicit collision between the two contents"
  },
  {
   "property": "C29",
   "status": "proved",
   "theorems": [
    "Verif.Tool.C29_roots_kept",
    "Verif.Tool.C29_only_collected"
   ],
   "note": "at every moment, with arbitrary failures and listing orders"
  },
  {
   "property": "C30",
   "status": "proved",
   "theorems": [
    "Verif.Tool.C30_exact",
    "Verif.Tool.C30_order_independent",
    "Verif.Tool.C30_idempotent",
    "Verif.Tool.C30_undeletable"
   ],
   "note": ""
  },
  {
   "property": "C31",
   "status": "proved",
   "theorems": [
    "Verif.Tool.C31_foreign_files"
   ],
   "note": "every interruption of every run"
  },
  {
   "property": "C32",
   "status": "proved",
   "theorems": [
    "Verif.Tool.C32_malformed_generation",
    "Verif.Tool.C32_unreadable_generation"
   ],
   "note": ""
  },
  {
   "property": "C33",
   "status": "proved",
   "theorems": [
    "Verif.Tool.C33_no_readable_generation",
    "Verif.Tool.C33_bad_link"
   ],
   "note": ""
  },
  {
   "property": "C34",
   "status": "proved",
   "theorems": [
    "Verif.Tool.C34_failed_or_killed",
    "Verif.Tool.C34_failed"
   ],
   "note": ""
  },
  {
   "property": "C35",
   "status": "proved",
   "theorems": [
    "Verif.Tool.C35_atomic"
   ],
   "note": ""
  },
  {
   "property": "C36",
   "status": "proved",
   "theorems": [
    "Verif.Tool.C36_power_loss"
   ],
   "note": "for kernels, initrds and loader.conf; boot entries and the boot loader are renamed without being synced first, an example beside the theorem shows that they can be torn"
  },
  {
   "property": "C37",
   "status": "proved",
   "theorems": [
    "Verif.Tool.C37_before_collection",
    "Verif.Tool.C37_during_collection"
   ],
   "note": ""
  },
  {
   "property": "C38",
   "status": "proved",
   "theorems": [
    "Verif.Tool.C38_considered_generations_boot",
    "Verif.Tool.Sample.C38_name_with_slash"
   ],
   "note": "for specialisations whose names are file names; with a slash in the name it is false (witness)"
  },
  {
   "property": "C39",
   "status": "proved",
   "theorems": [
    "Verif.Tool.C39_history_sound",
    "Verif.Tool.C39_installed_stays_bootable",
    "Verif.Tool.C39_all_entries_boot",
    "Verif.Tool.C39_history_then_boot"
   ],
   "note": "entries of generations that are no longer considered can become unbootable while garbage is being collected, hence the restriction to considered generations"
  },
  {
   "property": "C40",
   "status": "proved",
   "theorems": [
    "Verif.Tool.C40_idempotent",
    "Verif.Tool.Sample.C40_needs_release"
   ],
   "note": "for generations with distinct names whose measurements are there; with a boot loader whose version cannot be read every run but the first fails (witness proved)"
  },
  {
   "property": "C41",
   "status": "proved",
   "theorems": [
    "Verif.Tool.C41_sections",
    "Verif.Tool.C41_stub_reads",
    "Verif.Tool.C41_hash_checks_pass",
    "Verif.Tool.C41_only_this_starts",
    "Verif.Tool.C41_starts",
    "Verif.Tool.C41_install_then_boot"
   ],
   "note": "for kernel paths and command lines that the firmware's 16 bit strings can hold; other characters make the stub refuse to boot"
  },
  {
   "property": "C42",
   "status": "proved",
   "theorems": [
    "Verif.Tool.C42_loader_untouched",
    "Verif.Tool.C42_loader_current",
    "Verif.Tool.Sample.C42_needs_faultless",
    "Verif.Tool.Sample.C42_pair_replaced_together"
   ],
   "note": "for runs without I/O errors; a transient error downgrades the boot loader, and the two binaries are replaced together (witnesses proved)"
  },
  {
   "property": "C49",
   "status": "proved",
   "theorems": [
    "Verif.Tool.C49_signed",
    "Verif.Tool.C49_signed_interrupted",
    "Verif.Tool.C49_program_signed"
   ],
   "note": ""
  },
  {
   "property": "C50",
   "status": "proved",
   "theorems": [
    "Verif.Tool.C50_loader_measured",
    "Verif.Tool.C50_loader_measured_after",
    "Verif.Tool.Sample.C50_needs_covered"
   ],
   "note": "for runs that start with the binaries covered by the current measurement, as stated; false across two interrupted updates (witness proved)"
  },
  {
   "property": "C51",
   "status": "proved",
   "theorems": [
    "Verif.Tool.C51_measurement_present",
    "Verif.Tool.C51_measurement_exact"
   ],
   "note": ""
  },
  {
   "property": "C52",
   "status": "proved",
   "theorems": [
    "Verif.Tool.C52_contiguous",
    "Verif.Tool.C52_no_overlap",
    "Verif.Tool.Sample.C52_wraps"
   ],
   "note": "for stubs whose last section ends below 4 GiB; the offset wraps for malformed stubs (witness proved)"
  },
  {
   "property": "C53",
   "status": "proved",
   "theorems": [
    "Verif.Tool.C53_file_section",
    "Verif.Tool.C53_file_no_section",
    "Verif.Stub.C53_memory_section",
    "Verif.Stub.C53_memory_no_section",
    "Verif.Stub.C53_memory_size"
   ],
   "note": ""
  },
  {
   "property": "C54",
   "status": "proved",
   "theorems": [
    "Verif.Tool.C54_no_leftovers"
   ],
   "note": ""
  },
  {
   "property": "C55",
   "status": "proved",
   "theorems": [
    "Verif.Tool.C55_one_entry_each",
    "Verif.Tool.C54_no_leftovers",
    "Verif.Tool.Sample.C55_needs_measurement"
   ],
   "note": "with measured boot, for generations whose measurements are there; a missing measurement leads to two entries (witness proved)"
  },
  {
   "property": "C56",
   "status": "proved",
   "theorems": [
    "Verif.Tool.C56_loader_conf"
   ],
   "note": ""
  },
  {
   "property": "C58",
   "status": "proved",
   "theorems": [
    "Verif.Stub.C58_companions_exact"
   ],
   "note": "file names are assumed not to contain a backslash; completeness for volumes that answer without errors, with fewer than 2^24 entries per directory and files below 4 GiB"
  },
  {
   "property": "C59",
   "status": "proved",
   "theorems": [
    "Verif.Stub.C59_optional_failures_do_not_stop_the_boot"
   ],
   "note": ""
  },
  {
   "property": "C60",
   "status": "proved",
   "theorems": [
    "Verif.Stub.C60_loader_features"
   ],
   "note": ""
  },
  {
   "property": "C61",
   "status": "proved",
   "theorems": [
    "Verif.Tool.C61_considered_iff",
    "Verif.Tool.C61_considered_said",
    "Verif.Tool.C61_said_considered",
    "Verif.Tool.C61_unnumbered",
    "Verif.Generation.C25_link_number"
   ],
   "note": "bootspec documents are given as values: reading boot.json and synthesising a bootspec are external libraries"
  },
  {
   "property": "C62",
   "status": "proved",
   "theorems": [
    "Verif.Generation.C62_menu_texts"
   ],
   "note": ""
  },
  {
   "property": "C63",
   "status": "proved",
   "theorems": [
    "Verif.Tool.C63_same_as_contents",
    "Verif.Tool.C63_private",
    "Verif.Tool.C63_nothing_left",
    "Verif.Tool.C63_objcopy_arguments",
    "Verif.Tool.Sample.C63_needs_distinct_names"
   ],
   "note": "the random names are assumed to be different (32 random alphanumerical characters); a file left when the installer is killed is not covered"
  },
  {
   "property": "C64",
   "status": "proved",
   "theorems": [
    "Verif.Tool.C64_succeeds",
    "Verif.Tool.C64_recovers",
    "Verif.Tool.C64_recovers_and_boots",
    "Verif.Tool.C64_sound_entries_legible",
    "Verif.Tool.C64_fresh_machine",
    "Verif.Tool.Sample.C64_power_loss_can_block",
    "Verif.Tool.Sample.C64_malformed_loader_blocks"
   ],
   "note": "earlier runs are assumed to have used tools that are faithful when they succeed and a boot loader whose version can be read; after a power failure that tears a boot entry, and after a malformed boot loader was installed, every later run panics (witnesses proved)"
  },
  {
   "property": "C65",
   "status": "proved",
   "theorems": [
    "Verif.Stub.C65_writes",
    "Verif.Stub.C65_other_variables_unchanged",
    "Verif.Stub.C65_foreign_vendor"
   ],
   "note": "every run of the stub on every firmware; what the kernel does to the variables is its own affair"
  },
  {
   "property": "C66",
   "status": "proved",
   "theorems": [
    "Verif.Tool.C66_names_apart",
    "Verif.Tool.C66_case_insensitive"
   ],
   "note": "the file system of the model itself is case-sensitive; the theorem says that this makes no difference between the files of one run"
  },
  {
   "property": "C67",
   "status": "proved",
   "theorems": [
    "Verif.Tool.C67_panic_causes",
    "Verif.Tool.C67_panic_causes_cli",
    "Verif.Tool.C67_never_panics"
   ],
   "note": "each cause is shown to occur; damage by a power failure is C64_power_loss_can_block. Paths and names that are not UTF-8 (install.rs 622) are not modelled"
  },
  {
   "property": "C68",
   "status": "proved",
   "theorems": [
    "Verif.Stub.C68_pcr_values",
    "Verif.Stub.C68_pcr11_identifies",
    "Verif.Stub.C68_pcrs_identify_boot"
   ],
   "note": "for TPMs that carry out every measurement; a failed measurement does not stop the boot (C59). The TPM itself is specified in Spec/Pcr.lean: extending replaces the value v by hash(v ++ hash(data))"
  },
  {
   "property": "C69",
   "status": "proved",
   "theorems": [
    "Verif.Bootspec.C69_document",
    "Verif.Bootspec.C69_installed_iff",
    "Verif.Bootspec.C69_readable_iff",
    "Verif.Bootspec.C69_installer_reads",
    "Verif.Bootspec.C69_considered_iff"
   ],
   "note": "for documents in which no object has a name twice (serde_json maps cannot); the bootspec crate's own parsing and synthesis are parameters. C69_installer_reads ties this to the installer model: with Env.bootJson taken from these sources its read step gives exactly what from_link gives"
  },
  {
   "property": "C70",
   "status": "proved",
   "theorems": [
    "Verif.Tool.C70_secure_boot",
    "Verif.Tool.C70_attacker",
    "Verif.Tool.C70_signs_nothing_else"
   ],
   "note": "assumes that the firmware accepts only what runs of the installer had signed, loads images as the PE specification says, and that file names contain neither slash nor backslash; a collision is exhibited as a file on the ESP"
  },
  {
   "property": "C71",
   "status": "proved",
   "theorems": [
    "Verif.Tpm.C71_event_log",
    "Verif.Tpm.C71_log_replays",
    "Verif.Tpm.C71_effect",
    "Verif.Tpm.C71_one_measurement",
    "Verif.Tpm.C71_closed",
    "Verif.Tpm.C71_probe",
    "Verif.Tpm.C71_pcrs"
   ],
   "note": "the device is specified after the TCG EFI protocol specification (Model/Tpm); C71_one_measurement says that the device does in each measurement what the stub's trace says, C71_event_log and C71_log_replays speak about the device after the whole trace"
  },
  {
   "property": "C72",
   "status": "proved",
   "theorems": [
    "Verif.Companion.C72_literal_exact",
    "Verif.Companion.C72_literal_agrees",
    "Verif.Companion.C72_literal_succeeds"
   ],
   "note": "extraction by the independent reader of Spec/Newc; no caller in the repository, part of the public API"
  },
  {
   "property": "C73",
   "status": "proved",
   "theorems": [
    "Verif.Tool.C73_bits",
    "Verif.Tool.C73_loader",
    "Verif.Tool.C73_entry",
    "Verif.Tool.C73_only",
    "Verif.Tool.C73_not_repaired"
   ],
   "note": "permission bits are a function of the record of changes (Spec/Modes); C73_not_repaired is the witness for the last sentence"
  },
  {
   "property": "C74",
   "status": "proved",
   "theorems": [
    "Verif.Spelling.C74_names",
    "Verif.Spelling.C74_entry_name",
    "Verif.Spelling.C74_measurement_name",
    "Verif.Spelling.C74_base32"
   ],
   "note": "base 32 is specified by the bits the digits stand for, decimal numbers by Nat.toDigits of Lean's library; neither spec nor statements use the model's encoders"
  },
  {
   "property": "C75",
   "status": "proved",
   "theorems": [
    "Verif.Stub.C75_image",
    "Verif.Stub.C75_companions",
    "Verif.Stub.C75_with_tpm"
   ],
   "note": "carriedOut and skipped count outcomes in the trace of effects; they do not use the model's counters"
  },
  {
   "property": "C76",
   "status": "proved",
   "theorems": [
    "Verif.Cpio.C76_answers"
   ],
   "note": "the answers are specified as a function of the number of members and of lengths"
  },
  {
   "property": "C77",
   "status": "proved",
   "theorems": [
    "Verif.Calendar.C77_calendar",
    "Verif.Calendar.C77_one_day",
    "Verif.Calendar.C77_chronological",
    "Verif.Tool.C77_dates",
    "Verif.Tool.C77_menu_date"
   ],
   "note": "the calendar is specified by counting days from 1970-01-01; the time crate's computation is modelled by another one with the same documented result"
  },
  {
   "property": "C78",
   "status": "proved",
   "theorems": [
    "Verif.Tool.C78_refused",
    "Verif.Tool.C78_as_told",
    "Verif.Tool.C78_settled",
    "Verif.Tool.C78_succeeds",
    "Verif.Tool.C78_boot_loader",
    "Verif.Tool.C78_boots",
    "Verif.Tool.C78_defaults"
   ],
   "note": "from the parsed command line on (clap is not modelled, its default values are); everything proved about the installer's run applies to the program by C78_as_told, in the outside world of at most two operations later"
  },
  {
   "property": "C79",
   "status": "proved",
   "theorems": [
    "Verif.Tool.C79_warned_or_collected",
    "Verif.Tool.C79_warning",
    "Verif.Tool.C79_exact",
    "Verif.Tool.C79_advice_works",
    "Verif.Tool.C79_advice_harmless",
    "Verif.Tool.C79_advice_ends",
    "Verif.Tool.C79_finding_again",
    "Verif.Tool.C79_finding_transient"
   ],
   "note": "nix-env is represented by removing the links with the listed numbers from the command line; C79_finding_again: with a limit one round may not be enough; C79_finding_transient: a failure while reading makes the installer advise to delete an intact generation"
  },
  {
   "property": "C80",
   "status": "proved",
   "theorems": [
    "Verif.Tool.C80_only_reads",
    "Verif.Tool.C80_sign_store_path",
    "Verif.Tool.C80_build_and_sign_stub",
    "Verif.Tool.C80_sign_and_copy",
    "Verif.Tool.C80_verify_sound",
    "Verif.Tool.C80_verify",
    "Verif.Tool.C80_signed_verifies",
    "Verif.Tool.C80_signing_succeeds",
    "Verif.Tool.C80_stub_succeeds",
    "Verif.Tool.C80_default_methods"
   ],
   "note": "sbsign, sbverify and objcopy are any programs; FaithfulTools and SignaturesVerify are assumed of them where sections or acceptance are claimed"
  },
  {
   "property": "C81",
   "status": "proved",
   "theorems": [
    "Verif.Tool.C81_contents",
    "Verif.Tool.C81_own_places",
    "Verif.Tool.C81_elsewhere",
    "Verif.Tool.C81_finding_references"
   ],
   "note": "a 2-safety property; C81_finding_references: an entry that refers to a file outside EFI/nixos (none of the installer's own do) makes the existence of that file matter, so the hypothesis of C81_own_places is needed"
  },
  {
   "property": "C82",
   "status": "proved",
   "theorems": [
    "Verif.Stub.C82_boot_footprint",
    "Verif.Stub.C82_other_file"
   ],
   "note": "relational: main is equal as a function on both volumes; C82_other_file is the case of one file"
  },
  {
   "property": "C83",
   "status": "proved",
   "theorems": [
    "Verif.Stub.C83_texts",
    "Verif.Stub.C83_one_reading",
    "Verif.Stub.C83_finding_binary"
   ],
   "note": "the reader of UTF-16 is written from the Unicode standard; for the lower half of the firmware revision see C22"
  },
  {
   "property": "C84",
   "status": "proved",
   "theorems": [
    "Verif.Menu.C84_item",
    "Verif.Menu.C84_shown",
    "Verif.Menu.C84_newest_first",
    "Verif.Menu.C84_default",
    "Verif.Menu.C84_finding_line_break"
   ],
   "note": "the reader and the comparison of versions are written after systemd-boot (line_get_key_value, strverscmp_improved, boot_entry_compare) in Spec/SystemdBoot; systemd-boot itself is not part of the repository"
  },
  {
   "property": "C85",
   "status": "proved",
   "theorems": [
    "Verif.Tool.C85_one_temporary",
    "Verif.Tool.C85_none_left",
    "Verif.Tool.C85_room"
   ],
   "note": "which files are to be installed is the specification of C35; the temporary directory of the run is not on the ESP (C63)"
  },
  {
   "property": "C86",
   "status": "proved",
   "theorems": [
    "Verif.Tool.C86_alone",
    "Verif.Tool.C86_undisturbed",
    "Verif.Tool.C86_contents",
    "Verif.Tool.C86_considered_generations_boot"
   ],
   "note": "other processes get a turn before every system call on a written file system; C86_alone: without them this is the model used elsewhere"
  },
  {
   "property": "C87",
   "status": "partial",
   "theorems": [
    "Verif.Tool.C87_other_places_partial",
    "Verif.Tool.C87_same_partition"
   ],
   "note": "false of the code for two runs on the same boot partition (witness C87_same_partition: the installer takes no lock); proved for installers for different places"
  },
  {
   "property": "C88",
   "status": "proved",
   "theorems": [
    "Verif.Tool.C88_own_places",
    "Verif.Tool.C88_removes_last",
    "Verif.Tool.C88_keeps_own"
   ],
   "note": "no assumption on the other processes"
  },
  {
   "property": "C89",
   "status": "proved",
   "theorems": [
    "Verif.Tool.C89_named_for_key",
    "Verif.Tool.C89_only_current_key",
    "Verif.Tool.C89_considered_resigned"
   ],
   "note": "the keys may be exchanged in place: of the store only kernels and initrds of considered generations need to stay the same"
  },
  {
   "property": "C90",
   "status": "proved",
   "theorems": [
    "Verif.Tool.C90_left_alone",
    "Verif.Tool.C90_each_boots"
   ],
   "note": "mount points and directory for measurements are not below each other"
  },
  {
   "property": "C91",
   "status": "partial",
   "theorems": [
    "Verif.Tool.C91_measured_everywhere_partial",
    "Verif.Tool.Sample.C91_measurement_replaced",
    "Verif.Tool.Sample.C91_loader_measurement_replaced"
   ],
   "note": "proved for generations that no partition had an entry for before, if the images made for a generation have one measurement; false in general, with witnesses: a partition added after an update of lanzaboote replaces the measurements of the entries that are kept on the others, and a partition that is new after a rollback of systemd that of the boot loader"
  },
  {
   "property": "C92",
   "status": "proved",
   "theorems": [
    "Verif.Tool.C92_synced_boots",
    "Verif.Tool.C92_after_the_run",
    "Verif.Tool.Sample.C92_loader_can_be_torn"
   ],
   "note": "for the generations; the boot loader is installed after the sync and not synced, a witness shows that it can be torn after a successful run"
  },
  {
   "property": "C93",
   "status": "proved",
   "theorems": [
    "Verif.Tool.C93_next_update",
    "Verif.Tool.C93_still_bootable",
    "Verif.Tool.C93_entries_survive",
    "Verif.Tool.Sample.C93_needs_measurements"
   ],
   "note": "the operating system does not fail in these runs; a witness shows that all generations can be lost if the measurements are new"
  },
  {
   "property": "C94",
   "status": "partial",
   "theorems": [
    "Verif.Tool.C94_companions_kept_partial",
    "Verif.Tool.C94_own_companions_removed",
    "Verif.Tool.C94_boots_without",
    "Verif.Tool.Sample.C94_witness"
   ],
   "note": "false for the directories of boot entries, which garbage collection removes (proved for every entry, with a witness); proved for the credentials for all entries"
  },
  {
   "property": "C95",
   "status": "proved",
   "theorems": [
    "Verif.Tool.C95_predicted",
    "Verif.Tool.C95_identifies",
    "Verif.Tool.C95_new_entries"
   ],
   "note": "objcopy keeps the stub's sections and puts the new ones behind them (hypothesis KeepsSections)"
  },
  {
   "property": "C96",
   "status": "partial",
   "theorems": [
    "Verif.Tool.C96_signed_partial",
    "Verif.Tool.C96_unsigned",
    "Verif.Tool.Sample.C96_witness"
   ],
   "note": "false of the code: an I/O error in the question whether the keys exist counts as 'no keys', and all boot entries are replaced by unsigned ones (witness); proved: signed if unsigned binaries are not allowed or one of the questions is answered with yes, nothing signed otherwise"
  },
  {
   "property": "C97",
   "status": "partial",
   "theorems": [
    "Verif.Tool.C97_entries_partial",
    "Verif.Tool.C97_default_partial",
    "Verif.Tool.Sample.C97_witness"
   ],
   "note": "false of the code: garbage collection removes kernels before the boot entries that need them, so that the entry of a deleted generation, which can be the default entry, does not boot after an interruption (witness); proved: this is so only for entries that were there before and that the complete run removes"
  },
  {
   "property": "C98",
   "status": "proved",
   "theorems": [
    "Verif.Tool.C98_entries_measured",
    "Verif.Tool.C98_at_any_moment",
    "Verif.Tool.Sample.C98_begun_later"
   ],
   "note": "invariant over histories; the operating system does not fail within the runs; generation numbers are not used again for other systems. The starting condition is needed: if measurements begin together with an update, the remaining entry of a generation can have the measurement of another image (witness)"
  },
  {
   "property": "C99",
   "status": "proved",
   "theorems": [
    "Verif.Tool.C99_bounded",
    "Verif.Tool.C99_generations",
    "Verif.Tool.C99_over_time"
   ],
   "note": "counted from the exact result of garbage collection (C54) and one entry per generation (C55); over time with measurements from the start (C98); without measured boot C99_bounded and C39"
  },
  {
   "property": "C100",
   "status": "proved",
   "theorems": [
    "Verif.Tool.C100_entry_left_alone",
    "Verif.Tool.C100_assessment_survives",
    "Verif.Tool.C100_no_new_tries",
    "Verif.Tool.C100_begins"
   ],
   "note": "the operating system does not fail in the updates, and with measured boot the entry has a measurement; otherwise the generation gets a second entry with new tries (C98_begun_later, C96)"
  },
  {
   "property": "C101",
   "status": "proved",
   "theorems": [
    "Verif.Menu.C101_default",
    "Verif.Menu.C101_over_time",
    "Verif.Tool.C101_made_for"
   ],
   "note": "the sort keys of the generations are the same; other systems on the partition have greater ones or none; the order of systemd-boot is that of Spec/SystemdBoot"
  },
  {
   "property": "C102",
   "status": "proved",
   "theorems": [
    "Verif.Tool.C102_listing_order",
    "Verif.Tool.C102_same_until_collection",
    "Verif.Tool.C102_again",
    "Verif.Tool.Sample.C102_two_entries"
   ],
   "note": "no operation fails and listings are complete; Sample.C102_two_entries shows that the hypothesis about two entries is needed"
  },
  {
   "property": "C103",
   "status": "proved",
   "theorems": [
    "Verif.Stub.C103_memory",
    "Verif.Stub.C103_left_behind"
   ],
   "note": "heap and stack of the stub itself are not modelled; a panic ends the boot and is not a return"
  },
  {
   "property": "C104",
   "status": "proved",
   "theorems": [
    "Verif.Tool.C104_exactly",
    "Verif.Tool.C104_past",
    "Verif.Tool.C104_histories",
    "Verif.Tool.C104_over_time",
    "Verif.Tool.Sample.C104_two_ways"
   ],
   "note": "same contents up to collisions of SHA-256; the two boot loader binaries depend on the past by design (no downgrade, C42); with measured boot the sequences are those of C98"
  },
  {
   "property": "C105",
   "status": "proved",
   "theorems": [
    "Verif.Tool.C105_new_entry",
    "Verif.Tool.C105_new_secrets",
    "Verif.Tool.C105_kept_meanwhile",
    "Verif.Tool.C105_kept",
    "Verif.Tool.C105_not_refreshed",
    "Verif.Tool.Sample.C105_stale_secrets"
   ],
   "note": "up to collisions of SHA-256"
  },
  {
   "property": "C106",
   "status": "partial",
   "theorems": [
    "Verif.Tool.C106_without_specialisations_partial",
    "Verif.Tool.C106_as_many",
    "Verif.Tool.Sample.C106_too_many"
   ],
   "note": "false of the code: specialisations are measured like generations but the limit does not count them (witness: limit 1, two measurements); holds if the considered generations have no specialisations; as many as considered generations and specialisations in general"
  },
  {
   "property": "C107",
   "status": "partial",
   "theorems": [
    "Verif.Tool.C107_status_partial",
    "Verif.Tool.C107_status_measured",
    "Verif.Tool.C107_goes_on",
    "Verif.Tool.Sample.C107_failure_unnoticed"
   ],
   "note": "the first half is false of the code: the hook has no set -e, its exit status is that of the last partition, or of systemd-pcrlock with measured boot (witness: full first partition, status 0); the second half is proved in full"
  },
  {
   "property": "C108",
   "status": "partial",
   "theorems": [
    "Verif.Tool.C108_after_service_partial",
    "Verif.Tool.C108_repaired",
    "Verif.Tool.Sample.C108_locked_out"
   ],
   "note": "false of the code: the files for the enrolment are written before anything is signed, so an interruption between them leads to an enrolment with unsigned boot loaders (witness); holds once the service has ended without I/O errors, after any history; after an interruption at any moment, a successful run of the installer before the restart repairs the installation"
  },
  {
   "property": "C109",
   "status": "proved",
   "theorems": [
    "Verif.Tool.C109_unchanged",
    "Verif.Tool.C109_still_boots",
    "Verif.Tool.C109_power_failure",
    "Verif.Tool.C109_success"
   ],
   "note": "if garbage collection has started all considered generations are installed: C37"
  },
  {
   "property": "C110",
   "status": "partial",
   "theorems": [
    "Verif.Tool.C110_written",
    "Verif.Tool.C110_new_generations_partial",
    "Verif.Tool.C110_not_updated",
    "Verif.Tool.Sample.C110_old_stub"
   ],
   "note": "false of the code: generations that are installed keep the stub they were installed with; a run that is given another stub changes no file (proved in general, and with a witness). Proved: what a run writes has the stub it is given, and so have after success all generations that had no boot entry for the key in use"
  },
  {
   "property": "C111",
   "status": "partial",
   "theorems": [
    "Verif.Tool.C111_covered_partial",
    "Verif.Tool.C111_unlocks_partial",
    "Verif.Tool.C111_enrolled_iff",
    "Verif.Tool.Sample.C111_unmeasured"
   ],
   "note": "false of the code: the service looks at the status of systemd-pcrlock make-policy only, so it enrols a policy without the generations after an installation that failed (witness). Proved: exactly when a policy is enrolled, that it covers all considered generations if the installation on the last partition worked, and with one partition that each of them then has a boot entry whose very measurement is in the policy"
  },
  {
   "property": "C112",
   "status": "partial",
   "theorems": [
    "Verif.Tool.C112_lost_partial",
    "Verif.Tool.C112_restored_partial",
    "Verif.Tool.C112_own_files_partial",
    "Verif.Tool.C112_damage_stays",
    "Verif.Tool.Sample.C112_damage_unnoticed"
   ],
   "note": "false of the code for damaged kernels and initrds: only their existence is checked, so further runs succeed without a change and the generation cannot be booted (proved in general, and with a witness). Proved: a generation can be booted after the run whatever else is damaged if the kernels and initrds of its own boot entries, if it has any, are intact or missing; whatever has disappeared is restored, the run succeeds if nothing else stands in the way, and a boot loader without a valid signature is replaced"
  },
  {
   "property": "C113",
   "status": "partial",
   "theorems": [
    "Verif.Tool.C113_newest_partial",
    "Verif.Tool.C113_new_partial",
    "Verif.Tool.C113_choice_ignored",
    "Verif.Tool.C113_removed",
    "Verif.Tool.Sample.InMenu.C113_not_switched"
   ],
   "note": "false of the code: the hook ignores which system it is called for, so the newest generation boots whichever one is the current (general theorem and witness), and with a limit the entry of the current generation can even be removed (general theorem). Proved: the current generation is what boots if it is the newest and has tries left, in particular if the run has installed it for the first time"
  }
 ]
}