#!/usr/bin/env python3
"""Writes /verif/properties.jsonl. Kept as a script so that the wording stays reviewable."""
import json, os
P = []
def p(title, statement, quantifier, why, anchors):
    P.append(dict(id=f"C{len(P)+1:02d}", title=title, statement=statement,
                  quantifier=quantifier, why_tests_cant=why, anchors=anchors))
W='rust/uefi/pio/src/writer.rs'
LB='rust/uefi/linux-bootloader/src/'
ST='rust/uefi/stub/src/'
SH='rust/tool/shared/src/'
SY='rust/tool/systemd/src/'

p("CPIO round trip",
  "Whatever is packed into an archive with the public Cpio operations can be read back by any newc reader: after any sequence of successful pack_prefix / pack_dir / pack_one calls, a newc reader started at offset 0 finds exactly the packed entries, in order, with the exact names, modes, sizes and file contents, and nothing else.",
  "every sequence of packing operations, every name, mode and content",
  "The tests read back one or two short entries; padding and hex fields depend on every length modulo 4 and every 32-bit value.",
  [W+": Cpio::pack_one, pack_dir, pack_prefix, pack_trailer, write_cpio_header, write_cpio_contents"])
p("CPIO alignment",
  "After any sequence of packing operations the archive length is a multiple of 4, and every header and every file body starts at an offset divisible by 4, so archives can be concatenated.",
  "every sequence of packing operations",
  "One test checks one length; alignment depends on all name and content lengths.",
  [W+": compute_pad4, write_cpio_header, write_cpio_contents"])
p("CPIO inode numbers",
  "The inode numbers in an archive are 1,2,3,... in packing order, hence pairwise distinct; the counter never wraps: once 2^32-1 inodes are used every further packing call fails and changes nothing, with MaximumInodesReached or, for contents of more than 2^32-1 bytes, with TooLargeFileSize.",
  "every sequence of packing operations, including ones longer than 2^32",
  "Nobody runs 2^32 packing calls in a test.",
  [W+": Cpio::pack_one, pack_dir, inode_counter"])
p("CPIO failed pack has no effect, size is exact",
  "If pack_one or pack_dir returns an error the archive bytes and the inode counter are exactly what they were; if pack_one succeeds the returned size is exactly the number of bytes appended, and earlier bytes are untouched.",
  "every archive state and every argument",
  "Error paths need multi-gigabyte inputs.",
  [W+": Cpio::pack_one, pack_dir"])
p("CPIO size limits",
  "pack_one reports contents larger than 2^32-1 bytes, or names that do not fit the 32-bit size field, as an error and never crashes the boot stub with a panic.",
  "every name, prefix and content length",
  "The boundary is at 4 GiB.",
  [W+": Cpio::pack_one (lines 186-236), write_cpio_header (lines 81-85)"])
p("Companion archives do not depend on discovery order",
  "The archive built from a set of companion files is byte-for-byte the same whatever order the firmware lists the files in, so TPM measurements of it are stable.",
  "every file set and every listing order",
  "Firmware listing order cannot be enumerated by tests.",
  [LB+"cpio.rs: pack_cpio", LB+"companions.rs: discover_credentials, discover_system_extensions"])
p("No file can end a companion archive early",
  "In an archive made of a non-empty directory prefix and files packed under that prefix, the end-of-archive marker name TRAILER!!! occurs exactly once and last, so no file name can hide the files after it.",
  "every file name and content",
  "File names come from the unauthenticated ESP.",
  [LB+"cpio.rs: pack_cpio", W+": pack_trailer"])
p("Only verified kernels and initrds are started",
  "The stub hands control to a kernel only if SHA-256 of the kernel bytes equals the hash embedded in the stub and SHA-256 of the initrd read from disk equals the embedded hash; this is independent of the Secure Boot state, and the bytes that are executed and served are the very bytes that were hashed.",
  "every ESP content, also one that changes between any two accesses, stub content, firmware variable state and TPM behaviour",
  "Tests corrupt one byte of one file; the claim is about every corruption and every environment.",
  [ST+"thin.rs: UkiComponents::load_from_pe, check_hash, boot_linux", ST+"common.rs: boot_linux_unchecked"])
p("Secure Boot pins the command line",
  "If Secure Boot is active, or its state cannot be determined, the kernel is started with exactly the command line embedded in the signed stub, whatever load options the boot loader passes.",
  "every load options value and every result of reading the SecureBoot variable",
  "Load options are attacker controlled and unbounded.",
  [ST+"common.rs: get_cmdline, get_secure_boot_status"])
p("Custom command lines are measured",
  "If the kernel is started with a command line different from the embedded one, then Secure Boot was off and, when a TPM is usable, exactly that command line was extended into PCR 4 before the kernel was started.",
  "every environment and TPM failure pattern",
  "Needs quantification over TPM failures.",
  [ST+"common.rs: get_cmdline", LB+"measure.rs: measure_boot_loader", LB+"tpm.rs: tpm_log_event_ascii"])
p("Secure Boot detection fails closed",
  "Secure Boot is considered inactive only if the firmware reports the SecureBoot variable as the single byte 0 or as not existing; every other value, size or error counts as active.",
  "every variable content and every firmware status",
  "The set of firmware errors and values is not enumerable in tests.",
  [ST+"common.rs: get_secure_boot_status"])
p("Initrd handed to Linux",
  "The initrd served to the kernel is the verified initrd followed by the companion archives in order, each padded with zero bytes to a multiple of 4; nothing else is inserted and every part starts 4-byte aligned.",
  "every initrd and every list of companion archives",
  "Depends on all lengths modulo 4 and all list lengths.",
  [ST+"thin.rs: boot_linux"])
p("Companions are measured before use",
  "When a TPM is available every companion archive appended to the initrd has been submitted for measurement before the kernel starts: credentials to PCR 12, system extensions to PCR 13, in the order in which they are appended.",
  "every set of companions and every TPM failure pattern",
  "Requires all combinations of companion types and failures.",
  [LB+"measure.rs: measure_companion_initrds", ST+"main.rs: main"])
p("PCR 11 sequence is canonical",
  "The sequence of events extended into PCR 11 for an image is: for each measured section present, in the canonical UKI order, the NUL-terminated section name and then the contents, with .linux and .initrd replaced by the loaded kernel and initrd. A section name occurring several times is measured once per occurrence, each time with the contents of the first section of that name. The sequence does not depend on the order of differently named sections in the stub.",
  "every section table and every permutation of it",
  "There are factorially many section orders.",
  [LB+"measure.rs: measure_image", LB+"unified_sections.rs: UnifiedSection"])
p("Unmeasurable sections never reach PCR 11",
  "Sections .pcrsig, .dtbauto and any section whose name is not a UKI section name (such as .linuxh) never produce an event; the UKI section name table is a bijection between names and section kinds.",
  "every section name",
  "Unbounded set of names.",
  [LB+"unified_sections.rs: try_from, should_be_measured, name", LB+"measure.rs: measure_image"])
p("PE loading is memory safe",
  "Loading a kernel image never reads or writes outside the kernel file and the allocated image memory and never panics, whatever the section table says; on success the entry point lies inside the image memory.",
  "every section table, file and 32-bit field value",
  "Section tables are attacker controlled when Secure Boot is off; 2^160 per section.",
  [LB+"pe_loader.rs: Image::load"])
p("PE loading places sections correctly",
  "After a successful load of an image, every byte of image memory is the byte of the last section covering it, and zero where no section places data.",
  "every section table and file",
  "Overlaps, truncations and zero fill combine without bound.",
  [LB+"pe_loader.rs: Image::load"])
p("Page arithmetic",
  "The number of pages allocated for an image is the least number of 4 KiB pages that covers it, for every length including those where rounding up would overflow, and the same number of pages is freed when the kernel returns.",
  "every 64-bit length",
  "2^64 lengths.",
  [LB+"pe_loader.rs: bytes_to_pages, Image::load, Image::start"])
p("LoadFile2 initrd protocol",
  "A caller that first asks for the size and then supplies a buffer of that size gets exactly the initrd; a buffer that is absent or too small is never written and the required size is reported.",
  "every initrd and every sequence of calls with arbitrary buffers",
  "Call sequences are unbounded.",
  [LB+"linux_loader.rs: LoadFile2Protocol::load_file"])
p("Stub state is restored after the kernel returns",
  "If the kernel returns, the image memory is freed, the loaded-image record holds its original image and load options again, and the initrd protocols are uninstalled, or the stub panics because freeing or uninstalling failed; if the protocols cannot be installed or the kernel fails the failure status is returned.",
  "every kernel outcome and firmware failure pattern",
  "Firmware failures at each call are not reproducible in tests.",
  [LB+"linux_loader.rs: InitrdLoader", LB+"pe_loader.rs: Image::start", ST+"common.rs: boot_linux_unchecked"])
p("Boot loader variables are not overwritten",
  "Exporting EFI variables never changes a LoaderDevicePartUUID, LoaderImageIdentifier, LoaderFirmwareInfo or LoaderFirmwareType variable that the boot loader already set, sets missing ones when the value can be computed, and always attempts StubInfo and StubFeatures; no other variable changes.",
  "every initial variable store and every firmware failure pattern",
  "The variable store and failures are arbitrary.",
  [LB+"efivars.rs: ensure_efi_variable, variable_exists, export_efi_variables"])
p("Firmware revision string",
  "LoaderFirmwareInfo reports the firmware revision as <upper 16 bits>.<lower 16 bits>.",
  "every 32-bit firmware revision",
  "2^32 revisions.",
  [LB+"efivars.rs: export_efi_variables lines 213-229"])
p("PCR variables are truthful",
  "StubPcrKernelImage is set only if at least one PCR 11 measurement succeeded, StubPcrKernelParameters only if a credentials archive was measured, StubPcrInitRDSysExts only if a system extension archive was measured; each value names the right PCR.",
  "every section table, companion list and TPM failure pattern",
  "Quantifies over failure patterns.",
  [LB+"measure.rs: measure_image, measure_companion_initrds"])
p("Configuration limit keeps the newest generations",
  "With a configuration limit n > 0 exactly the min(n, number of links) newest generations are considered, processed oldest first; limit 0 considers all of them; the order in which links are passed is irrelevant to which versions are considered.",
  "every list of generation links and every limit",
  "Unbounded lists.",
  [SY+"install.rs: Installer::install lines 112-133"])
p("Generation link names",
  "A link called <profile>-<n>-link with a dash-free profile name yields generation number n for every 64-bit n; a link whose second dash-separated field is not a 64-bit number makes the whole installation fail before anything is written.",
  "every link name",
  "2^64 versions and arbitrary names.",
  [SH+"generation.rs: parse_version, GenerationLink::from_path", SY+"install.rs: install"])
p("Stub file names identify generations",
  "Two generations get the same stub file name only if they have the same version, specialisation, toplevel and signing key, barring a SHA-256 collision; hence installing one generation never overwrites the boot entry of another.",
  "every pair of generations and keys",
  "Injectivity cannot be sampled.",
  [SY+"install.rs: stub_prefix, stub_name"])
p("Stub lookup is exact across boot counting",
  "A boot entry keeps being recognised as the generation it was installed for after any sequence of boot attempts and assessments renames it (+left, +left-done, blessed), and is never recognised as any other generation, barring a SHA-256 collision.",
  "every generation, initial tries value and rename history",
  "Histories are unbounded.",
  [SY+"install.rs: register_installed_generation, stub_name"])
p("Content addressed files are never overwritten with different content",
  "Installing a kernel or initrd never replaces a correct content-addressed file on the ESP by different bytes, barring a SHA-256 collision, and leaves on success a file whose content hashes to the hash in its name.",
  "every ESP state and source file",
  "Quantifies over all ESP contents.",
  [SY+"install.rs: install_nixos_ca, install, force_install, atomic_copy"])
p("Garbage collection keeps everything in use",
  "Garbage collection never deletes a path that is a root and all of whose parent directories below the collected directory are roots, at any point of the collection.",
  "every root set, directory tree, visiting order and interruption point",
  "Arbitrary trees and crash points.",
  [SH+"gc.rs: Roots::collect_garbage_with_filter"])
p("Garbage collection deletes exactly the unused entries",
  "A completed garbage collection of a directory removes exactly the entries that are unused and pass the filter, together with everything below them; the result does not depend on the traversal order and a second collection changes nothing. A file that cannot be removed does not stop it: without directories to remove it never fails, and one failed operation leaves at most one file behind.",
  "every root set, filter, directory tree and traversal order",
  "Arbitrary trees and orders.",
  [SH+"gc.rs: Roots::collect_garbage_with_filter"])
p("Foreign files on the ESP are left alone",
  "A run of the installer, whether it succeeds, fails or is interrupted, never creates, changes or deletes any file outside the entries it owns: EFI/nixos, nixos- prefixed entries of EFI/Linux, the two systemd-boot binaries, loader.conf, their temporary files, and the pcrlock files.",
  "every ESP content, input, fault pattern and interruption point",
  "Tests check four foreign files on success only.",
  [SY+"install.rs: Installer::install", SH+"gc.rs"])
p("A malformed generation disables garbage collection",
  "If any considered generation cannot be read, the run deletes nothing: every file present before the run is still present afterwards (temporary files excepted).",
  "every set of generations and every ESP",
  "Arbitrary inputs.",
  [SY+"install.rs: install lines 138-170, install_generations_from_links"])
p("No bootable generation aborts without effect",
  "If no considered generation can be read, or some link name is invalid, the run fails and the ESP is exactly as before.",
  "every input without readable generation",
  "Arbitrary inputs.",
  [SY+"install.rs: install_generations_from_links lines 199-204"])
p("Failed or interrupted runs delete nothing",
  "If the run fails or is killed before garbage collection starts, every file that existed before the run still exists, and only files that are installation targets can have a different content.",
  "every fault pattern and interruption point",
  "Crash points cannot be enumerated by tests.",
  [SY+"install.rs: install, install_generation, install_systemd_boot"])
p("Installed files are replaced atomically",
  "If the installer is killed at any point, each installed path (kernel, initrd, stub, boot loader, loader.conf) holds either its complete old content (or absence) or its complete new content.",
  "every interruption point, I/O failure and partial write",
  "Crash points and partial writes are unbounded.",
  [SY+"install.rs: install_signed, atomic_copy"])
p("Power loss never leaves a torn kernel, initrd or loader.conf",
  "With a file system that may lose any data and any change not yet synced, in any order, after power loss at any point every installed kernel, initrd and loader.conf holds its complete old or complete new content.",
  "every power-loss point and every choice of lost data and lost changes",
  "Needs adversarial storage.",
  [SY+"install.rs: atomic_copy, install_generations_from_links lines 218-222"])
p("Every boot entry is bootable at every interruption point",
  "Starting from a consistent ESP, at every point at which the run is killed before garbage collection every NixOS boot entry refers to a kernel and an initrd that are present and match the hashes embedded in the entry; at every point during garbage collection every considered generation and specialisation has an entry of which this holds and which is for exactly that generation.",
  "every input, fault pattern and interruption point",
  "Ordering bugs show only at specific crash points.",
  [SY+"install.rs: install_generation, install"])
p("After success all considered generations boot",
  "After a successful run from a consistent ESP, every considered generation and each of its specialisations (whose name is a file name, without a slash) has a boot entry from which the stub starts exactly that generation's kernel, its initrd and its command line.",
  "every set of generations, ESP state and signer",
  "Arbitrary inputs and previous states.",
  [SY+"install.rs: install", ST+"thin.rs"])
p("Consistency survives any history",
  "Starting from an empty ESP, after any history of installer runs (successful, failed or killed) with changing configurations, of power failures later than a run's sync of the ESP, of boot-count renames and of other changes to the rest of the disk, content-addressed files hash to their names; a generation that a successful run has installed stays bootable at every later moment as long as the later runs consider it; and after a successful run that collected garbage every NixOS entry is bootable.",
  "every history",
  "Histories are unbounded.",
  [SY+"install.rs"])
p("Reinstalling is idempotent",
  "After a successful run, running the installer again with unchanged inputs, any number of times and also after boots have renamed boot entries for boot counting, succeeds and performs no write, rename or deletion; provided the generations are distinct, entries that were there already had their measurements, the available boot loader states a version that can be read, and the I/O works.",
  "every configuration, every ESP state before the first run, every sequence of further runs and boot counting renames",
  "Tests compare mtimes of two files once.",
  [SY+"install.rs: register_installed_generation, install_systemd_boot, install"])
p("Tool and stub agree",
  "The stub image built by the installer, once loaded by firmware, yields in the stub exactly the kernel path, initrd path, hashes and command line the installer put in, and the hash check succeeds on the files the installer placed on the ESP, for all paths and command lines that can be represented as firmware strings.",
  "every bootspec and stub binary",
  "Two programs built for different targets; never tested together in unit tests.",
  [SH+"pe.rs: lanzaboote_image, StubParameters", ST+"thin.rs: extract_string, extract_hash, load_from_pe", LB+"uefi_helpers.rs"])
p("systemd-boot is never downgraded",
  "The installed systemd-boot binaries are replaced only if one of them is missing, unreadable, older than the available one, not validly signed, or (with measured boot) unmeasured; a validly signed, measured pair that is at least as new is left untouched, and after a successful run both are signed and not older than the available one. The two binaries are judged and replaced together, and a binary that cannot be read because of an I/O error counts as unreadable.",
  "every pair of installed binaries and every version",
  "All version pairs and failure combinations.",
  [SY+"install.rs: newer_systemd_boot, install_systemd_boot"])
p("systemd version order",
  "Version comparison is a total order in which release candidates precede their release, releases precede their stable updates, and a higher major version always wins.",
  "every triple of versions",
  "Order laws quantify over triples.",
  [SY+"version.rs: SystemdVersion"])
p("systemd version parsing",
  "Every version string of the forms N, N.M and N-rcK with 32-bit numbers parses to the intended version, and distinct canonical strings parse to distinct versions; malformed strings are rejected without panic.",
  "every version string",
  "Unbounded strings.",
  [SY+"version.rs: from_str"])
p("os-release round trip",
  "Parsing the os-release text that the tool writes gives back the key-value pairs that were written.",
  "every os-release map",
  "Arbitrary values including quotes, backslashes and newlines.",
  [SH+"os_release.rs: Display, FromStr"])
p("os-release parser ignores comments and blank lines, last assignment wins",
  "The parser accepts every text, comment lines and blank lines do not influence the result, of several assignments to one key the last one counts, and the last line counts whether or not the text ends in a line break.",
  "every text",
  "Unbounded texts.",
  [SH+"os_release.rs: FromStr"])
p("Boot menu titles are unique",
  "Distinct generations or specialisations get distinct titles (PRETTY_NAME), version descriptions and measurement file names.",
  "every pair of generations",
  "Injectivity cannot be sampled.",
  [SH+"generation.rs: describe, version_tag", SH+"os_release.rs: from_generation", SY+"pcrlock.rs"])
p("EFI path conversion",
  "Converting a path below the ESP to the UEFI path stored in the stub and resolving it again gives the original path, for every path below the ESP.",
  "every ESP mount point and path",
  "Unbounded paths.",
  [SH+"pe.rs: esp_relative_uefi_path, uefi_path", SY+"install.rs: resolve_efi_path"])
p("Everything executable that is installed is signed",
  "Every boot entry and boot loader binary that a run writes to the ESP is the signer's output for that binary; unsigned artifacts are installed only if explicitly allowed and neither key file exists.",
  "every input, fault pattern and interruption point",
  "Tests check a few files on success.",
  [SY+"install.rs: install_signed", SY+"cli.rs: install"])
p("Boot loader measurements stay available during updates",
  "With measured boot, at every point of a run that starts with the current measurement covering the installed boot loader binaries, the measurement of each boot loader binary present on the ESP, old or new, is in the current or next measurement file.",
  "every interruption point of an update",
  "Crash points.",
  [SY+"install.rs: install_systemd_boot lines 469-504"])
p("Every considered generation is measured",
  "With measured boot, after a successful run each considered generation and specialisation has its measurement file, written for exactly the image that was installed if the entry was installed by this run (and no other considered generation has the same version tag), and garbage collection does not delete it.",
  "every input",
  "Arbitrary inputs.",
  [SY+"install.rs: install_generation, register_installed_generation", SY+"pcrlock.rs"])
p("Stub image layout",
  "The sections added to the stub are laid out contiguously behind the stub's last section, without overlapping each other or it, in the order given, as long as the stub's last section and the added contents end within the 64 bit address space.",
  "every stub and every section content",
  "Arbitrary sizes.",
  [SH+"pe.rs: lanzaboote_image, stub_offset"])
p("PE section reading",
  "Reading a section of a PE file returns exactly the bytes of the first section with that name, as many as its virtual size; the in-memory reader returns exactly virtual-size bytes, zero padded.",
  "every section table",
  "Arbitrary tables.",
  [SH+"pe.rs: read_section_data", LB+"uefi_helpers.rs: read_data_from_section_table"])
p("Leftovers of interrupted runs are cleaned up",
  "A successful run removes temporary files and boot entries, kernels and initrds left by earlier interrupted runs from EFI/nixos and from the nixos- entries of EFI/Linux, and measurements of generations that are gone: what is left there belongs to an entry of a considered generation. (The considered generations are assumed to be distinguishable and, with measured boot, installed generations to be measured.)",
  "every interruption point of earlier runs",
  "Crash points.",
  [SY+"install.rs", SH+"gc.rs"])
p("At most one boot entry per generation",
  "After a successful run with garbage collection the nixos- entries in EFI/Linux are exactly one per considered generation or specialisation (with measured boot: provided the generations that were already installed have their measurements).",
  "every ESP state and input",
  "Arbitrary previous states.",
  [SY+"install.rs: register_installed_generation, stub_name"])
p("loader.conf is up to date",
  "After a successful run loader.conf on the ESP has exactly the content of the configured file (barring a SHA-256 collision).",
  "every ESP state",
  "Arbitrary previous states.",
  [SY+"install.rs: install_systemd_boot lines 507-516"])
p("Instruction cache maintenance covers the image",
  "On aarch64 the range given to the cache maintenance instructions before the kernel is entered is made of whole 16 byte lines, contains every byte of the loaded image and reaches less than one line beyond it at either end.",
  "every image address and length that fits the address space",
  "64 bit masking arithmetic over all addresses and lengths; not executable in tests on x86.",
  ["rust/uefi/linux-bootloader/src/pe_loader.rs: make_instruction_cache_coherent"])

p("Companion files are exactly the documented ones",
  "The archives appended to the initrd contain exactly the regular files with ASCII names (without backslash) ending in .cred in loader/credentials, ending in .cred and ending in .raw in the directory <image>.extra, with their full contents, in ascending order of names, placed below .extra/global_credentials, .extra/credentials (directory mode 0500, file mode 0400) and .extra/sysext (0555, 0444), in this order; if listing or reading fails or the volume changes meanwhile archives may be missing or be those of another time, but nothing else is ever handed over.",
  "every volume content and listing order, every image path, every kernel start",
  "Arbitrary directory contents and names; needs firmware.",
  [LB+"companions.rs: find_files, get_default_dropin_directory, discover_credentials, discover_system_extensions", LB+"cpio.rs: pack_cpio", "rust/uefi/stub/src/main.rs: main lines 84-145"])
p("Optional failures do not stop the boot",
  "If the stub image is intact, names a kernel and initrd that match its hashes and can be loaded, memory and the image protocols are available and companion directories are readable, then the kernel is started, whatever the TPM, the variable store, the device path protocol and the event log do, at whatever time they fail.",
  "every firmware behaviour over time",
  "Failures at arbitrary times cannot be enumerated.",
  ["rust/uefi/stub/src/main.rs: main", "rust/uefi/stub/src/thin.rs: boot_linux", "rust/uefi/stub/src/common.rs: boot_linux_unchecked"])
p("Boot loader features",
  "The boot loader's feature set is the little-endian 64 bit number in LoaderFeatures, if it has exactly eight bytes and only known bits; other sizes and unknown bits are reported as errors, an unreadable variable as no features; reading it changes nothing.",
  "every variable content and firmware answer",
  "All bit patterns and sizes.",
  [LB+"efivars.rs: get_loader_features"])

p("What is installed is what the links and bootspecs say",
  "The installer installs exactly: for each of the newest links on the command line (as many as the configuration limit, all if it is 0), the generation numbered by the link with the kernel, initrd, command line and date given by the link and its bootspec, and each specialisation listed there with its own kernel, initrd and command line under its own name. If some link has no number nothing is installed.",
  "every command line, configuration limit and set of bootspecs",
  "Arbitrary sets of links, limits and specialisations.",
  ["rust/tool/shared/src/generation.rs: Generation::from_link, parse_boot_json, parse_specialisations, GenerationLink::from_path, parse_version", SY+"install.rs: Installer::install"])
p("Boot menu texts",
  "The os-release text embedded in a boot entry, read back by an os-release parser, says: ID is the sort key of the bootspec or lanzaboote, VERSION_ID is 'Generation <number>[-<specialisation>], <date or Unknown>', PRETTY_NAME is '<label> (<VERSION_ID>)'; for all labels, names and sort keys that fit on a line and contain no backslash.",
  "every generation with ordinary texts",
  "All numbers, dates and texts.",
  ["rust/tool/shared/src/os_release.rs: OsRelease::from_generation, Display", "rust/tool/shared/src/generation.rs: describe"])

p("Temporary files do not interfere, are private and are removed",
  "Passing contents to and from objcopy, the secrets script, sbsign and systemd-pcrlock through named files in a temporary directory gives the same result and the same effects on the ESP as passing the contents themselves: every section of the image gets the content and address intended for it, and no file is overwritten by another one. Every temporary file written by the installer is created with mode 0600, and none is left when the installer returns, fails or panics.",
  "every configuration, every set of generations, every failure, every sequence of distinct random names, every temporary directory that does not contain the inputs",
  "Ranges over all names and the complete sequence of file operations of a run; tests look at one file.",
  [SH+"utils.rs: write_secure_file, create_secure_file, tmpname", SH+"pe.rs: lanzaboote_image, wrap_in_pe, Section::to_objcopy, append_initrd_secrets", SY+"install.rs: install_generation"])

p("The installer succeeds when nothing stands in its way, whatever happened before",
  "If all sources are readable and well-formed, the programs it runs succeed, no file operation fails, there is room on the file systems (no directory where a file goes, no file where a directory goes) and the boot entries and boot loaders it looks at are not damaged, then a run succeeds, whatever generations, kernels and leftovers are there already; afterwards all generations boot. Earlier runs, with other generations, keys, tools and settings, that succeeded, failed, panicked or were killed at any moment, never leave the disk in a state in which this is no longer so.",
  "every disk content with these properties, every configuration, every finite sequence of earlier runs and interruption points",
  "Every combination of leftovers of interrupted runs; tests try a few states.",
  [SY+"install.rs: Installer::install, install_generation, install_systemd_boot, register_installed_generation, collect_garbage", SH+"pe.rs: read_section_data", SY+"version.rs: from_systemd_boot_binary"])

p("The stub's effect on the variable store is confined and does not outlive the boot",
  "Until the kernel gets control, the stub sets no EFI variable other than nine documented variables of the boot loader interface (LoaderDevicePartUUID, LoaderImageIdentifier, LoaderFirmwareInfo, LoaderFirmwareType, StubInfo, StubFeatures, StubPcrKernelImage, StubPcrKernelParameters, StubPcrInitRDSysExts), always volatile and readable by the operating system, so that nothing it writes survives a reset; every other variable, in particular every variable of another vendor such as the Secure Boot keys and the boot order, has its old value when the kernel gets control or the stub returns.",
  "every firmware behaviour, every initial variable store, every kernel start and every failure",
  "Absence of writes on all paths, including all failures at all times; needs firmware.",
  [LB+"efivars.rs: export_efi_variables, ensure_efi_variable", LB+"measure.rs: measure_image, measure_companion_initrds", "rust/uefi/stub/src/main.rs: main"])

p("Installed files stay apart on a file system that ignores case",
  "The ESP is a FAT file system, for which names that differ in their case only are the same. Two files a run writes to the ESP that are in the same place in this sense are the same file, or have the same content, or are boot entries of the same version of the same system under specialisation names that differ in their case only, or there is a SHA-256 collision.",
  "every configuration, every set of generations, every interruption point, every case folding that identifies just the two cases of ASCII letters and anything outside ASCII",
  "All names and all foldings; tests run on case-sensitive file systems.",
  [SY+"install.rs: stub_name, stub_prefix, install_nixos_ca", SY+"esp.rs: SystemdEspPaths::new"])

p("The installer does not panic",
  "The installer ends with success or an error message, not with a panic, whatever reads, writes and programs fail and whatever is missing, unless something malformed is put before it: a generation with neither an initrd nor a script for initrd secrets, a stub without sections or optional header, a boot loader to install or a boot loader or boot entry on the ESP whose section table is damaged, or, on the command line, a missing key argument.",
  "every environment, every pattern of faults, every configuration, every file system",
  "All faults at all moments in all states of the disk.",
  [SY+"install.rs: install, install_generation, register_installed_generation, resolve_efi_path", SY+"version.rs: from_systemd_boot_binary", SH+"pe.rs: read_section_data, stub_offset, image_base", SY+"cli.rs: install"])

p("The PCR values identify what was booted",
  "On a machine whose TPM carries out measurements, when the kernel gets control PCR 11 has the value one predicts by extending its old value with names and contents of the measured sections, kernel and initrd in the order of the UKI specification, PCR 12 and PCR 13 have the values predicted from the credential and system extension archives appended to the initrd, PCR 4 is extended exactly when the command line is not the embedded one, with this command line, and no other PCR changes. Conversely, two boots that end with the same PCR 11 had the same kernel, initrd, embedded command line and other measured sections, and two boots that end with the same PCRs 4, 11, 12 and 13 started the same bytes with the same command line and the same initrd; or a collision (or cycle) of the bank's hash can be read off the two sequences of measurements. So a secret sealed to these PCRs is released to this system only.",
  "every pair of machines, stub images, volumes, companion files and firmware behaviours with a working TPM, every initial PCR value, every hash",
  "Injectivity over all pairs of boots; tests compare a few values.",
  [LB+"measure.rs: measure_image, measure_companion_initrds", LB+"tpm.rs: tpm_log_event_ascii", "rust/uefi/stub/src/main.rs: main", "rust/uefi/stub/src/common.rs: get_cmdline, boot_linux_unchecked"])

p("A generation is read from its bootspec document, and what the document describes is exactly what is installed",
  "For a generation link the document is the file boot.json in the linked system if it can be read and parsed, and otherwise one synthesised from the system's files. A generation is readable exactly if there is such a document of a known schema version; malformed lanzaboote extensions or odd specialisations never make it unreadable. The generations installed for it are exactly the system itself and the document's direct specialisations, each with its own label, kernel, parameters, init, initrd, secrets and toplevel, with number and date of the link, and with the sort key its own extension gives, in either of the two forms serde accepts, or lanzaboote if its extension is absent or malformed; specialisations of specialisations are never installed.",
  "all documents with any nesting of specialisations and any JSON values as extensions, all outcomes of reading, parsing and synthesising, all links and configurations",
  "tests parse one or two fixture documents without extensions or nested specialisations; the fallback, per-specialisation extensions and malformed values are combinations no fixture covers",
  [SH+"generation.rs: Generation::from_link, parse_boot_json, parse_specialisation, parse_specialisations, LanzabooteExtension", SY+"install.rs: Installer::install_generations_from_links"])

p("Against an attacker who can write to the ESP: only installed generations boot, with nothing added but files in /.extra",
  "The installer has only two kinds of images signed: stubs made for a generation that is considered in that run, and the boot loader; a signing program that refuses everything else, or every other key, makes no difference to any run. If the firmware accepts only images that were signed in some run of the installer, then whatever files the attacker puts on the ESP, also while the stub runs, whichever signed image is started, whatever the load options, variables and TPM: an image that is not the boot loader starts nothing but the kernel of a generation that was installed in one of the runs, with the initrd of that generation, followed only by archives whose members are /.extra, its three directories and files directly in them; and with Secure Boot on with the command line of that generation. The only way around this is a file on the ESP with the SHA-256 hash of that kernel or initrd.",
  "all sequences of runs of the installer with any configurations and generations, all contents of the ESP at every time, all load options, variables and TPM behaviours, all signed images",
  "the claim is about an adversary: it ranges over all file system contents, changing over time, and all inputs the firmware passes; tests boot an untouched image and one or two with a single modified file",
  ["rust/uefi/stub/src/main.rs: main", "rust/uefi/stub/src/thin.rs: boot_linux, UkiComponents, check_hash", "rust/uefi/stub/src/common.rs: get_cmdline, boot_linux_unchecked", LB+"companions.rs: find_files, discover_credentials, discover_system_extensions", SY+"install.rs: Installer::install_generation, install_signed, install_systemd_boot", SH+"signature/local.rs: LocalKeyPair", SH+"pe.rs: lanzaboote_image"])

p("The TPM's event log accounts for the PCRs and says what was measured; every use of the TPM is closed again",
  "A measurement opens the TPM protocol exclusively, uses it only if the TPM is present, extends exactly the given PCR with exactly the given data, appends exactly one log entry, of type EV_IPL with the description in UTF-16 as its text, and closes the protocol again however it ends, so that no measurement blocks a later one. If the log accounted for the PCR values before, then replaying it gives the PCR values after every run of the stub, whatever failed in it. With a working TPM the log of a boot consists of exactly these entries, in this order: for every section of the UKI specification, in canonical order and as often as it occurs, one for the name and one for the contents, both with the section name as text; one for each archive appended to the initrd with the text for its kind; and one for the command line if it is not the embedded one.",
  "all TPMs and firmwares with any failures at any time, all data and descriptions, all images and companion files, all previous contents of log and PCRs",
  "tests run with a software TPM that never fails and do not read the event log; that replaying always fits needs an invariant over all failure patterns",
  [LB+"tpm.rs: open_capable_tpm2, tpm_available, tpm_log_event_ascii", LB+"measure.rs: measure_image, measure_companion_initrds", "rust/uefi/stub/src/common.rs: get_cmdline"])

p("An archive made from bytes in memory holds exactly these bytes, as one made from a file would",
  "Packing given bytes under a given name and prefix yields, if it succeeds, an archive that a reader extracts to exactly the directories of the prefix and one file with the given name, contents and access bits, with nothing else and the end marker last. It is the same archive as packing a list consisting of one file of that name with these contents, and it succeeds for every non-empty name without a separator and contents below 4 GiB under a prefix of less than 256 bytes.",
  "all contents, names, non-empty prefixes and access bits",
  "archive headers hold lengths in eight hexadecimal digits and pad to four bytes, so correctness depends on every length; the tests check one literal",
  [LB+"cpio.rs: pack_cpio_literal, pack_cpio", "rust/uefi/pio/src/writer.rs: pack_one, pack_prefix, pack_trailer"])

p("Permission bits of installed files: 0755 for kernels, initrds and the loader configuration, whatever the umask",
  "After a successful run, every kernel, initrd and loader.conf that this run put into place has the permission bits 0755, whatever the umask, and every one that it found in place has the bits it had before. A boot loader or boot entry that this run put into place has what the umask gives a new file if it was signed; without a signing key it has the permission bits of the file it was copied from. Besides these, the run sets no permission bits. It is false that after a successful run all of them have these bits: a run interrupted between putting a file into place and setting its bits leaves bits that no later run repairs.",
  "all inputs, file systems, previous permission bits and fault patterns under which the run succeeds; for the limit one history of an interrupted and a successful run",
  "the bits are set by the last of several operations on a file, and whether a file is touched depends on what earlier runs left; tests run once on an empty ESP",
  [SY+"install.rs: force_install, set_permission_bits, install, install_signed"])

p("The names of installed files are spelled so that other programs can recompute them",
  "Whatever kernel, initrd, boot entry or boot loader file a run creates or changes, however far it gets, is named as documented: kernel-V-H.efi and initrd-V-H.efi in EFI/nixos, where V is what follows the last dash in the name of the kernel's store directory and H is the SHA-256 of the content; nixos-generation-N[-specialisation-S]-H[+T].efi in EFI/Linux, where N and T are decimal numbers, T is the number of tries and left out if it is 0, and H is the SHA-256 of the JSON document [[\"toplevel\",[bytes]],[\"public_key\",[bytes]]]. Measurements are called N[-S].pcrlock. H is written in base 32 (RFC 4648) in lower case without padding; a hash has exactly one spelling and a spelling stands for exactly one byte string.",
  "all inputs, file systems, fault patterns and points at which the run ends; all byte strings for base 32",
  "names are functions of arbitrary paths, keys and numbers; tests recompute a few of them with the same library",
  [SY+"install.rs: stub_name, stub_prefix, install_nixos_ca, install_generation", SH+"generation.rs: Display, version_tag", SY+"pcrlock.rs: lanzaboote_measurement"])

p("The measuring functions report how many measurements were made",
  "When measure_image or measure_companion_initrds succeeds, the number it returns is the number of measurements the TPM carried out during that call. On a machine without a TPM the measurements that were skipped are counted instead (so the number does not show whether there is a TPM); a measurement whose event could not be built or that the TPM refused is not counted.",
  "all stub images, kernels, initrds and companions; all TPM faults at every call; every earlier state",
  "the count depends on which of an unbounded number of TPM calls fail; there is no TPM in unit tests",
  [LB+"measure.rs: measure_image, measure_companion_initrds", LB+"tpm.rs: tpm_log_event_ascii"])

p("An archive takes every member that fits, and names the reason otherwise",
  "On any archive that can exist, pack_one succeeds unless the file has more than 2^32-1 bytes (TooLargeFileSize with its size), the archive already has 2^32-1 members (MaximumInodesReached), directory and name together have 2^32-1 bytes or more (MaximumArchiveReached), checked in this order; at exactly 2^32-2 bytes of directory and name, with a directory, it panics. pack_dir succeeds unless the archive has 2^32-1 members (MaximumInodesReached); a path of 2^32-1 bytes or more makes it panic.",
  "all archives made by sessions of calls, all names, directories, contents and modes; limits: strings and buffers below 2^63 bytes, as in any Rust program",
  "the limits lie at 4 GiB and at four billion members",
  ["rust/uefi/pio/src/writer.rs: pack_one, pack_dir, align"])

p("The date in the boot menu is the UTC date at which the generation's link was made",
  "The date shown for a generation, and for each of its specialisations, is the date of the Gregorian calendar, in UTC, of the second at which the symbolic link of this generation was last changed (not of the system it leads to, whose time is always the same in the Nix store), written as year-month-day with four, two and two digits. It is Unknown exactly if the link cannot be examined or the year would have more than four digits. A link that was changed later never shows an earlier date.",
  "all modification times (any integer number of seconds), all links, generations, specialisations and configurations",
  "leap years and centuries, times before 1970, and the ends of the range; a test looks at the dates it was made with",
  [SH+"generation.rs: read_build_time, GenerationLink::from_path, Generation::describe", SH+"os_release.rs: from_generation"])

p("The program does what its command line says, and its exit status tells whether it worked",
  "If LANZABOOTE_STUB is unset, a key option is missing, or the system is neither x86_64-linux nor aarch64-linux, the program exits with a status other than 0 and has changed nothing. Otherwise it installs with exactly the given stub, systemd, loader configuration, ESP, pcrlock directory, generation links, limit, tries and keys (without signatures only if that is allowed and neither key exists); the exit status is 0 exactly if this succeeded. After exit status 0, the boot loaders are at the places where the firmware of the given system looks for them (BOOTX64.EFI and systemd-bootx64.efi, or BOOTAA64.EFI and systemd-bootaa64.efi) and every generation that was asked for has a bootable entry on the given ESP. Without the options for them, only the newest generation is installed, without boot counting. If nothing stands in the way, the exit status is 0.",
  "all command lines (values of all options, any number of links), all disks, all sources, all behaviours of the operating system and the programs that are run",
  "every combination of arguments, keys present or absent, failures in between; the tests run two systems and a few options",
  [SY+"cli.rs: Cli::call, install, InstallCommand", SY+"main.rs: main", SH+"architecture.rs: from_nixos_system, efi_fallback_filename", SY+"install.rs: InstallerBuilder"])

p("The warning about malformed generations names the right ones, and following it re-enables garbage collection",
  "A run of the installer that succeeds either collects garbage or prints a warning, never both or neither. The warning lists the numbers of generations to delete, each once, in ascending order; they belong to the newest generations that were asked for, and every one of these whose bootspec cannot be read is listed. If nothing fails in between, exactly these are listed. Deleting what is listed (and running again, on any disk, without failures) then leads to garbage collection instead of another warning if there is no configuration limit; it never takes away a generation that is installed, and with a limit there are strictly fewer links each time.",
  "all lists of links with numbers, all limits, all bootspecs readable or not, all disks before the first and before the second run, all failures of the operating system",
  "sets of unreadable generations, limits and failures in any combination, and two runs; the tests check that nothing is deleted for one malformed generation",
  [SY+"install.rs: Installer::install, install_generations_from_links, broken_gens", SH+"generation.rs: GenerationLink::from_path, Generation::from_link"])

p("All ways of signing and verifying of a signer agree",
  "For the signers with and without keys: signing a store path returns the signed content of that path; assembling and signing a stub returns a signed image with the sections for the given os-release, command line, paths, kernel and initrd; signing and copying puts the signed content of the source at the target and touches no other path. Signing into memory and verifying change nothing on the disk, whatever fails. Verifying bytes and verifying a file with these bytes give the same answer; neither says yes to what sbverify does not accept, whatever fails; and both say yes to whatever one of the ways of signing has made. If nothing fails and the programs take what they are given, signing succeeds. An implementation that provides only the required methods copies exactly what its signing returns, and verifies a file like its bytes, except that a file that cannot be read makes it panic.",
  "both signers, all paths and contents, all stub parameters, all disks, all failures of the operating system and of the programs; for the inherited methods all implementations",
  "the programs, the contents and the failures in any combination; agreement of six methods over all of them",
  [SH+"signature/mod.rs: Signer", SH+"signature/local.rs: LocalKeyPair", SH+"signature/empty.rs: EmptyKeyPair"])

p("What the installer does depends on its own files only",
  "The contents of files that are not the installer's have no influence on it: on two disks with the same files and directories that agree on the contents of the installer's own files, a run has the same result and makes the same changes in the same order. If moreover every boot entry refers to files in EFI/nixos, as entries written by the installer do, then files elsewhere do not matter at all (apart from the names in EFI/Linux): they can be created, replaced and deleted without any effect on the result or the changes.",
  "all pairs of disks, all configurations and inputs, all faults and orders of directory listings (the same for both runs)",
  "pairs of executions: that something is never read cannot be seen from any number of single runs",
  [SY+"install.rs: Installer::install, read_installed_generation, install_systemd_boot, install_nixos_ca", SH+"gc.rs: Roots::collect_garbage, collect_garbage_with_filter"])

p("A boot depends on the kernel, the initrd and the companion files of the booted image, and on no other file",
  "Two machines that differ only in what is on the volume behave exactly alike - same result, same interactions with the firmware, same measurements, same kernel start - if the volumes agree on the two files named in the .linux and .initrd sections of the image, on the credentials for all images and on the credentials and system extensions for this image. The order of listings, other files in the same directories, files of other generations and every other file are irrelevant: replacing, adding or removing one of them changes nothing.",
  "all machines, all failures, all pairs of volumes (changing over time) that agree there, all states at the start",
  "a statement about pairs of executions over all possible other contents of the volume",
  [ST+"thin.rs: boot_linux, UkiComponents::load_from_pe", ST+"main.rs: main", LB+"companions.rs: discover_credentials, discover_system_extensions, get_default_dropin_directory, find_files"])

p("What the stub tells the operating system in EFI variables can be read and is true",
  "Whatever a run of the stub writes into a variable, and whatever fails in between, a reader of UTF-16 gets the documented text: the id of the first GPT partition on the device path of the image, the firmware's vendor and revision, the revision of UEFI, the name and version of the stub, and for PCR 11 its number; the path of the image is written with a terminating NUL, StubFeatures has exactly bit 0. No text has two readings. The numbers of PCR 12 and 13 are written as 32 bit numbers and cannot be read as texts.",
  "all machines, all failures, all texts the firmware provides (any characters), all states at the start",
  "encodings of all texts, in all runs; the tests run on machines with one firmware, whose texts are ASCII",
  [LB+"efivars.rs: export_efi_variables, disk_get_part_uuid, cstr16_to_bytes", LB+"measure.rs: measure_image, measure_companion_initrds"])

p("The boot menu: systemd-boot shows each generation with its title, newest first, the newest one as default",
  "systemd-boot reads the title, the version and the sort key of every installed generation from the signed image as they should be, if the texts are on one line (and the label and the sort key do not start with an equals sign, and the sort key is not quoted and does not end with a blank). In every menu, whatever other systems are in it, generations with the same sort key are in the order of their numbers, the newest at the top, and the main system is above its specialisations. If the newest generation's main system has tries left and only generations of the same sort key have, it is the default. A label with a line break can change the sort key and the version.",
  "all generations, labels, names, sort keys and dates; all runs of the installer that signed the images; all menus, with any other items",
  "the order depends on how systemd-boot compares version texts, for all numbers of generations; the tests look at the menu of a few generations",
  [SH+"os_release.rs: OsRelease::from_generation, Display", SH+"generation.rs: describe", SH+"pe.rs: lanzaboote_image"])

p("Room on the ESP: one temporary file at a time",
  "At every moment of a run, and when it ends, whether it succeeds, fails or is killed, all files on the disk, except the measurements and at most one more file, were there before with the same content or are complete files to be installed. The one more file is a temporary file. A successful run leaves no temporary file of its own behind. So the room a run needs is that of what was there, what is to be installed and one more file.",
  "all installations, disks, I/O errors and moments at which the run may be killed",
  "the number of temporary files that are there at the same time depends on the order of all operations and on where a run is interrupted",
  [SY+"install.rs: install, install_signed, atomic_copy, force_install"])

p("Other processes that keep off the installer's places do not disturb it",
  "While the installer runs, other processes may at any moment create, change and delete files elsewhere: on the rest of the boot partition, except names in EFI/Linux, and on all other file systems. The installer makes the same changes in the same order and ends with the same result as without them, and its files are the same in the end. So a successful run leaves every considered generation bootable.",
  "all installations, disks in order, I/O errors, and all behaviours of other processes between any two system calls of the installer, as long as they keep off its places",
  "no test can try all interleavings with other processes",
  [SY+"install.rs: install, install_generation, collect_garbage, needs_install, verify_path", SH+"gc.rs: collect_garbage_with_filter"])

p("Two installers at the same time",
  "Two installers that run at the same time do not disturb each other: if a run succeeds, every considered generation can be booted from its disk, as if it had run alone. This is proved for installers for different places, step by step in any order. It is false for two runs for the same boot partition: there is no lock, and the garbage collection of one removes files that the other has just installed and is about to refer to; both succeed.",
  "all pairs of installations, disks in order, and interleavings",
  "no test can try all interleavings of two programs",
  [SY+"install.rs: install, install_generations_from_links, collect_garbage", SH+"gc.rs: collect_garbage_with_filter"])

p("What the installer does to the disk, whatever other processes do",
  "Whatever other processes do to the disk during the run, be it that they delete or replace the installer's own files: the installer writes to, moves and removes nothing but its own files and makes at most directories for them; it removes nothing before everything is installed, and nothing at all if a generation could not be read; it does not remove what it has put in place in the same run.",
  "all installations, disks, I/O errors, and all behaviours of other processes between any two system calls of the installer",
  "no test can try all interleavings with arbitrary other processes",
  [SY+"install.rs: install, install_generation, install_systemd_boot, collect_garbage", SH+"gc.rs: collect_garbage_with_filter, extend"])

p("A change of the signing key replaces everything",
  "After any history of installer runs (successful, failed, killed, or hit by a power failure after the sync of the ESP) with any changes of the key pair, also in place, the boot entries named for a certificate are accepted by firmware that trusts this certificate. After a successful run without I/O errors all nixos- entries and both boot loader binaries are accepted by firmware that trusts the certificate now in use, so nothing remains that is signed with an old key only; and each considered generation has such an entry, which boots it.",
  "every history of runs, key changes and boot counting renames, from an ESP without boot entries; every notion of acceptance that holds for what sbsign makes and sbverify confirms",
  "Unbounded histories with changing keys; reuse of entries that are already there depends on the names alone",
  [SH+"generation.rs: Generation", SY+"install.rs: install_generation, stub_prefix, install_systemd_boot", SH+"signature/local.rs: LocalKeyPair"])

p("Several boot partitions: each is installed on its own",
  "When the installer is run for several boot partitions one after the other, a run for one partition changes nothing on the others, also if it fails or is killed. After successful runs every generation that is considered for a partition can be booted from it.",
  "any number of partitions at mount points of which none is below another, every content of theirs that earlier runs can have left, every point where a run may be killed",
  "The number of partitions and what is on them is unbounded; that runs do not disturb each other is about everything a run can write or delete",
  ["nix/modules/lanzaboote.nix: extraEfiSysMountPoints, mkInstallCommand", SY+"install.rs: install, install_generation", SH+"gc.rs: collect_garbage"])

p("Several boot partitions: measurements are right for each",
  "After successful runs for several boot partitions with one directory for measurements, the measurement of a generation is that of its boot entry on each of the partitions, and that of the boot loader covers the boot loaders on all of them.",
  "any number of partitions, every content of theirs that earlier runs can have left",
  "Whether a run reuses what it finds or writes anew depends on each partition's history; the VM tests install to partitions that are new at the same time",
  ["nix/modules/lanzaboote.nix: extraEfiSysMountPoints, mkInstallCommand", SY+"install.rs: install_generation, register_installed_generation, install_systemd_boot"])

p("A power failure after the sync does no harm to the generations",
  "Once a run has synced the boot partition, a power failure at any later moment - while the boot loader is installed, during garbage collection, or after the run - leaves every considered generation with a boot entry that boots it, whichever of the later changes have reached the disk.",
  "every content of the disk that earlier runs can have left, every run, every moment after the sync, every choice of lost and reordered changes",
  "Needs adversarial storage: any subset of the later changes, in any order, may be lost at every moment.",
  [SY+"install.rs: install_generations_from_links lines 218-222, install_systemd_boot, install", SH+"gc.rs: collect_garbage"])

p("A power failure during an update does no harm to what could be booted before",
  "After a successful run and any number of boots, let the installer run again, with other generations, and let the power fail at any moment of that run, before or after its sync: every generation that both runs consider has a boot entry that boots it, whichever changes have reached the disk. Until garbage collection begins this holds of every boot entry, also of generations that are no longer considered. It holds unless measurements are switched on with the second run.",
  "every content of the disk that earlier runs can have left, every pair of configurations, any number of boots in between, every moment of the second run, every choice of lost and reordered changes",
  "Needs adversarial storage at every moment of the second run, after every first run.",
  [SY+"install.rs: install_generation, register_installed_generation, install_generations_from_links, install, atomic_copy", SH+"gc.rs: collect_garbage"])

p("Credentials and extensions on the boot partition survive the installer",
  "Files that the boot stub hands to the booted system, the credentials and system extensions in the directory of a boot entry and the credentials for all entries, are still there after the installer has run, if the entry is. This is so for the credentials for all entries, at any moment of any run. It is not so for the directory of an entry: a successful run removes it, also if the entry is kept, and the entry then boots without its credentials and extensions.",
  "every configuration, every content of the disk that earlier runs can have left, every boot entry, every file below the directories of credentials and extensions, every moment of the run for the credentials for all entries",
  "Ranges over all names of boot entries and all contents of the partition, and joins the installer's garbage collection with the stub's search for companion files.",
  [LB+"companions.rs: get_default_dropin_directory, discover_credentials, discover_system_extensions", SY+"install.rs: install", SH+"gc.rs: collect_garbage_with_filter"])

p("PCR 11 can be computed from the generation",
  "If a machine with a working TPM starts a kernel from a boot entry that the installer made for a generation, PCR 11 is extended with exactly: name and contents of .linux, .osrel, .cmdline and .initrd, where these are the generation's kernel, its os-release text, its command line and its initrd with secrets, and then of the measured sections of the stub. What is on the boot partition, the signature, the name of the entry, the load options and the machine have no influence. Every entry that a run leaves and that was not there before was made for a considered generation. If PCR 11 has the same value after the boots of two entries, they agree in all of these, or hashes are broken.",
  "every generation, every stub, every boot entry of any run, whatever is on the disk at boot, every machine, every hash of the PCR bank, every earlier value",
  "Joins installer and stub: the sections that the installer adds must be those that the stub measures, in the right order, for all contents; and the converse is about pairs of boots.",
  [SH+"pe.rs: lanzaboote_image, wrap_in_pe", SY+"install.rs: install_generation", LB+"measure.rs: measure_image", LB+"unified_sections.rs: UnifiedSection", ST+"main.rs: main"])

p("If there are keys nothing is left unsigned",
  "If the key files of the command line exist, every boot entry and boot loader binary that the program writes is signed with them, also if unsigned binaries are allowed.",
  "every command line, every disk, every pattern of I/O errors, every interruption",
  "The failing case needs an I/O error in the one question whether the keys exist, which leaves no trace: the run succeeds.",
  ["rust/tool/systemd/src/cli.rs: install", SH+"signature/empty.rs: EmptyKeyPair", SH+"signature/local.rs: LocalKeyPair"])

p("An interrupted run leaves no boot entry that cannot be booted",
  "If every boot entry on the boot partition can be booted before a run of the installer, then every boot entry that is there when the run is killed can be booted, in particular the one that the boot menu starts by default.",
  "every configuration, every content of the boot partition in which all entries can be booted, every pattern of I/O errors, every moment at which the run is killed",
  "The failing moments lie between the removal of a kernel and that of the boot entry that needs it.",
  [SY+"install.rs: install, install_generations_from_links", SH+"gc.rs: collect_garbage_with_filter"])

p("A recorded measurement is that of the boot entry",
  "If measurements are written from the first boot entry on, no generation number is used again for another system and the operating system does not fail, the measurement recorded for a generation is always that of the boot entry which is on the boot partition: after any sequence of successful runs, of runs that are killed or fail before garbage collection, of updates of the stub and the tools, and of renames for boot counting; and for the generations that a run considers also at every moment of it.",
  "every sequence of runs with their configurations and tools, every moment at which a run is killed, every choice of counter steps",
  "An entry that is kept was written by an earlier run with an earlier stub; what its measurement must be is a fact about that run.",
  [SY+"install.rs: install_generation, register_installed_generation, lock_pe", SH+"gc.rs: collect_garbage_with_filter"])

p("The boot partition does not fill up",
  "After a successful run without I/O errors (with measured boot: on a disk on which the entries of these generations had their measurements) there are at most as many boot entries and as many measurements as generations and specialisations are installed, and at most twice as many kernels and initrds, however many updates there were before, interrupted or not. With a configuration limit and a bound on the specialisations the number of generations is bounded too.",
  "every configuration and set of generations, every sequence of updates, interruptions and boots before",
  "A leak of one file per update shows only after many updates on one machine.",
  [SH+"gc.rs: collect_garbage_with_filter", SY+"install.rs: install, install_generation"])

p("Updates do not interfere with boot assessment",
  "A boot entry with whatever boot counter, of a generation that is kept (and with measured boot has its measurement), is left alone by updates in which the operating system does not fail: it stays under its name and with its content, and the generation gets no other entry, at every moment of every update. So over any sequence of updates, interruptions and boots its counter is what boot counting has made of it: an entry without tries left gets no new ones, and one found good is not tried again.",
  "every configuration and set of generations, every counter, every sequence of complete and interrupted updates, boots and changes elsewhere",
  "Needs sequences of updates and boots, interrupted at any point, with changed tools and generations in between; a reset counter only shows as a machine that boots a broken system over and over.",
  [SY+"install.rs: register_installed_generation, stub_name, stub_prefix, install_generation", SH+"gc.rs: collect_garbage_with_filter"])

p("The boot loader falls back to the best generation that has tries left",
  "If all generations have the same sort key, which sorts before that of other systems on the partition: after a successful installation without I/O errors and any number of boots, the boot loader by itself starts the entry of the newest generation that still has tries left (of one generation, the main system before its specialisations), and that entry boots that generation; generations without tries left are passed over. Every boot entry there is was made for the generation whose name it has, whatever updates, interruptions and boots came before.",
  "every configuration and set of generations with texts a menu can show, every history of the boot partition, every sequence of boot counting, every menu that systemd-boot can make of the disk",
  "Joins the names, the counters and the texts of all entries on the disk, which come from different runs, with the sorting of the boot loader; a test can try a few disks, not all histories.",
  [SY+"install.rs: stub_name, install_generation", SH+"os_release.rs: from_generation", SH+"gc.rs: collect_garbage_with_filter"])

p("The order in which directories are listed does not matter",
  "On two machines on which no operation fails and that differ only in the order in which the operating system lists the entries of a directory, an installation of distinct generations has the same result, reports the same bootspecs as unreadable and leaves the same files with the same content; up to the garbage collection it even makes the same changes in the same order. This needs that no generation has two boot entries, which a successful run also guarantees for the next one; of two entries, the one that is listed first is kept.",
  "every configuration and set of distinct generations, every state of the disk without two entries for a generation, every pair of orders, which may be different at every listing",
  "The order of a directory listing depends on the file system and its history; tests see one file system and one order.",
  [SY+"install.rs: read_installed_generation, install", SH+"gc.rs: collect_garbage_with_filter"])

p("The stub writes only to memory it was given, and what a failed boot leaves behind is bounded",
  "Whatever the image, the kernel file, the companions, the variables and the answers of the firmware are: a byte of memory that the kernel has not changed has its old value when the stub is done, unless it lies in pages the firmware has given to the stub for the kernel image. If the stub returns to the boot loader without having started a kernel, it leaves behind exactly one block of such pages and at most one protocol, the device path of the initrd; the loaded-image record and all other memory are as before.",
  "every firmware behaviour, including failures and different answers at every call, every content of the volume and every initial state",
  "A stray write shows up only with particular section tables and memory layouts; leaks need failures of single firmware calls that emulators do not produce.",
  [LB+"pe_loader.rs: load, start", LB+"linux_loader.rs: new, uninstall", ST+"common.rs: boot_linux_unchecked"])

p("What is on the boot partition after an update depends on the generations, not on the past",
  "If the secrets scripts always give the same secrets: after a successful run without I/O errors (with measured boot: on a disk on which the entries of these generations had their measurements) EFI/nixos holds exactly the kernels and initrds of the generations and specialisations to be installed, each with its content, EFI/Linux has exactly one nixos- entry for each of them, the measurements are exactly theirs, and loader.conf is the configured one. So the same run on two disks with different pasts, be it other generations, updates killed half-way or boots, leaves the same on both, except for the counters in the names of entries and the stub and texts in entries that were kept; in particular an update that is repeated after an interruption ends as it would have without.",
  "every configuration and set of generations, every two sequences of complete, failed and interrupted updates, power failures after the sync, and boots",
  "Relates two executions from any two states; tests compare single outcomes with expected ones.",
  [SY+"install.rs: install, install_generation, register_installed_generation", SH+"gc.rs: collect_garbage_with_filter"])

p("New boot entries get the secrets of today, the others keep theirs",
  "A boot entry that a run writes refers to the generation's initrd with the secrets that the generation's script gave in this very run, also if the initrd has been installed before with other secrets; after a successful run without I/O errors that initrd is there. The initrd of a boot entry that stays is not changed by the secrets of other entries or of today. This also means that changed secrets do not reach generations that are already installed: installing them again changes no file, whatever the scripts give.",
  "every configuration and set of generations, every script, every earlier state of the boot partition that the installer can have left, every point of interruption",
  "Tests compare two secrets of one system; that no earlier initrd is ever overwritten concerns all states and all scripts.",
  [SY+"install.rs: install_generation, register_installed_generation, install_nixos_ca", SH+"pe.rs: append_initrd_secrets"])

p("The configuration limit bounds the number of measurements",
  "With measured boot, after a successful update there are no more measurements of boot entries than the configuration limit says. The NixOS module relies on this: systemd-pcrlock cannot handle more than eight, so the module refuses a configuration limit above eight.",
  "every configuration limit, every set of generations with any number of specialisations, every earlier state of the disk",
  "The number of generations and specialisations is unbounded; the tests have one generation.",
  [SY+"install.rs: install_generation, install_generations_from_links", "nix/modules/lanzaboote.nix: configurationLimit, assertions"])
p("The installation hook reports failures and installs what it can",
  "The script that NixOS calls to install the boot loader exits with status 0 only if the installation has worked on every boot partition. If it does not work on one of them, the others are installed all the same.",
  "any number of boot partitions, every way in which the installer can fail, with and without measured boot",
  "Tests install to partitions on which nothing fails; which runs fail and what that does to the others ranges over all states and faults.",
  ["nix/modules/lanzaboote.nix: installHook, mkInstallCommand, makePolicyCommand", SY+"cli.rs: call, install", SY+"install.rs: install"])

p("Automatic enrolment of keys does not lock the machine out",
  "At every moment from which on systemd-boot would enrol the keys at the next boot, because the files for that are on the boot partition, a machine that has the keys enrolled can be booted: it accepts the boot loaders and all boot entries, and there is an entry for each considered generation.",
  "every earlier history of signed and unsigned installations, every moment of the service that prepares the enrolment, every set of generations",
  "Tests run the service to its end; the property is about every moment at which it can be interrupted and every earlier state of the partition.",
  ["nix/modules/lanzaboote.nix: prepare-sb-auto-enroll, installHook", SY+"install.rs: install, install_systemd_boot, install_generation", SH+"signature/mod.rs: Signer"])

p("A signing key that cannot be used does no harm",
  "If nothing can be signed (unreadable or wrong key, signing program does not work), then at every moment of a run, and also after a power failure, the boot entries and boot loaders are those from before the run, and what could be booted before can still be booted unless garbage collection has started. The run reports success only if each considered generation already had a boot entry.",
  "every earlier state of the disk, every set of generations, every moment at which the run fails, is killed or loses power",
  "Tests try one broken key on an empty partition; the property is about every installed state and every moment of the failing run.",
  [SY+"install.rs: install, install_systemd_boot, install_generation, install_signed", SH+"signature/local.rs: sign_and_copy, build_and_sign_stub"])

p("An update of lanzaboote reaches all boot entries",
  "After a successful run with a new version of the stub, for example one in which a vulnerability has been fixed, the boot entries of all considered generations contain that stub.",
  "every configuration, every set of generations, every earlier state of the boot partition, any number of boots between the runs",
  "Tests install with one stub; the property relates runs with different stubs on every state that earlier runs can have left.",
  [SY+"install.rs: install_generation, register_installed_generation, install_signed", SH+"pe.rs: lanzaboote_image"])

p("The policy that is enrolled for the disk encryption covers all generations",
  "When the module's service replaces what the TPM holds for unlocking the encrypted disk by a new policy, the policy has been made with a measurement of every considered generation, so that each of them can unlock the disk.",
  "every configuration with measured boot, every set of generations, every number of boot partitions, every failure of the installer",
  "The VM test enrols once with an installation that works. The property ranges over all ways in which an installation can fail.",
  ["nix/modules/lanzaboote.nix: auto-cryptenroll, installHook, makePolicyCommand", SY+"install.rs: install_generation"])

p("A run of the installer repairs the boot partition",
  "Whatever files have disappeared from the boot partition or have been damaged on it, after a successful run of the installer the boot loader is there and every considered generation can be booted.",
  "every set of lost or damaged files, every configuration, every set of generations, every earlier history of the boot partition",
  "Tests remove one kernel and check one generation; the property ranges over all combinations of lost files and over what remains of them.",
  [SY+"install.rs: install_generation, register_installed_generation, read_installed_generation, install_nixos_ca, install_systemd_boot"])

p("After switching back to an older generation, that generation is what boots",
  "If an older generation is made the current one again, while newer ones remain, then after a successful run of the installation hook the boot loader starts that generation by itself, also if there is a limit on the number of generations.",
  "every set of generations, every choice of the current one, every configuration, every earlier history of the boot partition",
  "Tests install generations and look at single entries; which entry the boot loader starts follows from the names and texts of all entries together, for all sets of generations and all histories.",
  ["nix/modules/lanzaboote.nix: mkInstallCommand, installHook", SY+"install.rs: install", SH+"os_release.rs: from_generation"])

out = os.path.join(os.path.dirname(os.path.abspath(__file__)), "..", "properties.jsonl")
with open(out, "w") as f:
    for o in P: f.write(json.dumps(o)+"\n")
print(len(P))
