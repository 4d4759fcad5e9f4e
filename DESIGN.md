# Formal model of lanzaboote in Lean 4

Source: `/repo/rust`, read as text. The theorems are about the *model*; the tie to the code is the
citation (file and lines) on every definition of the model. `properties.jsonl` has the properties in
English, `MANIFEST.json` which theorems prove each of them.

Contents: 1 layout, 2 modelling conventions, 3 what is modelled, 4 what is not, 5 the properties one
by one, 6 what was found in the code, 7 trusted base and axioms, 8 tests against wrong programs,
9 the project's own tests.

## 1. Layout

* `lean/Verif/Model/*`  executable model, one definition per Rust function, citing file and lines.
* `lean/Verif/Spec/*`   small specifications, written from documentation and format descriptions
  (newc reader, UKI measurement order, LoadFile2 contract, PE images in memory, boot counting,
  os-release syntax, systemd versions, what a consistent ESP is, ...).
* `lean/Verif/Lemmas/*` helper lemmas, and sample worlds used in examples (`Sample*`).
* `lean/Verif/Props/*`  the property theorems (`Cnn_...`), each with an `example` (or a theorem in a
  `Sample` namespace) showing a concrete case that meets its hypotheses.
* `lean/Verif/Tests/*`  the project's own tests, run on the model (section 9).
* `tools/gen_properties.py`, `gen_manifest.py`, `gen_axioms.py` write `properties.jsonl`,
  `MANIFEST.json` and the axiom list in section 7.
* `seeded/LOG.jsonl`    experiments with wrong programs.

## 2. Modelling conventions

* `Bytes = List UInt8`; `Str = List Char` (Rust `str`: valid UTF-8 text).
* Rust `Result` and panic: `Res ε α = ok | err | panic`. `&mut self` methods and everything with
  effects are `σ → Res ε α × σ` (`RM`): the state after an error or a panic is visible.
* `usize` is 64 bits (`x86_64`, `aarch64`). Lengths are `Nat`; where the code's arithmetic can
  overflow, fixed-width types or explicit bounds are used and release-build wrapping is modelled.
* SHA-256 is a parameter (a function from bytes to 32 bytes). Theorems that need injectivity say
  "or these two specific inputs collide"; no theorem says "or some collision exists".
* External programs (objcopy, sbsign, sbverify, systemd-pcrlock, the initrd-secrets script), goblin's
  PE parser, file contents in the Nix store, bootspec documents, the firmware and the TPM are
  parameters, universally quantified. Programs get the number of the current operation as an argument
  and so need not be deterministic. What a theorem needs of them is a hypothesis of that theorem
  (for example `FaithfulTools` in `Spec/Installer`: sections added by objcopy can be read back, and signing
  does not change what can be read).
* Installer (`Model/Fs`, `Model/Install`): a file system is a finite map from paths (component lists)
  to files and directories. Every change is recorded in a log; "killed at any point" is "the disk is the
  replay of a prefix of the log". A fault oracle can make any operation fail; a write passes through
  arbitrary intermediate contents; directory listings have any order and may miss entries; after a
  power loss each path may be as it was at any moment since its file system was synced, and a file with data that was
  not synced then may have any content.
* Stub (`Model/Firmware`): all firmware services are calls that may fail with any status, numbered so
  that the firmware can answer differently each time. The complete sequence of calls is a trace.
  The started kernel is arbitrary: it may change memory, variables, and allocate pages before it
  returns, if it returns.
* The volume the stub reads from is a function of the number of the access: it may change or vanish between
  any two file reads and between the searches for companions (within one search it is fixed, each question
  is asked once there). So "the bytes that are started are the bytes that were hashed" says that no file is
  read a second time after its hash was checked.

## 3. What is modelled

| code | model | remarks |
|------|-------|---------|
| `uefi/pio/src/writer.rs`, `errors.rs` | `Model/Cpio` | complete, including the overflow checks |
| `uefi/linux-bootloader/src/cpio.rs` | `Model/Cpio`, `Model/Companion` | complete |
| `.../companions.rs` | `Model/Companion` | complete; file system protocol as functions |
| `.../efivars.rs` | `Model/EfiVars` | complete |
| `.../linux_loader.rs` | `Model/LinuxLoader` | complete; pointers are addresses in a memory |
| `.../measure.rs`, `tpm.rs`, `unified_sections.rs` | `Model/Measure`, `Model/Tpm` | complete; in `Measure` a use of the TPM is one firmware call, in `Tpm` it is modelled step by step |
| `.../pe_loader.rs`, `uefi_helpers.rs` | `Model/PeLoader` | complete; the header parser goblin is a parameter |
| `uefi/stub/src/{main,common,thin}.rs` | `Model/Stub` | complete; log output left out |
| `tool/shared/src/generation.rs` | `Model/Generation`, `Model/Bootspec` | complete; parsing and synthesis by the bootspec crate are parameters; the `time` crate's conversion of seconds to a date is modelled by another algorithm for the same calendar |
| `tool/shared/src/os_release.rs` | `Model/OsRelease`, `Model/Generation` | complete |
| `tool/shared/src/pe.rs`, `signature/*.rs`, `utils.rs` | `Model/Tools`, `Model/TempDir` | `Tools` represents temporary files by their contents; `TempDir` has named files and objcopy's command line, and C63 shows that this makes no difference |
| `tool/shared/src/gc.rs` | `Model/Gc` | complete |
| `tool/shared/src/{esp,architecture}.rs`, `tool/systemd/src/{esp,architecture}.rs` | `Model/Install` | complete |
| `tool/systemd/src/install.rs` | `Model/Install`, `Model/StubName` | complete; log output left out except "Collecting garbage..." |
| the same, with other processes at work | `Model/Busy` | every function that looks at or changes a written file system, with a turn for the others before each system call; equal to `Model/Install` if there are none (C86) |
| `nix/modules/lanzaboote.nix` 20-54 | `Model/Hook` | the installation hook; `systemd-pcrlock make-policy` is an exit status |
| `nix/modules/lanzaboote.nix` 546-588 | `Model/Enroll` | the service `prepare-sb-auto-enroll`, for one boot partition; sbctl's output is given |
| `nix/modules/lanzaboote.nix` 591-625 | `Model/Cryptenroll` | the commands of the service `auto-cryptenroll`; that `systemd-cryptenroll` works is taken for granted |
| `tool/systemd/src/pcrlock.rs` | `Model/Tools`, `Model/Install` | complete |
| `tool/systemd/src/version.rs` | `Model/Version`, `Model/Install` | complete |
| `tool/systemd/src/cli.rs`, `main.rs` | `Model/Install` | from the parsed arguments to the exit status |
| Rust std: integers to and from text, `split`, `trim`, paths, sorting, UTF-8 | `Model/{Text,Path,Sort}` | the documented behaviour, written out |

## 4. What is not modelled

* `uefi/pio/src/packer.rs`: commented out in `lib.rs`, so not compiled. `cursor.rs` is a wrapper of a `Vec` that appends what is
  written; the model appends to a list.
* serde's parsing of `boot.json` and the `bootspec` crate's synthesis (parameters of `Model/Bootspec`),
  command line parsing (clap; the default values of options are modelled). Modification times and arguments are given
  as values. In the installer model `Env.bootJson` is the document obtained in this run, be it read or
  synthesised. Each link is read once in a run, so a failing read followed by a successful synthesis is a
  choice of `Env`.
* File owners, time stamps, links (permission bits: only what the installer sets them to, C73); names that are not UTF-8;
  the inputs of a run are fixed during it. Other processes that write to the disk during a run are modelled in
  `Model/Busy` (C86-C88); there, writes to an open file go to its path, so an open file that another process renames or
  removes is not represented. The model's file system distinguishes upper and lower
  case and FAT does not; C66 shows that no two different files that a run wants have names that differ only
  in case. What C66 does not cover: the garbage collector compares names as they are written, so a file that
  an earlier run left under a name that differs only in case from a wanted one (say, of a kernel version
  that differs only in case) would on FAT be the wanted file itself, and be removed. The mode of temporary files (C63)
  and the attributes of EFI variables (C65) are modelled.
* The NixOS module `nix/modules/lanzaboote.nix`, apart from the installation hook with its loop over the boot partitions
  (`Model/Hook`, C90, C91, C107), the service that prepares the enrolment of keys (`Model/Enroll`, C108) and the one that
  enrols the policy for the disk encryption (`Model/Cryptenroll`, C111): the generation of keys, what firmware and systemd-boot do to enrol them, the other services, the text of the options.
* Memory exhaustion inside `Vec`; allocation by the firmware does fail.
* Threads: the installer and the stub are single threaded.
* The binary layout of the event structure that is passed to the TPM (the uefi crate's); its fields are
  modelled (C71).

## 5. The properties

"Full" means: the theorem says what `properties.jsonl` says, for all inputs. Hypotheses that are not
in the English text are named. Where the English property is false of the code, the negation is proved
with a concrete witness, and the suffix `_partial` is on what remains.

| id | where | how it is proved | limits |
|----|-------|------------------|--------|
| C01 | `Props/Cpio`, `Spec/{Newc,CpioMembers}` | induction over sessions of calls; an independent newc reader consumes exactly what was packed | full |
| C02 | `Props/Cpio` | invariant over sessions | full |
| C03 | `Props/Cpio` | invariant over sessions; the exhausted state is reached in an explicit session | full |
| C04 | `Props/Cpio` | case analysis of each call in an arbitrary state | full |
| C05 | `Props/{Cpio,Companion,Archive}` | exact characterisation of results by lengths | partial: false at one length with a non-empty prefix (`C05_cpio_panics_at_boundary`); archives built by the stub never get there |
| C06 | `Props/Companion` | sorting a permutation of distinct names | full |
| C07 | `Props/{Companion,Archive}`, `Spec/Archive` | induction over files | full |
| C08 | `Props/Stub` | the trace of a run that starts a kernel is decomposed completely (`Lemmas/Boot`) | full |
| C09–C11 | `Props/Stub` | same decomposition; C11 by cases on the answer of the firmware | full; in C10 the TPM counts as usable if it can be opened at the time |
| C12, C13 | `Props/{Stub,Measure}` | same decomposition, induction over companions | full |
| C14, C15 | `Props/{Measure,Stub}`, `Spec/Uki` | induction over canonical order; the name table is proved a bijection | full |
| C16, C17 | `Props/PeLoader`, `Spec/PeImage` | induction over sections with an invariant on memory | full; C17 also proves that images within bounds are accepted |
| C18 | `Props/PeLoader` | arithmetic for all 64 bit lengths | full |
| C19 | `Props/LinuxLoader`, `Spec/LoadFile2` | cases over all callers | full; `C19_size_not_updated` records a deviation from the UEFI text on success |
| C20 | `Props/Stub` | state before and after `start_linux`, arbitrary kernel | full; `C20_leak_on_install_failure` records a leak |
| C21 | `Props/EfiVars` | frame lemmas over the sequence of exports | partial: overwritten if the firmware denies an existing variable |
| C22 | `Props/EfiVars` | exact condition | partial: false of the code (mask of 20 bits) |
| C23 | `Props/PcrVars` | trace invariants | partial: false if the TPM disappears between two looks |
| C24, C25 | `Props/{Generation,Considered,Names}` | sorting lemmas; number parsing specified by digits | full |
| C26 | `Props/{StubName,OtherEntries}`, `Spec/Names` | injectivity of the JSON text, base32 and decimal numbers; with C35, that a run never replaces an entry of another generation | full up to an explicit SHA-256 collision |
| C27 | `Props/StubName`, `Spec/BootCounting`, `Spec/EntryNames` | regular expression matched symbolically; induction over renames; the lookup decided by an independent grammar of names | full up to collision |
| C28 | `Props/InstallFiles` | triples over `install` | full up to collision |
| C29, C30 | `Props/Gc`, `Lemmas/GcExact` | induction over the walk, all listing orders and faults | full |
| C31 | `Props/InstallFiles` | every change in the log is owned, by composition of triples | full |
| C32–C34 | `Props/InstallFiles` | the phases of a run before collection delete nothing but temporary files | full |
| C35 | `Props/InstallFiles` | replay of every prefix of the log | full |
| C36 | `Props/InstallFiles` | dirty set tracked through the log, for every prefix of it | full; boot entries and the boot loader are not synced and can be torn (example) |
| C37, C38 | `Props/InstallBoot`, `Spec/Installer` | invariant `Sound` and the roots that protect needed files | full; needs the lock directory and ESP to be apart (`Separate`) and names of specialisations without slash (`SafeInput`; witness in `Props/Names`) |
| C39 | `Props/{History,HistoryBoot,InstallState}`, `Spec/History` | `Sound` is preserved by runs, kills, power failures after the sync, boots, foreign changes; composed with C41 up to the started kernel | full |
| C40 | `Props/InstallAgain` | "settled" states are fixed points, closed under boot counting | generations with distinct names, measurements present, readable boot loader version |
| C41 | `Props/EndToEnd`, `Lemmas/BootLive` | model of the tool composed with the model of the stub through the PE image | kernel paths and command lines in the BMP without NUL |
| C42 | `Props/InstallLoader`, `Spec/BootLoader` | triples over the boot loader phase | runs without I/O errors; witnesses show both restrictions are needed |
| C43, C44 | `Props/Version`, `Spec/Version` | order laws; grammar of version strings | full |
| C45 | `Props/OsRelease` | state machine of the parser | partial: false for values that need quoting |
| C46 | `Props/OsRelease`, `Spec/OsRelease` | state machine against rendered lines | full |
| C47 | `Props/Generation` | injectivity | partial: titles can be imitated by names |
| C48 | `Props/Path` | list lemmas | partial: false for names with backslashes |
| C49 | `Props/InstallSigned` | every rename in the log onto an executable is of signer output | full |
| C50 | `Props/LoaderMeasure` | invariant over the boot loader phase | runs starting covered; false across two interrupted updates (witness) |
| C51 | `Props/InstallState` | triples | full |
| C52 | `Props/StubImage`, `Spec/StubImage` | induction over added sections | last section of the stub ends below 4 GiB; otherwise wraps (witness) |
| C53 | `Props/StubImage` | both section readers against the PE format | full |
| C54, C55 | `Props/InstallState`, `Lemmas/GcExact` | exactness of collection after success | C55 with measured boot: measurements present (witness) |
| C56 | `Props/InstallFiles` | triple over the last step | full up to collision |
| C57 | `Props/PeLoader` | arithmetic for all addresses | full |
| C58 | `Props/Discovery`, `Spec/Companions` | soundness of discovery in every run that starts a kernel, exactness on volumes that answer | names without backslash; fewer than 2^24 entries per directory |
| C59 | `Props/BootStarts` | forward execution for all firmware answers of the optional services | full |
| C60 | `Props/BootStarts` | case analysis | full |
| C61 | `Props/Considered`, `Spec/Generations` | links and bootspec documents against a specification by digits and lists | full from the document on (C69 has the rest) |
| C62 | `Props/Considered`, `Spec/Generations` | os-release texts read back | labels and names on one line |
| C63 | `Props/TempFiles`, `Model/TempDir`, `Spec/Objcopy` | simulation: the model with named temporary files and a parsed command line refines the one with contents | names distinct (witness), inputs outside the directory |
| C64 | `Props/InstallLive`, `Spec/Ready`, `Lemmas/{Live,RoomKept,RunLive,RoomSteps}` | total correctness by a weakest-precondition style predicate on every function of the installer; the room on the disk is an invariant of every change | faithful tools and a readable boot loader in earlier runs too; witnesses for damaged entries and malformed boot loaders |
| C65 | `Props/Variables`, `Spec/Uki` | every event of a run before the kernel start is classified; the frame of the variable store is part of the decomposition | full |
| C66 | `Props/CaseFold`, `Spec/CaseFold` | the fixed-length lower-case hash at the end of each name survives case folding | full |
| C67 | `Props/Panics`, `Spec/Panics` | every function classified by the states in which it can panic (`PanicsOnly`); with C64's invariant, no such state is reached from an ESP in order | full; each cause has a witness |
| C68 | `Props/Pcr`, `Spec/Pcr` | PCR values as a fold of TPM extensions over the trace; prediction from the C13/C14 decomposition; injectivity of the chain by induction from its end with explicit collisions; section names and contents read back from the sequence | full, for working TPMs |
| C69 | `Props/Bootspec`, `Spec/Bootspec` | documents with nested specialisations and JSON extensions; reading refined to the `bootJson` of the installer model; installed generations against an inductive specification | full; parsing and synthesis by the bootspec crate are parameters |
| C70 | `Props/SecureBoot`, `Spec/SecureBoot` | `C70_attacker`: facts about a started stub (C07, C09, C12, C58) with the sections of C41, for a volume that is any function of time; `C70_signs_nothing_else`: a run with another signing program is the same run, step by step; `C70_secure_boot`: both over all runs | full; assumes unforgeable signatures and file names without slash or backslash |
| C71 | `Props/Tpm`, `Spec/TpmLog`, `Model/Tpm` | tpm.rs step by step with a device; refined to the `tpmLogEvent` of the stub model (results equal, device state determined by the emitted event); log of a boot from the exact event sequence behind C14 | full |
| C72 | `Props/{Literal,Archive}`, `Spec/{Newc,Archive}` | same lemmas as C02/C03 for the one-file archive; equality with `pack_cpio` on a one-file volume | full |
| C73 | `Props/Permissions`, `Spec/Modes` | bits as a fold over the recorded changes; invariant over all functions of the installer that holds whenever they succeed | full |
| C74 | `Props/Spelling`, `Spec/Spelling` | base 32 as positional numerals of bits; names of every written file through C35 | full |
| C75 | `Props/Counts`, `Spec/Counts` | count of outcomes in the trace, by composition over binds and loops | full |
| C76 | `Props/Accepts`, `Spec/Accepts` | case analysis over every guard with the bounds of `align`; number of members through C01's reader | full |
| C77 | `Props/BuildDate`, `Lemmas/Calendar`, `Spec/Calendar` | the computed date follows the calendar from one day to the next, in both directions from 1970; the 400 year cycle by linear arithmetic, the 366 days of a year by a table | full |
| C78 | `Props/Program`, `Lemmas/Later`, `Spec/Program` | the program is the installer with the configuration told, started a few operations later; starting later is the same as running in the outside world of that time, by a pass over all functions of the installer | full |
| C79 | `Props/Advice`, `Lemmas/Calm`, `Spec/Advice` | reading the generations is the only place where they are called malformed: a pass over everything else; the set of numbers as a sorted list; the text determines the numbers | full; two findings about the advice |
| C80 | `Props/Signers`, `Spec/Signer` | a pass for functions that only read, one for what a function may return, one for paths it spares; evaluation without faults | full |
| C81 | `Props/Footprint`, `Lemmas/Twin`, `Spec/Footprint` | relational pass over the whole installer: two states that agree on the part of the disk that matters stay so and produce the same outcome; soundness of entries carried along for the references | full |
| C82 | `Props/StubFootprint`, `Spec/StubFootprint` | equality of the two runs, step by step: only four functions look at the volume, each of them sees the same | full |
| C83 | `Props/VariableTexts`, `Spec/VariableTexts` | round trip through an independent decoder; a pass over all functions of the stub | full |
| C84 | `Props/Menu`, `Spec/SystemdBoot` | an independent reader and comparison after systemd-boot; evaluation on the descriptions for all numbers, names and dates | full |
| C85 | `Props/Room`, `Lemmas/Tidy` | invariant on the recorded changes: a temporary file is moved away before the next one is made; all prefixes | full |
| C86 | `Props/Busy`, `Spec/Busy`, `Model/Busy`, `Lemmas/Twin` | the run alone and the run among others are related step by step: they see the same part of the disk (as C81) | full |
| C87 | `Props/Interference`, `Spec/Busy` | from C86, with C88 for what the other installer does; witness by evaluation for the same boot partition | partial: false of the code for the same boot partition |
| C88 | `Props/Interference`, `Lemmas/Acts` | a property of every function's recorded changes that holds on any disk; roots only grow | full |
| C89 | `Props/Rotation`, `Spec/Rotation` | the name of an entry determines its certificate (C27): an invariant of histories as C39; with C54 and C42 for the state after a run | full |
| C90 | `Props/Partitions`, `Spec/Partitions` | C31 for the other partitions; the history (C39) of a partition, in which the other runs are events that do not touch it | full |
| C91 | `Props/Partitions` | each run measures what it writes (C51), the last run decides; the entries of the others are kept (C90) | false of the code (witnesses for entries and boot loader); proved for generations that are new on all partitions |
| C92 | `Props/PowerLoss`, `Lemmas/Synced` | the run split at its only sync; afterwards nothing touches the files of the entries in use, and none of them has unsynced data | full for the generations; the boot loader is not synced (witness) |
| C93 | `Props/PowerLossEarly`, `Props/PowerLossNext`, `Spec/PowerLoss`, `Lemmas/Untouched` | if the partition is in order, no existing boot entry is replaced before garbage collection, and kernels and initrds are synced before they get their names; a successful run leaves the partition in order, and so does boot counting | full; if the measurements are missing, entries are written again without a sync (witness) |
| C94 | `Props/EspCompanions`, `Spec/EspCompanions` | garbage collection removes every name that begins with `nixos-` and is not a root, and `<entry>.extra` is never a root; `loader/credentials` is outside of all that the installer owns (C31) | partial: false for the directories of entries (proved in general, and a witness); the stub then hands over none of their files (C58) |
| C95 | `Props/PcrPrediction`, `Spec/PcrPrediction` | the sections of the signed image are those of the stub and the added ones; sorted by the stub into the canonical order the added ones come first (C14, C68); a boot entry that a run changes is signed for a considered generation (C35) | full; `KeepsSections` is an assumption about objcopy and sbsign |
| C96 | `Props/Unsigned`, `Spec/Unsigned` | the choice of the signer is determined by the first two answers of the file system; the rest is C49 | partial: false if the file system fails to answer (witness: signed entries are replaced by unsigned ones, exit status 0) |
| C97 | `Props/CollectKilled`, `Spec/CollectKilled` | before garbage collection C37; afterwards the kernel and the initrd of an entry in use are in use (invariant of C39), and an entry that is not in use is old and removed by the complete run (C30) | partial: false for entries that are about to be removed (witness: the default entry) |
| C98 | `Props/MeasuredEntries`, `Spec/MeasuredEntries`, `Lemmas/Ordered` | invariant of histories: an entry is written after its measurement, and only if the generation has none with a measurement; what else is written or removed leaves entries and measurements alone; at the end garbage collection keeps both or removes the entry | full, from the first measurement on (witness: measurements that begin with an update) |
| C99 | `Props/Bounded`, `Spec/Bounded` | pigeonhole: each file belongs to a generation (C54), each generation has one entry (C55), each entry refers to one kernel and one initrd | full |
| C100 | `Props/Assessment`, `Spec/Assessment` | invariant of installing every generation and the boot loader: the lookup finds the entry, so nothing is written for that generation, and names of others differ; garbage collection keeps what was found; induction over histories | full |
| C101 | `Props/Fallback`, `Spec/Fallback` | invariant over histories: each entry was signed for its generation; after a run each generation has one entry (C54, C55), renames keep that; then the order of the menu (C84) | full |
| C102 | `Props/Listing`, `Spec/Listing` | equality of the two runs function by function up to the garbage collection (at most one entry of each generation still to come is an invariant of the loop), then the exact effect of the garbage collection | full |
| C103 | `Props/StubMemory`, `Spec/StubMemory` | shape of a run (C20), exact effect of loading the kernel (C16); every later step keeps each byte or hands control to the kernel | full |
| C104 | `Props/Exact`, `Spec/Exact` | what is there is in use (C54), what is in use is there (C39, C51, C55), entries are those of their generations (coherence along histories); two disks with exactly the same generations are compared | full |
| C105 | `Props/Secrets` | what is written is wanted (C35), kernels and initrds are not overwritten (C28), entries left by a run refer to files that are there (C39), a second run changes nothing (C40) | full |
| C106 | `Props/Hook` | from the bound of C99 and the measurements that are there (C51) | false for generations with specialisations: `C106_too_many`; holds without them |
| C107 | `Props/Hook`, `Spec/Hook`, `Model/Hook` | induction over the calls; C78 for each call, C90 for what others do to a partition, C39 for the history of one partition | exit status: false, `C107_failure_unnoticed`; that the others are installed: full |
| C108 | `Props/Enroll`, `Spec/Enroll`, `Model/Enroll` | the service as a sequence of changes followed by a run; C89 for the run, C31 for the files of the enrolment | false while the service runs: `C108_locked_out`; holds when it has ended; `C108_repaired`: after an interruption, a successful run before the restart repairs it |
| C109 | `Props/CannotSign`, `Spec/CannotSign` | C35 and C49 leave no content that a run without a working signer could put at the place of an executable; C38 for the entries of a successful run | full |
| C110 | `Props/StubUpdate`, `Spec/StubUpdate` | C49 for what is written; the state after a successful run (C40) does not depend on the stub | false: `C110_not_updated`; holds for generations without an entry for the key in use |
| C111 | `Props/Cryptenroll`, `Spec/Cryptenroll`, `Model/Cryptenroll` | status of the hook (C107) and measurements after success (C51, C78, C98) | false: `C111_unmeasured`; holds if the last installation worked |
| C112 | `Props/Repair`, `Spec/Repair` | what is lost keeps the disk sound and coherent, so C38, C42, C51 and C64 apply | false for damaged kernels: `C112_damage_unnoticed`; full for lost files, and for generations whose own files are intact or missing (`C112_own_files_partial`) |
| C113 | `Props/Rollback`, `Spec/Rollback` | from the default of the menu (C101) and the absence of leftovers (C54): the hook has no input that tells the current generation | false of the code: `C113_choice_ignored`, `C113_removed`, `C113_not_switched`; full for the newest generation |

## 6. Found in the code

Found while modelling; (P) marks those for which a theorem or witness is in the development.

Stub:
* (P) `writer.rs`: with a non-empty prefix a name with prefix+name = 2^32−2 bytes panics instead of
  failing; (P) `pack_dir` does not check the length of the name at all and panics from 2^32−1 bytes on.
* (P) The numbers of measurements count measurements skipped for want of a TPM as made.
* (P) `efivars.rs`: LoaderFirmwareInfo masks the revision with `0xFFFFF`, so the minor part is wrong
  unless the low 4 bits of the major part are zero.
* (P) `ensure_efi_variable` overwrites a variable on any query error except BUFFER_TOO_SMALL.
* (P) The PCR variables are set from one look at the TPM, and untrue if it vanishes afterwards.
* (P) `load_file` does not write back the size on success.
* The comment in `linux_loader.rs` that the initrd is read several times and its check is open to a race is out
  of date: (P) with a volume that changes between any two accesses C08 still holds.
* (P) `InitrdLoader::new` leaks the first protocol if the second cannot be installed; uninstall
  failure panics.
* (P, C103) `Image::load` leaks its pages when it fails after the allocation.
* (P, C10) A custom command line is accepted unmeasured when there is no TPM (measuring without one is `Ok`).
* (P) StubPcrKernelImage is UTF-16 decimal text, the other two PCR variables are binary `u32`. Some
  variables lack a terminating NUL. StubFeatures announces only ReportBootPartition although
  credentials and system extensions are picked up.
* Companion files are not authenticated: under Secure Boot whoever can write to the ESP can add credentials and
  system extensions to every boot (the stub measures them, and systemd is expected to check them). (P) They stay
  in `/.extra`, provided the firmware gives no file names with a slash: the stub does not check this, and a
  name `../../x.cred` would be packed as it is.
* The boot loader is signed with the same key and its configuration is not authenticated, so under Secure Boot an
  attacker can start any older generation that is still signed; C70 says that this is all.
* Duplicate section names are measured once per occurrence, each time with the data of the first.
* A command line or path with characters outside the BMP, or NUL, makes the stub fail; an embedded
  command line of 2^31−1 units or more makes it panic.

NixOS module:
* (P) The installation hook is a script without `set -e`. If the installation fails on any partition but the last, or on
  any partition with measured boot, the hook still reports success (C107).
* (P) For that reason `auto-cryptenroll` replaces the TPM slot of the encrypted disk also after an installation that
  failed, by a policy that lacks generations. It notes that it has worked and does not run again (C111).
* (P) `prepare-sb-auto-enroll` puts the files for the enrolment of keys on the ESP before it has everything signed. If it
  is interrupted in between, or the signing fails, systemd-boot enrols the keys at the next boot and the firmware rejects
  the unsigned boot loader from then on. The service is not started again because the files exist (C108).
* (P) With measured boot the module restricts the configuration limit to eight, which is as many variants as
  systemd-pcrlock can handle. Specialisations are measured too, but the limit does not count them (C106).

Installer:
* (P) No lock is taken: of two runs for the same boot partition at the same time one can remove what the other has just
  installed, both succeed, and a generation cannot be booted until the next run (C87).
* (P) `install_signed` renames without fsync: boot entries and boot loader can be torn by power loss, the boot
  loader even after the run has succeeded: it is installed after the only `syncfs`, and not synced itself (C92).
  An existing boot entry whose measurement is missing is written again in place: when measurements are switched
  on, a power failure before the sync can leave no generation bootable, although all were (C93, P).
* (P) An interrupted run can leave a kernel with the umask's permission bits, and no later run repairs it. Boot
  entries and boot loaders always get the umask's; without a signing key, the bits of the file they are copied from,
  which for systemd's file in the Nix store is read-only (C73).
* (P) GC removes kernels before the entries that refer to them: killed during GC, entries of generations that are no
  longer considered remain but do not boot. If the newest generation has been deleted its entry is still the default
  of the boot menu (C97).
* If the lock directory is a parent of the ESP, GC of the measurements can wipe the ESP.
* GC's filter matches `nixos-` as a prefix of the name and so removes the `nixos-*.efi.extra` directories in which
  the stub looks for credentials and system extensions, also those of entries that are kept (C94, P), and nested
  `nixos-*` entries.
* (P) The advice to delete malformed generations can be wrong: a transient I/O error while a bootspec is read makes
  the installer advise to delete that generation. With a configuration limit, following the advice can lead to the
  same warning about the next older generation (C79).
* (P) With measured boot a missing measurement leads to a second entry for the same generation until the
  next run. If lanzaboote was updated in between, the two differ, only the new one is measured, and the next run keeps
  the one that the directory lists first; if that is the old one, its measurement is wrong from then on (C98).
  The second entry also has all its tries, whatever the counter of the first says (C100).
* (P, C113) The hook does not look at the system that it is called for. After switching back to an older generation the
  boot loader still starts the newest one, and if the limit does not admit the older one, its entry is removed while it is
  the current generation.
* (P, C112) `register_installed_generation` checks only that kernel and initrd exist, not their content: a damaged kernel is
  not repaired by any number of runs, although the hash is in its name. A directory at that place is accepted. Roots read from an existing stub may be arbitrary paths.
* (P) The current boot loader measurement is stale after an interrupted update; a second interrupted
  update leaves a binary without a measurement.
* (P) A transient I/O error in `exists()` downgrades the boot loader. The two loader binaries are
  replaced together.
* (P) A transient I/O error in `exists()` lets unsigned artifacts be installed, if `allow_unsigned` is set,
  although the keys exist; all signed boot entries are then replaced by unsigned ones, and the run succeeds (C96).
* (P) A boot loader whose version cannot be parsed installs once; every later run fails.
* (P) `resolve_efi_path` panics on the empty path and can leave the ESP.
* (P) `read_section_data` panics on sections whose virtual size exceeds the raw size or that reach beyond
  the file, `version.rs` on an empty `.osrel`. A boot entry that a power failure has cut off in this way
  blocks every later run; a malformed boot loader is installed once and blocks every later run.
* (P) The offset of added sections wraps at 32 bits. Added sections are not aligned to
  SectionAlignment.
* (P) os-release values are written without quoting: a line break injects assignments, for the
  tool's own reader as for that of systemd-boot (C84). Titles are not unique for crafted names.
* (P, C81) What a file in `EFI/Linux` refers to, wherever on the ESP, can change what a run does.
* (P, C25) `parse_version` takes the second `-` field, so profile names with a dash do not work.
* (P) A backslash in a file name breaks the EFI path conversion. `with_extension(".tmp")` yields
  `name..tmp`.
* (P, C38) A specialisation with `/` in its name gets a boot entry in a directory of its own, which garbage collection
  removes in the same run; the run succeeds. A name with `..` escapes the directory (not modelled).
* (P, C110) A new version of the stub does not reach generations that are already installed, nor does a changed number of
  tries: a fix in the stub takes effect for a generation only when its boot entry is removed or the signing key changes.
* (P, C105) Changed initrd secrets do not reach generations that are already installed, however often they are installed
  again: the stub's name depends on the toplevel and the key only.
* Generation numbers that are reused with GC disabled keep the old measurement. A kept entry keeps its
  old title.
* (P) A `boot.json` that cannot be read or parsed is silently replaced by a synthesised document: label and
  sort key are those of the synthesis, and the generation does not count as broken.
* (P) Specialisations of specialisations are parsed and never installed.
* (P, C91) With several boot partitions and measured boot, all partitions share the measurements, but each is
  installed according to its own state. A partition that is new after an update of lanzaboote replaces the
  measurements of the entries that are kept on the others; one that is new after a rollback of systemd replaces the
  measurement of the newer boot loader that is kept on the others.
* (P) "252.-1" is accepted and equals "252-rc0": minor numbers are parsed as signed.

## 7. Trusted base

* Lean's kernel (4.33.0), and that the build checks the committed sources.
* The axioms `propext`, `Classical.choice` and `Quot.sound`, at most; see the list below. No axioms are
  added, there is no `sorry`, `native_decide` or `bv_decide`. `decide +kernel` is used for concrete
  examples and witnesses only; it is checked by the kernel.
* That the model says what the code does: the reading of the Rust source, of std and of the
  dependencies' documentation (sections 2–4).
* That the specifications in `Spec/` say what the formats and protocols are.
* Of Mathlib only `Mathlib.Data.List.Forall2` is imported (`Props/Cpio`).

### Axioms per theorem

<!-- axioms -->
* none: `Verif.Stub.C19_device_path`, `Verif.Tool.C80_sign_store_path`
* `Classical.choice`, `Quot.sound`, `propext`: `Verif.Bootspec.C69_considered_iff`, `Verif.Bootspec.C69_document`, `Verif.Bootspec.C69_installed_iff`, `Verif.Bootspec.C69_installer_reads`, `Verif.Bootspec.C69_readable_iff`, `Verif.C48_backslash`, `Verif.C48_efi_path_roundtrip_iff`, `Verif.C48_efi_path_roundtrip_partial`, `Verif.Calendar.C77_calendar`, `Verif.Calendar.C77_chronological`, `Verif.Calendar.C77_one_day`, `Verif.Companion.C05_companions_no_panic`, `Verif.Companion.C06_companions_order_independent`, `Verif.Companion.C07_trailer_only_last`, `Verif.Companion.C72_literal_exact`, `Verif.Companion.C72_literal_succeeds`, `Verif.Cpio.C01_cpio_roundtrip`, `Verif.Cpio.C01_cpio_roundtrip_ok`, `Verif.Cpio.C02_cpio_alignment`, `Verif.Cpio.C02_cpio_body_alignment`, `Verif.Cpio.C03_cpio_inodes`, `Verif.Cpio.C03_cpio_inodes_exhausted`, `Verif.Cpio.C03_every_call_fails`, `Verif.Cpio.C05_cpio_size_limits_partial`, `Verif.Cpio.C76_answers`, `Verif.Generation.C25_link_rejected`, `Verif.Generation.C25_link_rejected_two`, `Verif.Generation.C25_link_version`, `Verif.Generation.C25_link_version_injective`, `Verif.Generation.C47_describe_unique`, `Verif.Generation.C47_measurement_name_unique`, `Verif.Generation.C47_title_not_unique`, `Verif.Generation.C47_title_unique_partial`, `Verif.Generation.C47_title_unique_same_label_partial`, `Verif.Generation.C62_menu_texts`, `Verif.Menu.C101_default`, `Verif.Menu.C101_over_time`, `Verif.Menu.C84_default`, `Verif.Menu.C84_finding_line_break`, `Verif.Menu.C84_item`, `Verif.Menu.C84_newest_first`, `Verif.Menu.C84_shown`, `Verif.OsRelease.C45_osrelease_newline_injection`, `Verif.OsRelease.C45_osrelease_not_roundtrip`, `Verif.OsRelease.C45_osrelease_roundtrip_iff`, `Verif.OsRelease.C45_osrelease_roundtrip_partial`, `Verif.OsRelease.C46_osrelease_comments`, `Verif.OsRelease.C46_osrelease_comments_anywhere`, `Verif.OsRelease.C46_osrelease_last_wins`, `Verif.OsRelease.C46_osrelease_meaning`, `Verif.OsRelease.C46_osrelease_unterminated`, `Verif.Spelling.C74_base32`, `Verif.Spelling.C74_entry_name`, `Verif.Spelling.C74_measurement_name`, `Verif.Spelling.C74_names`, `Verif.Stub.C08_mismatch_stops`, `Verif.Stub.C08_only_verified_started`, `Verif.Stub.C08_started_once`, `Verif.Stub.C09_cmdline_sources`, `Verif.Stub.C09_embedded_cmdline`, `Verif.Stub.C103_left_behind`, `Verif.Stub.C103_memory`, `Verif.Stub.C10_custom_cmdline_measured`, `Verif.Stub.C11_secure_boot_fails_closed`, `Verif.Stub.C12_initrd_handed_over`, `Verif.Stub.C13_companions_measured`, `Verif.Stub.C13_companions_submitted`, `Verif.Stub.C14_boot_measurements`, `Verif.Stub.C14_order_irrelevant`, `Verif.Stub.C14_pcr11_sequence`, `Verif.Stub.C15_excluded`, `Verif.Stub.C15_names_bijective`, `Verif.Stub.C15_only_canonical_names`, `Verif.Stub.C16_load_memory_safe`, `Verif.Stub.C17_load_contents`, `Verif.Stub.C18_allocated`, `Verif.Stub.C20_failure_reported`, `Verif.Stub.C20_leak_on_install_failure`, `Verif.Stub.C20_restored_or_panic`, `Verif.Stub.C20_state_restored`, `Verif.Stub.C21_export_works`, `Verif.Stub.C21_not_overwritten_partial`, `Verif.Stub.C21_only_exported`, `Verif.Stub.C21_overwritten_on_fault`, `Verif.Stub.C21_stub_variables_attempted_partial`, `Verif.Stub.C22_firmware_revision_partial`, `Verif.Stub.C22_firmware_revision_wrong`, `Verif.Stub.C23_not_failed_partial`, `Verif.Stub.C23_truthful_partial`, `Verif.Stub.C23_unmeasured`, `Verif.Stub.C57_icache_range`, `Verif.Stub.C58_companions_exact`, `Verif.Stub.C59_optional_failures_do_not_stop_the_boot`, `Verif.Stub.C60_loader_features`, `Verif.Stub.C65_foreign_vendor`, `Verif.Stub.C65_other_variables_unchanged`, `Verif.Stub.C65_writes`, `Verif.Stub.C68_pcr11_identifies`, `Verif.Stub.C68_pcr_values`, `Verif.Stub.C68_pcrs_identify_boot`, `Verif.Stub.C75_companions`, `Verif.Stub.C75_image`, `Verif.Stub.C75_with_tpm`, `Verif.Stub.C82_boot_footprint`, `Verif.Stub.C82_other_file`, `Verif.Stub.C83_finding_binary`, `Verif.Stub.C83_texts`, `Verif.StubName.C26_stub_name_determined`, `Verif.StubName.C26_stub_name_injective`, `Verif.StubName.C27_lookup_iff`, `Verif.StubName.C27_stub_lookup_exact`, `Verif.StubName.C27_stub_lookup_finds`, `Verif.Tool.C100_assessment_survives`, `Verif.Tool.C100_begins`, `Verif.Tool.C100_entry_left_alone`, `Verif.Tool.C100_no_new_tries`, `Verif.Tool.C101_made_for`, `Verif.Tool.C102_again`, `Verif.Tool.C102_listing_order`, `Verif.Tool.C102_same_until_collection`, `Verif.Tool.C104_exactly`, `Verif.Tool.C104_histories`, `Verif.Tool.C104_over_time`, `Verif.Tool.C104_past`, `Verif.Tool.C105_kept`, `Verif.Tool.C105_kept_meanwhile`, `Verif.Tool.C105_new_entry`, `Verif.Tool.C105_new_secrets`, `Verif.Tool.C105_not_refreshed`, `Verif.Tool.C106_as_many`, `Verif.Tool.C106_without_specialisations_partial`, `Verif.Tool.C107_goes_on`, `Verif.Tool.C107_status_measured`, `Verif.Tool.C107_status_partial`, `Verif.Tool.C108_after_service_partial`, `Verif.Tool.C108_repaired`, `Verif.Tool.C109_power_failure`, `Verif.Tool.C109_still_boots`, `Verif.Tool.C109_success`, `Verif.Tool.C109_unchanged`, `Verif.Tool.C110_new_generations_partial`, `Verif.Tool.C110_not_updated`, `Verif.Tool.C110_written`, `Verif.Tool.C111_covered_partial`, `Verif.Tool.C111_enrolled_iff`, `Verif.Tool.C111_unlocks_partial`, `Verif.Tool.C112_damage_stays`, `Verif.Tool.C112_lost_partial`, `Verif.Tool.C112_own_files_partial`, `Verif.Tool.C112_restored_partial`, `Verif.Tool.C113_choice_ignored`, `Verif.Tool.C113_new_partial`, `Verif.Tool.C113_newest_partial`, `Verif.Tool.C113_removed`, `Verif.Tool.C24_run_order`, `Verif.Tool.C25_bad_link_aborts`, `Verif.Tool.C26_other_entries_kept`, `Verif.Tool.C28_installed`, `Verif.Tool.C28_not_overwritten`, `Verif.Tool.C30_exact`, `Verif.Tool.C30_idempotent`, `Verif.Tool.C30_order_independent`, `Verif.Tool.C30_undeletable`, `Verif.Tool.C31_foreign_files`, `Verif.Tool.C32_malformed_generation`, `Verif.Tool.C32_unreadable_generation`, `Verif.Tool.C33_bad_link`, `Verif.Tool.C33_no_readable_generation`, `Verif.Tool.C34_failed`, `Verif.Tool.C34_failed_or_killed`, `Verif.Tool.C35_atomic`, `Verif.Tool.C36_power_loss`, `Verif.Tool.C37_before_collection`, `Verif.Tool.C37_during_collection`, `Verif.Tool.C38_considered_generations_boot`, `Verif.Tool.C39_all_entries_boot`, `Verif.Tool.C39_history_sound`, `Verif.Tool.C39_history_then_boot`, `Verif.Tool.C39_installed_stays_bootable`, `Verif.Tool.C40_idempotent`, `Verif.Tool.C41_hash_checks_pass`, `Verif.Tool.C41_install_then_boot`, `Verif.Tool.C41_only_this_starts`, `Verif.Tool.C41_starts`, `Verif.Tool.C41_stub_reads`, `Verif.Tool.C42_loader_current`, `Verif.Tool.C42_loader_untouched`, `Verif.Tool.C49_program_signed`, `Verif.Tool.C49_signed`, `Verif.Tool.C49_signed_interrupted`, `Verif.Tool.C50_loader_measured`, `Verif.Tool.C50_loader_measured_after`, `Verif.Tool.C51_measurement_exact`, `Verif.Tool.C51_measurement_present`, `Verif.Tool.C52_contiguous`, `Verif.Tool.C54_no_leftovers`, `Verif.Tool.C55_one_entry_each`, `Verif.Tool.C56_loader_conf`, `Verif.Tool.C61_considered_iff`, `Verif.Tool.C61_considered_said`, `Verif.Tool.C63_nothing_left`, `Verif.Tool.C63_objcopy_arguments`, `Verif.Tool.C63_private`, `Verif.Tool.C63_same_as_contents`, `Verif.Tool.C64_fresh_machine`, `Verif.Tool.C64_recovers`, `Verif.Tool.C64_recovers_and_boots`, `Verif.Tool.C64_sound_entries_legible`, `Verif.Tool.C64_succeeds`, `Verif.Tool.C66_case_insensitive`, `Verif.Tool.C66_names_apart`, `Verif.Tool.C67_never_panics`, `Verif.Tool.C67_panic_causes`, `Verif.Tool.C67_panic_causes_cli`, `Verif.Tool.C70_attacker`, `Verif.Tool.C70_secure_boot`, `Verif.Tool.C70_signs_nothing_else`, `Verif.Tool.C73_bits`, `Verif.Tool.C73_entry`, `Verif.Tool.C73_loader`, `Verif.Tool.C73_not_repaired`, `Verif.Tool.C73_only`, `Verif.Tool.C77_dates`, `Verif.Tool.C77_menu_date`, `Verif.Tool.C78_as_told`, `Verif.Tool.C78_boot_loader`, `Verif.Tool.C78_boots`, `Verif.Tool.C78_defaults`, `Verif.Tool.C78_refused`, `Verif.Tool.C78_settled`, `Verif.Tool.C78_succeeds`, `Verif.Tool.C79_advice_ends`, `Verif.Tool.C79_advice_harmless`, `Verif.Tool.C79_advice_works`, `Verif.Tool.C79_exact`, `Verif.Tool.C79_finding_again`, `Verif.Tool.C79_finding_transient`, `Verif.Tool.C79_warned_or_collected`, `Verif.Tool.C79_warning`, `Verif.Tool.C80_build_and_sign_stub`, `Verif.Tool.C80_default_methods`, `Verif.Tool.C80_only_reads`, `Verif.Tool.C80_sign_and_copy`, `Verif.Tool.C80_signed_verifies`, `Verif.Tool.C80_stub_succeeds`, `Verif.Tool.C81_contents`, `Verif.Tool.C81_elsewhere`, `Verif.Tool.C81_finding_references`, `Verif.Tool.C81_own_places`, `Verif.Tool.C85_none_left`, `Verif.Tool.C85_one_temporary`, `Verif.Tool.C85_room`, `Verif.Tool.C86_alone`, `Verif.Tool.C86_considered_generations_boot`, `Verif.Tool.C86_contents`, `Verif.Tool.C86_undisturbed`, `Verif.Tool.C87_other_places_partial`, `Verif.Tool.C87_same_partition`, `Verif.Tool.C88_keeps_own`, `Verif.Tool.C88_own_places`, `Verif.Tool.C88_removes_last`, `Verif.Tool.C89_considered_resigned`, `Verif.Tool.C89_named_for_key`, `Verif.Tool.C89_only_current_key`, `Verif.Tool.C90_each_boots`, `Verif.Tool.C90_left_alone`, `Verif.Tool.C91_measured_everywhere_partial`, `Verif.Tool.C92_after_the_run`, `Verif.Tool.C92_synced_boots`, `Verif.Tool.C93_entries_survive`, `Verif.Tool.C93_next_update`, `Verif.Tool.C93_still_bootable`, `Verif.Tool.C94_boots_without`, `Verif.Tool.C94_companions_kept_partial`, `Verif.Tool.C94_own_companions_removed`, `Verif.Tool.C95_identifies`, `Verif.Tool.C95_new_entries`, `Verif.Tool.C95_predicted`, `Verif.Tool.C96_signed_partial`, `Verif.Tool.C96_unsigned`, `Verif.Tool.C97_default_partial`, `Verif.Tool.C97_entries_partial`, `Verif.Tool.C98_at_any_moment`, `Verif.Tool.C98_entries_measured`, `Verif.Tool.C99_bounded`, `Verif.Tool.C99_over_time`, `Verif.Tool.Sample.C102_two_entries`, `Verif.Tool.Sample.C104_two_ways`, `Verif.Tool.Sample.C105_stale_secrets`, `Verif.Tool.Sample.C106_too_many`, `Verif.Tool.Sample.C107_failure_unnoticed`, `Verif.Tool.Sample.C108_locked_out`, `Verif.Tool.Sample.C110_old_stub`, `Verif.Tool.Sample.C111_unmeasured`, `Verif.Tool.Sample.C112_damage_unnoticed`, `Verif.Tool.Sample.C38_name_with_slash`, `Verif.Tool.Sample.C40_needs_release`, `Verif.Tool.Sample.C42_needs_faultless`, `Verif.Tool.Sample.C42_pair_replaced_together`, `Verif.Tool.Sample.C50_needs_covered`, `Verif.Tool.Sample.C52_wraps`, `Verif.Tool.Sample.C55_needs_measurement`, `Verif.Tool.Sample.C63_needs_distinct_names`, `Verif.Tool.Sample.C64_malformed_loader_blocks`, `Verif.Tool.Sample.C64_power_loss_can_block`, `Verif.Tool.Sample.C91_loader_measurement_replaced`, `Verif.Tool.Sample.C91_measurement_replaced`, `Verif.Tool.Sample.C92_loader_can_be_torn`, `Verif.Tool.Sample.C93_needs_measurements`, `Verif.Tool.Sample.C94_witness`, `Verif.Tool.Sample.C96_witness`, `Verif.Tool.Sample.C97_witness`, `Verif.Tool.Sample.C98_begun_later`, `Verif.Tool.Sample.InMenu.C113_not_switched`, `Verif.Tpm.C71_closed`, `Verif.Tpm.C71_effect`, `Verif.Tpm.C71_event_log`, `Verif.Version.C43_version_order`, `Verif.Version.C43_version_total_order`, `Verif.Version.C44_version_distinct`, `Verif.Version.C44_version_grammar`, `Verif.Version.C44_version_parses`
* `Quot.sound`, `propext`: `Verif.C48_efi_path_outside`, `Verif.Companion.C72_literal_agrees`, `Verif.Cpio.C04_cpio_atomic`, `Verif.Cpio.C05_cpio_panics_at_boundary`, `Verif.Generation.C24_limit`, `Verif.Generation.C24_no_limit`, `Verif.Generation.C24_order_irrelevant`, `Verif.Generation.C25_link_number`, `Verif.Stub.C12_concatenation`, `Verif.Stub.C14_permutation`, `Verif.Stub.C17_load_accepts`, `Verif.Stub.C17_load_deterministic`, `Verif.Stub.C18_pages`, `Verif.Stub.C19_load_file_answers`, `Verif.Stub.C19_size_not_updated`, `Verif.Stub.C19_two_step_protocol`, `Verif.Stub.C19_writes_only_buffer`, `Verif.Stub.C53_memory_no_section`, `Verif.Stub.C53_memory_section`, `Verif.Stub.C53_memory_size`, `Verif.Tool.C29_only_collected`, `Verif.Tool.C29_roots_kept`, `Verif.Tool.C41_sections`, `Verif.Tool.C52_no_overlap`, `Verif.Tool.C53_file_no_section`, `Verif.Tool.C53_file_section`, `Verif.Tool.C61_said_considered`, `Verif.Tool.C61_unnumbered`, `Verif.Tool.C80_signing_succeeds`, `Verif.Tool.C80_verify`, `Verif.Tool.C80_verify_sound`, `Verif.Tool.C99_generations`, `Verif.Tpm.C71_log_replays`, `Verif.Tpm.C71_one_measurement`, `Verif.Tpm.C71_probe`
* `propext`: `Verif.Stub.C83_one_reading`, `Verif.Tpm.C71_pcrs`
<!-- end axioms -->

## 8. Tests against wrong programs

Each line of `seeded/LOG.jsonl` is one experiment: in a scratch copy one definition of the model is
changed as a realistic bug would change the program, the project is rebuilt, and the theorems that
no longer check are recorded. An experiment in which nothing but an example fails, or in which the
theorems of the broken claim still check, counts as a weakness of these theorems; what was
tightened is in the same line. The entries with line numbers were generated: operators, constants, literals and
statements of the model were replaced or dropped one at a time; such an entry stops at the first broken proof that
a theorem of the manifest depends on.

## 9. The project's own tests

`Tests/Units` has the unit tests of `pio`, `pe.rs`, `generation.rs`, `os_release.rs`, `version.rs` and `gc.rs`,
`Tests/Integration` the eleven integration tests of the installer, with toy tools instead of objcopy and sbsign. Each test
is translated line by line and evaluated on the model; all of them come out as they do for the code. They prove
nothing about the code but would show a model that differs from it where the authors looked. Not translated, because there
is nothing in the model they could run on: the NixOS tests in virtual machines (`nix/tests`). What they look at in one
machine is stated for all machines by these properties:

| test in `nix/tests/lanzaboote` | what it looks at | properties |
|---|---|---|
| `basic`, `systemd-initrd` | boots with Secure Boot, the sort key is shown, the file is recognised as a UKI | C38, C41, C52, C62, C70 |
| `initrd-secrets` | the secret is in the initrd | C61, C105 |
| `initrd-secrets-update` | new secrets make a new initrd, the old entry still boots with the old one | C28, C105 |
| `hash-mismatch-initrd`, `-kernel`, and both `-sb` | with Secure Boot a changed file stops the boot, without it there is a warning | C08, C11 |
| `specialisation` | own sort key, own entry, order in the menu | C26, C61, C62, C84 |
| `systemd-boot-loader-config` | `loader.conf` holds what was configured | C56 |
| `export-efivars`, `export-efivars-tpm`, `systemd-measured-uki` | the variables are there, parse and are right | C21, C23, C60, C83 |
| `extra-efi-partitions` | both partitions get the entries | C90, C91 |
| `boot-counting` | tries are counted down, fallback to the entry that works, blessing | C27, C100, C101 |
| `systemd-pcrlock`, `systemd-measure` | the sections are in the event log; PCR 11 as `systemd-measure` computes it | C14, C71, C95 |
| `measured-boot` | the measurement files are there for the boot loader and each generation | C50, C51, C98 |
| `auto-generate-enroll`, `auto-reboot` | key enrolment by the NixOS module | C89, C108 |
