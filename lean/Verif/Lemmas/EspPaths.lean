import Verif.Spec.Installer
import Verif.Lemmas.StubName
import Verif.Props.Path
import Verif.Props.StubName
/-!
# The paths the installer uses
-/
namespace Verif.Tool
open Verif StubName Generation

/-- A file name that is a single path component and no special one. -/
structure Plain (n : Str) : Prop where
  ne_nil : n ≠ []
  ne_dot : n ≠ ['.']
  ne_dots : n ≠ ['.', '.']
  no_slash : '/' ∉ n

theorem Plain.of_length {n : Str} (hl : 3 ≤ n.length) (h : '/' ∉ n) : Plain n where
  ne_nil := by rintro rfl; simp at hl
  ne_dot := by rintro rfl; simp at hl
  ne_dots := by rintro rfl; simp at hl
  no_slash := h

theorem Plain.component {n : Str} (h : Plain n) : Component n := ⟨h.ne_nil, h.ne_dot, h.no_slash⟩

theorem join_plain (p : Path) {n : Str} (h : Plain n) : p.join n = p ++ [n] := by
  have := join_relative p [n] (by simpa using h.component)
  simpa [joinWith] using this

theorem paths_nixos (cfg : Config) : cfg.paths.nixos = cfg.esp ++ [lit "EFI", lit "nixos"] := by
  show (cfg.esp.join (lit "EFI")).join (lit "nixos") = _
  rw [join_plain _ (.of_length (by decide) (by decide)),
    join_plain _ (.of_length (by decide) (by decide))]
  simp

theorem paths_linux (cfg : Config) : cfg.paths.linux = cfg.esp ++ [lit "EFI", lit "Linux"] := by
  show (cfg.esp.join (lit "EFI")).join (lit "Linux") = _
  rw [join_plain _ (.of_length (by decide) (by decide)),
    join_plain _ (.of_length (by decide) (by decide))]
  simp

theorem efiFallbackFilename_plain (a : Architecture) : Plain a.efiFallbackFilename := by
  cases a <;> exact .of_length (by decide) (by decide)

theorem systemdFilename_plain (a : Architecture) : Plain a.systemdFilename := by
  cases a <;> exact .of_length (by decide) (by decide)

theorem paths_efiFallback (cfg : Config) :
    cfg.paths.efiFallback = cfg.esp ++ [lit "EFI", lit "BOOT", cfg.arch.efiFallbackFilename] := by
  show ((cfg.esp.join (lit "EFI")).join (lit "BOOT")).join cfg.arch.efiFallbackFilename = _
  rw [join_plain _ (efiFallbackFilename_plain _), join_plain _ (.of_length (by decide) (by decide)),
    join_plain _ (.of_length (by decide) (by decide))]
  simp

theorem paths_systemdBoot (cfg : Config) :
    cfg.paths.systemdBoot = cfg.esp ++ [lit "EFI", lit "systemd", cfg.arch.systemdFilename] := by
  show ((cfg.esp.join (lit "EFI")).join (lit "systemd")).join cfg.arch.systemdFilename = _
  rw [join_plain _ (systemdFilename_plain _), join_plain _ (.of_length (by decide) (by decide)),
    join_plain _ (.of_length (by decide) (by decide))]
  simp

theorem paths_loaderConf (cfg : Config) :
    cfg.paths.systemdBootLoaderConfig = cfg.esp ++ [lit "loader", lit "loader.conf"] := by
  show (cfg.esp.join (lit "loader")).join (lit "loader.conf") = _
  rw [join_plain _ (.of_length (by decide) (by decide)),
    join_plain _ (.of_length (by decide) (by decide))]
  simp

theorem paths_esp (cfg : Config) : cfg.paths.esp = cfg.esp := rfl
theorem paths_efi (cfg : Config) : cfg.paths.efi = cfg.esp ++ [lit "EFI"] := by
  show cfg.esp.join (lit "EFI") = _
  rw [join_plain _ (.of_length (by decide) (by decide))]

theorem pcrlock_lanzaboote (p : Path) :
    (PcrlockPaths.new p).lanzaboote = p ++ [lit "635-lanzaboote.pcrlock.d"] :=
  join_plain p (n := lit "635-lanzaboote.pcrlock.d") (.of_length (by decide) (by decide))

theorem pcrlock_bootloader (p : Path) :
    (PcrlockPaths.new p).bootloader = p ++ [lit "630-bootloader.pcrlock.d"] :=
  join_plain p (n := lit "630-bootloader.pcrlock.d") (.of_length (by decide) (by decide))

/-! ### Temporary names -/

theorem tmpOf_snoc (p : Path) {n : Str} (h : n ≠ ['.', '.']) :
    tmpOf (p ++ [n]) = p ++ [fileStem n ++ lit "..tmp"] := by
  have : (lit "..tmp" : Str) = ['.'] ++ lit ".tmp" := by decide
  simp [tmpOf, Path.withExtension, Path.fileName, h, this]

theorem isTmpName_last {n : Str} (h : IsTmpName n) : n.getLast? = some 'p' := by
  obtain ⟨x, rfl⟩ := h
  rw [List.getLast?_append]
  simp only [show (lit "..tmp" : Str).getLast? = some 'p' by decide]
  rfl

theorem not_isTmpName_append {x y : Str} (hy : y.getLast? ≠ none) (h : y.getLast? ≠ some 'p') :
    ¬ IsTmpName (x ++ y) := by
  intro ht
  have := isTmpName_last ht
  rw [List.getLast?_append] at this
  cases hy' : y.getLast? with
  | none => exact hy hy'
  | some c =>
    rw [hy'] at this h
    simp at this
    exact h (by rw [this])

theorem tmpOf_ne {p : Path} {n : Str} (h : Plain n) (ht : ¬ IsTmpName n) :
    tmpOf (p ++ [n]) ≠ p ++ [n] := by
  rw [tmpOf_snoc p h.ne_dots]
  intro e
  have := List.append_cancel_left e
  simp only [List.cons.injEq, and_true] at this
  exact ht ⟨_, this.symm⟩

theorem isTmp_tmpOf (p : Path) {n : Str} (h : Plain n) : IsTmp (tmpOf (p ++ [n])) :=
  ⟨p, _, tmpOf_snoc p h.ne_dots, _, rfl⟩

theorem not_isTmp_snoc {p : Path} {n : Str} (h : ¬ IsTmpName n) : ¬ IsTmp (p ++ [n]) := by
  rintro ⟨q, m, e, hm⟩
  have := (List.append_inj' e rfl).2
  simp only [List.cons.injEq, and_true] at this
  exact h (this ▸ hm)

/-! ### Content-addressed names -/

theorem slash_not_mem_base32 (b : Bytes) : '/' ∉ base32 b := fun h =>
  absurd (base32_mem b '/' h) (by decide)

theorem caName_plain {label : Str} (h : '/' ∉ label) (hash : Bytes) : Plain (caName label hash) := by
  refine .of_length ?_ ?_
  · simp [caName, lit]
    omega
  · simp only [caName, List.mem_append, not_or]
    exact ⟨⟨⟨h, by decide⟩, slash_not_mem_base32 _⟩, by decide⟩

theorem caName_not_tmp (label : Str) (hash : Bytes) : ¬ IsTmpName (caName label hash) :=
  not_isTmpName_append (by decide) (by decide)

/-- The name determines the hash. -/
theorem caName_hash_inj {l l' : Str} {h h' : Bytes} (hh : h.length = 32) (hh' : h'.length = 32)
    (e : caName l h = caName l' h') : l = l' ∧ h = h' := by
  unfold caName at e
  have e1 := List.append_cancel_right e
  have e2 := List.append_inj' e1 (by rw [base32_len hh, base32_len hh'])
  exact ⟨List.append_cancel_right e2.1, base32_inj hh hh' e2.2⟩

/-! ### Stub names -/

theorem slash_not_mem_toDec (n : Nat) : '/' ∉ toDec n := not_mem_toDec (by decide) n

theorem stubPrefix_no_slash {sha : Sha} {g : Gen} (h : SafeGen g) (k : Bytes) :
    '/' ∉ stubPrefix sha g k := by
  unfold stubPrefix
  split
  · next s hs =>
    simp only [List.mem_append, not_or]
    exact ⟨⟨⟨⟨⟨by decide, slash_not_mem_toDec _⟩, by decide⟩, h.name s hs⟩, by decide⟩,
      slash_not_mem_base32 _⟩
  · simp only [List.mem_append, not_or]
    exact ⟨⟨⟨by decide, slash_not_mem_toDec _⟩, by decide⟩, slash_not_mem_base32 _⟩

theorem nixos_isPrefixOf_stubPrefix (sha : Sha) (g : Gen) (k : Bytes) (r : Str) :
    (lit "nixos-").isPrefixOf (stubPrefix sha g k ++ r) = true := by
  rw [List.isPrefixOf_iff_prefix]
  unfold stubPrefix
  split
  · exact ⟨lit "generation-" ++ toDec g.version ++ lit "-specialisation-" ++ _ ++ lit "-" ++ _ ++ r,
      by simp only [← List.append_assoc]; rfl⟩
  · exact ⟨lit "generation-" ++ toDec g.version ++ lit "-" ++ _ ++ r,
      by simp only [← List.append_assoc]; rfl⟩

theorem stubName_eq' (sha : Sha) (g : Gen) (k : Bytes) (t : Nat) :
    ∃ c, stubName sha g k t = stubPrefix sha g k ++ (c ++ lit ".efi") ∧ '/' ∉ c := by
  unfold stubName
  split
  · refine ⟨lit "+" ++ toDec t, by simp, ?_⟩
    simp only [List.mem_append, not_or]
    exact ⟨by decide, slash_not_mem_toDec _⟩
  · exact ⟨[], by simp, by simp⟩

theorem stubName_plain {sha : Sha} {g : Gen} (h : SafeGen g) (k : Bytes) (t : Nat) :
    Plain (stubName sha g k t) := by
  obtain ⟨c, e, hc⟩ := stubName_eq' sha g k t
  rw [e]
  refine .of_length ?_ ?_
  · simp [lit]; omega
  · simp only [List.mem_append, not_or]
    exact ⟨stubPrefix_no_slash h k, hc, by decide⟩

theorem stubName_not_tmp (sha : Sha) (g : Gen) (k : Bytes) (t : Nat) :
    ¬ IsTmpName (stubName sha g k t) := by
  obtain ⟨c, e, -⟩ := stubName_eq' sha g k t
  rw [e, ← List.append_assoc]
  exact not_isTmpName_append (by decide) (by decide)

theorem efiFallback_not_tmp (a : Architecture) : ¬ IsTmpName a.efiFallbackFilename := by
  cases a
  · exact fun h => absurd (isTmpName_last h) (by decide)
  · exact fun h => absurd (isTmpName_last h) (by decide)

theorem systemdFilename_not_tmp (a : Architecture) : ¬ IsTmpName a.systemdFilename := by
  cases a
  · exact fun h => absurd (isTmpName_last h) (by decide)
  · exact fun h => absurd (isTmpName_last h) (by decide)

theorem loaderConf_not_tmp : ¬ IsTmpName (lit "loader.conf") :=
  fun h => absurd (isTmpName_last h) (by decide)

theorem loaderConf_plain : Plain (lit "loader.conf") := .of_length (by decide) (by decide)

/-! ### Kernel versions -/

theorem kernelVersion_not_mem {k : Path} {v : Str} {x : Char} (h : ∀ c ∈ k, x ∉ c)
    (hv : kernelVersion k = some v) : x ∉ v := by
  unfold kernelVersion at hv
  split at hv
  · simp at hv
  · next d hd =>
    split at hv
    · simp at hv
    · next n hn =>
      have hn' : n ∈ k := by
        have : d = k.dropLast := by unfold Path.parent at hd; split at hd <;> simp_all
        subst this
        unfold Path.fileName at hn
        split at hn
        · next y hy =>
          split at hn
          · simp at hn
          · simp at hn; subst hn
            exact (List.dropLast_sublist k).subset (List.mem_of_getLast? hy)
        · simp at hn
      exact splitOn_mem_no (h n hn') (List.mem_of_getLast? hv)

theorem splitOn_last (c : Char) (n : Str) : ∃ v, (splitOn c n).getLast? = some v ∧ c ∉ v ∧
    (n = v ∨ ∃ x, n = x ++ [c] ++ v) := by
  induction n with
  | nil => exact ⟨[], rfl, by simp, Or.inl rfl⟩
  | cons a n ih =>
    obtain ⟨v, h1, h2, h3⟩ := ih
    unfold splitOn
    by_cases ha : a = c
    · rw [if_pos ha]
      refine ⟨v, ?_, h2, Or.inr ?_⟩
      · rw [List.getLast?_cons, h1]; rfl
      · rcases h3 with rfl | ⟨x, rfl⟩
        · exact ⟨[], by simp [ha]⟩
        · exact ⟨a :: x, by simp⟩
    · rw [if_neg ha]
      cases hs : splitOn c n with
      | nil => rw [hs] at h1; cases h1
      | cons p ps =>
        rw [hs] at h1
        cases ps with
        | nil =>
          simp only [List.getLast?_singleton, Option.some.injEq] at h1
          subst h1
          rcases h3 with rfl | ⟨x, rfl⟩
          · exact ⟨a :: n, rfl, by simp [h2, Ne.symm ha], Or.inl rfl⟩
          · exfalso
            have : (splitOn c (x ++ [c] ++ p)).length = 1 := by rw [hs]; rfl
            have h2' : ∀ y : Str, 2 ≤ (splitOn c (y ++ [c] ++ p)).length := by
              intro y
              induction y with
              | nil =>
                simp only [List.nil_append, List.cons_append, splitOn, if_true, List.length_cons]
                have := splitOn_ne_nil c p
                have := List.length_pos_iff.2 this
                omega
              | cons b y ihy =>
                simp only [List.cons_append, splitOn]
                split
                · have := List.length_pos_iff.2 (splitOn_ne_nil c (y ++ [c] ++ p))
                  simp only [List.length_cons]; simp only [List.append_assoc, List.cons_append, List.nil_append] at this ⊢; omega
                · simp only [List.append_assoc, List.cons_append, List.nil_append] at ihy ⊢
                  split
                  · next e => rw [e] at ihy; simp at ihy
                  · next e => rw [e] at ihy; simpa using ihy
            have := h2' x
            omega
        | cons q qs =>
          refine ⟨v, by simpa using h1, h2, ?_⟩
          rcases h3 with rfl | ⟨x, rfl⟩
          · rw [splitOn_not_mem h2] at hs
            cases hs
          · exact Or.inr ⟨a :: x, by simp⟩

theorem splitOn_getLast (c : Char) {v : Str} (hv : c ∉ v) (x : Str) :
    (splitOn c (x ++ [c] ++ v)).getLast? = some v := by
  induction x with
  | nil =>
    have : ([] ++ [c] ++ v : Str) = [] ++ c :: v := by simp
    rw [this, splitOn_append (by simp), splitOn_not_mem hv]; rfl
  | cons a x ih =>
    have e : (a :: x ++ [c] ++ v : Str) = a :: (x ++ [c] ++ v) := by simp
    rw [e]
    unfold splitOn
    split
    · rw [List.getLast?_cons, ih]; rfl
    · cases hs : splitOn c (x ++ [c] ++ v) with
      | nil => rw [hs] at ih; cases ih
      | cons p ps =>
        rw [hs] at ih
        cases ps with
        | nil =>
          exfalso
          have hl : (splitOn c (x ++ [c] ++ v)).length = 1 := by rw [hs]; rfl
          have key : ∀ y : Str, 2 ≤ (splitOn c (y ++ [c] ++ v)).length := by
            intro y
            induction y with
            | nil =>
              have : ([] ++ [c] ++ v : Str) = [] ++ c :: v := by simp
              rw [this, splitOn_append (by simp), splitOn_not_mem hv]; simp
            | cons b y ihy =>
              have e : (b :: y ++ [c] ++ v : Str) = b :: (y ++ [c] ++ v) := by simp
              rw [e]
              unfold splitOn
              split
              · simp only [List.length_cons]; omega
              · split
                · next e => rw [e] at ihy; simp at ihy
                · next e => rw [e] at ihy; simpa using ihy
          have := key x
          omega
        | cons q qs => simpa using ih

/-- The version in the names of kernel and initrd is the one of the specification. -/
theorem kernelVersion_spec {kernel : Path} {v : Str} :
    kernelVersion kernel = some v ↔ KernelVersion kernel v := by
  rcases List.eq_nil_or_concat kernel with rfl | ⟨k, file, rfl⟩
  · constructor
    · intro h; simp [kernelVersion, Path.parent] at h
    · rintro ⟨dir, name, file, h, -⟩; simp at h
  · rcases List.eq_nil_or_concat k with rfl | ⟨dir, name, rfl⟩
    · constructor
      · intro h; simp [kernelVersion, Path.parent, Path.fileName] at h
      · rintro ⟨dir, name, file', h, -⟩
        have := congrArg List.length h
        simp at this
    · have e : kernelVersion ((dir ++ [name]) ++ [file]) =
          if name = ['.', '.'] then none else (splitOn '-' name).getLast? := by
        by_cases hn : name = ['.', '.'] <;> simp [kernelVersion, Path.parent, Path.fileName, hn]
      rw [List.concat_eq_append, List.concat_eq_append, e]
      by_cases hn : name = ['.', '.']
      · rw [if_pos hn]
        constructor
        · intro h; cases h
        · rintro ⟨dir', name', file', h, h1, -⟩
          have h' : dir ++ [name, file] = dir' ++ [name', file'] := by simpa using h
          have := (List.append_inj' h' rfl).2
          simp only [List.cons.injEq, and_true] at this
          exact absurd (this.1 ▸ hn) h1
      · rw [if_neg hn]
        constructor
        · intro h
          obtain ⟨v', h1, h2, h3⟩ := splitOn_last '-' name
          rw [h, Option.some.injEq] at h1
          subst h1
          exact ⟨dir, name, file, by simp, hn, h2, h3⟩
        · rintro ⟨dir', name', file', h, -, h2, h3⟩
          have h' : dir ++ [name, file] = dir' ++ [name', file'] := by simpa using h
          have := (List.append_inj' h' rfl).2
          simp only [List.cons.injEq, and_true] at this
          rw [this.1]
          rcases h3 with rfl | ⟨x, rfl⟩
          · rw [splitOn_not_mem h2]; rfl
          · exact splitOn_getLast '-' h2 x

theorem KernelVersion.model {kernel : Path} {v : Str} (h : KernelVersion kernel v) :
    ∃ v, kernelVersion kernel = some v ∧ KernelVersion kernel v :=
  ⟨v, kernelVersion_spec.2 h, h⟩

/-- A version is a part of the kernel's path. -/
theorem KernelVersion.mem {kernel : Path} {v : Str} (h : KernelVersion kernel v) :
    ∀ c ∈ v, ∃ n ∈ kernel, c ∈ n := by
  obtain ⟨dir, name, file, rfl, -, -, h⟩ := h
  intro c hc
  refine ⟨name, by simp, ?_⟩
  rcases h with rfl | ⟨x, rfl⟩
  · exact hc
  · simp [hc]

/-! ### The places of the specification are those of the model -/

theorem kernel_target (cfg : Config) {label : Str} (hl : '/' ∉ label) (h : Bytes) :
    cfg.paths.nixos.join (caName label h) = caFile cfg.esp label h := by
  rw [join_plain _ (caName_plain hl h), paths_nixos]
  simp [caFile, caName]

theorem stub_target {cfg : Config} {sha : Sha} {g : Gen} (hg : SafeGen g) (key : Bytes) (t : Nat) :
    cfg.paths.linux.join (stubName sha g key t) = entryFile cfg.esp (stubName sha g key t) := by
  rw [join_plain _ (stubName_plain hg key t), paths_linux]
  simp [entryFile]

theorem fallback_target (cfg : Config) : cfg.paths.efiFallback = fallbackFile cfg := by
  rw [paths_efiFallback, fallbackFile]
  cases cfg.arch <;> rfl

theorem systemd_target (cfg : Config) : cfg.paths.systemdBoot = systemdFile cfg := by
  rw [paths_systemdBoot, systemdFile]
  cases cfg.arch <;> rfl

theorem conf_target (cfg : Config) : cfg.paths.systemdBootLoaderConfig = confFile cfg :=
  paths_loaderConf cfg

theorem versionTag_no_slash {g : Gen} (hg : SafeGen g) : '/' ∉ g.versionTag := by
  unfold Gen.versionTag Gen.describeSpecialisation
  simp only [List.mem_append, not_or]
  refine ⟨slash_not_mem_toDec _, ?_⟩
  split
  · next s hs =>
    simp only [List.mem_cons, not_or]
    exact ⟨by decide, hg.name s hs⟩
  · simp

theorem measurement_target (p : Path) {g : Gen} (hg : SafeGen g) :
    (PcrlockPaths.new p).lanzabooteMeasurement g.versionTag = measurementFile p g := by
  unfold PcrlockPaths.lanzabooteMeasurement
  rw [join_plain, pcrlock_lanzaboote]
  · simp [measurementFile]
  · refine .of_length ?_ ?_
    · simp [lit]
    · simp only [List.mem_append, not_or]
      exact ⟨versionTag_no_slash hg, by decide⟩

theorem next_target (p : Path) :
    (PcrlockPaths.new p).bootloaderMeasurement (lit "next") = nextFile p := by
  unfold PcrlockPaths.bootloaderMeasurement
  rw [join_plain _ (.of_length (by decide) (by decide)), pcrlock_bootloader]
  simp only [List.append_assoc, nextFile]
  rfl

theorem current_target (p : Path) :
    (PcrlockPaths.new p).bootloaderMeasurement (lit "current") = currentFile p := by
  unfold PcrlockPaths.bootloaderMeasurement
  rw [join_plain _ (.of_length (by decide) (by decide)), pcrlock_bootloader]
  simp only [List.append_assoc, currentFile]
  rfl

theorem source_target (cfg : Config) : cfg.systemdBootSource = loaderSource cfg := by
  unfold Config.systemdBootSource loaderSource
  rw [join_plain _ (systemdFilename_plain _)]
  have : cfg.systemd.join (lit "lib/systemd/boot/efi") =
      cfg.systemd ++ [lit "lib", lit "systemd", lit "boot", lit "efi"] :=
    join_relative cfg.systemd [lit "lib", lit "systemd", lit "boot", lit "efi"]
      (by unfold Component; decide)
  rw [this, List.append_assoc]
  cases cfg.arch <;> rfl

/-! ### A classification of the paths the installer writes -/

/-- The last two components. -/
def lastTwo (p : Path) : Option (Str × Str) :=
  match p.reverse with
  | n :: d :: _ => some (d, n)
  | _ => none

@[simp] theorem lastTwo_snoc2 (p : Path) (d n : Str) : lastTwo (p ++ [d, n]) = some (d, n) := by
  simp [lastTwo]

theorem caFile_lastTwo (esp : Path) (l : Str) (h : Bytes) :
    lastTwo (caFile esp l h) = some (lit "nixos", caName l h) := by
  have : caFile esp l h = (esp ++ [lit "EFI"]) ++ [lit "nixos", caName l h] := by
    simp [caFile, caName]
  rw [this, lastTwo_snoc2]

theorem entryFile_lastTwo (esp : Path) (n : Str) :
    lastTwo (entryFile esp n) = some (lit "Linux", n) := by
  have : entryFile esp n = (esp ++ [lit "EFI"]) ++ [lit "Linux", n] := by simp [entryFile]
  rw [this, lastTwo_snoc2]

theorem caFile_snoc (esp : Path) (l : Str) (h : Bytes) :
    caFile esp l h = (esp ++ [lit "EFI", lit "nixos"]) ++ [caName l h] := by
  simp [caFile, caName]

theorem entryFile_snoc (esp : Path) (n : Str) :
    entryFile esp n = (esp ++ [lit "EFI", lit "Linux"]) ++ [n] := by simp [entryFile]

theorem fallbackFile_snoc (cfg : Config) :
    fallbackFile cfg = (cfg.esp ++ [lit "EFI", lit "BOOT"]) ++ [cfg.arch.efiFallbackFilename] := by
  rw [← fallback_target, paths_efiFallback]; simp

theorem systemdFile_snoc (cfg : Config) :
    systemdFile cfg = (cfg.esp ++ [lit "EFI", lit "systemd"]) ++ [cfg.arch.systemdFilename] := by
  rw [← systemd_target, paths_systemdBoot]; simp

theorem confFile_snoc (cfg : Config) :
    confFile cfg = (cfg.esp ++ [lit "loader"]) ++ [lit "loader.conf"] := by simp [confFile]

theorem fallbackFile_lastTwo (cfg : Config) :
    lastTwo (fallbackFile cfg) = some (lit "BOOT", cfg.arch.efiFallbackFilename) := by
  have : fallbackFile cfg = (cfg.esp ++ [lit "EFI"]) ++ [lit "BOOT", cfg.arch.efiFallbackFilename] := by
    rw [fallbackFile_snoc]; simp
  rw [this, lastTwo_snoc2]

theorem systemdFile_lastTwo (cfg : Config) :
    lastTwo (systemdFile cfg) = some (lit "systemd", cfg.arch.systemdFilename) := by
  have : systemdFile cfg = (cfg.esp ++ [lit "EFI"]) ++ [lit "systemd", cfg.arch.systemdFilename] := by
    rw [systemdFile_snoc]; simp
  rw [this, lastTwo_snoc2]

theorem confFile_lastTwo (cfg : Config) :
    lastTwo (confFile cfg) = some (lit "loader", lit "loader.conf") := by
  rw [confFile, lastTwo_snoc2]

theorem measurementFile_lastTwo (p : Path) (g : Gen) : lastTwo (measurementFile p g) =
    some (lit "635-lanzaboote.pcrlock.d", g.versionTag ++ lit ".pcrlock") := by
  rw [measurementFile, lastTwo_snoc2]

theorem nextFile_lastTwo (p : Path) : lastTwo (nextFile p) =
    some (lit "630-bootloader.pcrlock.d", lit "next.pcrlock") := by
  rw [nextFile, lastTwo_snoc2]

theorem currentFile_lastTwo (p : Path) : lastTwo (currentFile p) =
    some (lit "630-bootloader.pcrlock.d", lit "current.pcrlock") := by
  rw [currentFile, lastTwo_snoc2]

theorem caFile_tmp_ne (esp : Path) {l : Str} (hl : '/' ∉ l) (h : Bytes) :
    tmpOf (caFile esp l h) ≠ caFile esp l h := by
  rw [caFile_snoc]
  exact tmpOf_ne (caName_plain hl h) (caName_not_tmp l h)

theorem entryFile_tmp_ne (esp : Path) {sha : Sha} {g : Gen} (hg : SafeGen g) (key : Bytes) (t : Nat) :
    tmpOf (entryFile esp (stubName sha g key t)) ≠ entryFile esp (stubName sha g key t) := by
  rw [entryFile_snoc]
  exact tmpOf_ne (stubName_plain hg key t) (stubName_not_tmp sha g key t)

theorem fallbackFile_tmp_ne (cfg : Config) : tmpOf (fallbackFile cfg) ≠ fallbackFile cfg := by
  rw [fallbackFile_snoc]
  exact tmpOf_ne (efiFallbackFilename_plain _) (efiFallback_not_tmp _)

theorem systemdFile_tmp_ne (cfg : Config) : tmpOf (systemdFile cfg) ≠ systemdFile cfg := by
  rw [systemdFile_snoc]
  exact tmpOf_ne (systemdFilename_plain _) (systemdFilename_not_tmp _)

theorem confFile_tmp_ne (cfg : Config) : tmpOf (confFile cfg) ≠ confFile cfg := by
  rw [confFile_snoc]
  exact tmpOf_ne loaderConf_plain loaderConf_not_tmp

end Verif.Tool
