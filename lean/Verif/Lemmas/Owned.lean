import Verif.Lemmas.RunFacts
/-!
# The installer touches only its own files
-/
namespace Verif.Tool
open Verif StubName Generation

variable {env : Env} {cfg : Config} {ld : Scope}

theorem fileStem_efi {a : Str} (h : a ≠ []) : fileStem (a ++ lit ".efi") = a := by
  have e : (lit ".efi" : Str) = ['.', 'e', 'f', 'i'] := by decide
  unfold fileStem
  have h1 : ((a ++ lit ".efi").reverse.dropWhile (· ≠ '.')).drop 1 = a.reverse := by
    rw [e]; simp
  simp only [h1]
  simp [h]

theorem stubName_nixos (sha : Sha) (g : Gen) (k : Bytes) (t : Nat) :
    lit "nixos-" <+: stubName sha g k t ∧ lit "nixos-" <+: fileStem (stubName sha g k t) := by
  obtain ⟨c, e, -⟩ := stubName_eq' sha g k t
  have hp : lit "nixos-" <+: stubPrefix sha g k := by
    have := List.isPrefixOf_iff_prefix.1 (nixos_isPrefixOf_stubPrefix sha g k [])
    rwa [List.append_nil] at this
  rw [e]
  refine ⟨hp.trans (List.prefix_append _ _), ?_⟩
  rw [← List.append_assoc, fileStem_efi]
  · exact hp.trans (List.prefix_append _ _)
  · intro h
    rw [List.append_eq_nil_iff] at h
    rw [h.1] at hp
    have := List.prefix_nil.1 hp
    exact absurd this (by decide)

theorem caFile_nixosDir (esp : Path) (l : Str) (h : Bytes) :
    caFile esp l h = nixosDir esp ++ [caName l h] := by simp [caFile, nixosDir, caName]

theorem entryFile_linuxDir (esp : Path) (n : Str) : entryFile esp n = linuxDir esp ++ [n] := by
  simp [entryFile, linuxDir]

theorem owned_nixos (n : Str) : Owned cfg (nixosDir cfg.esp ++ [n]) :=
  .nixos (List.prefix_append _ _) (by simp)

theorem Target.owned {dur : Bool} {q : Path} (hs : SafeInput env cfg) (h : Target env cfg ld dur q) :
    Owned cfg q ∧ Owned cfg (tmpOf q) := by
  have ht := h.tmp hs
  cases h with
  | @kernel g v d _ hg ho hv hd e =>
    subst e
    have hl := kernelVersion_label (hs g hg) hv (lit "kernel-") (by decide)
    rw [kernelFile, caFile_nixosDir]
    refine ⟨owned_nixos _, ?_⟩
    rw [tmpOf_snoc _ (caName_plain hl _).ne_dots]
    exact owned_nixos _
  | @initrd g v d _ hg ho hv hd e =>
    subst e
    have hl := kernelVersion_label (hs g hg) hv (lit "initrd-") (by decide)
    rw [initrdFile, caFile_nixosDir]
    refine ⟨owned_nixos _, ?_⟩
    rw [tmpOf_snoc _ (caName_plain hl _).ne_dots]
    exact owned_nixos _
  | @entry g key _ hg ho hk e =>
    subst e
    have hn := stubName_nixos env.sha g key cfg.tries
    rw [entryFile_linuxDir]
    refine ⟨.entry (List.prefix_refl _) hn.1 (List.prefix_refl _), ?_⟩
    rw [tmpOf_snoc _ (stubName_plain (hs g hg) _ _).ne_dots]
    exact .entry (List.prefix_refl _) (hn.2.trans (List.prefix_append _ _)) (List.prefix_refl _)
  | loader hl e =>
    rcases e with rfl | rfl
    · exact ⟨.fallback, .tmp (Or.inl rfl) (tmpOf_dropLast _) ht.1⟩
    · exact ⟨.systemd, .tmp (Or.inr (Or.inl rfl)) (tmpOf_dropLast _) ht.1⟩
  | conf e =>
    subst e
    exact ⟨.conf, .tmp (Or.inr (Or.inr rfl)) (tmpOf_dropLast _) ht.1⟩

theorem owned_measurement {p : Path} {g : Gen} (hp : cfg.pcrlockDirectory = some p) :
    Owned cfg (measurementFile p g) := by
  have : measurementFile p g = lockDir p ++ [g.versionTag ++ lit ".pcrlock"] := by
    simp [measurementFile, lockDir]
  rw [this]
  exact .lock hp (List.prefix_append _ _) (by simp)

theorem ancestors_prefix {p q : Path} (h : q ∈ ancestors p) : q <+: p := by
  unfold ancestors at h
  simp only [List.mem_map, List.mem_range] at h
  obtain ⟨i, -, rfl⟩ := h
  exact List.take_prefix _ _

/-- A directory is made only above a target. -/
theorem Replaces.dir {to : Path} {S : Bytes → Prop} {dur : Bool} {f : Fs} {c : Change}
    (h : Replaces to S dur f c) {q : Path} (h1 : f.get q = none)
    (h2 : (f.apply c).get q = some .dir) : q <+: to.dropLast := by
  cases h with
  | @mkdir x a b c =>
    by_cases e : q = x
    · subst e; exact ancestors_prefix a
    · rw [Fs.get_mkdir (ancestors_ne_nil a), if_neg e, h1] at h2; cases h2
  | create a b =>
    have : tmpOf to ≠ [] := by intro e; rw [e] at a; simp at a
    rw [Fs.get_create this] at h2
    by_cases e : q = tmpOf to
    · simp [e] at h2
    · simp [e, h1] at h2
  | write a =>
    rw [Fs.get_write (fileAt_isSome_ne a)] at h2
    by_cases e : q = tmpOf to
    · simp [e] at h2
    · simp [e, h1] at h2
  | fsync => simp [h1] at h2
  | @rename d a b c e g i =>
    have h1' := Fs.fileAt_ne_nil a
    have h2' : to ≠ [] := by intro x; rw [x] at e; simp at e
    rw [Fs.get_rename h1' h2'] at h2
    by_cases e' : q = to
    · simp [e'] at h2
    · by_cases e'' : q = tmpOf to
      · subst e''; simp [e'] at h2
      · simp [e', e'', h1] at h2
  | chmod => simp [h1] at h2
  | bits => simp [h1] at h2

theorem Outputs.dir {p : Path} {f : Fs} {c : Change} (h : Outputs p f c) {q : Path}
    (h1 : f.get q = none) (h2 : (f.apply c).get q = some .dir) : q <+: p.dropLast := by
  cases h with
  | @mkdir x a b c =>
    by_cases e : q = x
    · subst e; exact ancestors_prefix a
    · rw [Fs.get_mkdir (ancestors_ne_nil a), if_neg e, h1] at h2; cases h2
  | create a b =>
    have : p ≠ [] := by intro e; rw [e] at a; simp at a
    rw [Fs.get_create this] at h2
    by_cases e : q = p
    · simp [e] at h2
    · simp [e, h1] at h2
  | write a =>
    rw [Fs.get_write (fileAt_isSome_ne a)] at h2
    by_cases e : q = p
    · simp [e] at h2
    · simp [e, h1] at h2
  | chmod => simp [h1] at h2

/-- A step changes other files in no way; it may make directories for the installer's files. -/
theorem InstallStep.foreign (hs : SafeInput env cfg) {f : Fs} {c : Change}
    (h : InstallStep env cfg ld f c) {q : Path} (hq : ¬ Owned cfg q) :
    (f.apply c).get q = f.get q ∨
    (f.get q = none ∧ (f.apply c).get q = some .dir ∧ ∃ r, Owned cfg r ∧ q <+: r) := by
  cases h with
  | @replace to dur t r =>
    rcases r.get q (fun e => hq (e ▸ (t.owned hs).2)) with h | h | ⟨rfl, -⟩
    · exact Or.inl h
    · exact Or.inr ⟨h.1, h.2, to, (t.owned hs).1, (r.dir h.1 h.2).trans (List.dropLast_prefix _)⟩
    · exact absurd (t.owned hs).1 hq
  | @measured g p hg ho hp o =>
    rcases o.get q fun e => hq (e ▸ owned_measurement hp) with h | h
    · exact Or.inl h
    · exact Or.inr ⟨h.1, h.2, _, owned_measurement hp, (o.dir h.1 h.2).trans (List.dropLast_prefix _)⟩
  | @next p hl hp o =>
    rcases o.get q fun e => hq (e ▸ .bootloader hp (Or.inl rfl)) with h | h
    · exact Or.inl h
    · exact Or.inr ⟨h.1, h.2, _, .bootloader hp (Or.inl rfl), (o.dir h.1 h.2).trans (List.dropLast_prefix _)⟩
  | @current p t d m out out' hl hp hd hlm hf h1 h1s h2 h2s hn e =>
    subst e
    rw [Fs.get_rename (Fs.fileAt_ne_nil hf) (by simp [currentFile])]
    have e1 : q ≠ currentFile p := fun e => hq (e ▸ .bootloader hp (Or.inr rfl))
    have e2 : q ≠ nextFile p := fun e => hq (e ▸ .bootloader hp (Or.inl rfl))
    simp [e1, e2]
  | sync _ e => subst e; simp

/-- What garbage collection removes belongs to the installer. -/
theorem DoomedAny.owned {roots : List Path} {q p : Path} (fs : Fs)
    (hr : ∀ x ∈ (start cfg fs).roots, x ∈ roots) (h : DoomedAny cfg roots q) (hp : q <+: p) :
    Owned cfg p := by
  cases h with
  | nixos h =>
    refine .nixos (h.below.trans hp) ?_
    rintro rfl
    have : q = nixosDir cfg.esp := List.IsPrefix.eq_of_length_le hp h.below.length_le
    exact h.unused (this ▸ hr _ (nixosDir_root cfg fs))
  | linux h =>
    have hb := h.below
    have ha := h.admitted
    rcases List.eq_nil_or_concat q with rfl | ⟨q', n, e⟩
    · simp [linuxDir] at hb
    · rw [List.concat_eq_append] at e
      subst e
      rw [startsWithNixos_snoc] at ha
      rcases prefix_snoc_iff.1 hb with hb | hb
      · exact .entry hb ha.2 hp
      · exfalso
        have : linuxDir cfg.esp = (cfg.esp ++ [lit "EFI"]) ++ [lit "Linux"] := by simp [linuxDir]
        rw [this] at hb
        have := (List.append_inj' hb rfl).2
        simp only [List.cons.injEq, and_true] at this
        rw [← this] at ha
        exact absurd (List.isPrefixOf_iff_prefix.2 ha.2) (by decide)
  | @lock d hd h =>
    refine .lock hd (h.below.trans hp) ?_
    rintro rfl
    have : q = lockDir d := List.IsPrefix.eq_of_length_le hp h.below.length_le
    exact h.unused (this ▸ hr _ (lockDir_root fs hd))

end Verif.Tool
