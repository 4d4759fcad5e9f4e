import Verif.Spec.CaseFold
import Verif.Props.OtherEntries

/-!
# C66: a file system that ignores case

The ESP is a FAT file system. The files the installer writes there do not get in each other's way when the
case of letters is ignored.
-/

namespace Verif.Tool
open Verif StubName Generation BootCounting

variable {env : Env} {cfg : Config} {fs : Fs} {done : List Change} {fold : Char → Char}

/-- A lower-case ASCII character, or one without case. -/
def LowerChar (c : Char) : Prop := c.toNat < 128 ∧ c.toLower = c

theorem IgnoresCase.inj (hf : IgnoresCase fold) {c d : Char} (hc : LowerChar c) (hd : LowerChar d)
    (h : fold c = fold d) : c = d := by
  have := (hf.ascii c d hc.1 hd.1).1 h
  rwa [hc.2, hd.2] at this

theorem IgnoresCase.map_inj (hf : IgnoresCase fold) {a b : Str} (ha : ∀ c ∈ a, LowerChar c)
    (hb : ∀ c ∈ b, LowerChar c) (h : a.map fold = b.map fold) : a = b := by
  induction a generalizing b with
  | nil => cases b with
    | nil => rfl
    | cons d b => simp at h
  | cons c a ih =>
    cases b with
    | nil => simp at h
    | cons d b =>
      simp only [List.map_cons, List.cons.injEq] at h
      rw [hf.inj (ha c (by simp)) (hb d (by simp)) h.1,
        ih (fun x hx => ha x (by simp [hx])) (fun x hx => hb x (by simp [hx])) h.2]

theorem plain_base32 (b : Bytes) : ∀ c ∈ base32 b, LowerChar c := by
  intro c hc
  have : ∀ c ∈ b32Alphabet, c.toNat < 128 ∧ c.toLower = c := by decide
  exact this c (base32_mem b c hc)

theorem plain_toDec (n : Nat) : ∀ c ∈ toDec n, LowerChar c := by
  intro c hc
  have h := isDigitC_of (toDec_digits n c hc)
  refine ⟨by omega, ?_⟩
  have : ¬ (65 ≤ c.toNat ∧ c.toNat ≤ 90) := by omega
  unfold Char.toLower
  split
  · rename_i h'
    simp only [ge_iff_le, UInt32.le_iff_toNat_le] at h'
    exact absurd h' this
  · rfl

theorem base32_fold (hf : IgnoresCase fold) {a b : Bytes} (ha : a.length = 32) (hb : b.length = 32)
    (h : (base32 a).map fold = (base32 b).map fold) : a = b :=
  base32_inj ha hb (hf.map_inj (plain_base32 a) (plain_base32 b) h)

/-- The hash in the name of a kernel or initrd survives. -/
theorem caName_fold (hf : IgnoresCase fold) {l l' : Str} {a b : Bytes} (ha : a.length = 32)
    (hb : b.length = 32)
    (h : (l ++ lit "-" ++ base32 a ++ lit ".efi").map fold = (l' ++ lit "-" ++ base32 b ++ lit ".efi").map fold) :
    a = b := by
  simp only [List.map_append] at h
  have h1 := List.append_cancel_right h
  exact base32_fold hf ha hb (List.append_inj' h1 (by simp [base32_len ha, base32_len hb])).2

/-- The name of a boot entry tells the version, the specialisation up to its case, and the hash. -/
theorem stubName_fold (hf : IgnoresCase fold) {sha : Sha} {g g' : Gen} {k k' : Bytes} {t : Nat}
    (h : (stubName sha g k t).map fold = (stubName sha g' k' t).map fold) :
    g.version = g'.version ∧
      g.specialisationName.map (·.map fold) = g'.specialisationName.map (·.map fold) ∧
      sha.hash (hashed g k) = sha.hash (hashed g' k') := by
  rw [stubName_eq, stubName_eq] at h
  unfold entryName at h
  simp only [List.map_append] at h
  have h0 := List.append_cancel_right (List.append_cancel_right h)
  rw [stubPrefix_eq, stubPrefix_eq] at h0
  simp only [List.map_append, List.map_cons] at h0
  have h1 := List.append_cancel_left h0
  have hd (n : Nat) : fold '-' ∉ (toDec n).map fold := by
    intro hm
    obtain ⟨c, hc, e⟩ := List.mem_map.1 hm
    have := hf.inj (plain_toDec n c hc) (⟨by decide, by decide⟩ : LowerChar '-') e
    subst this
    exact not_mem_toDec (by decide) n hc
  obtain ⟨h2, h3⟩ := append_sep_inj h1 (hd _) (hd _)
  have h4 := List.append_inj' h3 (by
    unfold hashPart; simp [base32_len (sha.len _)])
  refine ⟨toDec_injective (hf.map_inj (plain_toDec _) (plain_toDec _) h2), ?_,
    base32_fold hf (sha.len _) (sha.len _) (by
      rw [Spelling.hashed_eq, Spelling.hashed_eq]; exact h4.2)⟩
  have h5 := h4.1
  unfold specPart at h5
  cases h6 : g.specialisationName with
  | none => cases h7 : g'.specialisationName with
    | none => rfl
    | some s => rw [h6, h7] at h5; simp [lit] at h5
  | some s => cases h7 : g'.specialisationName with
    | none => rw [h6, h7] at h5; simp [lit] at h5
    | some s' =>
      rw [h6, h7] at h5
      simp only [List.map_append] at h5
      have := List.append_cancel_left (List.append_cancel_right h5)
      simp [this]

theorem SamePlace.below {esp a b : Path} (h : SamePlace fold (esp ++ a) (esp ++ b)) :
    SamePlace fold a b := by
  unfold SamePlace at h ⊢
  simp only [List.map_append] at h
  exact List.append_cancel_left h

/-- Directories with different first letters are different. -/
theorem SamePlace.apart (hf : IgnoresCase fold) {e e' : Str} {c c' : Char} {n n' : Str} {x x' : Path}
    (h : SamePlace fold (e :: (c :: n) :: x) (e' :: (c' :: n') :: x')) (hc : c.toNat < 128)
    (hc' : c'.toNat < 128) (hne : c.toLower ≠ c'.toLower) : False := by
  unfold SamePlace at h
  simp only [List.map_cons, List.cons.injEq] at h
  exact hne ((hf.ascii c c' hc hc').1 h.2.1.1)

theorem SamePlace.name {a b : Str} {n n' : Str} (h : SamePlace fold [a, b, n] [a, b, n']) :
    n.map fold = n'.map fold := by
  unfold SamePlace at h
  simpa using h

/-- What a file the installer has a content for is. -/
inductive FileKind (env : Env) (cfg : Config) (p : Path) (d : Bytes) : Prop
  | ca {l : Str} (e : p = caFile cfg.esp l (env.sha.hash d))
  | entry {g : Gen} {key : Bytes} (hg : Considers env cfg g) (hk : KeyOf env cfg.signer key)
      (e : p = entryFile cfg.esp (stubName env.sha g key cfg.tries))
  | fallback (e : p = fallbackFile cfg)
  | systemd (e : p = systemdFile cfg)
  | conf (e : p = confFile cfg)

theorem Wanted.kind {p : Path} {d : Bytes} (h : Wanted env cfg p d) : FileKind env cfg p d := by
  cases h with
  | kernel _ _ _ e => exact .ca e
  | initrd _ _ _ e => exact .ca e
  | entry hg hk _ _ _ _ _ e => exact .entry hg hk e
  | loader _ _ e =>
    rcases e with e | e
    · exact .fallback e
    · exact .systemd e
  | conf _ e => exact .conf e

theorem keyOf_unique {s : Signer} {k k' : Bytes} (h : KeyOf env s k) (h' : KeyOf env s k') : k = k' := by
  cases s with
  | empty => exact h.trans h'.symm
  | «local» pub priv => exact Option.some.inj (h.symm.trans h')

/-- **C66** (the installer's files). Two files the installer writes to the ESP that are in the same place
for a file system that ignores case are the same file, or have the same content, or are the boot entries of
twins: the same version of the same system, under names of the specialisation that differ in their case.
Or there is a SHA-256 collision. -/
theorem C66_names_apart (hf : IgnoresCase fold) {p p' : Path} {d d' : Bytes} (h : Wanted env cfg p d)
    (h' : Wanted env cfg p' d') (hp : SamePlace fold p p') : Compatible env cfg fold p p' d d' := by
  have ap {a b : Path} (e : p = cfg.esp ++ a) (e' : p' = cfg.esp ++ b) : SamePlace fold a b := by
    rw [e, e'] at hp; exact hp.below
  cases h.kind with
  | ca e =>
    cases h'.kind with
    | ca e' =>
      have := caName_fold hf (env.sha.len _) (env.sha.len _) (ap e e').name
      by_cases hd : d = d'
      · exact Or.inr (Or.inl hd)
      · exact Or.inr (Or.inr (Or.inl ⟨hd, this⟩))
    | entry _ _ e' => exact ((ap e e').apart hf (by decide) (by decide) (by decide)).elim
    | fallback e' => exact ((ap e e').apart hf (by decide) (by decide) (by decide)).elim
    | systemd e' => exact ((ap e e').apart hf (by decide) (by decide) (by decide)).elim
    | conf e' => have := congrArg List.length (ap e e'); simp at this
  | @entry g key hg hk e =>
    cases h'.kind with
    | ca e' => exact ((ap e e').apart hf (by decide) (by decide) (by decide)).elim
    | @entry g' key' hg' hk' e' =>
      have hkk := keyOf_unique hk hk'
      subst hkk
      obtain ⟨h1, h2, h3⟩ := stubName_fold hf (ap e e').name
      refine Or.inr (Or.inr (Or.inr ⟨_, _, _, hg, hg', hk, e, e', ?_⟩))
      by_cases he : hashed g key = hashed g' key
      · exact Or.inl ⟨h1, (stubInputs_inj (utf8_injective (by
          rw [← Spelling.hashed_eq, ← Spelling.hashed_eq]; exact he))).1, h2⟩
      · exact Or.inr ⟨he, h3⟩
    | fallback e' => exact ((ap e e').apart hf (by decide) (by decide) (by decide)).elim
    | systemd e' => exact ((ap e e').apart hf (by decide) (by decide) (by decide)).elim
    | conf e' => have := congrArg List.length (ap e e'); simp at this
  | fallback e =>
    cases h'.kind with
    | ca e' => exact ((ap e e').apart hf (by decide) (by decide) (by decide)).elim
    | entry _ _ e' => exact ((ap e e').apart hf (by decide) (by decide) (by decide)).elim
    | fallback e' => exact Or.inl (e.trans e'.symm)
    | systemd e' => exact ((ap e e').apart hf (by decide) (by decide) (by decide)).elim
    | conf e' => have := congrArg List.length (ap e e'); simp at this
  | systemd e =>
    cases h'.kind with
    | ca e' => exact ((ap e e').apart hf (by decide) (by decide) (by decide)).elim
    | entry _ _ e' => exact ((ap e e').apart hf (by decide) (by decide) (by decide)).elim
    | fallback e' => exact ((ap e e').apart hf (by decide) (by decide) (by decide)).elim
    | systemd e' => exact Or.inl (e.trans e'.symm)
    | conf e' => have := congrArg List.length (ap e e'); simp at this
  | conf e =>
    cases h'.kind with
    | ca e' => have := congrArg List.length (ap e e'); simp at this
    | entry _ _ e' => have := congrArg List.length (ap e e'); simp at this
    | fallback e' => have := congrArg List.length (ap e e'); simp at this
    | systemd e' => have := congrArg List.length (ap e e'); simp at this
    | conf e' => exact Or.inl (e.trans e'.symm)

/-- **C66**. Whenever a run is killed, or ends: if it has changed the contents of two installed files that
are in the same place for a file system that ignores case, then these are the same file, or have the same
content, or are the boot entries of twins. Or there is a SHA-256 collision. -/
theorem C66_case_insensitive (hf : IgnoresCase fold) (hs : SafeInput env cfg)
    (hk : KilledAfter env cfg fs done) {p p' : Path} {d d' : Bytes} (ht : ¬ IsTmp p)
    (hm : ¬ IsMeasurement cfg p) (ht' : ¬ IsTmp p') (hm' : ¬ IsMeasurement cfg p')
    (hd : (fs.replay done).fileAt p = some d) (hnew : fs.fileAt p ≠ some d)
    (hd' : (fs.replay done).fileAt p' = some d') (hnew' : fs.fileAt p' ≠ some d')
    (hp : SamePlace fold p p') : Compatible env cfg fold p p' d d' := by
  have wanted {q : Path} {x : Bytes} (ht : ¬ IsTmp q) (hm : ¬ IsMeasurement cfg q)
      (hx : (fs.replay done).fileAt q = some x) (hnew : fs.fileAt q ≠ some x) : Wanted env cfg q x := by
    rcases C35_atomic hs hk ht hm with h | ⟨x', hw, h⟩ | ⟨h, -⟩
    · exact absurd (h.symm.trans hx) hnew
    · rw [hx] at h; cases h; exact hw
    · unfold Fs.fileAt at hx; rw [h] at hx; simp at hx
  exact C66_names_apart hf (wanted ht hm hd hnew) (wanted ht' hm' hd' hnew') hp

end Verif.Tool

namespace Verif.Tool.Sample
open Verif StubName Generation BootCounting

/-- FAT in the ASCII range. -/
theorem toLower_ignores : IgnoresCase Char.toLower := ⟨fun _ _ _ _ => Iff.rfl⟩

/-- Upper case does as well. -/
theorem toUpper_ignores : IgnoresCase Char.toUpper := ⟨by
  have h : ∀ a b : Fin 128, (Char.ofNat a).toUpper = (Char.ofNat b).toUpper ↔
      (Char.ofNat a).toLower = (Char.ofNat b).toLower := by decide +kernel
  intro c d hc hd
  have := h ⟨c.toNat, hc⟩ ⟨d.toNat, hd⟩
  simpa using this⟩

/-- The hypotheses of `C66_names_apart` can be met by two different paths: the same kernel under two
versions that differ in their case. -/
example (g g' : Gen) (hg : Considers good cfg g) (hg' : Considers good cfg g')
    (hk : g.spec.kernel = [lit "nix", lit "store", lit "x-linux-6.1RC2", lit "bzImage"])
    (hk' : g'.spec.kernel = [lit "nix", lit "store", lit "y-linux-6.1rc2", lit "bzImage"])
    (d : Bytes) (hd : good.store g.spec.kernel = some d) (hd' : good.store g'.spec.kernel = some d) :
    Compatible good cfg Char.toLower (caFile cfg.esp (lit "kernel-6.1RC2") (good.sha.hash d))
      (caFile cfg.esp (lit "kernel-6.1rc2") (good.sha.hash d)) d d :=
  C66_names_apart toLower_ignores
    (.kernel (v := lit "6.1RC2") hg (kernelVersion_spec.1 (by rw [hk]; decide)) hd rfl)
    (.kernel (v := lit "6.1rc2") hg' (kernelVersion_spec.1 (by rw [hk']; decide)) hd' rfl) (by
      have h : (lit "kernel-6.1RC2").map Char.toLower = (lit "kernel-6.1rc2").map Char.toLower := by decide
      unfold SamePlace caFile
      simp only [List.map_append, List.map_cons, List.map_nil, h])

/-- The names of two entries with the same hash can differ in the case only. -/
example : (stubName sha { older with specialisationName := some (lit "Games") } [1] 3).map Char.toLower =
      (stubName sha { older with specialisationName := some (lit "games") } [1] 3).map Char.toLower ∧
    stubName sha { older with specialisationName := some (lit "Games") } [1] 3 ≠
      stubName sha { older with specialisationName := some (lit "games") } [1] 3 := by decide +kernel

/-- A run, with the files as they are at any time. -/
example (done : List Change) (hk : KilledAfter good cfg disk0 done) (p p' : Path) (d d' : Bytes)
    (ht : ¬ IsTmp p) (hm : ¬ IsMeasurement cfg p) (ht' : ¬ IsTmp p') (hm' : ¬ IsMeasurement cfg p')
    (hd : (disk0.replay done).fileAt p = some d) (hd' : (disk0.replay done).fileAt p' = some d')
    (hnew : disk0.fileAt p ≠ some d) (hnew' : disk0.fileAt p' ≠ some d')
    (hp : SamePlace Char.toUpper p p') : Compatible good cfg Char.toUpper p p' d d' :=
  C66_case_insensitive toUpper_ignores safe_good hk ht hm ht' hm' hd hnew hd' hnew' hp

example : (run good cfg (start cfg disk0)).2.fs.fileAt (fallbackFile cfg) ≠ none ∧
    (run good cfg (start cfg disk0)).2.fs.fileAt (fallbackFile cfg) ≠ disk0.fileAt (fallbackFile cfg) ∧
    (run good cfg (start cfg disk0)).2.fs.fileAt
      (entryFile cfg.esp (stubName good.sha older [80, 75] 3)) ≠ none ∧
    disk0.fileAt (entryFile cfg.esp (stubName good.sha older [80, 75] 3)) = none := by decide +kernel

end Verif.Tool.Sample
