import Verif.Spec.Spelling
import Verif.Lemmas.Spelling
import Verif.Props.InstallFiles
import Verif.Lemmas.Sound
/-!
# C74: how the names of the installed files are spelled
-/
namespace Verif.Spelling
open Verif StubName Generation Tool

/-- **C74** (entries). -/
theorem C74_entry_name (sha : Sha) (g : Gen) (key : Bytes) (tries : Nat) (name : Str) :
    name = stubName sha g key tries ↔
      EntryName g.version g.specialisationName (sha.hash (utf8 (document g.spec.toplevel key))) tries name := by
  have key : EntryName g.version g.specialisationName (sha.hash (utf8 (document g.spec.toplevel key))) tries
      (stubName sha g key tries) := by
    refine ⟨_, base32_spec _, ?_⟩
    unfold stubName stubPrefix
    rw [← stubInputs_eq, ← toDec_eq_decimal, ← toDec_eq_decimal]
    cases g.specialisationName <;> by_cases ht : tries = 0 <;> simp [ht, lit, Nat.pos_iff_ne_zero]
  constructor
  · rintro rfl; exact key
  · rintro ⟨d, hd, e⟩
    obtain ⟨d', hd', e'⟩ := key
    rw [e, e', hd.unique hd']

/-- Kernels and initrds. -/
theorem contentName_iff (esp : Path) (kind v : Str) (h : Bytes) (p : Path) :
    p = caFile esp (kind ++ lit "-" ++ v) h ↔
      ∃ name, ContentName kind v h name ∧ p = esp ++ [lit "EFI", lit "nixos", name] := by
  have key : ContentName kind v h (kind ++ lit "-" ++ v ++ lit "-" ++ base32 h ++ lit ".efi") :=
    ⟨_, base32_spec h, by unfold lit; rfl⟩
  constructor
  · rintro rfl; exact ⟨_, key, rfl⟩
  · rintro ⟨n, ⟨d, hd, e⟩, rfl⟩
    have : d = base32 h := hd.unique (base32_spec h)
    rw [e, this]
    unfold caFile lit
    rfl

/-- **C74** (measurements). -/
theorem C74_measurement_name (pcrlock : Path) (g : Gen) :
    measurementFile pcrlock g = pcrlock ++ [lit "635-lanzaboote.pcrlock.d",
      Spelling.measurementName g.version g.specialisationName] := by
  unfold measurementFile Spelling.measurementName Gen.versionTag Gen.describeSpecialisation
  rw [toDec_eq_decimal]
  cases g.specialisationName <;> rfl

/-- **C74** (base 32). A byte string has one spelling, and a spelling stands for one byte string. -/
theorem C74_base32 (b : Bytes) : (∃ s, Base32 b s ∧ ∀ t, Base32 b t → t = s) ∧
    ∀ b' s, Base32 b s → Base32 b' s → b = b' :=
  ⟨⟨_, base32_spec b, fun _ ht => ht.unique (base32_spec b)⟩, fun _ _ h h' => h.decodes h'⟩

theorem spelled {env : Env} {cfg : Config} {p : Path} {d : Bytes} (h : Wanted env cfg p d) :
    Spelled env cfg p d := by
  cases h with
  | kernel hg hv hd e =>
    obtain ⟨n, hn, e⟩ := (contentName_iff cfg.esp (lit "kernel") _ _ _).1 e
    exact .kernel hg hv hd hn e
  | initrd hg hv hd e =>
    obtain ⟨n, hn, e⟩ := (contentName_iff cfg.esp (lit "initrd") _ _ _).1 e
    exact .initrd hg hv hd hn e
  | entry hg hk hv hkd hid him hs e =>
    exact .entry hg hk hv hkd hid him hs ((C74_entry_name _ _ _ _ _).1 rfl) e
  | loader _ _ e => exact .other (e.elim Or.inl fun h => Or.inr (Or.inl h))
  | conf _ e => exact .other (Or.inr (Or.inr e))

/-- **C74**. Whatever file a run creates or changes, however far it gets, has one of the names of the
specification and the content that belongs to it. Temporary files and measurements are left out; for these
see C31 and `C74_measurement_name`. -/
theorem C74_names {env : Env} {cfg : Config} {fs : Fs} {done : List Change} (hs : SafeInput env cfg)
    (hk : KilledAfter env cfg fs done) {p : Path} {d : Bytes} (ht : ¬ IsTmp p) (hm : ¬ IsMeasurement cfg p)
    (hd : (fs.replay done).fileAt p = some d) (hn : fs.fileAt p ≠ some d) : Spelled env cfg p d := by
  rcases C35_atomic hs hk ht hm with e | ⟨d', hw, e⟩ | ⟨e, -⟩
  · exact absurd (e ▸ hd) hn
  · rw [hd, Option.some.injEq] at e
    subst e
    exact spelled hw
  · unfold Fs.fileAt at hd
    rw [e] at hd
    cases hd

/-- The test vectors of RFC 4648, section 10, in lower case and without padding. -/
example : Base32 [102, 111, 111] (lit "mzxw6") ∧ Base32 [102, 111, 111, 98, 97, 114] (lit "mzxw6ytboi") :=
  ⟨⟨by decide, 1, by decide, by decide⟩, ⟨by decide, 2, by decide, by decide⟩⟩

example : document [47, 110] [255] = lit "[[\"toplevel\",[47,110]],[\"public_key\",[255]]]" := by decide

/-- An entry with boot counting. -/
example : EntryName 18446744073709551615 (some (lit "games")) [102] 3
    (lit "nixos-generation-18446744073709551615-specialisation-games-my+3.efi") :=
  ⟨lit "my", ⟨by decide, 2, by decide, by decide⟩, by decide⟩

/-- The sample run changes a boot entry, the kernel of generation 1 and others. -/
example : ∃ p d, ¬ IsTmp p ∧ (Sample.disk.replay Sample.log).fileAt p = some d ∧ Sample.disk.fileAt p ≠ some d ∧
    p = entryFile Sample.cfg.esp (stubName Sample.sha ⟨1, some ⟨2025, 1, 31⟩, none, Sample.spec1⟩ [80, 75] 3) :=
  ⟨_, ((Sample.disk.replay Sample.log).fileAt (entryFile Sample.cfg.esp
      (stubName Sample.sha ⟨1, some ⟨2025, 1, 31⟩, none, Sample.spec1⟩ [80, 75] 3))).get (by decide +kernel),
    isEntry_not_tmp ⟨_, rfl, by decide +kernel, by decide +kernel⟩, by simp, by decide +kernel, rfl⟩

end Verif.Spelling
