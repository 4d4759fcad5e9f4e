import Verif.Lemmas.LoaderFiles
import Verif.Lemmas.SampleLoader
/-!
# C42: the boot loader is never downgraded
-/
namespace Verif.Tool
open Verif StubName Generation Version.Spec

variable {env : Env} {cfg : Config} {fs : Fs} {done : List Change}

/-- The facts about the boot loader that stay the same during a run that leaves it alone. -/
structure SameLoader (cfg : Config) (fs f : Fs) : Prop where
  binary : ∀ q, IsLoader cfg q → f.fileAt q = fs.fileAt q
  current : ∀ p, cfg.pcrlockDirectory = some p → f.fileAt (currentFile p) = fs.fileAt (currentFile p)

theorem SameLoader.fine {f : Fs} (h : SameLoader cfg fs f) (hl : LoaderFine env cfg fs) :
    LoaderFine env cfg f := by
  obtain ⟨⟨d, r, h1, h2, h3⟩, hm⟩ := hl
  refine ⟨⟨d, r, h1, h2, fun q hq => ?_⟩, fun p hp => by rw [h.current p hp]; exact hm p hp⟩
  rw [h.binary q hq]
  exact h3 q hq

/-- A change that touches none of the files of a boot loader that is as it should be. -/
def LeavesLoader (cfg : Config) (c : Change) : Prop :=
  (∀ q, IsLoader cfg q → ¬ Touches c q) ∧
  ∀ p, cfg.pcrlockDirectory = some p → ¬ Touches c (currentFile p)

theorem LeavesLoader.same {f : Fs} {c : Change} (h : LeavesLoader cfg c) (hs : SameLoader cfg fs f) :
    SameLoader cfg fs (f.apply c) :=
  ⟨fun q hq => by rw [untouched_file (h.1 q hq)]; exact hs.binary q hq,
    fun p hp => by rw [untouched_file (h.2 p hp)]; exact hs.current p hp⟩

/-- A change that touches a file of the boot loader only if it is missing. -/
theorem LoaderFine.leaves {f : Fs} {c : Change} (h : LoaderFine env cfg f)
    (ht : ∀ q, LoaderPath cfg q → Touches c q → f.get q = none) : LeavesLoader cfg c := by
  obtain ⟨⟨d, r, h1, h2, h3⟩, hm⟩ := h
  constructor
  · intro q hq t
    obtain ⟨data, r', h4, -⟩ := h3 q hq
    have := ht q (.binary hq) t
    rw [Fs.fileAt_eq_some.1 h4] at this
    cases this
  · intro p hp t
    have := ht _ (.current hp) t
    obtain ⟨x, hx⟩ := Option.isSome_iff_exists.1 (hm p hp)
    rw [Fs.fileAt_eq_some.1 hx] at this
    cases this

theorem run_leaves_loader (hs : SafeInput env cfg) (hsep : Separate cfg) (hf : Faultless env)
    (hl : LoaderFine env cfg fs) :
    ∀ c ∈ (run env cfg (start cfg fs)).2.log, LeavesLoader cfg c := by
  have step : ∀ f c, SameLoader cfg fs f →
      (∀ q, LoaderPath cfg q → Touches c q → f.get q = none) →
      SameLoader cfg fs (f.apply c) ∧ LeavesLoader cfg c := fun f c j h =>
    have h' := (j.fine hl).leaves h
    ⟨h'.same j, h'⟩
  have := (run_phases (env := env) (cfg := cfg) (fs := fs) hs (A := fun _ c => LeavesLoader cfg c)
    (J := SameLoader cfg fs) (K := SameLoader cfg fs)
    (fun f c j h => step f c j fun q hq ht => h.touches_loader hs id hq ht) ?_
    (fun f j => step f _ j fun q _ ht => ht.elim)
    (fun R hr f c j h => step f c j fun q hq ht => absurd ht (h.touches_loader hsep hr hq))
    ⟨fun _ _ => rfl, fun _ _ => rfl⟩).1
  · exact this.forall fun _ _ h => h
  · intro s hj
    obtain ⟨t, e⟩ := installSystemdBoot_kept hf (hj.fine hl).kept
    have hT : Target env cfg .conf true (confFile cfg) := .conf rfl
    have tr : Triple (fun s => True ∧ SameLoader cfg fs s.fs)
        (install env (.store cfg.loaderConfig) (confFile cfg)) (fun _ c => LeavesLoader cfg c)
        (fun _ s => SameLoader cfg fs s.fs) :=
      ((install_triple env (.store cfg.loaderConfig) _ (hT.tmp hs).2.2).carry
        (J := SameLoader cfg fs) (A' := fun _ c => LeavesLoader cfg c)
        fun f c j r => step f c j fun q hq ht => conf_touches_loader hs r hq ht).post
        fun _ _ h => h.2
    obtain ⟨a, b, c, d⟩ := tr { s with tick := t } ⟨trivial, hj⟩
    rw [← e] at a b c d
    exact ⟨a, b, c, d⟩

/-- **C42** (left untouched). If both installed binaries are validly signed and at least as new as the
available one and, with measured boot, measured, a run without I/O errors does not touch either of
them, nor the measurement. -/
theorem C42_loader_untouched (hs : SafeInput env cfg) (hsep : Separate cfg) (hf : Faultless env)
    (hl : LoaderFine env cfg fs) {q : Path}
    (hq : IsLoader cfg q ∨ ∃ p, cfg.pcrlockDirectory = some p ∧ q = currentFile p) :
    ∀ c ∈ (run env cfg (start cfg fs)).2.log, ¬ Touches c q := by
  intro c hc
  have := run_leaves_loader hs hsep hf hl c hc
  rcases hq with hq | ⟨p, hp, rfl⟩
  · exact this.1 q hq
  · exact this.2 p hp

/-- What may be said of a boot loader binary after a successful run. -/
theorem LoaderDone.both (ht : FaithfulTools env) {f : Fs} (h : LoaderDone env cfg f) {q : Path}
    (hq : IsLoader cfg q) : ∃ source data, env.store (loaderSource cfg) = some source ∧
      f.fileAt q = some data ∧
      (SignedBy env cfg.signer source data ∨ ValidSignature env cfg.signer data) ∧
      ∀ r r', HasRelease env source r → HasRelease env data r' → ¬ Older r' r := by
  rcases h with h | ⟨d, h⟩
  · have up : UpToDate env cfg f q := by
      rcases hq with rfl | rfl
      · exact h.fallback
      · exact h.systemd
    have sg : VerifiedAt env f q cfg.signer := by
      rcases hq with rfl | rfl
      · exact h.fallbackSigned
      · exact h.systemdSigned
    obtain ⟨data, d, v, w, h1, h2, h3, h4, h5⟩ := up
    refine ⟨d, data, h2, h1, Or.inr ?_, ?_⟩
    · revert sg
      cases cfg.signer with
      | empty => exact fun _ => trivial
      | «local» pub priv =>
        rintro ⟨data', h6, h7⟩
        rw [h1] at h6
        cases h6
        exact h7
    · intro r r' hr hr' ho
      rw [version_of_release hr] at h3
      rw [version_of_release hr'] at h4
      simp only [Res.ok.injEq] at h3 h4
      subst h3 h4
      rw [(not_gt_of_release hr hr').2 ho] at h5
      cases h5
  · have sg : ∃ out, f.fileAt q = some out ∧ SignedBy env cfg.signer d out := by
      rcases hq with rfl | rfl
      · exact h.fallback
      · exact h.systemd
    obtain ⟨out, h1, h2⟩ := sg
    refine ⟨d, out, h.source, h1, Or.inl h2, ?_⟩
    intro r r' hr hr'
    have : HasRelease env out r := by
      obtain ⟨hfit, lines, sec, k1, k2, k3, k4⟩ := hr
      refine ⟨hfit, lines, sec, k1, k2, ?_, k4⟩
      revert h2
      cases cfg.signer with
      | empty => intro h2; cases h2; exact k3
      | «local» pub priv => rintro ⟨t, h2⟩; exact ht.sbsign _ _ _ _ _ h2 _ _ k3
    rw [release_unique hr' this]
    exact not_older_self r

theorem LoaderDone.congr {f f' : Fs} (h : LoaderDone env cfg f)
    (hq : ∀ q, LoaderPath cfg q → f'.get q = f.get q) : LoaderDone env cfg f' := by
  have hf : ∀ q, LoaderPath cfg q → f'.fileAt q = f.fileAt q := fun q h => by
    unfold Fs.fileAt; rw [hq q h]
  have p1 : LoaderPath cfg (fallbackFile cfg) := .binary (Or.inl rfl)
  have p2 : LoaderPath cfg (systemdFile cfg) := .binary (Or.inr rfl)
  rcases h with ⟨h1, h2, h3, h4, h5⟩ | ⟨d, h1, h2, h3, h4⟩
  · refine Or.inl ⟨?_, ?_, ?_, ?_, fun p hp => by rw [hq _ (.current hp)]; exact h5 p hp⟩
    · unfold UpToDate; rw [hf _ p1]; exact h1
    · unfold UpToDate; rw [hf _ p2]; exact h2
    · revert h3
      cases cfg.signer with
      | empty => exact id
      | «local» pub priv => unfold VerifiedAt; rw [hf _ p1]; exact id
    · revert h4
      cases cfg.signer with
      | empty => exact id
      | «local» pub priv => unfold VerifiedAt; rw [hf _ p2]; exact id
  · refine Or.inr ⟨d, h1, by rw [hf _ p1]; exact h2, by rw [hf _ p2]; exact h3, fun p hp => ?_⟩
    rw [hf _ (.current hp)]; exact h4 p hp

/-- The state of the boot loader after a successful run. -/
theorem run_loaderDone (hs : SafeInput env cfg) (hsep : Separate cfg)
    (hok : (run env cfg (start cfg fs)).1 = .ok ()) :
    LoaderDone env cfg (run env cfg (start cfg fs)).2.fs := by
  refine (run_phases (env := env) (cfg := cfg) (fs := fs) hs (A := fun _ _ => True)
    (J := fun _ => True) (K := LoaderDone env cfg) (fun _ _ _ _ => ⟨trivial, trivial⟩)
    ((installSystemdBoot_triple (ld := .all) hs trivial).weaken (fun _ _ => trivial)
      (fun _ _ _ => trivial) fun _ _ h => h.1)
    (fun f h => ⟨h.congr fun q _ => rfl, trivial⟩) ?_ trivial).2 hok
  intro R hr f c h st
  exact ⟨h.congr fun q hq => untouched (st.touches_loader hsep hr hq), trivial⟩

/-- **C42** (after a run). After a successful run both binaries are there, each is the signer's output
for the available one or validly signed, and neither is older than the available one. -/
theorem C42_loader_current (hs : SafeInput env cfg) (hsep : Separate cfg) (ht : FaithfulTools env)
    (hok : (run env cfg (start cfg fs)).1 = .ok ()) {q : Path} (hq : IsLoader cfg q) :
    ∃ source data, env.store (loaderSource cfg) = some source ∧
      (run env cfg (start cfg fs)).2.fs.fileAt q = some data ∧
      (SignedBy env cfg.signer source data ∨ ValidSignature env cfg.signer data) ∧
      ∀ r r', HasRelease env source r → HasRelease env data r' → ¬ Older r' r :=
  (run_loaderDone hs hsep hok).both ht hq

end Verif.Tool

namespace Verif.Tool.Sample
open Verif Version.Spec

/-- The available systemd-boot is 256. -/
def env256 (fault : Nat → Bool) : Env := envWith fault (systemdBoot (.full 256))

/-- Installed: 256 and a release candidate of 257. -/
def newDisk : Fs := diskWith (signed (.full 256)) (signed (.rc 257 1)) [76]

theorem readSection_with (fault : Nat → Bool) (data : Bytes) (name : Str) :
    readSectionData (env256 fault) data name = readSectionData good data name := rfl

theorem verify_with (fault : Nat → Bool) (data : Bytes) :
    ValidSignature (env256 fault) cfg1.signer data ↔ data.getLast? = some 83 := by
  show decide _ = true ↔ _
  rw [decide_eq_true_iff]

theorem release256 (fault : Nat → Bool) :
    HasRelease (env256 fault) (systemdBoot (.full 256)) (.full 256) ∧
    HasRelease (env256 fault) (signed (.full 256)) (.full 256) ∧
    HasRelease (env256 fault) (signed (.rc 257 1)) (.rc 257 1) :=
  ⟨hasRelease_of (by simp [Fits]) (by decide +kernel)
      (by rw [readSection_with]; decide +kernel),
    hasRelease_of (by simp [Fits]) (by decide +kernel)
      (by rw [readSection_with]; decide +kernel),
    hasRelease_of (by simp [Fits]) (by decide +kernel)
      (by rw [readSection_with]; decide +kernel)⟩

theorem newDisk_fine (fault : Nat → Bool) : LoaderFine (env256 fault) cfg1 newDisk where
  installed := by
    refine ⟨systemdBoot (.full 256), .full 256, rfl, (release256 fault).1, ?_⟩
    rintro q (rfl | rfl)
    · exact ⟨_, _, by decide +kernel, (release256 fault).2.1, not_older_self _, (verify_with _ _).2 (by decide +kernel)⟩
    · refine ⟨_, _, by decide +kernel, (release256 fault).2.2, ?_, (verify_with _ _).2 (by decide +kernel)⟩
      intro h
      cases h with
      | rc_major h e => rcases e with e | ⟨_, e⟩ | ⟨_, e⟩ <;> cases e; omega
  measured := by
    intro p hp
    cases (show cfg1.pcrlockDirectory = some [lit "var", lit "pcrlock.d"] from rfl).symm.trans hp
    decide +kernel

theorem calm256 : Faultless (env256 fun _ => false) := fun _ => rfl

/-- Both installed binaries are left alone, although the second one is another release. -/
example : ∀ c ∈ (run (env256 fun _ => false) cfg1 (start cfg1 newDisk)).2.log,
    ¬ Touches c (systemdFile cfg1) :=
  C42_loader_untouched (env := env256 fun _ => false) (cfg := cfg1) (fs := newDisk)
    (safe1 (fun _ => false) (systemdBoot (.full 256))) separate1 calm256 (newDisk_fine _)
    (Or.inl (Or.inr rfl))

/-- Something is installed nevertheless. -/
example : (run (env256 fun _ => false) cfg1 (start cfg1 newDisk)).1 = .ok () ∧
    (run (env256 fun _ => false) cfg1 (start cfg1 newDisk)).2.log.length > 30 := by decide +kernel

/-- With I/O errors the boot loader may be downgraded: if the file system fails to say whether the
binary exists, it is taken for missing. -/
theorem C42_needs_faultless : ∃ fault, LoaderFine (env256 fault) cfg1 newDisk ∧
    (run (env256 fault) cfg1 (start cfg1 newDisk)).1 = .ok () ∧
    (run (env256 fault) cfg1 (start cfg1 newDisk)).2.fs.fileAt (systemdFile cfg1) =
      some (signed (.full 256)) :=
  ⟨fun t => t == 100, newDisk_fine _, by decide +kernel, by decide +kernel⟩

/-- Installed: 255 and 257. -/
def mixedDisk : Fs := diskWith (signed (.full 255)) (signed (.full 257)) [76]

/-- The binaries are replaced together: if one of them is too old, the other one may be
downgraded. -/
theorem C42_pair_replaced_together :
    mixedDisk.fileAt (systemdFile cfg1) = some (signed (.full 257)) ∧
    (run (env256 fun _ => false) cfg1 (start cfg1 mixedDisk)).2.fs.fileAt (systemdFile cfg1) =
      some (signed (.full 256)) := by decide +kernel

theorem mixed_ok : (run (env256 fun _ => false) cfg1 (start cfg1 mixedDisk)).1 = .ok () := by
  decide +kernel

example : ∃ source data, (env256 fun _ => false).store (loaderSource cfg1) = some source ∧
    (run (env256 fun _ => false) cfg1 (start cfg1 mixedDisk)).2.fs.fileAt (systemdFile cfg1) = some data ∧
    (SignedBy (env256 fun _ => false) cfg1.signer source data ∨
      ValidSignature (env256 fun _ => false) cfg1.signer data) ∧
    ∀ r r', HasRelease (env256 fun _ => false) source r → HasRelease (env256 fun _ => false) data r' →
      ¬ Older r' r :=
  C42_loader_current (env := env256 fun _ => false) (cfg := cfg1) (fs := mixedDisk)
    (safe1 (fun _ => false) (systemdBoot (.full 256))) separate1
    (faithfulWith (fun _ => false) (systemdBoot (.full 256))) mixed_ok (Or.inr rfl)

end Verif.Tool.Sample
