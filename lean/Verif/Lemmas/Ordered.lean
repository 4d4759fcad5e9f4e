import Verif.Spec.MeasuredEntries
import Verif.Lemmas.Untouched
/-!
# A boot entry is written after its measurement
-/
namespace Verif.Tool
open Verif StubName Generation

variable {env : Env} {cfg : Config} {g : Gen}

/-- There is no boot entry of `g`. -/
def NoEntry (env : Env) (cfg : Config) (g : Gen) (f : Fs) : Prop :=
  ∀ key n, KeyOf env cfg.signer key → isMatch env.uni (stubPrefix env.sha g key) n = true →
    f.fileAt (entryFile cfg.esp n) = none

/-- One change made when `g` is installed. -/
inductive OrderedStep (env : Env) (cfg : Config) (g : Gen) (f : Fs) (c : Change) : Prop
  | other {to : Path} {S : Bytes → Prop} (ht : Target env cfg (.one g) true to) (h : Replaces to S true f c)
  | measure {p : Path} (hp : cfg.pcrlockDirectory = some p) (hn : NoEntry env cfg g f)
      (h : Outputs (measurementFile p g) f c)
  | entry {key : Bytes} (hk : KeyOf env cfg.signer key)
      (h : Replaces (entryFile cfg.esp (stubName env.sha g key cfg.tries)) (fun out => ∃ image,
        SignedBy env cfg.signer image out ∧ ∀ p, cfg.pcrlockDirectory = some p → ∃ t m,
          env.lockPe t image = some m ∧ f.fileAt (measurementFile p g) = some m) false f c)

theorem Target.not_entry {ld : Scope} {to : Path} (h : Target env cfg ld true to) {p : Path}
    (hp : IsEntry cfg.esp p) : p ≠ to := by
  cases h with
  | kernel _ _ _ _ e => subst e; exact hp.ne_of_lastTwo (caFile_lastTwo _ _ _) (by decide)
  | initrd _ _ _ _ e => subst e; exact hp.ne_of_lastTwo (caFile_lastTwo _ _ _) (by decide)
  | conf e => subst e; exact hp.ne_of_lastTwo (confFile_lastTwo _) (by decide)

/-- Replacing a file leaves the boot entries with other names alone. -/
theorem Replaces.entry_same (hs : SafeInput env cfg) {ld : Scope} {to : Path} {S : Bytes → Prop} {dur : Bool}
    {f : Fs} {c : Change} (h : Replaces to S dur f c) (ht : Target env cfg ld dur to) {p : Path}
    (hp : IsEntry cfg.esp p) (hne : p ≠ to) : (f.apply c).fileAt p = f.fileAt p := by
  unfold Fs.fileAt
  rcases h.get p (fun e => isEntry_not_tmp hp (e ▸ (ht.tmp hs).1)) with e | ⟨e, e'⟩ | ⟨e, -⟩
  · rw [e]
  · rw [e, e']
  · exact absurd e hne

theorem Outputs.entry_same {f : Fs} {c : Change} {q p : Path} (h : Outputs q f c) (hne : p ≠ q) :
    (f.apply c).fileAt p = f.fileAt p := by
  unfold Fs.fileAt
  rcases h.get p hne with e | ⟨e, e'⟩
  · rw [e]
  · rw [e, e']

theorem installNewGeneration_ordered (hs : SafeInput env cfg) (hg : Considers env cfg g) :
    Triple (fun s => NoEntry env cfg g s.fs) (installNewGeneration env cfg g) (OrderedStep env cfg g)
      (fun _ _ => True) := by
  have hsafe := hs g hg
  have other : ∀ {to : Path} {S : Bytes → Prop} {f : Fs} {c : Change}, Target env cfg (.one g) true to →
      Replaces to S true f c → NoEntry env cfg g f → NoEntry env cfg g (f.apply c) := by
    intro to S f c ht h hn key n hk hm
    rw [h.entry_same hs ht (isMatch_isEntry hm) (ht.not_entry (isMatch_isEntry hm))]
    exact hn key n hk hm
  have ticks : Ticks fun s => NoEntry env cfg g s.fs := fun _ _ h => h
  unfold installNewGeneration
  refine Triple.bind (Triple.guarded env.os ticks) fun _ => ?_
  refine Triple.bind (ofOption_triple _) fun v => ?_
  refine fun s h0 => ?_
  obtain ⟨hR, hv⟩ := h0
  revert s
  suffices Triple (fun s => NoEntry env cfg g s.fs) _ _ _ from fun s => this s
  -- the kernel
  refine Triple.bind (Q := fun _ s => NoEntry env cfg g s.fs) ?_ fun kt => ?_
  · refine (Triple.carry (J := NoEntry env cfg g) (A' := OrderedStep env cfg g)
      (installNixosCa_triple env cfg _ (kernelVersion_label hsafe hv _ (by decide))) ?_).weaken
      (fun s h => ⟨trivial, h⟩) (fun _ _ h => h) fun _ _ h => h.2
    rintro f c j ⟨d, hd, h⟩
    have ht : Target env cfg (.one g) true (kernelFile env cfg v d) := .kernel hg rfl hv hd rfl
    exact ⟨other ht h j, .other ht h⟩
  -- the initrd
  refine Triple.bind (initrdLocation_triple env g.spec ticks) fun src => ?_
  refine fun s h0 => ?_
  obtain ⟨h0, hsrc⟩ := h0
  revert s
  suffices Triple (fun s => NoEntry env cfg g s.fs) _ _ _ from fun s => this s
  refine Triple.bind (Q := fun _ s => NoEntry env cfg g s.fs) ?_ fun it => ?_
  · refine (Triple.carry (J := NoEntry env cfg g) (A' := OrderedStep env cfg g)
      (installNixosCa_triple env cfg src (kernelVersion_label hsafe hv (lit "initrd-") (by decide))) ?_).weaken
      (fun s h => ⟨trivial, h⟩) (fun _ _ h => h) fun _ _ h => h.2
    rintro f c j ⟨d, hd, h⟩
    have ht : Target env cfg (.one g) true (initrdFile env cfg v d) := .initrd hg rfl hv (hsrc d hd) rfl
    exact ⟨other ht h j, .other ht h⟩
  -- the image
  refine Triple.bind (Q := fun _ s => NoEntry env cfg g s.fs)
    ((stubParameters_triple cfg g src _ _).post fun _ _ h => h.1) fun ps => ?_
  refine Triple.bind (Q := fun _ s => NoEntry env cfg g s.fs)
    ((lanzabooteImage_triple env _ ticks).post fun _ _ h => h.1) fun image => ?_
  -- the measurement
  refine Triple.bind (Q := fun _ s => ∀ p, cfg.pcrlockDirectory = some p → ∃ t m,
      env.lockPe t image = some m ∧ s.fs.fileAt (measurementFile p g) = some m) ?_ fun _ => ?_
  · unfold measureImage Config.pcrlock
    cases hp : cfg.pcrlockDirectory with
    | none => exact Triple.pure fun s _ p h => by cases h
    | some p =>
      dsimp only [Option.map_some]
      rw [measurement_target p hsafe]
      refine Triple.bind (Q := fun _ s => ∃ t m, env.lockPe t image = some m ∧
        s.fs.fileAt (measurementFile p g) = some m) ?_ fun _ => ?_
      · refine (Triple.carry (J := NoEntry env cfg g) (A' := OrderedStep env cfg g)
          (lockPe_triple env (.temp image) _) ?_).weaken (fun s h => ⟨trivial, h⟩) (fun _ _ h => h) ?_
        · intro f c j h
          refine ⟨fun key n hk hm => ?_, .measure hp j h⟩
          rw [h.entry_same (measurementFile_ne_entryFile _ _ _ _).symm]
          exact j key n hk hm
        · rintro _ s ⟨⟨t, d, m, h1, h2, h3⟩, -⟩
          cases h1
          exact ⟨t, m, h2, h3⟩
      · refine extendRoots_triple _ ?_
        rintro s ⟨t, m, h1, h2⟩ p' hp'
        cases hp'
        exact ⟨t, m, h1, h2⟩
  -- the stub
  refine Triple.bind (getPublicKey_triple env cfg.signer fun _ _ h => h) fun key => ?_
  rw [stub_target hsafe]
  refine fun s h0 => ?_
  obtain ⟨hP, hkey⟩ := h0
  revert s
  suffices Triple (fun s => ∀ p, cfg.pcrlockDirectory = some p → ∃ t m,
      env.lockPe t image = some m ∧ s.fs.fileAt (measurementFile p g) = some m) _ _ _ from fun s h => this s h
  refine Triple.bind (Q := fun _ s => ∀ p, cfg.pcrlockDirectory = some p → ∃ t m,
      env.lockPe t image = some m ∧ s.fs.fileAt (measurementFile p g) = some m)
    (extendRoots_triple _ fun s h => h) fun _ => ?_
  have hT : Target env cfg (.one g) false (entryFile cfg.esp (stubName env.sha g key cfg.tries)) :=
    .entry hg rfl hkey rfl
  refine (Triple.carry (J := fun f => ∀ p, cfg.pcrlockDirectory = some p → ∃ t m,
      env.lockPe t image = some m ∧ f.fileAt (measurementFile p g) = some m) (A' := OrderedStep env cfg g)
    (installSigned_triple env cfg.signer (.temp image) _ (hT.tmp hs).2.2) ?_).weaken
      (fun s h => ⟨trivial, h⟩) (fun _ _ h => h) fun _ _ _ => trivial
  intro f c jm r
  refine ⟨fun p hp => ?_, .entry hkey (r.imp fun x hx => ?_)⟩
  · obtain ⟨t, m, h1, h2⟩ := jm p hp
    exact ⟨t, m, h1, r.get_measurement hs hT ⟨p, hp, Or.inl ⟨g, rfl⟩⟩ h2⟩
  · obtain ⟨d, hd, hsg⟩ := hx
    cases hd
    exact ⟨image, hsg, jm⟩

/-- The changes of `install_generation`, if there is no boot entry. -/
theorem installGeneration_ordered (hs : SafeInput env cfg) (hg : Considers env cfg g) :
    Triple (fun s => NoEntry env cfg g s.fs) (installGeneration env cfg g)
      (fun f c => (∃ key, KeyOf env cfg.signer key) ∧ OrderedStep env cfg g f c) (fun _ _ => True) := by
  have hreg : Triple (fun _ => True) (registerInstalledGeneration env cfg g) (fun _ _ => False)
      (fun _ _ => ∃ key, KeyOf env cfg.signer key) := by
    have h := registerInstalledGeneration_triple (env := env) (cfg := cfg) (hs g hg) (A := fun _ _ => False)
    intro s hP
    obtain ⟨h1, h2, h3, -⟩ := h s hP
    refine ⟨h1, h2, h3, fun a e => ?_⟩
    unfold registerInstalledGeneration at e
    have hk := getPublicKey_triple env cfg.signer (A := fun _ _ => False) (P := fun _ => True) (fun _ _ h => h) s hP
    obtain ⟨-, -, -, hk⟩ := hk
    rcases hm : cfg.signer.getPublicKey env s with ⟨r, s'⟩
    rw [hm] at hk
    cases r with
    | ok key => exact ⟨key, (hk key rfl).2⟩
    | err x => simp [hm] at e
    | panic => simp [hm] at e
  unfold installGeneration
  refine Triple.bind (Q := fun _ s => (∃ key, KeyOf env cfg.signer key) ∧ NoEntry env cfg g s.fs) ?_ fun b => ?_
  · exact (Triple.carry (J := NoEntry env cfg g) hreg fun f c _ h => h.elim).pre fun s h => ⟨trivial, h⟩
  · refine fun s h => ?_
    obtain ⟨hk, hn⟩ := h
    revert s
    suffices Triple (fun s => NoEntry env cfg g s.fs) _ _ _ from fun s => this s
    refine Triple.ite (fun _ => Triple.pure fun _ _ => trivial) fun _ => ?_
    exact (installNewGeneration_ordered hs hg).steps fun f c h => ⟨hk, h⟩

/-- Two descriptions of the changes made by the same program hold together. -/
theorem Triple.both {α : Type} {m : M α} {P P' : State → Prop} {A A' : Fs → Change → Prop}
    {Q Q' : α → State → Prop} (h : Triple P m A Q) (h' : Triple P' m A' Q') :
    Triple (fun s => P s ∧ P' s) m (fun f c => A f c ∧ A' f c) (fun a s => Q a s ∧ Q' a s) := by
  intro s ⟨hs, hs'⟩
  obtain ⟨⟨l, h1, h2, h3⟩, h4, h5, h6⟩ := h s hs
  obtain ⟨⟨l', h1', -, h3'⟩, -, -, h6'⟩ := h' s hs'
  obtain rfl : l = l' := List.append_cancel_left (h1.symm.trans h1')
  refine ⟨⟨l, h1, h2, ?_⟩, h4, h5, fun a e => ⟨h6 a e, h6' a e⟩⟩
  clear h1 h1' h2 h4 h5 h6 h6'
  generalize s.fs = f at h3 h3'
  induction l generalizing f with
  | nil => trivial
  | cons c l ih => exact ⟨⟨h3.1, h3'.1⟩, ih _ h3.2 h3'.2⟩

end Verif.Tool
