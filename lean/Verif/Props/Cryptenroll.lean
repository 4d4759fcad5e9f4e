import Verif.Spec.Cryptenroll
import Verif.Props.Hook
import Verif.Props.MeasuredEntries
/-!
# C111: the policy that is enrolled for the disk encryption
-/
namespace Verif.Tool
open Verif StubName Generation

variable {env world : Env} {cfg : Config} {fs : Fs} {before : List (Env × Cli)}

/-- **C111** (what holds). If the installation on the last partition has worked, the policy that is enrolled covers all
generations that the installer was asked for. -/
theorem C111_covered_partial {makePolicy : Fs → Nat} {last : Env × Cli} {f : Fs}
    (he : autoCryptenroll makePolicy (before ++ [last]) fs = some f)
    (hs : ∀ cfg, AsTold last.1 last.2 cfg → SafeInput last.1 cfg ∧ Separate cfg)
    (hok : (program last.1 last.2 (diskAfter before fs)).1 = 0)
    (hb : (program last.1 last.2 (diskAfter before fs)).2.broken = [] ∨ Faultless last.1)
    {dir : Path} (hd : last.2.pcrlockDirectory = some dir) :
    ∃ cfg, AsTold last.1 last.2 cfg ∧ ∀ g, Considers last.1 cfg g → CoveredBy f dir g := by
  have ef : f = (program last.1 last.2 (diskAfter before fs)).2.fs := by
    unfold autoCryptenroll at he
    dsimp only at he
    split at he
    · rw [← Option.some.inj he, hook_disk]
      exact List.foldl_append ..
    · cases he
  by_cases h : AllGiven last.2
  · obtain ⟨cfg, t, ht, -, e, -, e', e''⟩ := C78_as_told (env := last.1) h (diskAfter before fs)
    refine ⟨cfg, ht, fun g hg => ?_⟩
    rw [ef, e']
    rw [e''] at hb
    exact C51_measurement_present (hs cfg ht).1.later (hs cfg ht).2 (e.1 hok) (hb.imp id fun h x => h (x + t))
      (Considers.later_iff.2 hg) (by rw [ht.pcrlock]; exact hd)
  · exact absurd hok (C78_refused h _).1

theorem Reliable.later {os : Os} (h : Reliable os) (k : Nat) : Reliable (os.later k) where
  fault := fun t => h.fault (t + k)
  list := fun t l => h.list (t + k) l

theorem MeasuringRun.later {esp dir : Path} {known : Gen → Bytes → Prop} {shows : Bytes → Bytes → Prop}
    (h : MeasuringRun world esp dir known shows env cfg) (k : Nat) :
    MeasuringRun world esp dir known shows (env.later k) cfg where
  proper := h.proper.later
  reliable := h.reliable.later k
  dir := h.dir
  shows := by
    rintro data m ⟨image, t, hsig, hl⟩
    refine h.shows data m ⟨image, t + k, ?_, hl⟩
    revert hsig
    unfold SignedBy
    cases cfg.signer with
    | empty => exact id
    | «local» pub priv => rintro ⟨t', hs⟩; exact ⟨t' + k, hs⟩

/-- **C111** (the measurements are the right ones). With one boot partition, if the installation works: each considered
generation has a boot entry, and the measurement from which the policy is made is the one of that very entry. -/
theorem C111_unlocks_partial {makePolicy : Fs → Nat} {call : Env × Cli} {dir : Path} {known : Gen → Bytes → Prop}
    {shows : Bytes → Bytes → Prop} {f : Fs} (hu : Unambiguous world known) (ht : TagsStand known)
    (hr : ∀ cfg, AsTold call.1 call.2 cfg → MeasuringRun world call.2.esp dir known shows call.1 cfg)
    (h0 : Orderly world call.2.esp dir known shows fs) (hc : Sound world call.2.esp fs)
    (he : autoCryptenroll makePolicy [call] fs = some f) (hok : (program call.1 call.2 fs).1 = 0)
    (hb : (program call.1 call.2 fs).2.broken = []) :
    ∃ cfg, AsTold call.1 call.2 cfg ∧ ∀ g, Considers call.1 cfg g →
      ∃ data m, EntryOn (call.1, cfg) f g data ∧ f.fileAt (measurementFile dir g) = some m ∧ shows data m := by
  have ef : f = (program call.1 call.2 fs).2.fs := by
    unfold autoCryptenroll at he
    dsimp only at he
    split at he
    · rw [← Option.some.inj he, hook_disk]; rfl
    · cases he
  by_cases h : AllGiven call.2
  · obtain ⟨cfg, t, hcfg, -, e, -, e', e''⟩ := C78_as_told (env := call.1) h fs
    refine ⟨cfg, hcfg, fun g hg => ?_⟩
    have hm := (hr cfg hcfg).later t
    have hs : Succeeded (call.1.later t) cfg fs := ⟨e.1 hok, by rw [← e'']; exact hb⟩
    have hg' : Considers (call.1.later t) cfg g := Considers.later_iff.2 hg
    have hw := hm.proper.inWorld
    have heq : cfg.esp = call.2.esp := hm.proper.esp
    have hc' : Sound (call.1.later t) cfg.esp fs := by rw [heq]; exact hc.congr hw.parse.symm hw.sha.symm
    obtain ⟨gens, mid, final, x⟩ := cleaned hm.proper.safe hm.proper.tools hm.proper.separate hm.reliable h0.tree hc' hs
    obtain ⟨n, key, data, kl, kh, il, ih, hk, hn, hd, -, -, -, r1, -, -⟩ := (x.inUse g (x.all g hg')).ex
    have hd' := (x.fileAt_entry hm.proper.separate r1).trans hd
    have hn' : IsNameOf world.uni world.sha g key n := by
      have := isNameOf hn
      rwa [hw.uni, hw.sha] at this
    obtain ⟨m, h1, h2⟩ := (run_end_orderly hu ht hm h0 hc hs).measured g key n data (hm.proper.known g key hg' hk) hn'
      (by rw [← heq]; exact hd')
    refine ⟨data, m, ⟨key, n, ?_, isNameOf hn, ?_⟩, ?_, h2⟩
    · revert hk
      cases cfg.signer <;> exact id
    · rw [ef, e']; exact hd'
    · rw [ef, e']; exact h1
  · exact absurd hok (C78_refused h _).1

/-- **C111** (the condition that is checked). Whether a policy is enrolled depends on `systemd-pcrlock make-policy` only,
not on what has become of the installation. -/
theorem C111_enrolled_iff {makePolicy : Fs → Nat} {calls : List (Env × Cli)} :
    (autoCryptenroll makePolicy calls fs).isSome ↔ makePolicy (diskAfter calls fs) = 0 := by
  unfold autoCryptenroll
  dsimp only
  rw [C107_status_measured]
  split <;> simp_all

end Verif.Tool

namespace Verif.Tool.Sample
open Verif StubName Generation

theorem full_unmeasured : (program fullDisk cliStrict disk0).1 = 1 ∧
    (program fullDisk cliStrict disk0).2.fs.get (measurementFile [lit "var", lit "pcrlock.d"] first) = none := by
  decide +kernel

/-- **C111** is false: the installation fails because the boot partition is full, and the policy is enrolled all the same. It
does not cover the first generation. -/
theorem C111_unmeasured : ∃ f, autoCryptenroll (fun _ => 0) [(fullDisk, cliStrict)] disk0 = some f ∧
    (program fullDisk cliStrict disk0).1 ≠ 0 ∧
    ∀ c, AsTold fullDisk cliStrict c → Considers fullDisk c first ∧
      c.pcrlockDirectory = some [lit "var", lit "pcrlock.d"] ∧ ¬ CoveredBy f [lit "var", lit "pcrlock.d"] first := by
  obtain ⟨h1, h2⟩ := full_unmeasured
  have e : autoCryptenroll (fun _ => 0) [(fullDisk, cliStrict)] disk0 = some (diskAfter [(fullDisk, cliStrict)] disk0) := by
    unfold autoCryptenroll
    dsimp only
    rw [hook_disk, if_pos (C107_status_measured _)]
  refine ⟨_, e, by rw [h1]; decide, fun c hc => ?_⟩
  rw [strict_cfg hc]
  have hg : Considers fullDisk cfg first := considers_iff.2 (by decide +kernel)
  refine ⟨hg, rfl, ?_⟩
  unfold CoveredBy
  rw [diskAfter_one, h2]
  simp

/-- The theorem that holds: after the installation on the second partition the policy covers the generations. -/
example {f : Fs} (he : autoCryptenroll (fun _ => 0) twoCalls disk0 = some f) :
    CoveredBy f [lit "var", lit "pcrlock.d"] first := by
  obtain ⟨c, h1, h2⟩ := C111_covered_partial (before := [(fullDisk, cliStrict)]) (last := (good, cliB)) (fs := disk0) he
    (fun c hc => by
      have hp : ProperRun good cliB.esp known good c := proper_calls (good, cliB) (by simp) c hc
      exact ⟨hp.safe, hp.separate⟩)
    secondOk (Or.inr faultless_good) (dir := [lit "var", lit "pcrlock.d"]) rfl
  rw [strictB_cfg h1] at h2
  have hg : Considers good cfgB first := considers_iff.2 (by decide +kernel)
  exact h2 first hg

theorem measuringPlain : MeasuringRun good cfg.esp lockDir known shown good cfg where
  proper := properRun _
  reliable := reliable_good
  dir := rfl
  shows := by
    rintro data m ⟨image, t, ⟨t', hs⟩, hl⟩
    have hl : some (76 :: image) = some m := hl
    exact ⟨image, hs, (Option.some.inj hl).symm⟩

theorem strict_works : (program good cliStrict disk0).1 = 0 ∧ (program good cliStrict disk0).2.broken = [] := by
  decide +kernel

/-- With one partition, the first generation is measured as it is on that partition. -/
example {f : Fs} (he : autoCryptenroll (fun _ => 0) [(good, cliStrict)] disk0 = some f) :
    ∃ data m, EntryOn (good, cfg) f first data ∧ f.fileAt (measurementFile lockDir first) = some m ∧ shown data m := by
  have w1 := strict_works.1
  have w2 := strict_works.2
  generalize hx : program good cliStrict disk0 = x at w1 w2
  obtain ⟨c, h1, h2⟩ := C111_unlocks_partial (world := good) (call := (good, cliStrict)) (fs := disk0) (known := known) (f := f)
    (makePolicy := fun _ => 0)
    (shows := shown) (dir := lockDir) unambiguous tagsStand
    (fun c hc => by rw [strict_cfg hc]; exact measuringPlain) orderly0 sound0 he
    (by dsimp only; rw [hx]; exact w1) (by dsimp only; rw [hx]; exact w2)
  rw [strict_cfg h1] at h2
  have hg : Considers good cfg first := considers_iff.2 first_mem
  exact h2 first hg

/-- And one is enrolled. -/
example : (autoCryptenroll (fun _ => 0) twoCalls disk0).isSome := C111_enrolled_iff.2 rfl

end Verif.Tool.Sample
