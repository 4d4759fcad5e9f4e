import Verif.Spec.CannotSign
import Verif.Props.PowerLossEarly
import Verif.Props.InstallSigned
import Verif.Props.CollectKilled
/-!
# C109: a signing key that cannot be used does no harm
-/
namespace Verif.Tool
open Verif Generation

variable {env world : Env} {cfg : Config} {fs : Fs} {done : List Change}

theorem CannotSign.binary (h : CannotSign env cfg) {p : Path} {d : Bytes} : ¬ SignedBinary env cfg p d := by
  intro hb
  cases hb with
  | entry _ _ _ _ _ _ hs _ => exact h _ _ hs
  | loader _ _ hs => exact h _ _ hs

/-- **C109** (at any moment). At every moment of a run that cannot sign, each boot entry and each boot loader is as it
was before the run, except those that garbage collection has removed. -/
theorem C109_unchanged (h : CannotSign env cfg) (hs : SafeInput env cfg) (hk : KilledAfter env cfg fs done) {p : Path}
    (hp : IsEntry cfg.esp p ∨ IsLoader cfg p) :
    (fs.replay done).fileAt p = fs.fileAt p ∨ ((fs.replay done).get p = none ∧ .collecting ∈ done) := by
  have hp : Executable cfg p := hp
  rcases C35_atomic hs hk hp.not_tmp hp.not_measurement with e | ⟨d, hw, -⟩ | e
  · exact .inl e
  · exact absurd (hw.signed hp) h.binary
  · exact .inr e

/-- **C109** (what could be booted). If garbage collection does not start, which it does only when all considered
generations are installed, each boot entry that booted a generation before the run boots it at every moment of a run that
cannot sign. -/
theorem C109_still_boots (h : CannotSign env cfg) (hs : SafeInput env cfg) (hsha : env.sha = world.sha)
    (hk : KilledAfter env cfg fs done) (hn : .collecting ∉ done) {g : Gen} {p : Path} (hp : IsEntry cfg.esp p)
    (hb : Boots world cfg.esp fs g p) : Boots world cfg.esp (fs.replay done) g p := by
  obtain ⟨a, b, gens, final, sh⟩ := run_plain hs fs
  rcases sh.phases hk with ⟨-, -, hch⟩ | ⟨hcol, -⟩
  case inr => exact absurd hcol hn
  obtain ⟨data, kernel, initrd, v, h1, h2, h3, h4⟩ := hb
  have file : ∀ {l : Str} {x : Bytes}, Present world fs (caFile cfg.esp l x) x → x.length = 32 →
      Present world (fs.replay done) (caFile cfg.esp l x) x := by
    rintro l x ⟨d, x1, x2⟩ hlen
    have hp0 : Present env fs (caFile cfg.esp l x) x := ⟨d, x1, by rw [hsha]; exact x2⟩
    obtain ⟨d, y1, y2⟩ := hch.inv (J := fun f => Present env f (caFile cfg.esp l x) x) hp0
      fun f c j st => st.present hs hlen j
    exact ⟨d, y1, by rw [← hsha]; exact y2⟩
  refine ⟨data, kernel, initrd, v, ?_, h2, file h3 (world.sha.len _), file h4 (world.sha.len _)⟩
  rcases C109_unchanged h hs hk (.inl hp) with e | ⟨-, e⟩
  · rw [e, h1]
  · exact absurd e hn

/-- **C109** (power failure). The same if the power fails, provided that the boot entries and what they refer to were on
the disk before the run. -/
theorem C109_power_failure (h : CannotSign env cfg) (hs : SafeInput env cfg) (hsha : env.sha = world.sha)
    (hd : OnDisk cfg.esp fs) (hk : KilledAfter env cfg fs done) (hn : .collecting ∉ done) {fs' : Fs}
    (hl : AfterPowerLoss fs done fs') {g : Gen} {p : Path} (hp : IsEntry cfg.esp p) (hb : Boots world cfg.esp fs g p) :
    Boots world cfg.esp fs' g p :=
  boots_after_power_loss hs hsha hd hp hb hk hn
    (fun _ _ hx => h.binary (C49_signed hs (.inl hp) (hk.subset hx) ⟨rfl, rfl⟩)) hl

/-- **C109** (success). A run that cannot sign succeeds only if each considered generation has a boot entry that was there
before the run. -/
theorem C109_success (h : CannotSign env cfg) {known : Gen → Bytes → Prop} (hr : ProperRun world cfg.esp known env cfg)
    (hu : Unambiguous world known) (hc : Sound world cfg.esp fs) (hj : Coherent world cfg.esp known fs)
    (hok : (run env cfg (start cfg fs)).1 = .ok ())
    (hb : (run env cfg (start cfg fs)).2.broken = [] ∨ Faultless env) {g : Gen} (hg : Considers env cfg g) :
    ∃ p data, IsEntry cfg.esp p ∧ fs.fileAt p = some data ∧ (run env cfg (start cfg fs)).2.fs.fileAt p = some data ∧
      Boots world cfg.esp (run env cfg (start cfg fs)).2.fs g p := by
  have hs := hr.safe
  obtain ⟨p, hp, hx⟩ := C38_considered_generations_boot hs hr.tools hr.separate hr.inWorld hu hr.known
    (hc.congr hr.inWorld.parse.symm hr.inWorld.sha.symm) hj hok hb hg
  obtain ⟨data, -, -, -, h1, -⟩ := id hx
  refine ⟨p, data, hp, ?_, h1, hx⟩
  rw [run_disk hs] at h1
  rcases C109_unchanged h hs (killed_at_end env cfg fs) (.inl hp) with e | ⟨e, -⟩
  · rw [← e, h1]
  · rw [Fs.fileAt_eq_some, e] at h1; cases h1

end Verif.Tool

namespace Verif.Tool.Sample
open Verif StubName Generation Menu InMenu

/-- The signing program does not work. -/
def cannotSign : Env := { good with sbsign := fun _ _ _ _ => none }

theorem cannot_sign : CannotSign cannotSign cfg := by
  rintro image d ⟨t, h⟩
  cases h

theorem proper_cannot : ProperRun good cfg.esp known cannotSign cfg where
  esp := rfl
  inWorld := ⟨rfl, rfl, rfl, fun _ _ _ h => h, fun _ _ _ h => h⟩
  safe := fun g hg => safe_good g ⟨hg.ex⟩
  tools := ⟨(faithful fun _ => false).objcopy, fun _ _ _ _ _ h => by cases h⟩
  separate := fun p h => separate p h
  known := fun g key hg hk => known_considered (fun _ => false) g key ⟨hg.ex⟩ hk

theorem coherentInstalled : Coherent good cfg.esp known installed := by
  have := (properRun fun _ => false).coherent unambiguous (killed_at_end good cfg disk0) coherent0
  unfold installed
  rw [run_disk safe_good]
  exact this

/-- On an ESP without boot entries the run fails. -/
example : (run cannotSign cfg (start cfg disk0)).1 ≠ .ok () := by
  intro h
  have hg : Considers cannotSign cfg newGen := considers_iff.2 (by decide +kernel)
  obtain ⟨p, data, hp, hd, -⟩ := C109_success cannot_sign proper_cannot unambiguous sound0 coherent0 h (.inr fun _ => rfl) hg
  exact no_entry hp data hd

/-- If everything is installed, it succeeds. -/
theorem succeeds_unsigned : (run cannotSign cfg (start cfg installed)).1 = .ok () := by decide +kernel

example : ∃ p data, IsEntry cfg.esp p ∧ installed.fileAt p = some data ∧
    Boots good cfg.esp (run cannotSign cfg (start cfg installed)).2.fs newGen p := by
  have hg : Considers cannotSign cfg newGen := considers_iff.2 (by decide +kernel)
  obtain ⟨p, data, hp, hd, -, hb⟩ := C109_success cannot_sign proper_cannot unambiguous sound_installed coherentInstalled
    succeeds_unsigned (.inr fun _ => rfl) hg
  exact ⟨p, data, hp, hd, hb⟩

/-- With other generations it may fail at any moment: generation 2 can still be booted. -/
example (done : List Change) (h : KilledAfter cannotSign cfg installed done) (hn : .collecting ∉ done) :
    ∃ p, IsEntry cfg.esp p ∧ Boots good cfg.esp (installed.replay done) newGen p := by
  have hg : Considers good cfg newGen := considers_iff.2 (by decide +kernel)
  obtain ⟨p, hp, hb⟩ := C38_considered_generations_boot safe_good (faithful _) separate (inWorld fun _ => false)
    unambiguous (known_considered fun _ => false) sound0 coherent0 succeeded0.ok (.inl succeeded0.read) hg
  exact ⟨p, hp, C109_still_boots (world := good) cannot_sign proper_cannot.safe rfl h hn hp hb⟩

end Verif.Tool.Sample
