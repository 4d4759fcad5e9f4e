import Verif.Props.EndToEnd
import Verif.Props.History
/-!
# C39: the kernel of an installed generation is started at every later time
-/
namespace Verif.Tool
open Verif Generation StubName

/-- **C39** (from any history to the kernel). A generation that a successful run has installed keeps, at
every later moment of every history in which the installer is asked to keep it, a boot entry from which a
machine in working order starts the kernel of this generation, with its initrd and, with Secure Boot on,
its command line, and nothing else. -/
theorem C39_history_then_boot {env world : Env} {cfg : Config} {esp : Path} {known : Gen → Bytes → Prop}
    (hu : Unambiguous world known)
    {f₀ f₁ f₂ : Fs} (h₀ : Sound world esp f₀) (hj : Coherent world esp known f₀)
    (hist : History world esp known (fun _ _ => True) f₀ f₁)
    (hp : ProperRun world esp known env cfg) (hok : (run env cfg (start cfg f₁)).1 = .ok ())
    (hb : (run env cfg (start cfg f₁)).2.broken = [] ∨ Faultless env) {g : Gen}
    (hg : Considers env cfg g)
    (later : History world esp known (fun env cfg => Considers env cfg g)
      (run env cfg (start cfg f₁)).2.fs f₂)
    (hgf : FirmwareGen g) (hn : NoAccident world f₂ g) :
    ∃ p, IsEntry esp p ∧ (f₂.fileAt p).isSome ∧ ∀ m pe w, Booting world esp f₂ p m pe →
      (Stub.Spec.Healthy m w → (∀ kernel, world.store g.spec.kernel = some kernel →
        ∃ kpe, m.parseFile kernel = some kpe ∧ Stub.Spec.Loadable kpe kernel) → ∃ s, Stub.Starts m w s) ∧
      ∀ s, Stub.Starts m w s → StartOf world m g s ∧
        (SecureBootOn m w → s.options = Stub.Spec.optionsOf (text16 (commandLine g))) := by
  obtain ⟨p, hpe, hboots⟩ := C39_installed_stays_bootable hu h₀ hj hist hp hok hb hg later
  have hd : (f₂.fileAt p).isSome := by
    obtain ⟨data, _, _, _, hd, -⟩ := hboots
    rw [hd]; rfl
  exact ⟨p, hpe, hd, fun m pe w hm => ⟨fun hh hk => C41_starts hboots hm hgf hn hk hh,
    fun s hst => C41_only_this_starts hboots hm hgf hn hst⟩⟩

end Verif.Tool

namespace Verif.Tool.Sample
open Verif StubName Generation

/-- A machine with the disk `disk3` that has loaded the boot entry `data`. -/
def machine3 (data : Bytes) : Stub.Env := { machine data with fs := fun _ => some (serve disk3) }

theorem serves3 : Serves (serve disk3) cfg.esp disk3 := by
  have key : disk3.nodes.all (fun e => match e.2 with
      | .file d => match pathText e.1 with
        | none => true
        | some t => decide ((serve disk3).read t = some d)
      | .dir => true) = true := by decide +kernel
  intro rel d h _
  have hm := mem_of_fileAt h (by simp [cfg])
  have := List.all_eq_true.1 key _ hm
  have hp : pathText (cfg.esp ++ rel) = some (text16 (uefiText rel)) := by
    unfold pathText
    rw [if_pos (by rw [List.isPrefixOf_iff_prefix]; exact List.prefix_append _ _), List.drop_left]
  simp only [hp, decide_eq_true_eq] at this
  exact this

theorem loadedAs3 {p : Path} (hp : IsEntry cfg.esp p) {data : Bytes} (hd : disk3.fileAt p = some data) :
    ∃ pe, parse data = some pe ∧ LoadedAs good data data pe := by
  have key : disk3.nodes.all (fun e => match e.2 with
      | .file d => if lit "nixos-" <+: (e.1.getLast?.getD []) then match parse d with
        | none => false
        | some pe => pe.sections.all fun s => decide (s.virtualAddress = s.pointerToRawData) &&
            decide (s.virtualAddress.toNat + min s.virtualSize.toNat s.sizeOfRawData.toNat ≤ d.length)
        else true
      | .dir => true) = true := by decide +kernel
  obtain ⟨n, rfl, hn, -⟩ := hp
  have := List.all_eq_true.1 key _ (mem_of_fileAt hd (by simp [entryFile]))
  have hl : (entryFile cfg.esp n).getLast?.getD [] = n := by simp [entryFile]
  simp only [hl, if_pos hn] at this
  cases hpe : parse data with
  | none => rw [hpe] at this; cases this
  | some pe =>
    rw [hpe] at this
    have hs : ∀ s ∈ pe.sections, s.virtualAddress = s.pointerToRawData ∧
        s.virtualAddress.toNat + min s.virtualSize.toNat s.sizeOfRawData.toNat ≤ data.length := by
      intro s hs
      have := List.all_eq_true.1 this s hs
      simpa [Bool.and_eq_true] using this
    exact ⟨pe, rfl, ⟨pe, hpe, rfl⟩, fun s h i _ => by rw [(hs s h).1], fun s h => (hs s h).2⟩

theorem first_spec : good.store first.spec.kernel = some kernel1 ∧
    first.spec.initrd.bind good.store = some initrd1 ∧ first.spec.initrdSecrets = none := by decide +kernel

theorem noAccident3 : NoAccident good disk3 first := by
  have kh : disk3.nodes.all (fun e => match e.2 with
      | .file d => [kernel1, initrd1].all fun d' => decide (sha.hash d = sha.hash d' → d = d')
      | .dir => true) = true := by decide +kernel
  obtain ⟨k1, k2, k3⟩ := first_spec
  intro p d hd d' hd' hc
  have hmem : d' ∈ [kernel1, initrd1] := by
    rcases hd' with h | ⟨q, d₀, h1, h2, h3⟩
    · rw [k1, Option.some.injEq] at h
      rw [← h]; simp
    · rw [h1, Option.bind_some, h2, Option.some.injEq] at k2
      rw [k3] at h3
      simp only at h3
      rw [h3, k2]; simp
  have hp : p ≠ [] := by
    rintro rfl
    rw [Fs.fileAt_eq_some] at hd
    simp [Fs.get] at hd
  have := List.all_eq_true.1 kh _ (mem_of_fileAt hd hp)
  have := List.all_eq_true.1 this d' hmem
  simp only [decide_eq_true_eq] at this
  exact hc.1 (this hc.2)

theorem healthy3 (data : Bytes) : Stub.Spec.Healthy (machine3 data) (Stub.Sample.start (some [1]) none) where
  image _ := rfl
  memory _ _ := ⟨_, rfl⟩
  protocols _ := rfl
  companions := by
    have hs : ∀ t fw, (machine3 data).fs t = some fw → fw = serve disk3 := fun t fw h => (Option.some.inj h).symm
    exact ⟨fun _ _ _ _ => ⟨_, rfl⟩, fun t fw h => ⟨false, by rw [hs t fw h]; rfl⟩,
      fun t fw h => (by rw [hs t fw h]; intro h; cases h), fun p _ t fw h => (by rw [hs t fw h]; intro h; cases h)⟩
  options o h := by cases h

/-- A run that was killed, a run that succeeds and a boot of the first generation that the boot loader has
counted: a machine starts its kernel, with its command line. -/
example : ∃ p m w s, IsEntry cfg.esp p ∧ Stub.Starts m w s ∧
    StartOf good m first s ∧ s.options = Stub.Spec.optionsOf (text16 (commandLine first)) := by
  have hg : Considers good cfg first := considers_iff.2 first_mem
  have later : History good cfg.esp known (fun env cfg => Considers env cfg first) disk2 disk3 :=
    .snoc .nil (counted _)
  obtain ⟨p, hp, hd, h⟩ := C39_history_then_boot (env := good) (cfg := cfg) (f₀ := disk0) (f₁ := disk1)
    (f₂ := disk3) unambiguous sound0 coherent0 history1
    (properRun fun _ => false) steps2.1 (Or.inr fun _ => rfl) hg later (firmwareGen first first_mem) noAccident3
  obtain ⟨data, hd⟩ := Option.isSome_iff_exists.1 hd
  obtain ⟨pe, hpe, hl⟩ := loadedAs3 hp hd
  have hm : Booting good cfg.esp disk3 p (machine3 data) pe :=
    ⟨rfl, ⟨data, hd, hl⟩, hpe, fun _ => ⟨_, rfl, serves3⟩⟩
  obtain ⟨h1, h2⟩ := h _ _ (Stub.Sample.start (some [1]) none) hm
  obtain ⟨s, hs⟩ := h1 (healthy3 data) (by
    intro kernel hk
    have hlen : 3 ≤ kernel.length := by
      rw [first_spec.1, Option.some.injEq] at hk
      subst hk; decide
    refine ⟨kernelHeader, rfl, ?_, ?_, rfl, ?_⟩
    · decide
    · intro s hs
      simp only [kernelHeader, List.mem_singleton] at hs
      subst hs
      exact hlen
    · decide)
  obtain ⟨h3, h4⟩ := h2 s hs
  exact ⟨p, _, _, s, hp, hs, h3, h4 ⟨by decide, by intro t h; cases h⟩⟩

end Verif.Tool.Sample
