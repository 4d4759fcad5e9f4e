import Verif.Spec.Exact
import Verif.Props.Bounded
import Verif.Props.Fallback
/-!
# What is on the boot partition after an update

C104.
-/
namespace Verif.Tool
open Verif StubName Generation

variable {env world : Env} {cfg : Config} {fs fs' : Fs} {esp dir : Path} {known : Gen → Bytes → Prop}
  {shows : Bytes → Bytes → Prop} {key : Bytes}

theorem KernelVersion.unique {k : Path} {v v' : Str} (h : KernelVersion k v) (h' : KernelVersion k v') : v = v' :=
  Option.some.inj ((kernelVersion_spec.2 h).symm.trans (kernelVersion_spec.2 h'))

/-- **C104**. After a successful run there is on the boot partition what the generations need, and nothing else. -/
theorem C104_exactly (hu : Unambiguous world known) (hp : ProperRun world esp known env cfg) (hr : Reliable env.os)
    (ht : fs.Tree) (hc : Sound world esp fs) (hj : Coherent world esp known fs) (hok : Succeeded env cfg fs)
    (hD : ∀ links, cfg.considered env = some links → Distinct env cfg (allOf env links))
    (hM : AllMeasured env cfg fs) (hS : SecretsStand world env cfg) (hkey : KeyOf env cfg.signer key) :
    Exactly world env cfg key (run env cfg (start cfg fs)).2.fs := by
  obtain rfl := hp.esp
  have hw := hp.inWorld
  have hs := hp.safe
  have hc' : Sound env cfg.esp fs := hc.congr hw.parse.symm hw.sha.symm
  have ev : Event world cfg.esp known (fun _ _ => True) fs (run env cfg (start cfg fs)).2.fs := by
    rw [run_disk hs]
    exact .run hp trivial (killed_at_end env cfg fs)
  have hcoh := ev.coherent hu hj
  have hcon := C39_all_entries_boot hs hp.tools hp.separate hr ht hc' hok
  obtain ⟨h1, h2, h3⟩ := C54_no_leftovers hs hp.tools hp.separate hr ht hc' hok hD hM rfl
  have hmeas := fun {g : Gen} (hg : Considers env cfg g) {p : Path} (hpd : cfg.pcrlockDirectory = some p) =>
    C51_measurement_present hs hp.separate hok.ok (Or.inl hok.read) hg hpd
  have one := fun {g : Gen} (hg : Considers env cfg g) =>
    C55_one_entry_each hs hp.tools hp.separate hr ht hc' hok hD hM hg
  have conf := C56_loader_conf hs hp.separate fs hok.ok
  generalize (run env cfg (start cfg fs)).2.fs = f at *
  -- the entry of a generation
  have entry : ∀ g, Considers env cfg g → ∃ n data kernel initrd v,
      (∀ n', IsNameOf world.uni world.sha g key n' ∧ (f.get (entryFile cfg.esp n')).isSome ↔ n' = n) ∧
      f.fileAt (entryFile cfg.esp n) = some data ∧ EntryFor world cfg.esp g data kernel initrd v := by
    intro g hg
    obtain ⟨k, n, hk, hn, hx, huniq⟩ := one hg
    obtain rfl := hk.unique hkey
    rw [hw.uni, hw.sha] at hn huniq
    obtain ⟨data, hd⟩ := Option.isSome_iff_exists.1 hx
    obtain ⟨kernel, initrd, v, he⟩ := hcoh g k n data (hp.known g k hg hk) hn hd
    refine ⟨n, data, kernel, initrd, v, fun n' => ⟨fun h => huniq n' h.1 h.2, ?_⟩, hd, he⟩
    rintro rfl
    exact ⟨hn, by rw [Fs.fileAt_eq_some.1 hd]; rfl⟩
  -- its kernel and initrd are there
  have present : ∀ g p d, Considers env cfg g → IsFileOf world cfg.esp g p d →
      ∃ d', f.fileAt p = some d' ∧ world.sha.hash d' = world.sha.hash d := by
    rintro g p d hg ⟨v, hv, h⟩
    obtain ⟨n, data, kernel, initrd, v', hn, hd, he⟩ := entry g hg
    obtain rfl := hv.unique he.version_is
    obtain ⟨kl, kh, il, ih, r1, r2, p1, p2⟩ := hcon _ (isMatch_isEntry ((hn n).2 rfl).1.isMatch) data hd
    have r1 := r1.congr hw.parse
    have r2 := r2.congr hw.parse
    rcases h with ⟨hs, rfl⟩ | ⟨hi, rfl⟩
    · rw [he.kernel_is] at hs
      cases hs
      obtain ⟨e, rfl⟩ := r1.agree he.kernel_ref
      rw [← e]
      obtain ⟨d', a, b⟩ := p1
      exact ⟨d', a, by rw [← b, hw.sha]⟩
    · obtain rfl := hS g hg _ _ hi he.initrd_is
      obtain ⟨e, rfl⟩ := r2.agree he.initrd_ref
      rw [← e]
      obtain ⟨d', a, b⟩ := p2
      exact ⟨d', a, by rw [← b, hw.sha]⟩
  refine ⟨?_, ?_, entry, ?_, ?_, conf⟩
  · intro p a b
    constructor
    · intro c
      obtain ⟨g, k, n, data, l, h, hg, hk, hn, hd, rfl, hr, -⟩ := h1 p a b c
      obtain rfl := hk.unique hkey
      rw [hw.uni, hw.sha] at hn
      obtain ⟨kernel, initrd, v, he⟩ := hcoh g k n data (hp.known g k hg hk) hn hd
      rcases hr with hr | hr
      · have := ((hr.congr hw.parse).agree he.kernel_ref).1
        exact ⟨g, kernel, hg, v, he.version_is, Or.inl ⟨he.kernel_is, this⟩⟩
      · have := ((hr.congr hw.parse).agree he.initrd_ref).1
        exact ⟨g, initrd, hg, v, he.version_is, Or.inr ⟨he.initrd_is, this⟩⟩
    · rintro ⟨g, d, hg, hfile⟩
      obtain ⟨d', e, -⟩ := present g p d hg hfile
      rw [Fs.fileAt_eq_some.1 e]; rfl
  · intro g p d hg hfile
    obtain ⟨d', e, hh⟩ := present g p d hg hfile
    refine ⟨d', e, ?_⟩
    by_cases hx : d' = d
    · exact Or.inl hx
    · exact Or.inr ⟨hx, hh⟩
  · intro q n hq hn hx
    obtain ⟨e, -, g, k, hg, hk, hm⟩ := h2 q n hq hn hx
    obtain rfl := hk.unique hkey
    rw [hw.uni, hw.sha] at hm
    exact ⟨e, g, hg, hm⟩
  · intro dir hdir p a b
    constructor
    · exact h3 dir p hdir a b
    · rintro ⟨g, hg, rfl⟩
      exact hmeas hg hdir

/-- Two disks on which there are exactly the same generations. -/
theorem Exactly.same (hS : SecretsStand world env cfg) (h : Exactly world env cfg key fs)
    (h' : Exactly world env cfg key fs') : SameInstalled world env cfg key fs fs' := by
  refine ⟨?_, ?_, ?_, ?_, ?_⟩
  · intro p a b
    cases hx : fs.get p with
    | none =>
      refine Or.inl ?_
      cases hy : fs'.get p with
      | none => rfl
      | some node =>
        have := (h.files p a b).2 ((h'.files p a b).1 (by rw [hy]; rfl))
        rw [hx] at this
        cases this
    | some node =>
      obtain ⟨g, d, hg, hd⟩ := (h.files p a b).1 (by rw [hx]; rfl)
      obtain ⟨x, e, hc⟩ := h.contents g p d hg hd
      obtain ⟨y, e', hc'⟩ := h'.contents g p d hg hd
      rw [Fs.fileAt_eq_some] at e e'
      rw [hx] at e
      cases e
      rcases hc with rfl | hc
      · rcases hc' with rfl | hc'
        · exact Or.inl e'
        · exact Or.inr ⟨_, _, rfl, e', x, Or.inr hc'⟩
      · exact Or.inr ⟨_, _, rfl, e', d, Or.inl hc⟩
  · intro g hg
    obtain ⟨n, data, kernel, initrd, v, a, b, c⟩ := h.entries g hg
    obtain ⟨n', data', kernel', initrd', v', a', b', c'⟩ := h'.entries g hg
    obtain rfl := hS g hg _ _ c.initrd_is c'.initrd_is
    obtain rfl := c.version_is.unique c'.version_is
    obtain rfl : kernel = kernel' := Option.some.inj (c.kernel_is.symm.trans c'.kernel_is)
    exact ⟨n, n', data, data', kernel, initrd, v, a, a', b, b', c, c'⟩
  · intro x hx
    simp only [List.mem_cons, List.not_mem_nil, or_false] at hx
    rcases hx with rfl | rfl
    · exact h.only
    · exact h'.only
  · intro dir hdir p a b
    rw [h.measurements dir hdir p a b, h'.measurements dir hdir p a b]
  · obtain ⟨d, x, e, hx, hc⟩ := h.conf
    obtain ⟨d', y, e', hy, hc'⟩ := h'.conf
    rw [e] at e'
    cases e'
    refine ⟨x, y, hx, hy, ?_⟩
    rcases hc with rfl | hc
    · rcases hc' with rfl | hc'
      · exact Or.inl rfl
      · exact Or.inr ⟨_, Or.inr hc'⟩
    · exact Or.inr ⟨_, Or.inl hc⟩

/-- **C104** (the past does not matter). The same run on two disks with different histories leaves the same
generations on both. -/
theorem C104_past (hu : Unambiguous world known) (hp : ProperRun world esp known env cfg) (hr : Reliable env.os)
    (hD : ∀ links, cfg.considered env = some links → Distinct env cfg (allOf env links))
    (hS : SecretsStand world env cfg) (hkey : KeyOf env cfg.signer key)
    (ht : fs.Tree) (hc : Sound world esp fs) (hj : Coherent world esp known fs) (hok : Succeeded env cfg fs)
    (hM : AllMeasured env cfg fs)
    (ht' : fs'.Tree) (hc' : Sound world esp fs') (hj' : Coherent world esp known fs') (hok' : Succeeded env cfg fs')
    (hM' : AllMeasured env cfg fs') :
    SameInstalled world env cfg key (run env cfg (start cfg fs)).2.fs (run env cfg (start cfg fs')).2.fs :=
  (C104_exactly hu hp hr ht hc hj hok hD hM hS hkey).same hS (C104_exactly hu hp hr ht' hc' hj' hok' hD hM' hS hkey)

theorem Orderly.allMeasured (ho : Orderly world esp dir known shows fs)
    (hr : MeasuringRun world esp dir known shows env cfg) : AllMeasured env cfg fs := by
  have hp := hr.proper
  obtain rfl := hp.esp
  intro p hpd g key n hg hk hn hx
  rw [hr.dir] at hpd
  cases hpd
  obtain ⟨data, hd⟩ := Option.isSome_iff_exists.1 hx
  obtain ⟨m, hm, -⟩ := ho.measured g key n data (hp.known g key hg hk)
    (by rw [← hp.inWorld.uni, ← hp.inWorld.sha]; exact hn) hd
  rw [hm]; rfl

/-- **C104** (without measurements). Two disks that were the same once have each seen any number of runs of the
installer, complete, failed, killed at any point or with a power failure after the sync, and boots. After the same
successful run on both there are the same generations on both. -/
theorem C104_histories {K : Env → Config → Prop} {fs₁ fs₂ : Fs} (hu : Unambiguous world known)
    (hc : Sound world esp fs) (hj : Coherent world esp known fs)
    (h1 : History world esp known K fs fs₁) (h2 : History world esp known K fs fs₂)
    (hp : ProperRun world esp known env cfg) (hr : Reliable env.os) (hn : cfg.pcrlockDirectory = none)
    (ht1 : fs₁.Tree) (ht2 : fs₂.Tree) (hok1 : Succeeded env cfg fs₁) (hok2 : Succeeded env cfg fs₂)
    (hD : ∀ links, cfg.considered env = some links → Distinct env cfg (allOf env links))
    (hS : SecretsStand world env cfg) (hkey : KeyOf env cfg.signer key) :
    SameInstalled world env cfg key (run env cfg (start cfg fs₁)).2.fs (run env cfg (start cfg fs₂)).2.fs := by
  have hM : ∀ f, AllMeasured env cfg f := fun _ p h => by rw [hn] at h; cases h
  exact C104_past hu hp hr hD hS hkey ht1 (C39_history_sound h1 hc) (h1.coherent hu hj) hok1 (hM _)
    ht2 (C39_history_sound h2 hc) (h2.coherent hu hj) hok2 (hM _)

/-- **C104** (over time). With measurements from the start: two disks that were the same once have each seen any
number of updates, interrupted or not, of any generations with any tools, and boots. After the same successful run on
both there are the same generations on both. In particular a run that is repeated after an interruption leaves
what it had left without the interruption. -/
theorem C104_over_time {fs₁ fs₂ : Fs} (hu : Unambiguous world known) (ht : TagsStand known)
    (h0 : Orderly world esp dir known shows fs) (hc : Sound world esp fs) (hj : Coherent world esp known fs)
    (h1 : Updates world esp dir known shows fs fs₁) (h2 : Updates world esp dir known shows fs fs₂)
    (hr : MeasuringRun world esp dir known shows env cfg) (hok1 : Succeeded env cfg fs₁) (hok2 : Succeeded env cfg fs₂)
    (hD : ∀ links, cfg.considered env = some links → Distinct env cfg (allOf env links))
    (hS : SecretsStand world env cfg) (hkey : KeyOf env cfg.signer key) :
    SameInstalled world env cfg key (run env cfg (start cfg fs₁)).2.fs (run env cfg (start cfg fs₂)).2.fs := by
  obtain ⟨o1, s1⟩ := C98_entries_measured hu ht h0 hc h1
  obtain ⟨o2, s2⟩ := C98_entries_measured hu ht h0 hc h2
  exact C104_past hu hr.proper hr.reliable hD hS hkey o1.tree s1 ((Menu.updates_history h1).coherent hu hj) hok1
    (o1.allMeasured hr) o2.tree s2 ((Menu.updates_history h2).coherent hu hj) hok2 (o2.allMeasured hr)

end Verif.Tool

namespace Verif.Tool.Sample
open Verif StubName Generation

/-- The script for secrets adds the same secret each time. -/
theorem secretsStand : SecretsStand good good cfg := by
  rintro g - d d' ⟨p, d₀, h1, h2, h3⟩ ⟨p', d₀', h1', h2', h3'⟩
  rw [h1] at h1'
  cases h1'
  rw [h2] at h2'
  cases h2'
  cases hs : g.spec.initrdSecrets with
  | none =>
    rw [hs] at h3 h3'
    exact h3.trans h3'.symm
  | some script =>
    rw [hs] at h3 h3'
    obtain ⟨t, h3⟩ := h3
    obtain ⟨t', h3'⟩ := h3'
    have h3 : some (d₀ ++ [115]) = some d := h3
    have h3' : some (d₀ ++ [115]) = some d' := h3'
    exact Option.some.inj (h3.symm.trans h3')

theorem measuringGood : MeasuringRun good cfg.esp lockDir known shown good cfg where
  proper := properRun fun _ => false
  reliable := reliable_good
  dir := rfl
  shows := by
    rintro data m ⟨image, t, ⟨t', hs⟩, hl⟩
    have hl : some (76 :: image) = some m := hl
    exact ⟨image, hs, (Option.some.inj hl).symm⟩

theorem tried_succeeds : Succeeded good cfg oneGenTried := by
  have : (run good cfg (start cfg oneGenTried)).1 = .ok () ∧ (run good cfg (start cfg oneGenTried)).2.broken = [] := by
    decide +kernel
  exact ⟨this.1, this.2⟩

/-- What is on the disk after the first installation. -/
example : Exactly good good cfg [80, 75] (run good cfg (start cfg disk0)).2.fs :=
  C104_exactly (env := good) (cfg := cfg) unambiguous (properRun fun _ => false) reliable_good tree0 sound0 coherent0
    succeeded0 distinct0 measured0 secretsStand (by show good.store _ = _; decide)

/-- Two generations at once, or one, a boot, and then the other: the same. -/
theorem C104_two_ways : SameInstalled good good cfg [80, 75] (run good cfg (start cfg disk0)).2.fs
    (run good cfg (start cfg oneGenTried)).2.fs :=
  C104_over_time (env := good) (cfg := cfg) unambiguous tagsStand orderly0 sound0 coherent0 .nil tried_updates
    measuringGood succeeded0 tried_succeeds distinct0 secretsStand (by show good.store _ = _; decide)

theorem properPlain : ProperRun good cfg.esp known good cfgPlain where
  esp := rfl
  inWorld := ⟨rfl, rfl, rfl, fun _ _ _ h => h, fun _ _ _ h => h⟩
  safe := fun g hg => safe_good g ⟨hg.ex⟩
  tools := faithful _
  separate := fun l h => by cases h
  known := fun g key hg hk => known_considered (fun _ => false) g key ⟨hg.ex⟩ hk

/-- The same without measurements. -/
example (h0 : Succeeded good cfgPlain disk0) (hok : Succeeded good cfgPlain oneGenTried) :
    SameInstalled good good cfgPlain [80, 75] (run good cfgPlain (start cfgPlain disk0)).2.fs
      (run good cfgPlain (start cfgPlain oneGenTried)).2.fs :=
  C104_histories (env := good) (cfg := cfgPlain) unambiguous sound0 coherent0 .nil (Menu.updates_history tried_updates)
    properPlain reliable_good rfl tree0 (C98_entries_measured unambiguous tagsStand orderly0 sound0 tried_updates).1.tree
    h0 hok distinct0 (fun g hg => secretsStand g ⟨hg.ex⟩) (by show good.store _ = _; decide)
example : (run good cfgPlain (start cfgPlain oneGenTried)).1 = .ok () ∧
    (run good cfgPlain (start cfgPlain oneGenTried)).2.broken = [] := by decide +kernel

end Verif.Tool.Sample
