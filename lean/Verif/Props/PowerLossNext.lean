import Verif.Props.PowerLossEarly
import Verif.Props.History
import Verif.Lemmas.SampleLoader
/-!
# C93: the boot partition is in order after a successful run and after any number of boots
-/
namespace Verif.Tool
open Verif StubName Generation BootCounting

variable {env env' world : Env} {cfg cfg' : Config} {esp : Path} {known : Gen → Bytes → Prop} {fs fs' : Fs}
  {done : List Change}

/-- A successful run has synced the boot partition, and nothing it leaves there is only in memory. -/
theorem onDisk_after (hs : SafeInput env cfg) (hok : Succeeded env cfg fs) :
    OnDisk cfg.esp (run env cfg (start cfg fs)).2.fs := by
  intro p hp
  obtain ⟨a, b, c, gens, r, final, sh⟩ := run_synced hs (Carried.trivial env cfg).all fs trivial (by simp)
  have hne := sh.ok hok.ok
  obtain ⟨l, hb⟩ := sh.sync (by simp [hne])
  have hm : .syncfs cfg.esp ∈ (run env cfg (start cfg fs)).2.log := by rw [sh.log, hb]; simp
  have := (synced_boot_file (kept := (run env cfg (start cfg fs)).2.log) (lost := []) hs (by
    rw [List.append_nil]; exact List.prefix_refl _) hm hp).1
  rw [run_disk hs]
  exact this

/-- After a successful run the boot partition is in order for the next run, with whatever generations. -/
theorem inOrder_after (hp : ProperRun world esp known env cfg) (hp' : ProperRun world esp known env' cfg')
    (hu : Unambiguous world known) (hr : Reliable env.os) (ht : fs.Tree) (hc : Sound world esp fs)
    (hok : Succeeded env cfg fs)
    (hlock : ∀ dir, cfg'.pcrlockDirectory = some dir → cfg.pcrlockDirectory = some dir) :
    InOrder env' cfg' (run env cfg (start cfg fs)).2.fs := by
  obtain rfl := hp.esp
  have hw := hp.inWorld
  have hw' := hp'.inWorld
  have hc' : Sound env cfg.esp fs := hc.congr hw.parse.symm hw.sha.symm
  obtain ⟨gens, mid, final, h⟩ := cleaned hp.safe hp.tools hp.separate hr ht hc' hok
  have named : ∀ {n}, lit "nixos-" <+: n →
      ((run env cfg (start cfg fs)).2.fs.get (entryFile cfg.esp n)).isSome →
      ((run env cfg (start cfg fs)).2.fs.fileAt (entryFile cfg.esp n)).isSome ∧
        ∃ g key, Considers env cfg g ∧ KeyOf env cfg.signer key ∧ IsNameOf env.uni env.sha g key n := by
    intro n hn hx
    rw [show entryFile cfg.esp n = linuxDir cfg.esp ++ [n] by simp [entryFile, linuxDir]] at hx ⊢
    obtain ⟨-, h2, h3⟩ := h.entry_named hp.separate (List.prefix_refl _) hn hx
    exact ⟨h2, h3⟩
  refine ⟨h.tree_after, ?_, ?_, ?_⟩
  · rw [hp'.esp]
    intro p he data hd
    obtain ⟨kl, kh, il, ih, h1, h2, h3, h4⟩ := C39_all_entries_boot hp.safe hp.tools hp.separate hr ht hc'
      hok p he data hd
    have e1 := hw.parse.trans hw'.parse.symm
    have e2 := hw.sha.trans hw'.sha.symm
    exact ⟨kl, kh, il, ih, h1.congr e1, h2.congr e1, h3.congr e2, h4.congr e2⟩
  · rw [hp'.esp]
    rintro p ⟨n, rfl, hn, -⟩ e
    obtain ⟨h1, -⟩ := named hn (by rw [e]; rfl)
    obtain ⟨d, hd⟩ := Option.isSome_iff_exists.1 h1
    rw [Fs.fileAt_eq_some, e] at hd
    cases hd
  · intro dir g' key' n hdir hg' hk' hm' hx
    rw [hp'.esp] at hx
    obtain ⟨n', e, hn, -⟩ := isMatch_isEntry (esp := cfg.esp) hm'.isMatch
    obtain rfl := entryFile_inj e
    obtain ⟨-, g, key, hg, hk, hm⟩ := named hn hx
    rw [hw.uni, hw.sha] at hm
    rw [hw'.uni, hw'.sha] at hm'
    have same : SameEntry g g' key key' := by
      rcases isMatch_both hm.isMatch hm'.isMatch with h | h
      · exact h
      · exact absurd h (hu.apart g key g' key' (hp.known g key hg hk) (hp'.known g' key' hg' hk'))
    have : measurementFile dir g' = measurementFile dir g := by
      unfold measurementFile Gen.versionTag Gen.describeSpecialisation
      rw [same.1, same.2.1]
    rw [this]
    exact C51_measurement_present hp.safe hp.separate hok.ok (Or.inl hok.read) hg (hlock dir hdir)

/-- Boot counting leaves the boot partition in order. -/
theorem InOrder.count (hw : env.uni = world.uni) (h : InOrder env cfg fs) (hc : Counted world cfg.esp fs fs') :
    InOrder env cfg fs' := by
  induction hc with
  | nil => exact h
  | @count f base c c' data _ hb he hc hf hn ih =>
    have hget : ∀ q, (f.apply (.rename (entryFile cfg.esp (entryName base c))
        (entryFile cfg.esp (entryName base c')) data)).get q =
        if q = entryFile cfg.esp (entryName base c') then some (.file data)
        else if q = entryFile cfg.esp (entryName base c) then none else f.get q :=
      fun q => Fs.get_rename (by simp [entryFile]) (by simp [entryFile]) q
    have hsame : ∀ {q}, (∀ n, q ≠ entryFile cfg.esp n) →
        (f.apply (.rename (entryFile cfg.esp (entryName base c))
          (entryFile cfg.esp (entryName base c')) data)).get q = f.get q := fun hq => by
      rw [hget, if_neg (hq _), if_neg (hq _)]
    have hpar : f.get (linuxDir cfg.esp) = some .dir := by
      have := ih.tree.parent (entryFile cfg.esp (entryName base c)) (by simp [entryFile])
        (by rw [Fs.fileAt_eq_some.1 hf]; rfl)
      simpa [entryFile, linuxDir, List.dropLast_append_of_ne_nil] using this
    refine ⟨?_, ?_, ?_, ?_⟩
    · refine ih.tree.rename hf (by simp [entryFile]) ?_ (by rw [hn]; simp) ?_
      · intro e; rw [← e, Fs.fileAt_eq_some.1 hf] at hn; cases hn
      · simpa [entryFile, linuxDir, List.dropLast_append_of_ne_nil] using hpar
    · intro p hp d hd
      have old : ∃ p', IsEntry cfg.esp p' ∧ f.fileAt p' = some d := by
        rw [Fs.fileAt_eq_some, hget] at hd
        split at hd
        · cases hd; exact ⟨_, he, hf⟩
        · split at hd
          · cases hd
          · exact ⟨p, hp, Fs.fileAt_eq_some.2 hd⟩
      obtain ⟨p', hp', hd'⟩ := old
      obtain ⟨kl, kh, il, ih', h1, h2, ⟨d3, e3, f3⟩, ⟨d4, e4, f4⟩⟩ := ih.consistent p' hp' d hd'
      refine ⟨kl, kh, il, ih', h1, h2, ⟨d3, ?_, f3⟩, ⟨d4, ?_, f4⟩⟩
      · rw [Fs.fileAt_eq_some] at e3 ⊢; rw [hsame fun n => caFile_ne_entryFile _ _ _ _]; exact e3
      · rw [Fs.fileAt_eq_some] at e4 ⊢; rw [hsame fun n => caFile_ne_entryFile _ _ _ _]; exact e4
    · intro p hp e
      rw [hget] at e
      split at e
      · cases e
      · split at e
        · cases e
        · exact ih.files p hp e
    · intro dir g key n hdir hg hk hm hx
      rw [hsame fun n e => lastTwo_ne (measurementFile_lastTwo dir g) (entryFile_lastTwo _ n) (by decide) e]
      rw [hget] at hx
      split at hx
      · next e =>
        cases entryFile_inj e
        have hb' := base_of_match (by rw [hw]; exact hb) hm.isMatch
        refine ih.measured dir g key (entryName base c) hdir hg hk ?_ (by rw [Fs.fileAt_eq_some.1 hf]; rfl)
        rw [hb']
        exact isNameOf (isMatch_entryName _ _ c)
      · split at hx
        · cases hx
        · exact ih.measured dir g key n hdir hg hk hm hx

theorem OnDisk.count (h : OnDisk esp fs) (hc : Counted world esp fs fs') : OnDisk esp fs' := by
  induction hc with
  | nil => exact h
  | @count f base c c' data _ hb he hc hf hn ih =>
    intro p hp hq
    simp only [Fs.apply] at hq
    rw [if_neg (ih _ (Or.inl he))] at hq
    exact ih p hp (List.mem_filter.1 hq).1

theorem Counted.history {K : Env → Config → Prop} (hc : Counted world esp fs fs') :
    History world esp known K fs fs' := by
  induction hc with
  | nil => exact .nil
  | count _ hb he hc hf hn ih => exact .snoc ih (.count hb he hc hf hn)

/-- **C93** (the next update). After a successful run and any number of boots, let the installer run again,
with other generations, and let the power fail at any moment of that run: every generation that both runs
consider can be booted. -/
theorem C93_next_update (hp : ProperRun world esp known env cfg) (hp' : ProperRun world esp known env' cfg')
    (hu : Unambiguous world known) (hr : Reliable env.os) (hr' : Reliable env'.os)
    (ht : fs.Tree) (hc : Sound world esp fs) (hj : Coherent world esp known fs)
    (hok : Succeeded env cfg fs)
    (hlock : ∀ dir, cfg'.pcrlockDirectory = some dir → cfg.pcrlockDirectory = some dir)
    {f : Fs} (hboots : Counted world esp (run env cfg (start cfg fs)).2.fs f)
    (hk : KilledAfter env' cfg' f done) {f' : Fs} (hl : AfterPowerLoss f done f')
    {g : Gen} (hg : Considers env cfg g) (hg' : Considers env' cfg' g) :
    ∃ p, IsEntry esp p ∧ Boots world esp f' g p := by
  have hev : ∀ {K : Env → Config → Prop}, K env cfg →
      Event world esp known K fs (run env cfg (start cfg fs)).2.fs := by
    intro K hK
    rw [run_disk hp.safe]
    exact .run hp hK (List.prefix_refl _)
  have hh : History world esp known (fun _ _ => True) fs f := by
    have : History world esp known (fun _ _ => True) fs (run env cfg (start cfg fs)).2.fs :=
      .snoc .nil (hev trivial)
    clear hk hl
    induction hboots with
    | nil => exact this
    | count _ hb he hc hf hn ih => exact .snoc ih (.count hb he hc hf hn)
  have hb := C39_installed_stays_bootable hu hc hj (.nil : History world esp known (fun _ _ => True) fs fs) hp
    hok.ok (Or.inl hok.read) hg hboots.history
  have ho := (inOrder_after hp hp' hu hr ht hc hok hlock).count (world := world) hp'.inWorld.uni
    (by rw [hp'.esp]; exact hboots)
  have hd : OnDisk esp f := by
    refine OnDisk.count ?_ hboots
    rw [← hp.esp]
    exact onDisk_after hp.safe hok
  have hsnd := C39_history_sound hh hc
  have hcoh := hh.coherent hu hj
  obtain rfl := hp'.esp
  exact C93_still_bootable hr' hp'.safe hp'.tools hp'.separate hp'.inWorld hu hp'.known
    (hsnd.congr hp'.inWorld.parse.symm hp'.inWorld.sha.symm) hcoh ho hd hk hl hg' hb

end Verif.Tool

namespace Verif.Tool.Sample
open Verif StubName Generation BootCounting

/-! ### A case -/

theorem considers1 {g : Gen} (h : Considers good cfg1 g) : Considers good cfg g := by
  have key : ∀ g ∈ allOf good cfg1, g ∈ allOf good cfg := by decide +kernel
  exact considers_iff.2 (key g (considers_iff.1 h))

/-- The installer is run for the first generation only. -/
theorem properRun1 : ProperRun good cfg.esp known good cfg1 where
  esp := rfl
  inWorld := ⟨rfl, rfl, rfl, fun _ _ _ h => h, fun _ _ _ h => h⟩
  safe := fun g hg => safe_good g (considers1 hg)
  tools := faithful _
  separate := separate1
  known := fun g key hg hk => known_considered (fun _ => false) g key (considers1 hg) hk

/-- The disk with the first generation. -/
def oneGen : Fs := (run good cfg1 (start cfg1 disk0)).2.fs

def oneGenImage : Bytes := (oneGen.fileAt firstEntry).getD []

/-- The disk after its first boot. -/
def oneGenTried : Fs := oneGen.apply (.rename firstEntry firstTried oneGenImage)

theorem oneGen_steps : Succeeded good cfg1 disk0 ∧ oneGen.fileAt firstEntry = some oneGenImage ∧
    oneGenImage ≠ [] ∧ oneGen.get firstTried = none := by
  have : (run good cfg1 (start cfg1 disk0)).1 = .ok () ∧ (run good cfg1 (start cfg1 disk0)).2.broken = [] ∧
    oneGen.fileAt firstEntry = some oneGenImage ∧ oneGenImage ≠ [] ∧ oneGen.get firstTried = none := by
    decide +kernel
  exact ⟨⟨this.1, this.2.1⟩, this.2.2⟩

theorem oneGen_counted : Counted good cfg.esp oneGen oneGenTried :=
  .count (c := .left 3) (c' := .leftDone 2 1) .nil noCounter_first first_isEntry .try_first
    oneGen_steps.2.1 oneGen_steps.2.2.2

theorem first_considered1 : Considers good cfg1 first := by
  refine considers_iff.2 ?_
  decide +kernel

/-- The hypotheses can be met: the first generation is installed and booted once, then the installer runs
with two more, and the power fails at any moment of that. -/
example (done : List Change) (h : KilledAfter good cfg oneGenTried done) (fs' : Fs)
    (hl : AfterPowerLoss oneGenTried done fs') :
    ∃ p, IsEntry cfg.esp p ∧ Boots good cfg.esp fs' first p :=
  C93_next_update properRun1 (properRun fun _ => false) unambiguous reliable_good reliable_good tree0
    sound0 coherent0 oneGen_steps.1 (fun _ h => h) oneGen_counted h hl first_considered1
    (considers_iff.2 first_mem)

/-- That run installs something before it syncs. -/
example : (run good cfg (start cfg oneGenTried)).1 = .ok () ∧
    (run good cfg (start cfg oneGenTried)).2.log.findIdx (· = .syncfs cfg.esp) > 10 := by decide +kernel

/-- The hypotheses of the statement about any entry can be met. -/
example (done : List Change) (h : KilledAfter good cfg oneGenTried done) (hn : .collecting ∉ done) (fs' : Fs)
    (hl : AfterPowerLoss oneGenTried done fs') (p : Path) (hp : IsEntry cfg.esp p)
    (hb : Boots good cfg.esp oneGenTried first p) : Boots good cfg.esp fs' first p :=
  C93_entries_survive reliable_good safe_good (faithful _) separate rfl
    (InOrder.count rfl (inOrder_after properRun1 (properRun fun _ => false) unambiguous reliable_good tree0
      sound0 oneGen_steps.1 fun _ h => h) oneGen_counted)
    ((onDisk_after properRun1.safe oneGen_steps.1).count oneGen_counted) h hn hl hp hb

/-! ### When measurements are missing -/

/-- Data that is not synced is lost. -/
def emptied (f : Fs) : Fs :=
  { f with nodes := f.nodes.map fun e =>
      (e.1, match e.2 with | .file d => if e.1 ∈ f.dirty then .file [] else .file d | .dir => .dir) }

theorem emptied_loss (fs : Fs) (done : List Change) : AfterPowerLoss fs done (emptied (fs.replay done)) := by
  intro p
  refine ⟨done, [], by simp, by simp, ?_⟩
  generalize fs.replay done = f
  by_cases hp : p = []
  · subst hp; exact Or.inl rfl
  unfold Fs.get
  rw [if_neg hp, if_neg hp]
  have : (emptied f).nodes.find? (fun e => e.1 == p) = (f.nodes.find? (fun e => e.1 == p)).map fun e =>
      (e.1, match e.2 with | .file d => if e.1 ∈ f.dirty then .file [] else .file d | .dir => .dir) := by
    unfold emptied
    rw [List.find?_map]
    rfl
  rw [this]
  cases hx : f.nodes.find? (fun e => e.1 == p) with
  | none => exact Or.inl rfl
  | some e =>
    obtain rfl : e.1 = p := by simpa using List.find?_some hx
    obtain ⟨q, node⟩ := e
    cases node with
    | dir => exact Or.inl rfl
    | file d =>
      by_cases hd : q ∈ f.dirty
      · exact Or.inr ⟨hd, d, [], rfl, by simp [hd]⟩
      · exact Or.inl (by simp [hd])

/-- Measurements are not made. -/
def cfgPlain : Config := { cfg with pcrlockDirectory := none }

/-- The three generations are installed, without measurements. -/
def plainDisk : Fs := (run good cfgPlain (start cfgPlain disk0)).2.fs

/-- The run with which the measurements begin, until shortly before its sync. -/
def untilSync : List Change :=
  (run good cfg (start cfg plainDisk)).2.log.takeWhile (· ≠ .syncfs cfg.esp)

/-- **C93** needs its hypothesis about measurements. If measurements are wanted that were not made before,
the installer writes all the boot entries once more, in place and without syncing them: if the power fails then,
no generation can be booted, although all of them could be booted before. -/
theorem C93_needs_measurements : Succeeded good cfgPlain disk0 ∧
    (∀ g ∈ allOf good cfg, ∃ p, IsEntry cfg.esp p ∧ Boots good cfg.esp plainDisk g p) ∧
    OnDisk cfg.esp plainDisk ∧ KilledAfter good cfg plainDisk untilSync ∧
    ∃ fs', AfterPowerLoss plainDisk untilSync fs' ∧
      ∀ g p, IsEntry cfg.esp p → ¬ Boots good cfg.esp fs' g p := by
  have hp : ProperRun good cfg.esp known good cfgPlain := by
    refine ⟨rfl, ⟨rfl, rfl, rfl, fun _ _ _ h => h, fun _ _ _ h => h⟩, fun g hg => safe_good g ⟨hg.ex⟩,
      faithful _, ?_, fun g key hg hk => known_considered (fun _ => false) g key ⟨hg.ex⟩ hk⟩
    intro p h
    cases h
  have hok : Succeeded good cfgPlain disk0 := by
    have : (run good cfgPlain (start cfgPlain disk0)).1 = .ok () ∧
      (run good cfgPlain (start cfgPlain disk0)).2.broken = [] := by decide +kernel
    exact ⟨this.1, this.2⟩
  have hd : OnDisk cfgPlain.esp plainDisk := by unfold plainDisk; exact onDisk_after hp.safe hok
  have e : cfgPlain.esp = cfg.esp := rfl
  rw [e] at hd
  refine ⟨hok, fun g hg => ?_, hd, ?_, emptied (plainDisk.replay untilSync),
    emptied_loss _ _, ?_⟩
  · exact C39_installed_stays_bootable unambiguous sound0 coherent0
      (.nil : History good cfg.esp known (fun _ _ => True) disk0 disk0) hp hok.ok (Or.inl hok.read)
      ⟨(considers_iff.2 hg).ex⟩ .nil
  · exact List.takeWhile_prefix _
  · rintro g p ⟨n, rfl, hn, -⟩ ⟨data, k, i, v, h1, h2, -⟩
    have hm := mem_of_fileAt h1 (by simp [entryFile])
    have key : ∀ e ∈ (emptied (plainDisk.replay untilSync)).nodes,
        e.2 = .dir ∨ e.2 = .file [] ∨ ¬ lit "nixos-" <+: e.1.getLast?.getD [] := by decide +kernel
    rcases key _ hm with h | h | h
    · cases h
    · cases h
      obtain ⟨pe, _, _, _, h, -⟩ := h2.cmdline
      have h' : good.parse [] = none := rfl
      rw [h'] at h
      cases h
    · exact h (by simpa [entryFile] using hn)

end Verif.Tool.Sample
