import Verif.Spec.Partitions
import Verif.Props.History
import Verif.Props.InstallState
import Verif.Props.Interference
import Verif.Props.Rotation
import Verif.Props.LoaderMeasure
/-!
# Several boot partitions

C90, C91.
-/
namespace Verif.Tool
open Verif StubName Generation BootCounting

variable {env world : Env} {cfg cfg' : Config} {fs : Fs} {done : List Change} {known : Gen → Bytes → Prop}
  {runs : List (Env × Config)}

/-! ### C90 -/

/-- **C90**. A run for another partition changes nothing on this one, whenever it ends. -/
theorem C90_left_alone (hs : SafeInput env cfg') (he : Elsewhere cfg cfg') (hk : KilledAfter env cfg' fs done)
    {p : Path} (hp : cfg.esp <+: p) : (fs.replay done).get p = fs.get p := by
  have key : ∀ q, Owned cfg' q → ¬ p <+: q := by
    intro q hq hpq
    rcases hq.below.2 with h | ⟨d, hd, h⟩
    · rcases List.prefix_or_prefix_of_prefix (hp.trans hpq) h with h | h
      · exact he.esp.1 h
      · exact he.esp.2 h
    · rcases List.prefix_or_prefix_of_prefix (hp.trans hpq) h with h | h
      · exact (he.lock d hd).1 h
      · exact (he.lock d hd).2 h
  rcases C31_foreign_files hs hk (fun h => key p h (List.prefix_refl _)) with h | ⟨-, -, q, hq, h⟩
  · exact h
  · exact absurd h (key q hq)

theorem run_elsewhere (hs : SafeInput env cfg') (he : Elsewhere cfg cfg') {p : Path} (hp : cfg.esp <+: p) :
    (run env cfg' (start cfg' fs)).2.fs.get p = fs.get p := by
  rw [run_disk hs]
  exact C90_left_alone hs he (killed_at_end env cfg' fs) hp

theorem runAll_elsewhere (hs : ∀ r ∈ runs, SafeInput r.1 r.2) (he : ∀ r ∈ runs, Elsewhere cfg r.2) {p : Path}
    (hp : cfg.esp <+: p) : (runAll runs fs).get p = fs.get p := by
  induction runs generalizing fs with
  | nil => rfl
  | cons r rs ih =>
    rw [runAll, ih (fun r h => hs r (List.mem_cons_of_mem _ h)) (fun r h => he r (List.mem_cons_of_mem _ h))]
    exact run_elsewhere (hs r List.mem_cons_self) (he r List.mem_cons_self) hp

theorem runAll_append (a b : List (Env × Config)) (fs : Fs) : runAll (a ++ b) fs = runAll b (runAll a fs) := by
  induction a generalizing fs with
  | nil => rfl
  | cons r rs ih => exact ih _

theorem AllSucceed.append {a b : List (Env × Config)} (h : AllSucceed (a ++ b) fs) : AllSucceed b (runAll a fs) := by
  induction a generalizing fs with
  | nil => exact h
  | cons r rs ih => exact ih h.2.2

/-- **C90**. After successful runs for any number of partitions, every generation that is considered for a partition
can be booted from it: what is done to the other partitions does not matter. -/
theorem C90_each_boots (hu : Unambiguous world known)
    (hp : ∀ r ∈ runs, ProperRun world r.2.esp known r.1 r.2) (hd : DifferentPartitions runs)
    (h0 : ∀ r ∈ runs, Sound world r.2.esp fs ∧ Coherent world r.2.esp known fs) (hok : AllSucceed runs fs)
    {r : Env × Config} (hr : r ∈ runs) {g : Gen} (hg : Considers r.1 r.2 g) :
    ∃ p, IsEntry r.2.esp p ∧ Boots world r.2.esp (runAll runs fs) g p := by
  obtain ⟨a, b, rfl⟩ := List.append_of_mem hr
  have hd' := List.pairwise_append.1 hd
  have hb := List.pairwise_cons.1 hd'.2.1
  have near : ∀ {p : Path}, IsEntry r.2.esp p ∨ nixosDir r.2.esp <+: p → r.2.esp <+: p := by
    rintro p (⟨n, rfl, -⟩ | h)
    · exact List.prefix_append _ _
    · exact (List.prefix_append _ _).trans h
  have before : History world r.2.esp known (fun _ _ => True) fs (runAll a fs) :=
    .snoc .nil (.other fun p hpp => runAll_elsewhere (fun x hx => (hp x (List.mem_append_left _ hx)).safe)
      (fun x hx => (hd'.2.2 x hx r List.mem_cons_self).2) (near hpp))
  have s := hok.append
  rw [runAll_append]
  refine C39_installed_stays_bootable hu (h0 r hr).1 (h0 r hr).2 before (hp r hr) s.1 s.2.1 hg
    (.snoc .nil (.other fun p hpp => ?_))
  exact runAll_elsewhere (fun x hx => (hp x (List.mem_append_right _ (List.mem_cons_of_mem _ hx))).safe)
    (fun x hx => (hb.1 x hx).1) (near hpp)

/-! ### C91 -/

theorem Sound.own {r : Env × Config} (h : Sound world r.2.esp fs) (hp : ProperRun world r.2.esp known r.1 r.2) :
    Sound r.1 r.2.esp fs := h.congr hp.inWorld.parse.symm hp.inWorld.sha.symm

theorem EntryOn.congr {r : Env × Config} {f f' : Fs} {g : Gen} {data : Bytes} (h : EntryOn r f g data)
    (e : ∀ q, r.2.esp <+: q → f'.get q = f.get q) : EntryOn r f' g data := by
  obtain ⟨key, n, h1, h2, h3⟩ := h.ex
  refine ⟨key, n, h1, h2, ?_⟩
  rw [Fs.fileAt_eq_some] at h3 ⊢
  rw [e _ (by exact List.prefix_append _ _)]; exact h3

/-- After a successful run there is an entry. -/
theorem entryOn_of_run {r : Env × Config} {g : Gen} (hp : ProperRun world r.2.esp known r.1 r.2)
    (hs : Sound world r.2.esp fs) (hok : (run r.1 r.2 (start r.2 fs)).1 = .ok ())
    (hb : (run r.1 r.2 (start r.2 fs)).2.broken = [] ∨ Faultless r.1) (hg : Considers r.1 r.2 g) :
    ∃ data, EntryOn r (run r.1 r.2 (start r.2 fs)).2.fs g data := by
  have hp' : ProperRun world r.2.esp (fun g key => known g key ∧ KeyOf r.1 r.2.signer key) r.1 r.2 :=
    { hp with known := fun g key hg hk => ⟨hp.known g key hg hk, hk⟩ }
  obtain ⟨key, n, data, _, _, _, _, ⟨-, hk⟩, hm, hd, -⟩ := (hasEntry_of_run hp' hs hok hb hg).ex
  refine ⟨data, key, n, hk, ?_, hd⟩
  have := isNameOf hm
  rw [← hp.inWorld.sha, ← hp.inWorld.uni] at this
  exact this

/-- And if there was none before, it has been measured. -/
theorem measured_of_run {r : Env × Config} {g : Gen} {p : Path} {data : Bytes}
    (hp : ProperRun world r.2.esp known r.1 r.2)
    (hs : Sound world r.2.esp fs) (hok : (run r.1 r.2 (start r.2 fs)).1 = .ok ())
    (hb : (run r.1 r.2 (start r.2 fs)).2.broken = [] ∨ Faultless r.1) (hg : Considers r.1 r.2 g)
    (hT : ∀ links, r.2.considered r.1 = some links → TagsDiffer (allOf r.1 links))
    (hl : r.2.pcrlockDirectory = some p) (hnew : ∀ data, ¬ EntryOn r fs g data)
    (hd : EntryOn r (run r.1 r.2 (start r.2 fs)).2.fs g data) :
    ∃ image t m, EntryImage r.1 r.2 g image ∧ SignedBy r.1 r.2.signer image data ∧ r.1.lockPe t image = some m ∧
      (run r.1 r.2 (start r.2 fs)).2.fs.fileAt (measurementFile p g) = some m := by
  obtain ⟨key, n, hk, hm, hd⟩ := hd.ex
  exact C51_measurement_exact hp.safe hp.tools hp.separate (hs.own hp) hok hb hT hg hl hk hm hd
    fun h => hnew data ⟨key, n, hk, hm, h⟩

/-- **C91** (partial). After successful runs for any number of partitions that had no entry for the generation, its
measurement is that of its boot entries on each of the partitions, if the images made for it have the same
measurement. Missing: partitions with older entries, for which the claim is false (`C91_measurement_replaced`). -/
theorem C91_measured_everywhere_partial {p : Path} {g : Gen}
    (hp : ∀ r ∈ runs, ProperRun world r.2.esp known r.1 r.2) (hd : DifferentPartitions runs)
    (hT : ∀ r ∈ runs, ∀ links, r.2.considered r.1 = some links → TagsDiffer (allOf r.1 links))
    (hl : ∀ r ∈ runs, r.2.pcrlockDirectory = some p) (h0 : ∀ r ∈ runs, Sound world r.2.esp fs)
    (hg : ∀ r ∈ runs, Considers r.1 r.2 g) (hnew : ∀ r ∈ runs, ∀ data, ¬ EntryOn r fs g data)
    (hok : AllSucceed runs fs) (hm : OneMeasurement runs g) :
    ∀ r ∈ runs, ∀ data, EntryOn r (runAll runs fs) g data →
      ∃ m, (runAll runs fs).fileAt (measurementFile p g) = some m ∧ MeasuredAs r data m := by
  -- each run, seen from its partition
  have key : ∀ a r b, runs = a ++ r :: b →
      Sound world r.2.esp (runAll a fs) ∧ (∀ data, ¬ EntryOn r (runAll a fs) g data) ∧
      ∀ data, EntryOn r (runAll runs fs) g data → EntryOn r (runAll (a ++ [r]) fs) g data := by
    rintro a r b rfl
    have hd' := List.pairwise_append.1 hd
    have hb := List.pairwise_cons.1 hd'.2.1
    have e1 : ∀ q, r.2.esp <+: q → (runAll a fs).get q = fs.get q := fun q hq =>
      runAll_elsewhere (fun x hx => (hp x (List.mem_append_left _ hx)).safe)
        (fun x hx => (hd'.2.2 x hx r List.mem_cons_self).2) hq
    refine ⟨?_, fun data h => hnew r (by simp) data (h.congr fun q hq => (e1 q hq).symm), fun data h => ?_⟩
    · refine C39_history_sound (known := known) (K := fun _ _ => True) (.snoc .nil (.other fun q hq => e1 q ?_))
        (h0 r (by simp))
      rcases hq with ⟨n, rfl, -⟩ | h
      · exact List.prefix_append _ _
      · exact (List.prefix_append _ _).trans h
    · refine h.congr fun q hq => ?_
      rw [show a ++ r :: b = a ++ [r] ++ b by simp, runAll_append (a ++ [r])]
      exact (runAll_elsewhere (fun x hx => (hp x (List.mem_append_right _ (List.mem_cons_of_mem _ hx))).safe)
        (fun x hx => (hb.1 x hx).1) hq).symm
  intro r hr data hdata
  -- the last run
  obtain ⟨a', z, e⟩ : ∃ a' z, runs = a' ++ [z] := by
    have hne : runs ≠ [] := by rintro rfl; cases hr
    exact ⟨runs.dropLast, runs.getLast hne, (List.dropLast_concat_getLast hne).symm⟩
  have hz : z ∈ runs := by rw [e]; simp
  obtain ⟨s1, s2, -⟩ := key a' z [] e
  have ok1 : AllSucceed [z] (runAll a' fs) := AllSucceed.append (by rw [← e]; exact hok)
  obtain ⟨dz, hdz⟩ := entryOn_of_run (hp z hz) s1 ok1.1 ok1.2.1 (hg z hz)
  obtain ⟨iz, tz, m, g1, g2, g3, g4⟩ := measured_of_run (hp z hz) s1 ok1.1 ok1.2.1 (hg z hz) (hT z hz) (hl z hz) s2 hdz
  have last : (runAll runs fs).fileAt (measurementFile p g) = some m := by
    rw [e, runAll_append]; exact g4
  -- the run in question
  obtain ⟨a, b, e'⟩ := List.append_of_mem hr
  obtain ⟨t1, t2, t3⟩ := key a r b e'
  have ok2 : AllSucceed (r :: b) (runAll a fs) := AllSucceed.append (by rw [← e']; exact hok)
  have hd2 := t3 data hdata
  rw [runAll_append] at hd2
  obtain ⟨ir, tr, m', k1, k2, k3, -⟩ := measured_of_run (hp r hr) t1 ok2.1 ok2.2.1 (hg r hr) (hT r hr) (hl r hr) t2 hd2
  cases hm r hr z hz ir iz tr tz m' m k1 g1 k3 g3
  exact ⟨_, last, ir, tr, k2, k3⟩

end Verif.Tool

namespace Verif.Tool.Sample
open Verif StubName Generation BootCounting

/-! ### Examples -/

/-- A second boot partition. -/
def cfgB : Config := { cfg with esp := [lit "boot2"] }

/-- A new stub. -/
def stub2 : Bytes := build [(lit ".text", [6, 6])]

/-- The same machine after an update of lanzaboote. -/
def updated : Env :=
  { good with store := fun p => if p = storePath "stub.efi" then some stub2 else good.store p }

def both : List (Env × Config) := [(good, cfg), (good, cfgB)]

theorem considersB {e : Env} {g : Gen} (h : Considers e cfgB g) : Considers e cfg g := ⟨h.ex⟩

theorem properB : ProperRun good cfgB.esp known good cfgB where
  esp := rfl
  inWorld := ⟨rfl, rfl, rfl, fun _ _ _ h => h, fun _ _ _ h => h⟩
  safe := fun g hg => safe_good g (considersB hg)
  tools := faithful _
  separate := by
    intro p h
    have : p = [lit "var", lit "pcrlock.d"] := by
      have e : cfgB.pcrlockDirectory = some [lit "var", lit "pcrlock.d"] := rfl
      rw [e] at h; exact (Option.some.inj h).symm
    subst this
    decide
  known := fun g key hg hk => known_considered (fun _ => false) g key (considersB hg) hk

theorem mem_both {r : Env × Config} (h : r ∈ both) : r = (good, cfg) ∨ r = (good, cfgB) := by
  simpa [both] using h

theorem proper_both : ∀ r ∈ both, ProperRun good r.2.esp known r.1 r.2 := by
  intro r hr
  rcases mem_both hr with rfl | rfl
  · exact properRun fun _ => false
  · exact properB

theorem elsewhere_of {a b : Config} (h : ¬ a.esp <+: b.esp ∧ ¬ b.esp <+: a.esp)
    (hl : b.pcrlockDirectory = some [lit "var", lit "pcrlock.d"])
    (h' : ¬ a.esp <+: [lit "var", lit "pcrlock.d"] ∧ ¬ [lit "var", lit "pcrlock.d"] <+: a.esp) : Elsewhere a b :=
  ⟨h, fun p hp => by rw [hl] at hp; cases hp; exact h'⟩

theorem different_both : DifferentPartitions both :=
  List.pairwise_pair.2 ⟨elsewhere_of (by decide) rfl (by decide), elsewhere_of (by decide) rfl (by decide)⟩

theorem emptyB {p : Path} (h : cfgB.esp <+: p) : disk0.get p = none := by
  obtain ⟨q, rfl⟩ := h
  rfl

theorem sound_both : ∀ r ∈ both, Sound good r.2.esp disk0 ∧ Coherent good r.2.esp known disk0 := by
  intro r hr
  rcases mem_both hr with rfl | rfl
  · exact ⟨sound0, coherent0⟩
  · have h : ∀ p, IsEntry cfgB.esp p → disk0.get p = none := by
      rintro p ⟨n, rfl, -⟩
      exact emptyB (List.prefix_append _ _)
    exact ⟨sound_of_empty h fun p hp _ => emptyB ((List.prefix_append _ _).trans hp), coherent_of_empty h⟩

/-- What happens on this machine, if the second partition is added at once, and if it is added when the stub is new. -/
def bothOk : Bool :=
  let f1 := run good cfg (start cfg disk0)
  let f2 := run good cfgB (start cfgB f1.2.fs)
  decide (f1.1 = .ok ()) && decide (f2.1 = .ok ())

def replaced : Bool :=
  let f2 := run updated cfg (start cfg diskOld)
  let f3 := run updated cfgB (start cfgB f2.2.fs)
  decide (f2.1 = .ok ()) && decide (f3.1 = .ok ()) &&
  match f3.2.fs.fileAt firstEntry, f3.2.fs.fileAt (measurementFile [lit "var", lit "pcrlock.d"] first) with
  | some data, some m => decide (m ≠ 76 :: data.dropLast)
  | _, _ => false

theorem bothOk_ok : bothOk = true := by decide +kernel

theorem replaced_ok : replaced = true := by decide +kernel

theorem succeed_pair {e e' : Env} {c c' : Config} {fs : Fs} (fa : Faultless e) (fb : Faultless e')
    (ha : (run e c (start c fs)).1 = .ok ())
    (hb : (run e' c' (start c' (run e c (start c fs)).2.fs)).1 = .ok ()) : AllSucceed [(e, c), (e', c')] fs :=
  ⟨ha, Or.inr fa, hb, Or.inr fb, trivial⟩

theorem runAll_pair {e e' : Env} {c c' : Config} {fs : Fs} : runAll [(e, c), (e', c')] fs =
    (run e' c' (start c' (run e c (start c fs)).2.fs)).2.fs := rfl

theorem entryOn {e : Env} {c : Config} {f : Fs} {g : Gen} {data key : Bytes} {n : Str} (h1 : KeyOf e c.signer key)
    (h2 : IsNameOf e.uni e.sha g key n) (h3 : f.fileAt (entryFile c.esp n) = some data) : EntryOn (e, c) f g data :=
  ⟨key, n, h1, h2, h3⟩

theorem faultless_good : Faultless good := fun _ => rfl

theorem faultless_updated : Faultless updated := fun _ => rfl

theorem succeed_both : AllSucceed both disk0 := by
  have h := bothOk_ok
  unfold bothOk at h
  rw [Bool.and_eq_true, decide_eq_true_eq, decide_eq_true_eq] at h
  exact succeed_pair faultless_good faultless_good h.1 h.2

/-- After the runs for both partitions, the first generation can be booted from both. -/
example : (∃ p, IsEntry [lit "boot"] p ∧ Boots good [lit "boot"] (runAll both disk0) first p) ∧
    ∃ p, IsEntry [lit "boot2"] p ∧ Boots good [lit "boot2"] (runAll both disk0) first p := by
  have hg : Considers good cfg first := considers_iff.2 first_mem
  exact ⟨C90_each_boots (r := (good, cfg)) unambiguous proper_both different_both sound_both succeed_both
      (by simp [both]) hg,
    C90_each_boots (r := (good, cfgB)) unambiguous proper_both different_both sound_both succeed_both
      (by simp [both]) ⟨hg.ex⟩⟩

/-- A run for the second partition that is killed anywhere leaves the files of the first one. -/
example (done : List Change) (h : KilledAfter good cfgB disk0 done) :
    (disk0.replay done).get [lit "boot", lit "EFI", lit "nixos", lit "kernel-5-old.efi"] = some (.file [4]) :=
  C90_left_alone (cfg := cfg) properB.safe (elsewhere_of (by decide) rfl (by decide)) h ⟨_, rfl⟩

theorem kernelVersion_unique {kernel : Path} {v v' : Str} (h : KernelVersion kernel v)
    (h' : KernelVersion kernel v') : v = v' := by
  have := (kernelVersion_spec.2 h).symm.trans (kernelVersion_spec.2 h')
  exact Option.some.inj this

theorem objcopy_congr {st : Bytes} {a b : List Added}
    (h : a.map (fun s => (s.name, s.content)) = b.map fun s => (s.name, s.content)) :
    objcopy st a = objcopy st b := by
  have key : ∀ l : List Added, objcopy st l =
      let img := build (sections st ++ l.map fun s => (s.name, s.content))
      if (l.map fun s => (s.name, s.content)).all
        fun s => decide (readSectionData (bare fun _ => false) img s.1 = .ok (some s.2))
      then some img else none := by
    intro l
    unfold objcopy
    simp only [List.all_map]
    rfl
  rw [key, key, h]

/-- The tools always do the same. -/
theorem one_image {g : Gen} {i i' : Bytes} (h : EntryImage good cfg g i) (h' : EntryImage good cfg g i') :
    i = i' := by
  obtain ⟨v, k, r, h1, h2, ⟨p, d, h3, h4, h5⟩, st, t, added, h6, h7, h8⟩ := h
  obtain ⟨v', k', r', h1', h2', ⟨p', d', h3', h4', h5'⟩, st', t', added', h6', h7', h8'⟩ := h'
  cases kernelVersion_unique h1 h1'
  rw [h2] at h2'; cases h2'
  rw [h3] at h3'; cases h3'
  rw [h4] at h4'; cases h4'
  rw [h6] at h6'; cases h6'
  have : r = r' := by
    cases hs : g.spec.initrdSecrets <;> rw [hs] at h5 h5'
    · exact h5.trans h5'.symm
    · obtain ⟨_, h5⟩ := h5
      obtain ⟨_, h5'⟩ := h5'
      exact Option.some.inj (h5.symm.trans h5')
  subst this
  have h8 : objcopy st added = some i := h8
  have h8' : objcopy st added' = some i' := h8'
  rw [objcopy_congr (h7.trans h7'.symm), h8'] at h8
  exact (Option.some.inj h8).symm

theorem oneMeasurement_both (g : Gen) : OneMeasurement both g := by
  intro r hr r' hr' i i' t t' m m' h h' hm hm'
  have e : i = i' := by
    rcases mem_both hr with rfl | rfl <;> rcases mem_both hr' with rfl | rfl <;> exact one_image h h'
  subst e
  rcases mem_both hr with rfl | rfl <;> rcases mem_both hr' with rfl | rfl <;>
    exact Option.some.inj (hm.symm.trans hm')

/-- The measurement of the first generation is that of its entries on both partitions. -/
example : ∀ r ∈ both, ∀ data, EntryOn r (runAll both disk0) first data →
    ∃ m, (runAll both disk0).fileAt (measurementFile [lit "var", lit "pcrlock.d"] first) = some m ∧
      MeasuredAs r data m := by
  have hg : Considers good cfg first := considers_iff.2 first_mem
  refine C91_measured_everywhere_partial proper_both different_both ?_ ?_ (fun r hr => (sound_both r hr).1) ?_ ?_
    succeed_both (oneMeasurement_both _)
  · intro r hr
    rcases mem_both hr with rfl | rfl <;> exact tags0
  · intro r hr
    rcases mem_both hr with rfl | rfl <;> rfl
  · intro r hr
    rcases mem_both hr with rfl | rfl <;> exact ⟨hg.ex⟩
  · rintro r hr data ⟨key, n, -, hn, hd⟩
    exact no_entry (isMatch_isEntry hn.isMatch) data hd

/-- **C91** is false in general. Lanzaboote has been updated since the first partition was installed. Both runs
succeed, the entry of the first generation on the first partition is kept, but the run for the second partition
replaces the measurement with that of its own entry. -/
theorem C91_measurement_replaced :
    AllSucceed [(updated, cfg), (updated, cfgB)] diskOld ∧
    ∃ data m, EntryOn (updated, cfg) (runAll [(updated, cfg), (updated, cfgB)] diskOld) first data ∧
      (runAll [(updated, cfg), (updated, cfgB)] diskOld).fileAt
        (measurementFile [lit "var", lit "pcrlock.d"] first) = some m ∧
      ¬ MeasuredAs (updated, cfg) data m := by
  have h := replaced_ok
  unfold replaced at h
  simp only [Bool.and_eq_true, decide_eq_true_eq] at h
  obtain ⟨⟨h1, h2⟩, h3⟩ := h
  refine ⟨succeed_pair faultless_updated faultless_updated h1 h2, ?_⟩
  split at h3
  · next data m hd hm =>
    rw [runAll_pair]
    refine ⟨data, m, entryOn (key := [80, 75]) (by show updated.store _ = _; decide)
      (isNameOf (isMatch_entryName good.uni (stubPrefix sha first [80, 75]) (.left 3))) hd, hm, ?_⟩
    · rintro ⟨image, t, ⟨t', hs⟩, hl⟩
      have hs : sbsign image = some data := hs
      have hl : some (76 :: image) = some m := hl
      cases hl
      unfold sbsign at hs
      split at hs
      · cases hs
        simp at h3
      · cases hs
  · cases h3

/-- The second partition, with one generation. -/
def cfg1B : Config := { cfg1 with esp := [lit "boot2"] }

/-- 258 is installed and measured. -/
def newer : Fs := diskWith (signed (.full 258)) (signed (.full 258)) (76 :: systemdBoot (.full 258))

def loaderLost : Bool :=
  let f1 := run env257 cfg1 (start cfg1 newer)
  let f2 := run env257 cfg1B (start cfg1B f1.2.fs)
  decide (f1.1 = .ok ()) && decide (f2.1 = .ok ()) &&
  decide (f2.2.fs.fileAt (fallbackFile cfg1) = some (signed (.full 258))) &&
  decide (f2.2.fs.fileAt (currentFile [lit "var", lit "pcrlock.d"]) = some (76 :: systemdBoot (.full 257))) &&
  decide (f2.2.fs.fileAt (nextFile [lit "var", lit "pcrlock.d"]) = none)

theorem loaderLost_ok : loaderLost = true := by decide +kernel

theorem newer_covered : CoveredByCurrent cfg1 [lit "var", lit "pcrlock.d"] measures newer := by
  have h : newer.fileAt (fallbackFile cfg1) = some (signed (.full 258)) ∧
      newer.fileAt (systemdFile cfg1) = some (signed (.full 258)) ∧
      newer.fileAt (currentFile [lit "var", lit "pcrlock.d"]) = some (76 :: systemdBoot (.full 258)) := by
    decide +kernel
  intro q hq out ho
  refine ⟨_, h.2.2, ?_⟩
  rcases hq with rfl | rfl
  · rw [h.1] at ho; cases ho; rfl
  · rw [h.2.1] at ho; cases ho; rfl

/-- It is the same for the boot loader, after a rollback from systemd 258 to 257: the first partition keeps 258, the
second one gets 257, and what was measured is no longer the boot loader of the first one, neither now nor next. -/
theorem C91_loader_measurement_replaced :
    CoveredByCurrent cfg1 [lit "var", lit "pcrlock.d"] measures newer ∧
    AllSucceed [(env257, cfg1), (env257, cfg1B)] newer ∧
    ¬ Covered cfg1 [lit "var", lit "pcrlock.d"] measures (runAll [(env257, cfg1), (env257, cfg1B)] newer) := by
  have h := loaderLost_ok
  unfold loaderLost at h
  simp only [Bool.and_eq_true, decide_eq_true_eq] at h
  obtain ⟨⟨⟨⟨h1, h2⟩, h3⟩, h4⟩, h5⟩ := h
  have hf : Faultless env257 := fun _ => rfl
  refine ⟨newer_covered, succeed_pair hf hf h1 h2, ?_⟩
  rw [runAll_pair]
  intro hc
  obtain ⟨m, hm | hm, h6⟩ := hc _ (Or.inl rfl) _ h3
  · rw [h4] at hm; cases hm; exact absurd h6 (by unfold measures; decide +kernel)
  · rw [h5] at hm; cases hm

end Verif.Tool.Sample
