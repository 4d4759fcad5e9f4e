import Verif.Lemmas.Ordered
import Verif.Props.PowerLossNext
import Verif.Props.Partitions
/-!
# C98: measurements belong to the boot entries on the disk
-/
namespace Verif.Tool
open Verif StubName Generation BootCounting

variable {env world : Env} {cfg : Config} {esp dir : Path} {known : Gen → Bytes → Prop}
  {shows : Bytes → Bytes → Prop} {fs fs' : Fs} {done : List Change}

theorem consistent_env (hw : InWorld world env cfg) {f : Fs} (h : Consistent world esp f) :
    Consistent env esp f := by
  intro p hp data hd
  obtain ⟨kl, kh, il, ih, h1, h2, h3, h4⟩ := h p hp data hd
  exact ⟨kl, kh, il, ih, h1.congr hw.parse.symm, h2.congr hw.parse.symm, h3.congr hw.sha.symm, h4.congr hw.sha.symm⟩

theorem consistent_world (hw : InWorld world env cfg) {f : Fs} (h : Consistent env esp f) :
    Consistent world esp f := by
  intro p hp data hd
  obtain ⟨kl, kh, il, ih, h1, h2, h3, h4⟩ := h p hp data hd
  exact ⟨kl, kh, il, ih, h1.congr hw.parse, h2.congr hw.parse, h3.congr hw.sha, h4.congr hw.sha⟩

/-- What does not depend on the order of the changes. -/
theorem Orderly.rest (hp : ProperRun world esp known env cfg) {ld : Scope} {f : Fs} {c : Change}
    (h : Orderly world esp dir known shows f) (st : InstallStep env cfg ld f c) :
    (f.apply c).Tree ∧ Consistent world esp (f.apply c) ∧
      ∀ p, IsEntry esp p → (f.apply c).get p ≠ some .dir := by
  obtain rfl := hp.esp
  have h0 : StillThere env cfg f f := ⟨consistent_env hp.inWorld h.consistent, h.files, id, fun _ _ h => h, fun _ _ _ h => h⟩
  have h1 := h0.step hp.safe hp.tools hp.separate st
  exact ⟨st.tree h.tree, consistent_world hp.inWorld h1.consistent, h1.files⟩

theorem sameEntry_of (hu : Unambiguous world known) {g g' : Gen} {k k' : Bytes} {n : Str} (h : known g k)
    (h' : known g' k') (hm : IsNameOf world.uni world.sha g k n) (hm' : IsNameOf world.uni world.sha g' k' n) :
    SameEntry g g' k k' := by
  rcases isMatch_both hm.isMatch hm'.isMatch with e | e
  · exact e
  · exact absurd e (hu.apart g k g' k' h h')

theorem sameEntry_measurement {g g' : Gen} {k k' : Bytes} (h : SameEntry g g' k k') (dir : Path) :
    measurementFile dir g' = measurementFile dir g := by
  unfold measurementFile Gen.versionTag Gen.describeSpecialisation
  rw [h.1, h.2.1]

theorem sameEntry_prefix {g g' : Gen} {k k' : Bytes} (h : SameEntry g g' k k') (sha : Sha) :
    stubPrefix sha g' k' = stubPrefix sha g k := by
  obtain ⟨h1, h2, h3, rfl⟩ := h
  unfold stubPrefix
  rw [h1, h2, h3]

/-- Installing a generation that has no boot entry. -/
theorem EntriesMeasured.step (hu : Unambiguous world known) (ht : TagsStand known)
    (hr : MeasuringRun world esp dir known shows env cfg) {g : Gen} (hg : Considers env cfg g) {f : Fs} {c : Change}
    (h : EntriesMeasured world esp dir known shows f) (hkey : ∃ key, KeyOf env cfg.signer key)
    (st : OrderedStep env cfg g f c) : EntriesMeasured world esp dir known shows (f.apply c) := by
  obtain rfl := hr.proper.esp
  have hs := hr.proper.safe
  have hw := hr.proper.inWorld
  intro g' k' n data hkn hm hd
  have hent : IsEntry cfg.esp (entryFile cfg.esp n) := isMatch_isEntry hm.isMatch
  have hmeas : IsMeasurement cfg (measurementFile dir g') := ⟨dir, hr.dir, Or.inl ⟨g', rfl⟩⟩
  cases st with
  | other t r =>
    rw [r.entry_same hs t hent (t.not_entry hent)] at hd
    obtain ⟨m, h1, h2⟩ := h g' k' n data hkn hm hd
    exact ⟨m, r.get_measurement hs t hmeas h1, h2⟩
  | measure hp hn r =>
    cases hr.dir.symm.trans hp
    rw [r.entry_same (measurementFile_ne_entryFile _ _ _ _).symm] at hd
    obtain ⟨m, h1, h2⟩ := h g' k' n data hkn hm hd
    refine ⟨m, ?_, h2⟩
    rw [r.entry_same]
    · exact h1
    · intro e
      obtain ⟨key, hk⟩ := hkey
      have same := ht g key g' k' (hr.proper.known g key hg hk) hkn (measurementFile_inj e).symm
      have := hn key n hk (by rw [hw.uni, hw.sha, ← sameEntry_prefix same]; exact hm.isMatch)
      rw [this] at hd
      cases hd
  | @entry key hk r =>
    have t : Target env cfg (.one g) false (entryFile cfg.esp (stubName env.sha g key cfg.tries)) :=
      .entry hg rfl hk rfl
    by_cases e : entryFile cfg.esp n = entryFile cfg.esp (stubName env.sha g key cfg.tries)
    · rcases r.get (entryFile cfg.esp n) (fun e => isEntry_not_tmp hent (e ▸ (t.tmp hs).1)) with
        e' | ⟨-, e'⟩ | ⟨-, d, ⟨image, h1, h2⟩, -, e', -⟩
      · rw [Fs.fileAt_eq_some, e', ← Fs.fileAt_eq_some] at hd
        obtain ⟨m, h1, h2⟩ := h g' k' n data hkn hm hd
        exact ⟨m, r.get_measurement hs t hmeas h1, h2⟩
      · rw [Fs.fileAt_eq_some, e'] at hd; cases hd
      · rw [Fs.fileAt_eq_some, e'] at hd
        cases hd
        obtain ⟨tt, m, h3, h4⟩ := h2 dir hr.dir
        cases entryFile_inj e
        have same := sameEntry_of hu (hr.proper.known g key hg hk) hkn
          (isNameOf (by rw [← hw.uni, ← hw.sha]; exact isMatch_stubName _ _ _ _ _)) hm
        refine ⟨m, ?_, hr.shows _ _ ⟨image, tt, h1, h3⟩⟩
        rw [sameEntry_measurement same]
        exact r.get_measurement hs t ⟨dir, hr.dir, Or.inl ⟨g, rfl⟩⟩ h4
    · rw [r.entry_same hs t hent e] at hd
      obtain ⟨m, h1, h2⟩ := h g' k' n data hkn hm hd
      exact ⟨m, r.get_measurement hs t hmeas h1, h2⟩

theorem installGeneration_orderly (hu : Unambiguous world known) (ht : TagsStand known)
    (hr : MeasuringRun world esp dir known shows env cfg) {g : Gen} (hg : Considers env cfg g) :
    Triple (fun s => Orderly world esp dir known shows s.fs) (installGeneration env cfg g)
      (fun f c => Orderly world esp dir known shows (f.apply c))
      (fun _ s => Orderly world esp dir known shows s.fs) := by
  intro s h
  by_cases hex : NoEntry env cfg g s.fs
  · have hT := Triple.carry (J := Orderly world esp dir known shows)
      (A' := fun f c => Orderly world esp dir known shows (f.apply c))
      (Triple.both (installGeneration_ordered hr.proper.safe hg)
      (installGeneration_triple (ld := .one g) hr.proper.safe hg rfl)) (by
        rintro f c j ⟨⟨hk, st⟩, st'⟩
        have h1 := j.rest hr.proper st'
        have : Orderly world esp dir known shows (f.apply c) :=
          ⟨h1.1, h1.2.1, h1.2.2, j.measured.step hu ht hr hg hk st⟩
        exact ⟨this, this⟩)
    exact (hT.post fun _ _ h => h.2) s ⟨⟨hex, trivial⟩, h⟩
  · obtain ⟨key, n, data, hk, hm, hd⟩ : ∃ key n data, KeyOf env cfg.signer key ∧
        isMatch env.uni (stubPrefix env.sha g key) n = true ∧ s.fs.fileAt (entryFile cfg.esp n) = some data := by
      unfold NoEntry at hex
      rw [Classical.not_forall] at hex
      obtain ⟨key, hex⟩ := hex
      rw [Classical.not_forall] at hex
      obtain ⟨n, hex⟩ := hex
      rw [Classical.not_imp, Classical.not_imp] at hex
      obtain ⟨h1, h2, h3⟩ := hex
      obtain ⟨data, hd⟩ := Option.ne_none_iff_exists'.1 h3
      exact ⟨key, n, data, h1, h2, hd⟩
    have hw := hr.proper.inWorld
    obtain rfl := hr.proper.esp
    have hsome : (s.fs.get (entryFile cfg.esp n)).isSome := by rw [Fs.fileAt_eq_some.1 hd]; rfl
    have hlin : s.fs.get (linuxDir cfg.esp) = some .dir := by
      have := h.tree.parent _ (by simp [entryFile]) hsome
      simpa [entryFile, linuxDir] using this
    obtain ⟨m, hmf, -⟩ := h.measured g key n data (hr.proper.known g key hg hk)
      (isNameOf (by rw [← hw.uni, ← hw.sha]; exact hm)) hd
    obtain ⟨X, t, e⟩ := reads_installed hr.reliable (hr.proper.safe g hg) hk hm hsome hlin
      (consistent_env hw h.consistent) h.files fun p hp => by
        cases hr.dir.symm.trans hp
        rw [Fs.fileAt_eq_some.1 hmf]; rfl
    exact ⟨⟨[], by rw [e]; simp, by rw [e]; rfl, trivial⟩, by rw [e]; simp +contextual, by rw [e],
      fun _ _ => by rw [e]; exact h⟩

theorem installAll_orderly (hu : Unambiguous world known) (ht : TagsStand known)
    (hr : MeasuringRun world esp dir known shows env cfg) (gens : List Gen) (hg : ∀ g ∈ gens, Considers env cfg g) :
    Triple (fun s => Orderly world esp dir known shows s.fs) (installAll env cfg gens)
      (fun f c => Orderly world esp dir known shows (f.apply c))
      (fun _ s => Orderly world esp dir known shows s.fs) := by
  induction gens with
  | nil => exact Triple.pure fun s h => h
  | cons g gens ih =>
    unfold installAll
    exact Triple.bind (installGeneration_orderly hu ht hr (hg g (by simp))) fun _ =>
      ih fun x hx => hg x (by simp [hx])

/-- Installing the boot loader. -/
theorem EntriesMeasured.loader (hr : MeasuringRun world esp dir known shows env cfg) {f : Fs} {c : Change}
    (h : EntriesMeasured world esp dir known shows f) (st : InstallStep env cfg .ofLoader f c) :
    EntriesMeasured world esp dir known shows (f.apply c) := by
  obtain rfl := hr.proper.esp
  intro g k n data hkn hm hd
  have hent : IsEntry cfg.esp (entryFile cfg.esp n) := isMatch_isEntry hm.isMatch
  have old : f.fileAt (entryFile cfg.esp n) = some data := by
    rw [Fs.fileAt_eq_some] at hd ⊢
    rcases st.get hr.proper.safe (isEntry_not_tmp hent) (isEntry_not_measurement hent) with
      e | ⟨-, e⟩ | ⟨d, hn, -, -, -, -⟩
    · rw [← e]; exact hd
    · rw [e] at hd; cases hd
    · exfalso
      cases hn with
      | kernel _ h _ _ _ => exact h
      | initrd _ h _ _ _ => exact h
      | entry _ h _ _ _ _ _ _ _ _ _ => exact h
      | loader _ _ _ _ e =>
        rcases e with e | e
        · exact hent.ne_of_lastTwo (fallbackFile_lastTwo _) (by decide) e
        · exact hent.ne_of_lastTwo (systemdFile_lastTwo _) (by decide) e
      | conf _ e => exact hent.ne_of_lastTwo (confFile_lastTwo _) (by decide) e
  obtain ⟨m, h1, h2⟩ := h g k n data hkn hm old
  rcases st.measurement hr.proper.safe hr.dir h1 with h3 | ⟨_, h3, -⟩
  · exact ⟨m, h3, h2⟩
  · exact h3.elim

/-- One change of a run that starts with an orderly disk, unless it belongs to garbage collection, leaves the disk
orderly. -/
theorem run_orderly (hu : Unambiguous world known) (ht : TagsStand known)
    (hr : MeasuringRun world esp dir known shows env cfg) (h0 : Orderly world esp dir known shows fs) :
    Fs.Chain (fun f c => c = .collecting ∨ (removed c).isSome ∨ Orderly world esp dir known shows (f.apply c)) fs
      (run env cfg (start cfg fs)).2.log := by
  cases hl : cfg.considered env with
  | none =>
    have e : run env cfg (start cfg fs) = (.err (), start cfg fs) := by
      simp [run, hl, ofOption, RM.throw]
    rw [e]
    trivial
  | some links =>
    obtain ⟨gs, t, b, he, h1, -⟩ := readGenerations_spec env links (start cfg fs)
    let gens := gs.flatMap fun g => g.1 :: g.2
    have hcons : ∀ g ∈ gens, Considers env cfg g := by
      intro g hg
      obtain ⟨x, hx, hgx⟩ := List.mem_flatMap.1 hg
      obtain ⟨link, hlink, j, hj, rfl⟩ := h1 x hx
      exact ⟨links, link, j, hl, hlink, hj, hgx⟩
    let s0 : State := { start cfg fs with tick := t, broken := b }
    have e : run env cfg (start cfg fs) = (do installThem env cfg gs; installSystemdBoot env cfg; collect env cfg) s0 := by
      simp only [run, hl, ofOption, installGenerationsFromLinks, RM.bind_run,
        RM.pure_run, he, installThem]
      rfl
    have whole : Triple (fun s => Orderly world esp dir known shows s.fs)
        (do installThem env cfg gs; installSystemdBoot env cfg; collect env cfg)
        (fun f c => c = .collecting ∨ (removed c).isSome ∨ Orderly world esp dir known shows (f.apply c))
        (fun _ _ => True) := by
      refine Triple.bind (Q := fun _ s => Orderly world esp dir known shows s.fs) ?_ fun _ => ?_
      · unfold installThem
        refine Triple.ite (fun _ => Triple.throw) fun _ => ?_
        refine Triple.bind ((installAll_orderly hu ht hr gens hcons).steps fun _ _ h => Or.inr (Or.inr h)) fun _ => ?_
        have sync : ∀ f, Orderly world esp dir known shows f →
            Orderly world esp dir known shows (f.apply (.syncfs cfg.esp)) := by
          intro f j
          have st : InstallStep env cfg .ofLoader f (.syncfs cfg.esp) := .sync trivial rfl
          have h1 := j.rest hr.proper st
          exact ⟨h1.1, h1.2.1, h1.2.2, j.measured.loader hr st⟩
        exact (syncFs_triple (env := env) (J := Orderly world esp dir known shows) (R := fun _ => True) cfg.esp
          sync fun f j => Or.inr (Or.inr (sync f j))).weaken (fun _ h => ⟨h, trivial⟩)
          (fun _ _ h => h) fun _ _ h => h.1
      refine Triple.bind (Q := fun _ s => Orderly world esp dir known shows s.fs) ?_ fun _ => ?_
      · refine (Triple.carry (J := Orderly world esp dir known shows)
          (installSystemdBoot_triple (ld := .ofLoader) hr.proper.safe trivial) ?_).weaken (fun _ h => ⟨trivial, h⟩)
          (fun _ _ h => h) fun _ _ h => h.2
        intro f c j st
        have h1 := j.rest hr.proper st
        have : Orderly world esp dir known shows (f.apply c) :=
          ⟨h1.1, h1.2.1, h1.2.2, j.measured.loader hr st⟩
        exact ⟨this, Or.inr (Or.inr this)⟩
      · intro s _
        by_cases hbr : s.broken = []
        · have e' : collect env cfg s = (do
              collectGarbage env.os cfg.paths.nixos
              collectGarbageWithFilter env.os cfg.paths.linux startsWithNixos
              collectMeasurements env cfg)
              { s with fs := s.fs.apply .collecting, log := s.log ++ [Change.collecting] } := by
            simp [collect, RM.get, hbr, change]
          obtain ⟨⟨l, g1, g2, g3⟩, g4, g5, -⟩ := collectThree_triple (env := env) (cfg := cfg) s.roots
            { s with fs := s.fs.apply .collecting, log := s.log ++ [Change.collecting] } rfl
          rw [← e'] at g1 g2 g4 g5
          refine ⟨⟨.collecting :: l, by rw [g1]; simp, by rw [g2]; rfl, And.intro (Or.inl rfl) ?_⟩,
            g4, g5, fun _ _ => trivial⟩
          refine g3.mono fun f c st => Or.inr (Or.inl ?_)
          cases st with
          | nixos h => cases h <;> rfl
          | linux h => cases h <;> rfl
          | lock _ h => cases h <;> rfl
        · have e' : collect env cfg s = (.ok (), s) := by simp [collect, RM.get, hbr]
          refine ⟨⟨[], by rw [e']; simp, by rw [e']; rfl, trivial⟩, by rw [e']; exact fun _ h => h, by rw [e'],
            fun _ _ => trivial⟩
    obtain ⟨⟨l, a1, -, a3⟩, -⟩ := whole s0 h0
    rw [e, a1]
    simpa [s0, start] using a3

theorem Fs.Chain.both {A B : Fs → Change → Prop} {l : List Change} : ∀ {f : Fs}, Fs.Chain A f l → Fs.Chain B f l →
    Fs.Chain (fun f c => A f c ∧ B f c) f l := by
  induction l with
  | nil => exact fun _ _ => trivial
  | cons c l ih => exact fun h h' => ⟨⟨h.1, h'.1⟩, ih h.2 h'.2⟩

/-- Installing removes nothing. -/
theorem InstallStep.removes_nothing {ld : Scope} {f : Fs} {c : Change} (st : InstallStep env cfg ld f c) :
    c ≠ .collecting ∧ removed c = none := by
  have out : ∀ {p}, Outputs p f c → c ≠ .collecting ∧ removed c = none := by
    intro p h
    cases h <;> exact ⟨by simp, rfl⟩
  cases st with
  | replace t r => cases r <;> exact ⟨by simp, rfl⟩
  | measured _ _ _ o => exact out o
  | next _ _ o => exact out o
  | current _ _ _ _ _ _ _ _ _ _ e => subst e; exact ⟨by simp, rfl⟩
  | sync _ e => subst e; exact ⟨by simp, rfl⟩

/-- The disk is orderly at any moment before garbage collection. -/
theorem chain_orderly (hu : Unambiguous world known) (ht : TagsStand known)
    (hr : MeasuringRun world esp dir known shows env cfg) (h0 : Orderly world esp dir known shows fs)
    (hk : KilledAfter env cfg fs done) {ld : Scope} (hch : Fs.Chain (InstallStep env cfg ld) fs done) :
    Orderly world esp dir known shows (fs.replay done) := by
  refine (hch.both ((run_orderly hu ht hr h0).prefix hk)).inv h0 ?_
  rintro f c j ⟨st, h⟩
  have hn := st.removes_nothing
  rcases h with h | h | h
  · exact absurd h hn.1
  · rw [hn.2] at h; cases h
  · exact h

theorem killed_orderly (hu : Unambiguous world known) (ht : TagsStand known)
    (hr : MeasuringRun world esp dir known shows env cfg) (h0 : Orderly world esp dir known shows fs)
    (hk : KilledAfter env cfg fs done) (hn : .collecting ∉ done) :
    Orderly world esp dir known shows (fs.replay done) := by
  obtain ⟨a, b, gens, final, sh⟩ := run_plain hr.proper.safe fs
  rcases sh.phases hk with ⟨-, -, h⟩ | ⟨h, -⟩
  · exact chain_orderly hu ht hr h0 hk h
  · exact absurd h hn

/-- **C98** (at any moment). If the boot entries on the ESP are complete and measured, and the installer runs and is
killed at any moment, or ends, then each boot entry of a considered generation is measured: the measurement there is
that of the very entry on the ESP, be it an old one or one written by this run. -/
theorem C98_at_any_moment (hu : Unambiguous world known) (ht : TagsStand known)
    (hr : MeasuringRun world esp dir known shows env cfg) (h0 : Orderly world esp dir known shows fs)
    (hk : KilledAfter env cfg fs done) {g : Gen} (hg : Considers env cfg g) {key : Bytes} (hkn : known g key) {n : Str}
    (hm : IsNameOf world.uni world.sha g key n) {data : Bytes}
    (hd : (fs.replay done).fileAt (entryFile esp n) = some data) :
    ∃ m, (fs.replay done).fileAt (measurementFile dir g) = some m ∧ shows data m := by
  obtain ⟨a, b, gens, final, sh⟩ := run_shape hr.proper.safe (measured_carried hr.proper.safe).all
    (start cfg fs) trivial (by simp) rfl
  rcases sh.phases hk with ⟨-, -, h⟩ | ⟨-, hch, l, hdone, hgc, e, hall, hC⟩
  · exact (chain_orderly hu ht hr h0 hk h).measured g key n data hkn hm hd
  · obtain ⟨h1, h2⟩ := hC.gens g (hall g hg) dir hr.dir
    have hka : KilledAfter env cfg fs a := List.IsPrefix.trans ⟨_, hdone.symm⟩ hk
    have ho := chain_orderly hu ht hr h0 hka hch
    rw [e] at hd ⊢
    have hd' : (fs.replay a).fileAt (entryFile esp n) = some data := by
      rw [Fs.fileAt_eq_some] at hd ⊢
      rcases GcAny.chain_get hgc (entryFile esp n) with e | e
      · rw [← e]; exact hd
      · rw [e] at hd; cases hd
    obtain ⟨m, h3, h4⟩ := ho.measured g key n data hkn hm hd'
    refine ⟨m, ?_, h4⟩
    rw [Fs.fileAt_eq_some] at h3 ⊢
    rw [kept_measurement (fs := fs) hr.proper.separate sh.roots hr.dir h2 hgc]; exact h3

theorem run_end_orderly (hu : Unambiguous world known) (ht : TagsStand known)
    (hr : MeasuringRun world esp dir known shows env cfg) (h0 : Orderly world esp dir known shows fs)
    (hc : Sound world esp fs) (hok : Succeeded env cfg fs) :
    Orderly world esp dir known shows (run env cfg (start cfg fs)).2.fs := by
  have hp := hr.proper
  have hw := hp.inWorld
  have ho := inOrder_after hp hp hu hr.reliable h0.tree hc hok fun _ h => h
  obtain rfl := hp.esp
  refine ⟨ho.tree, consistent_world hw ho.consistent, ho.files, ?_⟩
  intro g key n data hkn hm hd
  have hc' : Sound env cfg.esp fs := hc.congr hw.parse.symm hw.sha.symm
  obtain ⟨gens, mid, final, h⟩ := cleaned hp.safe hp.tools hp.separate hr.reliable h0.tree hc' hok
  obtain ⟨n', e, hn, -⟩ := isMatch_isEntry (esp := cfg.esp) hm.isMatch
  obtain rfl := entryFile_inj e
  have hx : ((run env cfg (start cfg fs)).2.fs.get (linuxDir cfg.esp ++ [n])).isSome := by
    rw [show linuxDir cfg.esp ++ [n] = entryFile cfg.esp n by simp [entryFile, linuxDir], Fs.fileAt_eq_some.1 hd]; rfl
  obtain ⟨-, -, g', key', hg', hk', hm'⟩ := h.entry_named hp.separate (List.prefix_refl _) hn hx
  rw [hw.uni, hw.sha] at hm'
  have same := sameEntry_of hu (hp.known g' key' hg' hk') hkn hm' hm
  rw [run_disk hp.safe] at hd ⊢
  obtain ⟨m, h1, h2⟩ := C98_at_any_moment hu ht hr h0 (killed_at_end env cfg fs) hg' (hp.known g' key' hg' hk') hm' hd
  exact ⟨m, by rw [sameEntry_measurement same]; exact h1, h2⟩

/-- Renames for boot counting leave the disk orderly. -/
theorem Orderly.count (h : Orderly world esp dir known shows fs) (hc : Counted world esp fs fs') :
    Orderly world esp dir known shows fs' := by
  let cfg0 : Config := ⟨[], .x86, [], [], 0, 0, none, esp, [], .empty⟩
  have h1 : InOrder world cfg0 fs' :=
    InOrder.count (cfg := cfg0) rfl ⟨h.tree, h.consistent, h.files, fun _ _ _ _ h => by cases h⟩ hc
  refine ⟨h1.tree, h1.consistent, h1.files, ?_⟩
  clear h1
  induction hc with
  | nil => exact h.measured
  | @count f base c c' data _ hb he hc hf hn ih =>
    have hget : ∀ q, (f.apply (.rename (entryFile esp (entryName base c))
        (entryFile esp (entryName base c')) data)).get q =
        if q = entryFile esp (entryName base c') then some (.file data)
        else if q = entryFile esp (entryName base c) then none else f.get q :=
      fun q => Fs.get_rename (by simp [entryFile]) (by simp [entryFile]) q
    intro g key n d hkn hm hd
    have hsame : (f.apply (.rename (entryFile esp (entryName base c))
        (entryFile esp (entryName base c')) data)).fileAt (measurementFile dir g) =
        f.fileAt (measurementFile dir g) := by
      unfold Fs.fileAt
      rw [hget, if_neg (measurementFile_ne_entryFile _ _ _ _), if_neg (measurementFile_ne_entryFile _ _ _ _)]
    rw [hsame]
    rw [Fs.fileAt_eq_some, hget] at hd
    split at hd
    · next e =>
      cases hd
      cases entryFile_inj e
      have hb' := base_of_match hb hm.isMatch
      refine ih g key (entryName base c) _ hkn ?_ hf
      rw [hb']
      exact isNameOf (isMatch_entryName _ _ c)
    · split at hd
      · cases hd
      · exact ih g key n d hkn hm (Fs.fileAt_eq_some.2 hd)

/-- **C98**. Let the disk be orderly, for example without boot entries. After any number of successful runs of the
installer, runs that fail or are killed before garbage collection, and boots, each boot entry on the ESP, of whatever
generation, is measured: the measurement there is that of the very entry. The generations, the stub and everything
else may differ from run to run. -/
theorem C98_entries_measured (hu : Unambiguous world known) (ht : TagsStand known)
    (h0 : Orderly world esp dir known shows fs) (hc : Sound world esp fs)
    (h : Updates world esp dir known shows fs fs') : Orderly world esp dir known shows fs' ∧ Sound world esp fs' := by
  induction h with
  | nil => exact ⟨h0, hc⟩
  | @run f env cfg _ hr hok ih =>
    refine ⟨run_end_orderly hu ht hr ih.1 ih.2 hok, ?_⟩
    rw [run_disk hr.proper.safe]
    exact C39_history_sound (known := known) (K := fun _ _ => True)
      (.snoc .nil (.run hr.proper trivial (killed_at_end env cfg f))) ih.2
  | killed _ hr hk hn ih =>
    exact ⟨killed_orderly hu ht hr ih.1 hk hn, C39_history_sound (known := known) (K := fun _ _ => True)
      (.snoc .nil (.run hr.proper trivial hk)) ih.2⟩
  | count _ hb he hc hf hn ih =>
    exact ⟨ih.1.count (.count .nil hb he hc hf hn), C39_history_sound (known := known) (K := fun _ _ => True)
      (.snoc .nil (.count hb he hc hf hn)) ih.2⟩

end Verif.Tool

namespace Verif.Tool.Sample
open Verif Verif.Tool Generation StubName BootCounting

/-- Where the measurements are. -/
def lockDir : Path := [lit "var", lit "pcrlock.d"]

/-- The measurement of a signed image, with the tools of the sample. -/
def shown (data m : Bytes) : Prop := ∃ image, sbsign image = some data ∧ m = 76 :: image

theorem tagsStand : TagsStand known := by
  rintro g k g' k' ⟨h, rfl⟩ ⟨h', rfl⟩ ht
  have key : ∀ a ∈ allOf good cfg, ∀ b ∈ allOf good cfg, a.versionTag = b.versionTag → a = b := by decide +kernel
  rw [key g h g' h' ht]
  unfold SameEntry
  simp

theorem orderly0 : Orderly good cfg.esp lockDir known shown disk0 where
  tree := tree0
  consistent := consistent0
  files := by
    rintro p ⟨n, rfl, hn, -⟩ hd
    unfold Fs.get at hd
    rw [if_neg (by simp [entryFile])] at hd
    split at hd
    · next e he =>
      have h1 := List.mem_of_find?_eq_some he
      have h2 := List.find?_some he
      simp only [beq_iff_eq] at h2
      have key : ∀ e ∈ disk0.nodes, lit "nixos-" <+: e.1.getLast?.getD [] → False := by decide +kernel
      exact key _ h1 (by rw [h2]; simpa [entryFile] using hn)
    · cases hd
  measured _ _ _ data _ hm hd := absurd hd (no_entry (isMatch_isEntry hm.isMatch) data)

theorem measuring1 : MeasuringRun good cfg.esp lockDir known shown good cfg1 where
  proper := properRun1
  reliable := reliable_good
  dir := rfl
  shows := by
    rintro data m ⟨image, t, ⟨t', hs⟩, hl⟩
    have hl : some (76 :: image) = some m := hl
    exact ⟨image, hs, (Option.some.inj hl).symm⟩

/-- The kernels and initrds are not the stub. -/
theorem not_stub : ∀ g ∈ allOf good cfg, g.spec.kernel ≠ storePath "stub.efi" ∧
    g.spec.initrd ≠ some (storePath "stub.efi") := by decide +kernel

theorem updated_store {p : Path} (h : p ≠ storePath "stub.efi") : updated.store p = good.store p := if_neg h

theorem updated_inWorld : InWorld good updated cfg where
  sha := rfl
  parse := rfl
  uni := rfl
  kernel g d hg h := by
    rw [updated_store (not_stub g (considers_iff.1 ⟨hg.ex⟩)).1] at h; exact h
  initrd g d hg := by
    rintro ⟨p, d₀, h1, h2, h3⟩
    have hp : p ≠ storePath "stub.efi" := fun e => (not_stub g (considers_iff.1 ⟨hg.ex⟩)).2 (by rw [h1, e])
    rw [updated_store hp] at h2
    exact ⟨p, d₀, h1, h2, h3⟩

theorem properUpdated : ProperRun good cfg.esp known updated cfg where
  esp := rfl
  inWorld := updated_inWorld
  safe := fun g hg => safe_good g ⟨hg.ex⟩
  tools := ⟨(faithful fun _ => false).objcopy, (faithful fun _ => false).sbsign⟩
  separate := separate
  known := fun g key hg hk => known_considered (fun _ => false) g key ⟨hg.ex⟩ (by
    have h : updated.store [lit "keys", lit "db.pem"] = some key := hk
    have e : updated.store [lit "keys", lit "db.pem"] = good.store [lit "keys", lit "db.pem"] := by decide
    rw [e] at h; exact h)

theorem measuringUpdated : MeasuringRun good cfg.esp lockDir known shown updated cfg where
  proper := properUpdated
  reliable := ⟨fun _ => rfl, fun _ l => List.Perm.refl l⟩
  dir := rfl
  shows := by
    rintro data m ⟨image, t, ⟨t', hs⟩, hl⟩
    have hl : some (76 :: image) = some m := hl
    exact ⟨image, hs, (Option.some.inj hl).symm⟩

/-- One generation is installed and booted once. Then lanzaboote is updated, and two further generations are
installed: wherever that run is killed before it collects garbage, the entries have their measurements. -/
example {done : List Change} (hk : KilledAfter updated cfg oneGenTried done) (hn : .collecting ∉ done) :
    EntriesMeasured good cfg.esp lockDir known shown (oneGenTried.replay done) :=
  (C98_entries_measured unambiguous tagsStand orderly0 sound0
    (.killed (.count (c := .left 3) (c' := .leftDone 2 1) (.run .nil measuring1 oneGen_steps.1) noCounter_first
      first_isEntry .try_first oneGen_steps.2.1 oneGen_steps.2.2.2) measuringUpdated hk hn)).1.measured

/-- The same when it is not killed. -/
theorem tried_orderly : Orderly good cfg.esp lockDir known shown oneGenTried :=
  (C98_entries_measured unambiguous tagsStand orderly0 sound0
    (.count (c := .left 3) (c' := .leftDone 2 1) (.run .nil measuring1 oneGen_steps.1) noCounter_first
      first_isEntry .try_first oneGen_steps.2.1 oneGen_steps.2.2.2)).1

example {done : List Change} (hk : KilledAfter updated cfg oneGenTried done) {data : Bytes}
    (hd : (oneGenTried.replay done).fileAt firstTried = some data) :
    ∃ m, (oneGenTried.replay done).fileAt (measurementFile lockDir first) = some m ∧ shown data m :=
  C98_at_any_moment unambiguous tagsStand measuringUpdated tried_orderly hk ⟨(considers_iff.2 first_mem).ex⟩
    (key := [80, 75]) ⟨first_mem, rfl⟩
    (isNameOf (isMatch_entryName good.uni (stubPrefix sha first [80, 75]) (.leftDone 2 1))) hd

/-- That run succeeds, keeps the entry of the first generation and writes a measurement of the second. -/
example : Succeeded updated cfg oneGenTried ∧
    (run updated cfg (start cfg oneGenTried)).2.fs.fileAt firstTried = some oneGenImage ∧
    2 ≤ ((run updated cfg (start cfg oneGenTried)).2.fs.nodes.filter fun e => lockDir <+: e.1 ∧ e.1 ≠ lockDir).length := by
  have h : (run updated cfg (start cfg oneGenTried)).1 = .ok () ∧
    (run updated cfg (start cfg oneGenTried)).2.broken = [] ∧
    (run updated cfg (start cfg oneGenTried)).2.fs.fileAt firstTried = some oneGenImage ∧
    2 ≤ ((run updated cfg (start cfg oneGenTried)).2.fs.nodes.filter
      fun e => lockDir <+: e.1 ∧ e.1 ≠ lockDir).length := by
    decide +kernel
  exact ⟨⟨h.1, h.2.1⟩, h.2.2⟩

/-! ### Entries from before -/

/-- The first entry on a disk without measurements, after one boot. -/
def plainImage : Bytes := (plainDisk.fileAt firstEntry).getD []
def plainTried : Fs := plainDisk.apply (.rename firstEntry firstTried plainImage)

/-- Lanzaboote is updated, and with that update the measurements begin. -/
def begun : Fs := (run updated cfg (start cfg plainTried)).2.fs

/-- A system whose directories list the entries in another order. -/
def relisted : Env := { updated with os := { updated.os with list := fun _ l => l.reverse, list_sub := fun _ _ _ h => List.mem_reverse.1 h } }
def begunAgain : Fs := (run relisted cfg (start cfg begun)).2.fs

theorem reliable_relisted : Reliable relisted.os := ⟨fun _ => rfl, fun _ l => List.reverse_perm l⟩

/-- The runs, evaluated: the last of them keeps only the old entry, whose measurement is another. -/
theorem begun_steps : (run good cfgPlain (start cfgPlain disk0)).1 = .ok () ∧
    (run good cfgPlain (start cfgPlain disk0)).2.broken = [] ∧
    plainDisk.fileAt firstEntry = some plainImage ∧ plainDisk.get firstTried = none ∧
    (run updated cfg (start cfg plainTried)).1 = .ok () ∧ (run updated cfg (start cfg plainTried)).2.broken = [] ∧
    (run relisted cfg (start cfg begun)).1 = .ok () ∧ (run relisted cfg (start cfg begun)).2.broken = [] ∧
    begunAgain.fileAt firstTried = some plainImage ∧ begunAgain.fileAt firstEntry = none ∧
    (begunAgain.fileAt (measurementFile lockDir first)).isSome = true ∧
    begunAgain.fileAt (measurementFile lockDir first) ≠ some (76 :: plainImage.dropLast) := by
  decide +kernel

/-- **C98** needs that the entries are measured from the start. The first generation is installed without
measurements, and booted once. With an update of lanzaboote the measurements begin: the run writes another entry for
the generation and measures that. The next run finds both entries, keeps the first that the directory lists, which is
the old one, and removes the other. All runs succeed, and in the end the only entry of the generation does not have the
measurement that is recorded for it. -/
theorem C98_begun_later : Succeeded good cfgPlain disk0 ∧ Counted good cfg.esp plainDisk plainTried ∧
    Succeeded updated cfg plainTried ∧ Reliable relisted.os ∧ Succeeded relisted cfg begun ∧
    begunAgain.fileAt firstEntry = none ∧
    ∃ data m, EntryOn (relisted, cfg) begunAgain first data ∧
      begunAgain.fileAt (measurementFile lockDir first) = some m ∧ ¬ MeasuredAs (relisted, cfg) data m := by
  obtain ⟨h1, h2, h3, h4, h5, h6, h7, h8, h9, h10, h11, h12⟩ := begun_steps
  refine ⟨⟨h1, h2⟩, .count (c := .left 3) (c' := .leftDone 2 1) .nil noCounter_first first_isEntry .try_first h3 h4,
    ⟨h5, h6⟩, reliable_relisted, ⟨h7, h8⟩, h10, ?_⟩
  obtain ⟨m, hm⟩ := Option.isSome_iff_exists.1 h11
  refine ⟨plainImage, m, entryOn (key := [80, 75]) (by show relisted.store _ = _; decide)
    (isNameOf (isMatch_entryName good.uni (stubPrefix sha first [80, 75]) (.leftDone 2 1))) h9, hm, ?_⟩
  rintro ⟨image, t, ⟨t', hs⟩, hl⟩
  have hs : sbsign image = some plainImage := hs
  have hl : some (76 :: image) = some m := hl
  unfold sbsign at hs
  split at hs
  · have e := Option.some.inj hs
    rw [hm, ← Option.some.inj hl, ← e] at h12
    simp at h12
  · cases hs

end Verif.Tool.Sample
