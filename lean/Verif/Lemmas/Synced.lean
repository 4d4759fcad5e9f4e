import Verif.Lemmas.LoaderPhase
import Verif.Lemmas.Sound
import Verif.Props.InstallFiles
/-!
# What happens before and after the file system is synced
-/
namespace Verif.Tool
open Verif StubName Generation

variable {env : Env} {cfg : Config} {ld : Scope} {fs : Fs}

/-- Generations, without any sync of the file system. -/
abbrev Scope.quiet : Scope := ⟨fun _ => True, False, False⟩

theorem installAll_quiet (hs : SafeInput env cfg) (gens : List Gen)
    (hg : ∀ g ∈ gens, Considers env cfg g) :
    Triple (fun _ => True) (installAll env cfg gens) (InstallStep env cfg .quiet) (fun _ _ => True) := by
  induction gens with
  | nil => exact Triple.pure fun _ _ => trivial
  | cons g gens ih =>
    unfold installAll
    refine Triple.bind ((installGeneration_triple hs (hg g (by simp)) trivial).post
      fun _ _ _ => trivial) fun _ => ih fun x hx => hg x (by simp [hx])

theorem InstallStep.not_sync (hq : ¬ ld.sync) {f : Fs} {c : Change} (h : InstallStep env cfg ld f c)
    (p : Path) : c ≠ .syncfs p := by
  have out : ∀ {m : Path}, Outputs m f c → c ≠ .syncfs p := by
    intro m o
    cases o <;> simp
  cases h with
  | replace t r => cases r <;> simp
  | measured _ _ _ o => exact out o
  | next _ _ o => exact out o
  | current _ _ _ _ _ _ _ _ _ _ e => subst e; simp
  | sync h _ => exact absurd h hq

theorem InstallStep.not_collecting {f : Fs} {c : Change} (h : InstallStep env cfg ld f c) : c ≠ .collecting := by
  have out : ∀ {m : Path}, Outputs m f c → c ≠ .collecting := by
    intro m o
    cases o <;> simp
  cases h with
  | replace t r => cases r <;> simp
  | measured _ _ _ o => exact out o
  | next _ _ o => exact out o
  | current _ _ _ _ _ _ _ _ _ _ e => subst e; simp
  | sync _ e => subst e; simp

theorem chain_not_sync (hq : ¬ ld.sync) {f : Fs} {l : List Change}
    (h : Fs.Chain (InstallStep env cfg ld) f l) (p : Path) : .syncfs p ∉ l := by
  induction l generalizing f with
  | nil => simp
  | cons c l ih =>
    intro hm
    rcases List.mem_cons.1 hm with e | hm
    · exact h.1.not_sync hq p e.symm
    · exact ih h.2 hm

theorem syncFs_spec (os : Os) (p : Path) (s : State) :
    (∃ t, syncFs os p s = (.ok (), { s with fs := s.fs.apply (.syncfs p), log := s.log ++ [.syncfs p], tick := t })) ∨
    ∃ t, syncFs os p s = (.err (), { s with tick := t }) := by
  cases h1 : os.fault s.tick with
  | true => exact Or.inr ⟨s.tick + 1, by simp [syncFs, guarded, faulty, next, require, h1, RM.throw]⟩
  | false =>
    cases h2 : (s.fs.get p).isSome with
    | false => exact Or.inr ⟨s.tick + 1, by simp [syncFs, guarded, faulty, next, require, getFs, h1, h2, RM.throw]⟩
    | true =>
      cases h3 : os.fault (s.tick + 1) with
      | true => exact Or.inr ⟨s.tick + 1 + 1, by simp [syncFs, guarded, faulty, next, require, getFs, h1, h2, h3, RM.throw]⟩
      | false => exact Or.inl ⟨s.tick + 1 + 1, by
        simp [syncFs, guarded, faulty, next, require, getFs, change, h1, h2, h3]⟩

/-- The changes of a run: `before` the file system is synced, `after` that until garbage collection, and
during garbage collection. -/
structure SyncedShape (env : Env) (cfg : Config) (J : Fs → Prop)
    (S : List Gen → Fs → List Path → Prop) (fs : Fs) (before after collected : List Change)
    (gens : List Gen) (roots final : List Path) : Prop where
  log : (run env cfg (start cfg fs)).2.log = before ++ (after ++ collected)
  early : ∀ p, .syncfs p ∉ before
  calm : .collecting ∉ before
  sync : after ++ collected ≠ [] → ∃ l, after = .syncfs cfg.esp :: l
  loader : Fs.Chain (InstallStep env cfg .ofLoader) (fs.replay before) after
  gc : collected = [] ∨ ∃ l, collected = .collecting :: l ∧
    Fs.Chain (GcAny cfg final) ((fs.replay before).replay after) l
  kept : ∀ p ∈ roots, p ∈ final
  first : ∀ p ∈ (start cfg fs).roots, p ∈ final
  done : after ++ collected ≠ [] → J (fs.replay before) ∧ S gens (fs.replay before) roots
  all : (run env cfg (start cfg fs)).2.broken = [] ∨ Faultless env →
    ∀ g, Considers env cfg g → g ∈ gens
  ok : (run env cfg (start cfg fs)).1 = .ok () → after ≠ []

theorem run_synced (hs : SafeInput env cfg) {J : Fs → Prop} {S : List Gen → Fs → List Path → Prop}
    (hcar : CarriedAll env cfg J S) (fs : Fs) (hj : J fs) (hS : S [] fs (start cfg fs).roots) :
    ∃ a b c gens r final, SyncedShape env cfg J S fs a b c gens r final := by
  cases hl : cfg.considered env with
  | none =>
    have e : run env cfg (start cfg fs) = (.err (), start cfg fs) := by
      simp [run, hl, ofOption, RM.throw]
    refine ⟨[], [], [], [], [], (start cfg fs).roots, by rw [e]; rfl, by simp, by simp, by simp, trivial,
      Or.inl rfl, by simp, fun _ h => h, by simp, ?_, by rw [e]; simp⟩
    rintro - g ⟨links, link, j, h, -⟩
    rw [hl] at h; cases h
  | some links =>
    obtain ⟨gs, t, b, he, h1, h2, h3, -⟩ := readGenerations_spec env links (start cfg fs)
    let gens := gs.flatMap fun g => g.1 :: g.2
    have hcons : ∀ g ∈ gens, Considers env cfg g := by
      intro g hg
      obtain ⟨x, hx, hgx⟩ := List.mem_flatMap.1 hg
      obtain ⟨link, hlink, j, hj, rfl⟩ := h1 x hx
      exact ⟨links, link, j, hl, hlink, hj, hgx⟩
    have hall : (∀ link ∈ links, ∀ j, env.bootJson link.path = some j → fromBootJson link j ∈ gs) →
        ∀ g, Considers env cfg g → g ∈ gens := by
      rintro h g ⟨links', link, j, hl', hlink, hj, hg⟩
      rw [hl] at hl'
      cases hl'
      exact List.mem_flatMap.2 ⟨_, h link hlink j hj, hg⟩
    have hcomp : b = [] ∨ Faultless env → ∀ g, Considers env cfg g → g ∈ gens := by
      rintro (hb | hf)
      · refine hall fun link hlink j hj => ?_
        obtain ⟨j', hj', hm⟩ := (h2 hb).2 link hlink
        rw [hj] at hj'; cases hj'; exact hm
      · exact hall (h3 hf)
    let s0 : State := { start cfg fs with tick := t, broken := b }
    have e : run env cfg (start cfg fs) = (do installThem env cfg gs; installSystemdBoot env cfg; collect env cfg) s0 := by
      simp only [run, hl, ofOption, installGenerationsFromLinks, RM.bind_run,
        RM.pure_run, he, installThem]
      rfl
    by_cases hgs : gs.isEmpty
    · have e' : run env cfg (start cfg fs) = (.err (), s0) := by
        rw [e]; simp [installThem, hgs, RM.throw]
      refine ⟨[], [], [], gens, [], (start cfg fs).roots, by rw [e']; rfl, by simp, by simp, by simp, trivial,
        Or.inl rfl, by simp, fun _ h => h, by simp, ?_, by rw [e']; simp⟩
      rw [e']
      exact hcomp
    -- the generations
    obtain ⟨⟨l1, a1, a2, a3⟩, a4, a5, a6⟩ := installAll_triple hs hcar [] gens (by simp) hcons s0 ⟨hj, hS⟩
    obtain ⟨⟨l1', b1, -, b3⟩, -⟩ := installAll_quiet hs gens hcons s0 trivial
    have el : l1' = l1 := List.append_cancel_left (b1.symm.trans a1)
    rw [el] at b3
    have hq := chain_not_sync (by simp) b3
    have hcalm : .collecting ∉ l1 := fun h => b3.forall (B := (· ≠ .collecting))
      (fun _ _ st => st.not_collecting) _ h rfl
    have eT : installThem env cfg gs = (do installAll env cfg gens; syncFs env.os cfg.esp) := by
      simp [installThem, hgs, gens]
    rw [eT] at e
    simp only [RM.bind_run] at e
    have failed : ∀ (x : Res Unit Unit) (s1 : State), (run env cfg (start cfg fs)) = (x, s1) →
        x ≠ .ok () → s1.log = l1 → s1.broken = b → ∃ a b c gens r final, SyncedShape env cfg J S fs a b c gens r final := by
      intro x s1 hx hn hlog hb
      refine ⟨l1, [], [], gens, [], (start cfg fs).roots, by rw [hx]; simpa using hlog, hq, hcalm, by simp, trivial,
        Or.inl rfl, by simp, fun _ h => h, by simp, ?_, fun h => absurd (by rw [hx] at h; exact h) hn⟩
      rw [hx, hb]
      exact hcomp
    rcases hm1 : installAll env cfg gens s0 with ⟨r1, s1⟩
    rw [hm1] at a1 a2 a4 a5 a6 e
    simp only at a1 a2 a4 a5 a6 e
    have a1' : s1.log = l1 := a1
    have a2' : s1.fs = fs.replay l1 := a2
    cases r1 with
    | err x => exact failed _ _ e (by simp) a1' a5
    | panic => exact failed _ _ e (by simp) a1' a5
    | ok u1 =>
    obtain ⟨hj1, hS1⟩ := a6 u1 rfl
    -- the sync
    simp only at e
    rcases syncFs_spec env.os cfg.esp s1 with ⟨t2, hm2⟩ | ⟨t2, hm2⟩
    rotate_left
    · rw [hm2] at e
      exact failed _ _ e (by simp) a1' a5
    rw [hm2] at e
    let s2 : State := { s1 with fs := s1.fs.apply (.syncfs cfg.esp), log := s1.log ++ [.syncfs cfg.esp], tick := t2 }
    simp only at e
    -- the boot loader
    obtain ⟨⟨l3, d1, d2, d3⟩, d4, d5, -⟩ := installSystemdBoot_triple (ld := .ofLoader) hs trivial s2 trivial
    have hload : Fs.Chain (InstallStep env cfg .ofLoader) (fs.replay l1) (.syncfs cfg.esp :: l3) :=
      ⟨.sync trivial rfl, by rw [← a2']; exact d3⟩
    have partway : ∀ (x : Res Unit Unit) (s3 : State), (run env cfg (start cfg fs)) = (x, s3) →
        s3.log = s2.log ++ l3 → s3.broken = b →
        ∃ a b c gens r final, SyncedShape env cfg J S fs a b c gens r final := by
      intro x s3 hx hlog hb
      refine ⟨l1, .syncfs cfg.esp :: l3, [], gens, s1.roots, s1.roots, by rw [hx]; simp [hlog, s2, a1'], hq, hcalm,
        fun _ => ⟨l3, rfl⟩, hload, Or.inl rfl, fun _ h => h, a4, fun _ => ?_, ?_, by simp⟩
      · rw [← a2']; exact ⟨hj1, by simpa using hS1⟩
      · rw [hx, hb]; exact hcomp
    rcases hm3 : installSystemdBoot env cfg s2 with ⟨r3, s3⟩
    rw [hm3] at d1 d2 d4 d5
    simp only at d1 d2 d4 d5
    rw [show installSystemdBoot env cfg { s1 with fs := s1.fs.apply (.syncfs cfg.esp), log := s1.log ++ [.syncfs cfg.esp], tick := t2 } = _ from hm3] at e
    cases r3 with
    | err x => exact partway _ _ e d1 (d5.trans a5)
    | panic => exact partway _ _ e d1 (d5.trans a5)
    | ok u3 =>
    simp only at e
    by_cases hbr : s3.broken = []
    · have e' : collect env cfg s3 = (do
          collectGarbage env.os cfg.paths.nixos
          collectGarbageWithFilter env.os cfg.paths.linux startsWithNixos
          collectMeasurements env cfg)
          { s3 with fs := s3.fs.apply .collecting, log := s3.log ++ [Change.collecting] } := by
        simp [collect, RM.get, hbr, change]
      obtain ⟨⟨l4, g1, g2, g3⟩, -, g5, -⟩ := collectThree_triple (env := env) (cfg := cfg) s3.roots
        { s3 with fs := s3.fs.apply .collecting, log := s3.log ++ [Change.collecting] } rfl
      rw [← e', ← e] at g1 g5
      refine ⟨l1, .syncfs cfg.esp :: l3, .collecting :: l4, gens, s1.roots, s3.roots, ?_, hq, hcalm,
        fun _ => ⟨l3, rfl⟩, hload, Or.inr ⟨l4, rfl, ?_⟩, d4, fun p h => d4 p (a4 p h), fun _ => ?_, ?_,
        by simp⟩
      · rw [g1]; simp [d1, s2, a1']
      · have : (fs.replay l1).replay (.syncfs cfg.esp :: l3) = s3.fs := by
          rw [d2, ← a2']; rfl
        rw [this]; exact g3
      · rw [← a2']; exact ⟨hj1, by simpa using hS1⟩
      · exact fun _ => hcomp (Or.inl ((d5.trans a5).symm.trans hbr))
    · have e' : collect env cfg s3 = (.ok (), s3) := by simp [collect, RM.get, hbr]
      rw [e'] at e
      exact partway _ _ e d1 (d5.trans a5)

/-! ### Files by which the machine boots -/

/-- A boot entry, a kernel or an initrd on the ESP. -/
def IsBootFile (esp p : Path) : Prop := IsEntry esp p ∨ ∃ l h, p = caFile esp l h

theorem IsBootFile.below {esp p : Path} (h : IsBootFile esp p) : esp <+: p := by
  rcases h with ⟨n, rfl, -⟩ | ⟨l, h, rfl⟩
  · exact ⟨_, rfl⟩
  · exact ⟨[lit "EFI", lit "nixos", l ++ lit "-" ++ base32 h ++ lit ".efi"], by simp [caFile]⟩

theorem IsBootFile.plain {p : Path} (h : IsBootFile cfg.esp p) : ¬ IsTmp p ∧ ¬ IsMeasurement cfg p := by
  rcases h with h | ⟨l, h, rfl⟩
  · exact ⟨isEntry_not_tmp h, isEntry_not_measurement h⟩
  · exact ⟨caFile_not_isTmp _ _ _, caFile_not_isMeasurement _ _ _⟩

/-- The boot loader is not installed in the place of such a file. -/
theorem IsBootFile.not_loader {p : Path} (h : IsBootFile cfg.esp p) :
    p ≠ fallbackFile cfg ∧ p ≠ systemdFile cfg ∧ p ≠ confFile cfg := by
  have key : ∀ {q : Path} {a b : Str}, lastTwo q = some (a, b) → a ≠ lit "Linux" → a ≠ lit "nixos" → p ≠ q := by
    intro q a b hq h1 h2 e
    subst e
    rcases h with ⟨n, rfl, -⟩ | ⟨l, h, rfl⟩
    · rw [entryFile_lastTwo] at hq; simp at hq; exact h1 hq.1.symm
    · rw [caFile_lastTwo] at hq; simp at hq; exact h2 hq.1.symm
  exact ⟨key (fallbackFile_lastTwo _) (by decide) (by decide), key (systemdFile_lastTwo _) (by decide) (by decide),
    key (confFile_lastTwo _) (by decide) (by decide)⟩

/-- Installing the boot loader leaves these files alone. -/
theorem InstallStep.ofLoader_keeps (hs : SafeInput env cfg) {p : Path} (hp : IsBootFile cfg.esp p) {f : Fs}
    {c : Change} (h : InstallStep env cfg .ofLoader f c) :
    (f.apply c).fileAt p = f.fileAt p ∧ (p ∉ f.dirty → p ∉ (f.apply c).dirty) := by
  obtain ⟨n1, n2, n3⟩ := hp.not_loader
  constructor
  · rcases h.get hs hp.plain.1 hp.plain.2 with e | ⟨e1, e2⟩ | ⟨d, hc, -⟩
    · unfold Fs.fileAt; rw [e]
    · unfold Fs.fileAt; rw [e1, e2]
    · cases hc with
      | kernel _ ho => exact ho.elim
      | initrd _ ho => exact ho.elim
      | entry _ ho => exact ho.elim
      | loader _ _ _ _ e => exact e.elim (fun e => absurd e n1) fun e => absurd e n2
      | conf _ e => exact absurd e n3
  · intro hd hq
    rcases h.dirty hs hq with h | h | h | h
    · exact hd h
    · exact hp.plain.1 h
    · exact hp.plain.2 h
    · cases h with
      | entry _ ho => exact ho.elim
      | loader _ e => exact e.elim (fun e => absurd e n1) fun e => absurd e n2

theorem prefix_append_split {α : Type} {d a b : List α} (h : d <+: a ++ b) :
    d <+: a ∨ ∃ e, d = a ++ e ∧ e <+: b := by
  rcases List.prefix_or_prefix_of_prefix h (List.prefix_append a b) with h' | ⟨e, rfl⟩
  · exact Or.inl h'
  · exact Or.inr ⟨e, rfl, (List.prefix_append_right_inj a).1 h⟩

/-- From the sync on such a file is on the disk, and stays as it is unless it is removed. -/
theorem synced_boot_file (hs : SafeInput env cfg) {kept lost : List Change}
    (hk : KilledAfter env cfg fs (kept ++ lost)) (hm : .syncfs cfg.esp ∈ kept) {p : Path}
    (hp : IsBootFile cfg.esp p) : p ∉ (fs.replay kept).dirty ∧
      ((fs.replay (kept ++ lost)).fileAt p = (fs.replay kept).fileAt p ∨
        (fs.replay (kept ++ lost)).get p = none) := by
  obtain ⟨a, b, c, gens, r, final, sh⟩ := run_synced hs (Carried.trivial env cfg).all fs trivial
    (by simp)
  have ofLoader : ∀ {f l}, Fs.Chain (InstallStep env cfg .ofLoader) f l → p ∉ f.dirty →
      (f.replay l).fileAt p = f.fileAt p ∧ p ∉ (f.replay l).dirty := by
    intro f l h hd
    exact h.inv (J := fun f' => f'.fileAt p = f.fileAt p ∧ p ∉ f'.dirty) ⟨rfl, hd⟩ fun f' c j st =>
      ⟨(st.ofLoader_keeps hs hp).1.trans j.1, (st.ofLoader_keeps hs hp).2 j.2⟩
  have sync : ∀ f : Fs, p ∉ (f.apply (.syncfs cfg.esp)).dirty := by
    intro f hq
    have := (List.mem_filter.1 hq).2
    rw [List.isPrefixOf_iff_prefix.2 hp.below] at this
    cases this
  -- the moments after the sync
  let m := (fs.replay a).apply (.syncfs cfg.esp)
  have moment : ∀ d, KilledAfter env cfg fs d → .syncfs cfg.esp ∈ d →
      ∃ e, d = a ++ .syncfs cfg.esp :: e ∧ (∃ b', b = .syncfs cfg.esp :: b' ∧ e <+: b' ++ c ∧
        Fs.Chain (InstallStep env cfg .ofLoader) m b') := by
    intro d hd hm
    have hd' : d <+: a ++ (b ++ c) := by rw [← sh.log]; exact hd
    rcases prefix_append_split hd' with h | ⟨e, rfl, he⟩
    · exact absurd (h.subset hm) (sh.early _)
    have hme : .syncfs cfg.esp ∈ e := by
      rcases List.mem_append.1 hm with h | h
      · exact absurd h (sh.early _)
      · exact h
    have hne : b ++ c ≠ [] := by
      intro h
      have := he.subset hme
      rw [h] at this; cases this
    obtain ⟨b', hb⟩ := sh.sync hne
    cases e with
    | nil => cases hme
    | cons x e' =>
      rw [hb, List.cons_append, List.cons_prefix_cons] at he
      obtain ⟨rfl, he⟩ := he
      have := sh.loader
      rw [hb] at this
      exact ⟨e', rfl, b', hb, he, this.2⟩
  have whole := moment _ hk (List.mem_append_left _ hm)
  have part := moment kept (List.IsPrefix.trans ⟨lost, rfl⟩ hk) hm
  obtain ⟨e, ek, b', hb, he, hch⟩ := part
  obtain ⟨e2, ek2, b2, hb2, he2, -⟩ := whole
  rw [hb] at hb2
  obtain rfl : b' = b2 := by simpa using hb2
  have hsplit : e2 = e ++ lost := by
    rw [ek, List.append_assoc] at ek2
    simpa using (List.append_cancel_left ek2).symm
  subst hsplit
  have rep : ∀ x, fs.replay (a ++ .syncfs cfg.esp :: x) = m.replay x := by
    intro x; rw [Fs.replay_append]; rfl
  rw [ek, List.append_assoc, List.cons_append, rep, rep]
  obtain ⟨k1, k2⟩ := ofLoader hch (sync _)
  have collected : ∀ x, x <+: c → p ∉ ((m.replay b').replay x).dirty ∧
      ∃ l, Fs.Chain (GcAny cfg final) (m.replay b') l ∧ (m.replay b').replay x = (m.replay b').replay l := by
    intro x hx
    rcases sh.gc with rfl | ⟨l, rfl, hgc⟩
    · rw [List.prefix_nil] at hx
      subst hx
      exact ⟨k2, [], trivial, rfl⟩
    · cases x with
      | nil => exact ⟨k2, [], trivial, rfl⟩
      | cons y x =>
        rw [List.cons_prefix_cons] at hx
        obtain ⟨rfl, hx⟩ := hx
        rw [hb] at hgc
        have hgc' := hgc.prefix hx
        exact ⟨hgc'.inv (J := fun f => p ∉ f.dirty) k2 fun f c j st => by rw [st.dirty]; exact j, x, hgc', rfl⟩
  rcases prefix_append_split he with h1 | ⟨x, rfl, hx⟩
  · obtain ⟨j1, j2⟩ := ofLoader (hch.prefix h1) (sync _)
    refine ⟨j2, ?_⟩
    rcases prefix_append_split he2 with h3 | ⟨y, hy, hyc⟩
    · rw [(ofLoader (hch.prefix h3) (sync _)).1, j1]; exact Or.inl rfl
    · rw [hy, Fs.replay_append]
      obtain ⟨-, l, hl, el⟩ := collected y hyc
      rw [el]
      rcases GcAny.chain_get hl p with h | h
      · left; rw [j1, ← k1]; unfold Fs.fileAt; rw [h]
      · exact Or.inr h
  · rw [Fs.replay_append]
    refine ⟨(collected x hx).1, ?_⟩
    rw [List.append_assoc, Fs.replay_append, Fs.replay_append]
    rw [List.append_assoc, List.prefix_append_right_inj] at he2
    rcases sh.gc with rfl | ⟨l, rfl, hgc⟩
    · rw [List.prefix_nil, List.append_eq_nil_iff] at he2
      rw [he2.2]; exact Or.inl rfl
    · cases x with
      | nil =>
        obtain ⟨-, l, hl, el⟩ := collected lost he2
        show ((m.replay b').replay lost).fileAt p = (m.replay b').fileAt p ∨ ((m.replay b').replay lost).get p = none
        rw [el]
        rcases GcAny.chain_get hl p with h | h
        · left; unfold Fs.fileAt; rw [h]
        · exact Or.inr h
      | cons y x =>
        rw [List.cons_append, List.cons_prefix_cons] at he2
        obtain ⟨rfl, he2⟩ := he2
        rw [hb] at hgc
        have h1 := hgc.prefix he2
        have h2 : Fs.Chain (GcAny cfg final) ((m.replay b').replay (.collecting :: x)) lost := by
          have : Fs.Chain (GcAny cfg final) (m.replay b') (x ++ lost) := h1
          exact Fs.Chain.right (l := x) this
        rcases GcAny.chain_get h2 p with h | h
        · left; unfold Fs.fileAt; rw [h]
        · exact Or.inr h

/-- What is on the disk after a power failure later than the sync, as far as the machine boots by it. -/
theorem power_loss_after_sync (hs : SafeInput env cfg) {done : List Change} (hk : KilledAfter env cfg fs done)
    (hm : .syncfs cfg.esp ∈ done) {fs' : Fs} (hl : AfterPowerLoss fs done fs') {p : Path}
    (hp : IsBootFile cfg.esp p) : (∃ kept, KilledAfter env cfg fs kept ∧ fs'.get p = (fs.replay kept).get p) ∧
      ∀ d, (fs.replay done).fileAt p = some d → fs'.fileAt p = some d := by
  obtain ⟨kept, lost, rfl, hlost, h⟩ := hl p
  have hmk : .syncfs cfg.esp ∈ kept := by
    rcases List.mem_append.1 hm with h | h
    · exact h
    · exact absurd hp.below (hlost _ h)
  obtain ⟨h1, h2⟩ := synced_boot_file hs hk hmk hp
  have e : fs'.get p = (fs.replay kept).get p := by
    rcases h with e | ⟨h, -⟩
    · exact e
    · exact absurd h h1
  refine ⟨⟨kept, List.IsPrefix.trans ⟨lost, rfl⟩ hk, e⟩, fun d hd => ?_⟩
  have e' : fs'.fileAt p = (fs.replay kept).fileAt p := by unfold Fs.fileAt; rw [e]
  rw [e']
  rcases h2 with h2 | h2
  · rw [← h2]; exact hd
  · rw [Fs.fileAt_eq_some, h2] at hd; cases hd

end Verif.Tool
