import Verif.Lemmas.InstallLoader
import Verif.Lemmas.Carried
import Verif.Lemmas.GcExact
/-!
# A whole run
-/
namespace Verif.Tool
open Verif StubName Generation

variable {env : Env} {cfg : Config} {ld : Scope}

/-- One change of the three garbage collections of a run. -/
inductive GcAny (cfg : Config) (roots : List Path) (f : Fs) (c : Change) : Prop
  | nixos (h : GcStep (nixosDir cfg.esp) (fun _ => true) roots f c)
  | linux (h : GcStep (linuxDir cfg.esp) startsWithNixos roots f c)
  | lock {p : Path} (hp : cfg.pcrlockDirectory = some p)
      (h : GcStep (lockDir p) (fun _ => true) roots f c)

/-- Some garbage collection of the run collects `q`. -/
inductive DoomedAny (cfg : Config) (roots : List Path) (q : Path) : Prop
  | nixos (h : Doomed (nixosDir cfg.esp) (fun _ => true) roots q)
  | linux (h : Doomed (linuxDir cfg.esp) startsWithNixos roots q)
  | lock {p : Path} (hp : cfg.pcrlockDirectory = some p) (h : Doomed (lockDir p) (fun _ => true) roots q)

theorem paths_nixos' (cfg : Config) : cfg.paths.nixos = nixosDir cfg.esp := by
  rw [paths_nixos]; rfl
theorem paths_linux' (cfg : Config) : cfg.paths.linux = linuxDir cfg.esp := by
  rw [paths_linux]; rfl

theorem collectThree_triple (R : List Path) :
    Triple (OnRoots (· = R)) (do
      collectGarbage env.os cfg.paths.nixos
      collectGarbageWithFilter env.os cfg.paths.linux startsWithNixos
      collectMeasurements env cfg) (GcAny cfg R) (fun _ => OnRoots (· = R)) := by
  rw [paths_nixos', paths_linux']
  unfold collectGarbage
  refine Triple.bind ((collectGarbageWithFilter_triple env.os _ _).steps fun f c h => .nixos h)
    fun _ => ?_
  refine Triple.bind ((collectGarbageWithFilter_triple env.os _ _).steps fun f c h => .linux h)
    fun _ => ?_
  unfold collectMeasurements Config.pcrlock
  cases hp : cfg.pcrlockDirectory with
  | none => exact Triple.pure fun s h => h
  | some p =>
    dsimp only [Option.map_some]
    unfold collectGarbage
    have : (PcrlockPaths.new p).lanzaboote = lockDir p := by
      rw [pcrlock_lanzaboote]; rfl
    rw [this]
    exact (collectGarbageWithFilter_triple env.os _ _).steps fun f c h => .lock hp h

/-- When nothing goes wrong, exactly what is collected is removed, with everything below it. -/
theorem collectThree_exact (hr : Reliable env.os) {s : State} (ht : s.fs.Tree) :
    ∃ s', (do
      collectGarbage env.os cfg.paths.nixos
      collectGarbageWithFilter env.os cfg.paths.linux startsWithNixos
      collectMeasurements env cfg) s = (.ok (), s') ∧ s'.fs.Tree ∧
      (∀ x, (∃ q, DoomedAny cfg s.roots q ∧ q <+: x) → s'.fs.get x = none) ∧
      (∀ x, ¬ (∃ q, DoomedAny cfg s.roots q ∧ q <+: x) → s'.fs.get x = s.fs.get x) := by
  rw [paths_nixos', paths_linux']
  obtain ⟨s1, e1, t1, r1, -, a1, b1⟩ := collectGarbageWithFilter_exact hr (dir := nixosDir cfg.esp)
    (by simp [nixosDir]) (fun _ => true) ht
  obtain ⟨s2, e2, t2, r2, -, a2, b2⟩ := collectGarbageWithFilter_exact hr (dir := linuxDir cfg.esp)
    (by simp [linuxDir]) startsWithNixos t1
  rw [r1] at a2 b2 r2
  unfold collectGarbage
  simp only [RM.bind_run, e1, e2]
  have gone : ∀ {f f' : Fs} {x : Path}, (f'.get x = none ∨ f'.get x = f.get x) → f.get x = none →
      f'.get x = none := by
    intro f f' x h h'
    rcases h with h | h
    · exact h
    · rw [h]; exact h'
  have h2 : ∀ x, s2.fs.get x = none ∨ s2.fs.get x = s1.fs.get x := fun x =>
    (Classical.em _).elim (fun h => Or.inl (a2 x h)) fun h => Or.inr (b2 x h)
  unfold collectMeasurements Config.pcrlock
  cases hp : cfg.pcrlockDirectory with
  | none =>
    refine ⟨s2, rfl, t2, ?_, ?_⟩
    · rintro x ⟨q, hq, hx⟩
      cases hq with
      | nixos h => exact gone (h2 x) (a1 x ⟨q, h, hx⟩)
      | linux h => exact a2 x ⟨q, h, hx⟩
      | lock h _ => rw [hp] at h; cases h
    · intro x hx
      rw [b2 x fun ⟨q, h, h'⟩ => hx ⟨q, .linux h, h'⟩, b1 x fun ⟨q, h, h'⟩ => hx ⟨q, .nixos h, h'⟩]
  | some p =>
    dsimp only [Option.map_some]
    unfold collectGarbage
    have : (PcrlockPaths.new p).lanzaboote = lockDir p := by rw [pcrlock_lanzaboote]; rfl
    rw [this]
    obtain ⟨s3, e3, t3, r3, -, a3, b3⟩ := collectGarbageWithFilter_exact hr (dir := lockDir p)
      (by simp [lockDir]) (fun _ => true) t2
    rw [r2] at a3 b3 r3
    have h3 : ∀ x, s3.fs.get x = none ∨ s3.fs.get x = s2.fs.get x := fun x =>
      (Classical.em _).elim (fun h => Or.inl (a3 x h)) fun h => Or.inr (b3 x h)
    refine ⟨s3, e3, t3, ?_, ?_⟩
    · rintro x ⟨q, hq, hx⟩
      cases hq with
      | nixos h => exact gone (h3 x) (gone (h2 x) (a1 x ⟨q, h, hx⟩))
      | linux h => exact gone (h3 x) (a2 x ⟨q, h, hx⟩)
      | lock h h' =>
        rw [hp] at h
        cases h
        exact a3 x ⟨q, h', hx⟩
    · intro x hx
      rw [b3 x fun ⟨q, h, h'⟩ => hx ⟨q, .lock hp h, h'⟩,
        b2 x fun ⟨q, h, h'⟩ => hx ⟨q, .linux h, h'⟩, b1 x fun ⟨q, h, h'⟩ => hx ⟨q, .nixos h, h'⟩]

/-! ### Reading the generations -/

/-- What reading the generations does. -/
theorem readGenerations_spec (env : Env) (links : List Link) (s : State) :
    ∃ gens t b, readGenerations env links s = (.ok gens, { s with tick := t, broken := b }) ∧
      (∀ x ∈ gens, ∃ link ∈ links, ∃ j, env.bootJson link.path = some j ∧ x = fromBootJson link j) ∧
      (b = [] → s.broken = [] ∧ ∀ link ∈ links, ∃ j, env.bootJson link.path = some j ∧
        fromBootJson link j ∈ gens) ∧
      (Faultless env → ∀ link ∈ links, ∀ j, env.bootJson link.path = some j →
        fromBootJson link j ∈ gens) ∧
      (Faultless env → s.broken = [] → (∀ link ∈ links, (env.bootJson link.path).isSome) → b = []) ∧
      (b = [] ∨ Faultless env → gens.flatMap (fun g => g.1 :: g.2) = allOf env links) := by
  induction links generalizing s with
  | nil => exact ⟨[], s.tick, s.broken, rfl, by simp, fun h => ⟨h, by simp⟩, by simp, fun _ h _ => h,
      fun _ => rfl⟩
  | cons link links ih =>
    unfold readGenerations readGeneration faulty
    cases hf : env.os.fault s.tick with
    | true =>
      obtain ⟨gens, t, b, he, h1, h2, h3, h4, h5⟩ :=
        ih { s with tick := s.tick + 1, broken := link.version :: s.broken }
      refine ⟨gens, t, b, ?_, ?_, ?_, ?_, ?_, ?_⟩
      · simp only [RM.bind_run, next, hf, RM.pure_run, if_true, RM.modify_run]
        exact he
      · intro x hx
        obtain ⟨l, hl, j, h⟩ := h1 x hx
        exact ⟨l, by simp [hl], j, h⟩
      · intro hb; exact absurd (h2 hb).1 (by simp)
      · intro hn; rw [hn] at hf; cases hf
      · intro hn; rw [hn] at hf; cases hf
      · rintro (hb | hn)
        · exact absurd (h2 hb).1 (by simp)
        · rw [hn] at hf; cases hf
    | false =>
      cases hj : env.bootJson link.path with
      | none =>
        obtain ⟨gens, t, b, he, h1, h2, h3, h4, h5⟩ :=
          ih { s with tick := s.tick + 1, broken := link.version :: s.broken }
        refine ⟨gens, t, b, ?_, ?_, ?_, ?_, ?_, ?_⟩
        · simp only [RM.bind_run, next, hf, RM.pure_run, Bool.false_eq_true, if_false, Option.map_none, RM.modify_run]
          exact he
        · intro x hx
          obtain ⟨l, hl, j, h⟩ := h1 x hx
          exact ⟨l, by simp [hl], j, h⟩
        · intro hb; exact absurd (h2 hb).1 (by simp)
        · intro hn l hl j h
          rcases List.mem_cons.1 hl with rfl | hl
          · rw [hj] at h; cases h
          · exact h3 hn l hl j h
        · intro _ _ h
          have := h link (by simp)
          rw [hj] at this; cases this
        · intro h
          rw [h5 h]
          simp [allOf, hj]
      | some j =>
        obtain ⟨gens, t, b, he, h1, h2, h3, h4, h5⟩ := ih { s with tick := s.tick + 1 }
        refine ⟨fromBootJson link j :: gens, t, b, ?_, ?_, ?_, ?_, ?_, ?_⟩
        · simp [next, hf, he]
        · intro x hx
          rcases List.mem_cons.1 hx with rfl | hx
          · exact ⟨link, by simp, j, hj, rfl⟩
          · obtain ⟨l, hl, j', h⟩ := h1 x hx
            exact ⟨l, by simp [hl], j', h⟩
        · intro hb
          obtain ⟨h2a, h2b⟩ := h2 hb
          refine ⟨h2a, fun l hl => ?_⟩
          rcases List.mem_cons.1 hl with rfl | hl
          · exact ⟨j, hj, by simp⟩
          · obtain ⟨j', h, h'⟩ := h2b l hl
            exact ⟨j', h, by simp [h']⟩
        · intro hn l hl j' h
          rcases List.mem_cons.1 hl with rfl | hl
          · rw [hj] at h; cases h; simp
          · exact List.mem_cons_of_mem _ (h3 hn l hl j' h)
        · intro hn hb h
          exact h4 hn hb fun l hl => h l (by simp [hl])
        · intro h
          have := h5 h
          unfold allOf at this ⊢
          rw [List.flatMap_cons, List.flatMap_cons, this, hj]

theorem syncFs_triple {J : Fs → Prop} {R : List Path → Prop} (p : Path)
    (hJ : ∀ f, J f → J (f.apply (.syncfs p))) {A : Fs → Change → Prop}
    (hA : ∀ f, J f → A f (.syncfs p)) :
    Triple (fun s => J s.fs ∧ R s.roots) (syncFs env.os p) A (fun _ s => J s.fs ∧ R s.roots) := by
  unfold syncFs
  refine Triple.bind (Triple.guarded env.os fun _ _ h => h) fun _ => ?_
  refine Triple.bind (Triple.getFs (Q := fun _ s => J s.fs ∧ R s.roots) fun s h => h) fun fs => ?_
  refine Triple.bind (Triple.require (Q := fun _ s => J s.fs ∧ R s.roots) fun s h _ => h) fun _ => ?_
  refine Triple.bind (Triple.guarded env.os fun _ _ h => h) fun _ => ?_
  exact Triple.change (fun s h => hA _ h.1) fun s h => ⟨hJ _ h.1, h.2⟩

/-! ### The part of a run before garbage collection -/

/-- `run` without the last step. -/
def beforeCollect (env : Env) (cfg : Config) : M Unit := do
  let links ← ofOption (cfg.considered env)
  installGenerationsFromLinks env cfg links
  installSystemdBoot env cfg

theorem run_eq (env : Env) (cfg : Config) : run env cfg = (do
    beforeCollect env cfg
    collect env cfg) := by
  unfold run beforeCollect
  funext s
  simp only [RM.bind_run]
  cases ofOption (cfg.considered env) s with
  | mk r s' =>
    cases r with
    | ok links =>
      simp only
      cases installGenerationsFromLinks env cfg links s' with
      | mk r s'' => cases r <;> rfl
    | err e => rfl
    | panic => rfl

/-- The part of `installGenerationsFromLinks` after reading. -/
def installThem (env : Env) (cfg : Config) (gs : List (Gen × List Gen)) : M Unit :=
  if gs.isEmpty then RM.throw ()
  else do
    installAll env cfg (gs.flatMap fun g => g.1 :: g.2)
    syncFs env.os cfg.esp

/-- Facts about what was installed before garbage collection, `roots` being the roots. -/
structure Complete (env : Env) (cfg : Config) (J : Fs → Prop)
    (S : List Gen → Fs → List Path → Prop) (gens : List Gen) (f : Fs) (roots : List Path) : Prop where
  inv : J f
  loader : LoaderDone env cfg f
  conf : ∃ d d', env.store cfg.loaderConfig = some d ∧ f.fileAt (confFile cfg) = some d' ∧
    env.sha.hash d' = env.sha.hash d
  gens : S gens f roots

theorem beforeCollect_spec (hs : SafeInput env cfg) {J : Fs → Prop}
    {S : List Gen → Fs → List Path → Prop} (hcar : CarriedAll env cfg J S)
    (s : State) (hj : J s.fs) (hS : S [] s.fs s.roots) (hb : s.broken = []) :
    ∃ l gens, (beforeCollect env cfg s).2.log = s.log ++ l ∧
      (beforeCollect env cfg s).2.fs = s.fs.replay l ∧
      Fs.Chain (InstallStep env cfg .all) s.fs l ∧
      (∀ p ∈ s.roots, p ∈ (beforeCollect env cfg s).2.roots) ∧
      (∀ g ∈ gens, Considers env cfg g) ∧
      ((beforeCollect env cfg s).2.broken = [] → (∀ links, cfg.considered env = some links →
        ∀ link ∈ links, (env.bootJson link.path).isSome) ∧ ∀ g, Considers env cfg g → g ∈ gens) ∧
      (Faultless env → ∀ g, Considers env cfg g → g ∈ gens) ∧
      (Faultless env → (∀ links, cfg.considered env = some links →
        ∀ link ∈ links, (env.bootJson link.path).isSome) → (beforeCollect env cfg s).2.broken = []) ∧
      ((beforeCollect env cfg s).2.broken = [] ∨ Faultless env → ∀ links,
        cfg.considered env = some links → gens = allOf env links) ∧
      ((gens = [] ∨ cfg.considered env = none) → (beforeCollect env cfg s).1 = .err () ∧ l = []) ∧
      ((beforeCollect env cfg s).1 = .ok () →
        Complete env cfg J S gens (beforeCollect env cfg s).2.fs
          (beforeCollect env cfg s).2.roots) := by
  cases hl : cfg.considered env with
  | none =>
    have hno : ∀ g, ¬ Considers env cfg g := by
      rintro g ⟨links, link, j, h, -⟩; rw [hl] at h; cases h
    refine ⟨[], [], ?_⟩
    have e : beforeCollect env cfg s = (.err (), s) := by
      simp [beforeCollect, hl, ofOption, RM.throw]
    rw [e]
    refine ⟨by simp, by simp, trivial, fun p h => h, by simp, fun _ => ⟨by simp, fun g h =>
      absurd h (hno g)⟩, fun _ g h => absurd h (hno g), fun _ _ => hb, (fun _ _ h => by cases h),
      fun _ => ⟨rfl, rfl⟩,
      fun h => by cases h⟩
  | some links =>
    obtain ⟨gs, t, b, he, h1, h2, h3, h4, h5⟩ := readGenerations_spec env links s
    let gens := gs.flatMap fun g => g.1 :: g.2
    have hcons : ∀ g ∈ gens, Considers env cfg g := by
      intro g hg
      obtain ⟨x, hx, hgx⟩ := List.mem_flatMap.1 hg
      obtain ⟨link, hlink, j, hj, rfl⟩ := h1 x hx
      exact ⟨links, link, j, hl, hlink, hj, hgx⟩
    have hall : (∀ link ∈ links, ∀ j, env.bootJson link.path = some j → fromBootJson link j ∈ gs) →
        ∀ g, Considers env cfg g → g ∈ gens := by
      rintro h g ⟨links', link, j, hl', hlink, hj, hg⟩
      rw [hl] at hl'
      cases hl'
      exact List.mem_flatMap.2 ⟨_, h link hlink j hj, hg⟩
    have e : beforeCollect env cfg s = (do installThem env cfg gs; installSystemdBoot env cfg) { s with tick := t, broken := b } := by
      simp only [beforeCollect, hl, ofOption, installGenerationsFromLinks, RM.bind_run,
        RM.pure_run, he, installThem]
    have hT : Triple (fun s => J s.fs ∧ S [] s.fs s.roots) (do installThem env cfg gs; installSystemdBoot env cfg) (InstallStep env cfg .all) (fun _ s =>
        Complete env cfg J S gens s.fs s.roots) := by
      refine Triple.bind (Q := fun _ s => J s.fs ∧ S gens s.fs s.roots) ?_ fun _ => ?_
      · unfold installThem
        refine Triple.ite (fun _ => Triple.throw) fun _ => ?_
        refine Triple.bind ((installAll_triple hs hcar [] gens (by simp) hcons).post
          fun _ s h => by simpa using h) fun _ => ?_
        rintro s ⟨hj, hg⟩
        obtain ⟨⟨l, b1, b2, b3⟩, b4, b5, -⟩ := syncFs_triple (env := env) (J := fun _ => True)
          (R := fun _ => True) cfg.esp (fun _ _ => trivial) (A := InstallStep env cfg .ofLoader)
          (fun _ _ => .sync trivial rfl) s ⟨trivial, trivial⟩
        refine ⟨⟨l, b1, b2, b3.mono fun _ _ st => st.all⟩, b4, b5, fun _ _ => ⟨?_, ?_⟩⟩
        · rw [b2]; exact hcar.chain b3 hj
        · rw [b2, KeepsRoots.syncFs]; exact hcar.loader gens _ _ _ hcons hj hg b3
      · rintro s ⟨hj, hg⟩
        obtain ⟨⟨l, b1, b2, b3⟩, b4, b5, b6⟩ :=
          installSystemdBoot_triple (ld := .ofLoader) hs trivial s trivial
        refine ⟨⟨l, b1, b2, b3.mono fun _ _ st => st.all⟩, b4, b5, fun u hu => ?_⟩
        obtain ⟨c1, c2⟩ := b6 u hu
        refine ⟨?_, c1, c2, ?_⟩
        · rw [b2]; exact hcar.chain b3 hj
        · rw [b2, KeepsRoots.installSystemdBoot]; exact hcar.loader gens _ _ _ hcons hj hg b3
    obtain ⟨⟨l, hl1, hl2, hl3⟩, hr, hbr, hpo⟩ := hT { s with tick := t, broken := b } ⟨hj, hS⟩
    rw [← e] at hl1 hl2 hr hbr hpo
    by_cases hgs : gs = []
    · -- nothing to install
      have e' : beforeCollect env cfg s = (.err (), { s with tick := t, broken := b }) := by
        rw [e, hgs]; rfl
      have hl0 : l = [] := by
        have := hl1
        rw [e'] at this
        simpa using this
      subst hl0
      refine ⟨[], gens, hl1, hl2, hl3, hr, hcons, ?_, ?_, ?_, ?_, ?_, ?_⟩
      · intro h
        rw [hbr] at h
        obtain ⟨-, h⟩ := h2 h
        refine ⟨?_, hall fun link hlink j hj => ?_⟩
        · intro links' e link hlink
          cases e
          obtain ⟨j, hj, -⟩ := h link hlink
          simp [hj]
        · obtain ⟨j', hj', hm⟩ := h link hlink
          rw [hj] at hj'; cases hj'; exact hm
      · exact fun hn => hall (h3 hn)
      · exact fun hn h => by rw [hbr]; exact h4 hn hb (h links rfl)
      · rw [hbr]; intro h links' e; cases e; exact h5 h
      · intro _; rw [e']; exact ⟨rfl, rfl⟩
      · exact hpo ()
    · refine ⟨l, gens, hl1, hl2, hl3, hr, hcons, ?_, ?_, ?_, ?_, ?_, ?_⟩
      · intro h
        rw [hbr] at h
        obtain ⟨-, h⟩ := h2 h
        refine ⟨?_, hall fun link hlink j hj => ?_⟩
        · intro links' e link hlink
          cases e
          obtain ⟨j, hj, -⟩ := h link hlink
          simp [hj]
        · obtain ⟨j', hj', hm⟩ := h link hlink
          rw [hj] at hj'; cases hj'; exact hm
      · exact fun hn => hall (h3 hn)
      · exact fun hn h => by rw [hbr]; exact h4 hn hb (h links rfl)
      · rw [hbr]; intro h links' e; cases e; exact h5 h
      · rintro (h | h)
        · exfalso
          apply hgs
          cases hgs' : gs with
          | nil => rfl
          | cons x xs =>
            have : x.1 ∈ gens := List.mem_flatMap.2 ⟨x, by simp [hgs'], by simp⟩
            rw [h] at this; cases this
        · cases h
      · exact hpo ()

/-! ### The whole run -/

/-- Everything that is known about the changes of a run started in `s`. -/
structure RunShape (env : Env) (cfg : Config) (J : Fs → Prop)
    (S : List Gen → Fs → List Path → Prop) (s : State) (r : Res Unit Unit × State)
    (installed collected : List Change) (gens : List Gen) (final : List Path) : Prop where
  log : r.2.log = s.log ++ (installed ++ collected)
  fs : r.2.fs = s.fs.replay (installed ++ collected)
  steps : Fs.Chain (InstallStep env cfg .all) s.fs installed
  roots : ∀ p ∈ s.roots, p ∈ final
  considered : ∀ g ∈ gens, Considers env cfg g
  /-- garbage collection -/
  gc : collected ≠ [] → ∃ l, collected = .collecting :: l ∧
    Fs.Chain (GcAny cfg final) (s.fs.replay installed) l ∧
    (∀ links, cfg.considered env = some links →
        ∀ link ∈ links, (env.bootJson link.path).isSome) ∧
    (∀ g, Considers env cfg g → g ∈ gens) ∧
    Complete env cfg J S gens (s.fs.replay installed) final
  /-- when nothing goes wrong, garbage collection is exact -/
  exact : Reliable env.os → (s.fs.replay installed).Tree → collected ≠ [] → r.1 = .ok () ∧ r.2.fs.Tree ∧
    (∀ x, (∃ q, DoomedAny cfg final q ∧ q <+: x) → r.2.fs.get x = none) ∧
    (∀ x, ¬ (∃ q, DoomedAny cfg final q ∧ q <+: x) → r.2.fs.get x = (s.fs.replay installed).get x)
  ok : r.1 = .ok () → Complete env cfg J S gens (s.fs.replay installed) final
  read : r.2.broken = [] → (∀ links, cfg.considered env = some links →
        ∀ link ∈ links, (env.bootJson link.path).isSome) ∧ ∀ g, Considers env cfg g → g ∈ gens
  unread : Faultless env → (∀ links, cfg.considered env = some links →
        ∀ link ∈ links, (env.bootJson link.path).isSome) → r.2.broken = []
  faultless : Faultless env → ∀ g, Considers env cfg g → g ∈ gens
  list : r.2.broken = [] ∨ Faultless env → ∀ links, cfg.considered env = some links →
    gens = allOf env links
  okCollects : r.1 = .ok () → r.2.broken = [] → collected ≠ []
  collects : collected ≠ [] → r.2.broken = []
  nothing : (gens = [] ∨ cfg.considered env = none) →
    r.1 = .err () ∧ installed = [] ∧ collected = []

theorem run_shape (hs : SafeInput env cfg) {J : Fs → Prop}
    {S : List Gen → Fs → List Path → Prop} (hcar : CarriedAll env cfg J S)
    (s : State) (hj : J s.fs) (hS : S [] s.fs s.roots) (hb : s.broken = []) :
    ∃ installed collected gens final,
      RunShape env cfg J S s (run env cfg s) installed collected gens final := by
  obtain ⟨l, gens, h1, h2, h3, h4, h5, h6, h7, h8, hlist, h9, h10⟩ :=
    beforeCollect_spec hs hcar s hj hS hb
  rw [run_eq]
  rcases hm : beforeCollect env cfg s with ⟨r, s'⟩
  rw [hm] at h1 h2 h4 h6 h8 hlist h9 h10
  simp only at h1 h2 h4 h6 h8 hlist h9 h10
  cases r with
  | err x =>
    have e : (do beforeCollect env cfg; collect env cfg) s = (.err x, s') := by simp [hm]
    rw [e]
    exact ⟨l, [], gens, s'.roots, by simp [h1], by simp [h2], h3, h4, h5, fun h => absurd rfl h,
      (fun _ _ h => absurd rfl h),
      (fun h => by cases h), h6, h8, h7, hlist, (fun h => by cases h), (fun h => absurd rfl h),
      fun h => ⟨(h9 h).1, (h9 h).2, rfl⟩⟩
  | panic =>
    have e : (do beforeCollect env cfg; collect env cfg) s = (.panic, s') := by simp [hm]
    rw [e]
    exact ⟨l, [], gens, s'.roots, by simp [h1], by simp [h2], h3, h4, h5, fun h => absurd rfl h,
      (fun _ _ h => absurd rfl h),
      (fun h => by cases h), h6, h8, h7, hlist, (fun h => by cases h), (fun h => absurd rfl h),
      fun h => ⟨(h9 h).1, (h9 h).2, rfl⟩⟩
  | ok u =>
    have e : (do beforeCollect env cfg; collect env cfg) s = collect env cfg s' := by simp [hm]
    rw [e]
    have hC := h10 rfl
    rw [h2] at hC
    by_cases hbr : s'.broken = []
    · have e' : collect env cfg s' = (do
          collectGarbage env.os cfg.paths.nixos
          collectGarbageWithFilter env.os cfg.paths.linux startsWithNixos
          collectMeasurements env cfg)
          { s' with fs := s'.fs.apply .collecting, log := s'.log ++ [Change.collecting] } := by
        simp [collect, RM.get, hbr, change]
      obtain ⟨⟨l', g1, g2, g3⟩, -, gb, -⟩ := collectThree_triple (env := env) (cfg := cfg) s'.roots
        { s' with fs := s'.fs.apply .collecting, log := s'.log ++ [Change.collecting] } rfl
      rw [← e'] at g1 g2 gb
      refine ⟨l, .collecting :: l', gens, s'.roots, ?_, ?_, h3, ?_, h5, ?_, ?_, ?_, ?_, ?_, h7, ?_, ?_,
        ?_, ?_⟩
      · rw [g1, h1]; simp
      · rw [g2, h2, Fs.replay_append]; rfl
      · exact h4
      · intro _
        refine ⟨l', rfl, ?_, (h6 hbr).1, (h6 hbr).2, ?_⟩
        · rw [← h2]; exact g3
        · exact hC
      · intro hr ht _
        obtain ⟨s'', x1, x2, x3, x4⟩ := collectThree_exact (cfg := cfg) hr
          (s := { s' with fs := s'.fs.apply .collecting, log := s'.log ++ [Change.collecting] })
          (show s'.fs.Tree by rw [h2]; exact ht)
        rw [e', x1]
        refine ⟨rfl, x2, x3, fun x hx => ?_⟩
        rw [x4 x hx, ← h2]; rfl
      · exact fun _ => hC
      · rw [gb]; exact h6
      · rw [gb]; exact h8
      · rw [gb]; exact hlist
      · intro _ _; simp
      · intro _; rw [gb]; exact hbr
      · intro h; cases (h9 h).1
    · have e' : collect env cfg s' = (.ok (), s') := by simp [collect, RM.get, hbr]
      rw [e']
      exact ⟨l, [], gens, s'.roots, by simp [h1], by simp [h2], h3, h4, h5, fun h => absurd rfl h,
      (fun _ _ h => absurd rfl h),
        (fun _ => hC), h6, h8, h7, hlist, (fun _ h => absurd h hbr),
        (fun h => absurd rfl h), fun h => by cases (h9 h).1⟩

end Verif.Tool
