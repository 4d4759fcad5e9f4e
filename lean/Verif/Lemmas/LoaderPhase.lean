import Verif.Lemmas.RunFacts
import Verif.Lemmas.Owned
/-!
# The three phases of a run: generations, boot loader, garbage collection
-/
namespace Verif.Tool
open Verif StubName Generation

variable {env : Env} {cfg : Config} {ld : Scope} {fs : Fs}

/-- Generations, but not the boot loader. -/
abbrev Scope.gensOnly : Scope := ⟨fun _ => True, False, True⟩

theorem installAll_gensOnly (hs : SafeInput env cfg) (gens : List Gen)
    (hg : ∀ g ∈ gens, Considers env cfg g) :
    Triple (fun _ => True) (installAll env cfg gens) (InstallStep env cfg .gensOnly) (fun _ _ => True) := by
  induction gens with
  | nil => exact Triple.pure fun _ _ => trivial
  | cons g gens ih =>
    unfold installAll
    refine Triple.bind ((installGeneration_triple hs (hg g (by simp)) trivial).post
      fun _ _ _ => trivial) fun _ => ih fun x hx => hg x (by simp [hx])

/-- A description `A` of the changes of a run, from one for each phase. -/
theorem run_phases (hs : SafeInput env cfg) {A : Fs → Change → Prop} {J K : Fs → Prop}
    (hgen : ∀ f c, J f → InstallStep env cfg .gensOnly f c → J (f.apply c) ∧ A f c)
    (hload : Triple (fun s => J s.fs) (installSystemdBoot env cfg) A (fun _ s => K s.fs))
    (hcol : ∀ f, K f → K (f.apply .collecting) ∧ A f .collecting)
    (hgc : ∀ R, (∀ p ∈ (start cfg fs).roots, p ∈ R) → ∀ f c, K f → GcAny cfg R f c →
      K (f.apply c) ∧ A f c) (hj : J fs) :
    Fs.Chain A fs (run env cfg (start cfg fs)).2.log ∧
      ((run env cfg (start cfg fs)).1 = .ok () → K (run env cfg (start cfg fs)).2.fs) := by
  rw [run_eq]
  cases hl : cfg.considered env with
  | none =>
    have e : beforeCollect env cfg (start cfg fs) = (.err (), start cfg fs) := by
      simp [beforeCollect, hl, ofOption, RM.throw]
    simp only [RM.bind_run, e]
    exact ⟨trivial, fun h => by cases h⟩
  | some links =>
    obtain ⟨gs, t, b, he, h1, -⟩ := readGenerations_spec env links (start cfg fs)
    have hcons : ∀ g ∈ gs.flatMap (fun g => g.1 :: g.2), Considers env cfg g := by
      intro g hg
      obtain ⟨x, hx, hgx⟩ := List.mem_flatMap.1 hg
      obtain ⟨link, hlink, j, hj, rfl⟩ := h1 x hx
      exact ⟨links, link, j, hl, hlink, hj, hgx⟩
    have e : beforeCollect env cfg (start cfg fs) = (do installThem env cfg gs; installSystemdBoot env cfg)
        { start cfg fs with tick := t, broken := b } := by
      simp only [beforeCollect, hl, ofOption, installGenerationsFromLinks, RM.bind_run,
        RM.pure_run, he, installThem]
    have hT : Triple (fun s => J s.fs) (do installThem env cfg gs; installSystemdBoot env cfg) A
        (fun _ s => K s.fs) := by
      refine Triple.bind (Q := fun _ s => J s.fs) ?_ fun _ => hload
      have : Triple (fun _ => True) (installThem env cfg gs) (InstallStep env cfg .gensOnly)
          (fun _ _ => True) := by
        unfold installThem
        refine Triple.ite (fun _ => Triple.throw) fun _ => ?_
        refine Triple.bind (installAll_gensOnly hs _ hcons) fun _ => ?_
        exact (syncFs_triple (env := env) (J := fun _ => True) (R := fun _ => True) cfg.esp
          (fun _ _ => trivial) (A := InstallStep env cfg .gensOnly) (fun _ _ => .sync trivial rfl)).weaken
          (fun _ _ => ⟨trivial, trivial⟩) (fun _ _ h => h) fun _ _ _ => trivial
      exact (this.carry (J := J) (A' := A) hgen).weaken (fun _ h => ⟨trivial, h⟩) (fun _ _ h => h)
        fun _ _ h => h.2
    obtain ⟨⟨l, l1, l2, l3⟩, hr, hb, hp⟩ := hT { start cfg fs with tick := t, broken := b } hj
    rw [← e] at l1 l2 hr hp
    rcases hm : beforeCollect env cfg (start cfg fs) with ⟨r, s'⟩
    rw [hm] at l1 l2 hr hp
    simp only at l1 l2 hr hp
    have l1' : s'.log = l := l1
    have l2' : s'.fs = fs.replay l := l2
    cases r with
    | err x =>
      simp only [RM.bind_run, hm]
      exact ⟨by rw [l1']; exact l3, fun h => by cases h⟩
    | panic =>
      simp only [RM.bind_run, hm]
      exact ⟨by rw [l1']; exact l3, fun h => by cases h⟩
    | ok u =>
      simp only [RM.bind_run, hm]
      have hK : K s'.fs := hp u rfl
      by_cases hbr : s'.broken = []
      · have e' : collect env cfg s' = (do
            collectGarbage env.os cfg.paths.nixos
            collectGarbageWithFilter env.os cfg.paths.linux startsWithNixos
            collectMeasurements env cfg)
            { s' with fs := s'.fs.apply .collecting, log := s'.log ++ [Change.collecting] } := by
          simp [collect, RM.get, hbr, change]
        obtain ⟨k1, k2⟩ := hcol _ hK
        obtain ⟨⟨l', g1, g2, g3⟩, -, -, -⟩ := collectThree_triple (env := env) (cfg := cfg) s'.roots
          { s' with fs := s'.fs.apply .collecting, log := s'.log ++ [Change.collecting] } rfl
        rw [← e'] at g1 g2
        have g1' : (collect env cfg s').2.log = l ++ (.collecting :: l') := by
          rw [g1, l1']; simp
        have g2' : (collect env cfg s').2.fs = (s'.fs.apply .collecting).replay l' := g2
        have g3' : Fs.Chain (GcAny cfg s'.roots) (s'.fs.apply .collecting) l' := g3
        refine ⟨?_, fun _ => ?_⟩
        · rw [g1']
          refine l3.append ?_
          show Fs.Chain A (fs.replay l) _
          rw [← l2']
          exact ⟨k2, g3'.mono_inv k1 (hgc s'.roots hr)⟩
        · rw [g2']
          exact g3'.inv k1 fun f c j st => (hgc s'.roots hr f c j st).1
      · have e' : collect env cfg s' = (.ok (), s') := by simp [collect, RM.get, hbr]
        rw [e']
        exact ⟨by rw [l1']; exact l3, fun _ => hK⟩

/-- What holds after every change and in the beginning holds whenever the run is killed. -/
theorem killed_of_chain {A : Fs → Change → Prop} {I : Fs → Prop} {done : List Change}
    (hA : ∀ f c, A f c → I (f.apply c)) (h0 : I fs)
    (h : Fs.Chain A fs (run env cfg (start cfg fs)).2.log) (hk : KilledAfter env cfg fs done) :
    I (fs.replay done) :=
  (h.prefix hk).inv h0 fun f c _ a => hA f c a

end Verif.Tool
