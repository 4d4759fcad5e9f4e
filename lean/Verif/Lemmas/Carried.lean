import Verif.Lemmas.InstallRoots
/-!
# Facts that hold through the installation of several generations
-/
namespace Verif.Tool
open Verif StubName Generation

variable {env : Env} {cfg : Config} {ld : Scope}

/-- `install_generation`: it finds the generation and changes nothing, or installs it. -/
theorem installGeneration_one (hs : SafeInput env cfg) {g : Gen} (hg : Considers env cfg g)
    (s : State) : ∃ l, (installGeneration env cfg g s).2.log = s.log ++ l ∧
      (installGeneration env cfg g s).2.fs = s.fs.replay l ∧
      Fs.Chain (InstallStep env cfg (.one g)) s.fs l ∧
      (∀ p ∈ s.roots, p ∈ (installGeneration env cfg g s).2.roots) ∧
      (installGeneration env cfg g s).2.broken = s.broken ∧
      ((installGeneration env cfg g s).1 = .ok () →
        GenResult env cfg g s (installGeneration env cfg g s).2 l) := by
  obtain ⟨⟨l, a1, a2, a3⟩, a4, a5, a6⟩ :=
    registerInstalledGeneration_triple (env := env) (cfg := cfg) (hs g hg) (A := NoChange) s trivial
  have a7 := registerInstalledGeneration_adds (env := env) (cfg := cfg) (hs g hg) s
  have hl : l = [] := by
    cases l with
    | nil => rfl
    | cons c l => exact absurd a3.1 id
  subst hl
  unfold installGeneration
  rcases hr : registerInstalledGeneration env cfg g s with ⟨r, s1⟩
  rw [hr] at a1 a2 a4 a5 a6 a7
  simp only [List.append_nil] at a1
  simp only [Fs.replay_nil] at a2
  cases r with
  | err e => exact ⟨[], by simp [hr, a1], by simp [hr, a2], trivial, by simpa [hr] using a4,
      by simpa [hr] using a5, by simp [hr]⟩
  | panic => exact ⟨[], by simp [hr, a1], by simp [hr, a2], trivial, by simpa [hr] using a4,
      by simpa [hr] using a5, by simp [hr]⟩
  | ok b =>
    obtain ⟨r, b1, b2⟩ := a7 b rfl
    simp only at b1
    cases b with
    | true =>
      refine ⟨[], by simp [hr, a1], by simp [hr, a2], trivial, by simpa [hr] using a4,
        by simpa [hr] using a5, fun _ => ?_⟩
      obtain ⟨h2, -⟩ | ⟨key, stub, kernel, initrd, hk, hf, ⟨-, e⟩ | ⟨h2, -⟩⟩ := b2.ex
      · cases h2
      · refine .kept rfl (by simpa [hr] using a6 true rfl rfl) hk hf ?_
        rw [RM.bind_run, hr, ← e]
        exact b1
      · cases h2
    | false =>
      obtain ⟨⟨l, c1, c2, c3⟩, c4, c5, c6⟩ :=
        installNewGeneration_exact (ld := .one g) hs hg rfl s1.roots s1 rfl
      refine ⟨l, ?_, ?_, ?_, ?_, ?_, ?_⟩
      · simp [hr, c1, a1]
      · simp [hr, c2, a2]
      · rw [← a2]; exact c3
      · intro p hp; simpa [hr] using c4 p (a4 p hp)
      · simp only [RM.bind_run, hr]; exact c5.trans a5
      · intro h
        simp only [RM.bind_run, hr] at h ⊢
        have c7 := c6 () h
        rw [b1] at c7
        refine .fresh ?_ c7
        obtain ⟨-, h2⟩ | ⟨key, stub, kernel, initrd, hk, hf, ⟨h2, -⟩ | ⟨-, h3, e⟩⟩ := b2.ex
        · exact Or.inl h2
        · cases h2
        · exact Or.inr ⟨h3, key, stub, kernel, initrd, hk, hf, e⟩

/-- An invariant `J` of the file system and facts `R g` about each installed generation, which the
rest of the run does not destroy. -/
structure Carried (env : Env) (cfg : Config) (J : Fs → Prop) (R : Gen → Fs → List Path → Prop) :
    Prop where
  step : ∀ f c, J f → InstallStep env cfg .all f c → J (f.apply c)
  post : ∀ g s, Considers env cfg g → J s.fs → Kept env cfg g s ∨ Fresh env cfg g s →
    R g s.fs s.roots
  other : ∀ g g' f r l s', Considers env cfg g → Considers env cfg g' → J f → R g f r →
    Fs.Chain (InstallStep env cfg (.one g')) f l → s'.fs = f.replay l → (∀ p ∈ r, p ∈ s'.roots) →
    J s'.fs → (l = [] ∨ Fresh env cfg g' s') → R g s'.fs s'.roots
  loader : ∀ g f r l r', Considers env cfg g → J f → R g f r →
    Fs.Chain (InstallStep env cfg .ofLoader) f l → (∀ p ∈ r, p ∈ r') → R g (f.replay l) r'

theorem Carried.chain {J : Fs → Prop} {R : Gen → Fs → List Path → Prop} (h : Carried env cfg J R)
    {f : Fs} {l : List Change} (hl : Fs.Chain (InstallStep env cfg ld) f l) (hj : J f) :
    J (f.replay l) := hl.inv hj fun _ _ j st => h.step _ _ j st.all

/-- Nothing in particular. -/
theorem Carried.trivial (env : Env) (cfg : Config) :
    Carried env cfg (fun _ => True) (fun _ _ _ => True) :=
  ⟨fun _ _ _ _ => True.intro, fun _ _ _ _ _ => True.intro, fun _ _ _ _ _ _ _ _ _ _ _ _ _ _ _ => True.intro,
    fun _ _ _ _ _ _ _ _ _ _ => True.intro⟩

/-- Everything known about a successful installation of `g` that leads from `s` to `s'` by the changes
`l`. -/
structure GenDone (env : Env) (cfg : Config) (g : Gen) (s s' : State) (l : List Change) : Prop where
  considered : Considers env cfg g
  fs : s'.fs = s.fs.replay l
  steps : Fs.Chain (InstallStep env cfg (.one g)) s.fs l
  result : GenResult env cfg g s s' l

theorem GenDone.roots {g : Gen} {s s' : State} {l : List Change} (h : GenDone env cfg g s s' l) :
    ∀ p ∈ s.roots, p ∈ s'.roots := by
  intro p hp
  cases h.result with
  | kept el kept hk hf e => rw [e]; simp [hp]
  | fresh hp' hf => obtain ⟨_, _, _, _, _, _, h⟩ := hf.ex; rw [h.2.2.2.2.2.2.2.2.2.2]; simp [hp]

theorem GenDone.done {g : Gen} {s s' : State} {l : List Change} (h : GenDone env cfg g s s' l) :
    (l = [] ∧ Kept env cfg g s') ∨ Fresh env cfg g s' := by
  cases h.result with
  | kept el kept hk hf e => exact Or.inl ⟨el, kept⟩
  | fresh hp' hf => exact Or.inr hf.fresh

/-- An invariant `J` of the file system and facts `S gens` about the generations `gens` that are
installed, which the rest of the run does not destroy. -/
structure CarriedAll (env : Env) (cfg : Config) (J : Fs → Prop)
    (S : List Gen → Fs → List Path → Prop) : Prop where
  step : ∀ f c, J f → InstallStep env cfg .all f c → J (f.apply c)
  gen : ∀ gens g s s' l, (∀ x ∈ gens, Considers env cfg x) → J s.fs → J s'.fs →
    S gens s.fs s.roots → GenDone env cfg g s s' l → S (gens ++ [g]) s'.fs s'.roots
  loader : ∀ gens f r l, (∀ x ∈ gens, Considers env cfg x) → J f → S gens f r →
    Fs.Chain (InstallStep env cfg .ofLoader) f l → S gens (f.replay l) r

theorem CarriedAll.chain {J : Fs → Prop} {S : List Gen → Fs → List Path → Prop}
    (h : CarriedAll env cfg J S) {f : Fs} {l : List Change}
    (hl : Fs.Chain (InstallStep env cfg ld) f l) (hj : J f) :
    J (f.replay l) := hl.inv hj fun _ _ j st => h.step _ _ j st.all

/-- Facts about each generation. -/
theorem Carried.all {J : Fs → Prop} {R : Gen → Fs → List Path → Prop} (h : Carried env cfg J R) :
    CarriedAll env cfg J fun gens f r => ∀ g ∈ gens, R g f r where
  step := h.step
  gen gens g s s' l hg hj hj' hS hd x hx := by
    have hsub : ∀ p ∈ s.roots, p ∈ s'.roots := hd.roots
    rcases List.mem_append.1 hx with hx | hx
    · refine h.other x g s.fs s.roots l s' (hg x hx) hd.considered hj (hS x hx) hd.steps hd.fs hsub
        hj' ?_
      rcases hd.done with ⟨e, -⟩ | h
      · exact Or.inl e
      · exact Or.inr h
    · rw [List.mem_singleton] at hx
      subst hx
      refine h.post x _ hd.considered hj' ?_
      rcases hd.done with ⟨-, h⟩ | h
      · exact Or.inl h
      · exact Or.inr h
  loader gens f r l hg hj hS hch g hgm := h.loader g f r l r (hg g hgm) hj (hS g hgm) hch fun _ h => h

theorem CarriedAll.and {J J' : Fs → Prop} {S S' : List Gen → Fs → List Path → Prop}
    (h : CarriedAll env cfg J S) (h' : CarriedAll env cfg J' S') :
    CarriedAll env cfg (fun f => J f ∧ J' f) fun gens f r => S gens f r ∧ S' gens f r where
  step f c hj st := ⟨h.step f c hj.1 st, h'.step f c hj.2 st⟩
  gen gens g s s' l hg hj hj' hS hd :=
    ⟨h.gen gens g s s' l hg hj.1 hj'.1 hS.1 hd, h'.gen gens g s s' l hg hj.2 hj'.2 hS.2 hd⟩
  loader gens f r l hg hj hS hch :=
    ⟨h.loader gens f r l hg hj.1 hS.1 hch, h'.loader gens f r l hg hj.2 hS.2 hch⟩

/-- Only an invariant. -/
theorem CarriedAll.inv {J : Fs → Prop}
    (hJ : ∀ f c, J f → InstallStep env cfg .all f c → J (f.apply c)) :
    CarriedAll env cfg J fun _ _ _ => True :=
  ⟨hJ, fun _ _ _ _ _ _ _ _ _ _ => True.intro, fun _ _ _ _ _ _ _ _ => True.intro⟩

/-- Installing several generations. -/
theorem installAll_triple (hs : SafeInput env cfg) {J : Fs → Prop}
    {S : List Gen → Fs → List Path → Prop} (hC : CarriedAll env cfg J S) (before gens : List Gen)
    (hb : ∀ g ∈ before, Considers env cfg g) (hg : ∀ g ∈ gens, Considers env cfg g) :
    Triple (fun s => J s.fs ∧ S before s.fs s.roots) (installAll env cfg gens)
      (InstallStep env cfg .all)
      (fun _ s => J s.fs ∧ S (before ++ gens) s.fs s.roots) := by
  induction gens generalizing before with
  | nil => exact Triple.pure fun s h => by simpa using h
  | cons g gens ih =>
    unfold installAll
    refine Triple.bind (Q := fun _ s => J s.fs ∧ S (before ++ [g]) s.fs s.roots) ?_ fun _ => ?_
    · rintro s ⟨hj, hr⟩
      obtain ⟨l, a1, a2, a3, a4, a5, a6⟩ := installGeneration_one hs (hg g (by simp)) s
      have hj' : J (installGeneration env cfg g s).2.fs := by rw [a2]; exact hC.chain a3 hj
      refine ⟨⟨l, a1, a2, a3.mono fun _ _ st => st.all⟩, a4, a5, ?_⟩
      intro u hu
      exact ⟨hj', hC.gen before g s _ l hb hj hj' hr ⟨hg g (by simp), a2, a3, a6 hu⟩⟩
    · refine (ih (before ++ [g]) ?_ fun x hx => hg x (by simp [hx])).post ?_
      · intro x hx
        rcases List.mem_append.1 hx with hx | hx
        · exact hb x hx
        · rw [List.mem_singleton] at hx; subst hx; exact hg x (by simp)
      · intro _ s h; simpa using h

end Verif.Tool
