import Verif.Lemmas.InstallRun
import Verif.Lemmas.Roots
/-!
# What installing a generation records as being in use
-/
namespace Verif.Tool
open Verif StubName Generation

variable {env : Env} {cfg : Config}

/-! ### An installed generation -/

theorem KeepsRoots.sectionPath (env : Env) (cfg : Config) (stub : Bytes) (n : Str) :
    KeepsRoots (sectionPath env cfg stub n) := by
  unfold Tool.sectionPath
  exact .bind (.ofRes _) fun _ => .bind (.ofOption _) fun _ => .ofRes _

theorem KeepsRoots.readInstalledGeneration (env : Env) (cfg : Config) (pfx : Str) :
    KeepsRoots (readInstalledGeneration env cfg pfx) := by
  unfold Tool.readInstalledGeneration
  refine .bind (.readDir _ _) fun _ => .bind (.ofOption _) fun _ => .bind (.readFs _ _) fun _ =>
    .bind (.sectionPath _ _ _ _) fun _ => .bind (.sectionPath _ _ _ _) fun _ =>
    .bind (.pathExists _ _) fun _ => .ite .throw (.bind (.pathExists _ _) fun _ =>
    .ite .throw (.pure _))

/-- What looking for `g` records. -/
structure Registered (env : Env) (cfg : Config) (g : Gen) (f : Fs) (b : Bool) (l : List Path) :
    Prop where
  ex : (b = false ∧ l = []) ∨ ∃ key stub kernel initrd, KeyOf env cfg.signer key ∧
    Found env cfg (stubPrefix env.sha g key) f stub kernel initrd ∧
    ((b = true ∧ l = [stub, kernel, initrd] ++ measurements cfg g) ∨
     (b = false ∧ (∃ p, cfg.pcrlockDirectory = some p ∧
        (Faultless env → f.get (measurementFile p g) = none)) ∧ l = [stub, kernel, initrd]))

theorem Triple.noChange {α : Type} {m : M α} {P : State → Prop} {Q : α → State → Prop}
    (h : Triple P m NoChange Q) {s : State} (hs : P s) : (m s).2.fs = s.fs ∧ (m s).2.log = s.log := by
  obtain ⟨⟨l, h1, h2, h3⟩, -⟩ := h s hs
  cases l with
  | nil => exact ⟨h2, by simpa using h1⟩
  | cons c l => exact absurd h3.1 id

theorem registerMeasurement_adds {g : Gen} (hg : SafeGen g) :
    Adds (registerMeasurement env cfg g) fun b l => (b = true ∧ l = measurements cfg g) ∨
      (b = false ∧ cfg.pcrlockDirectory ≠ none ∧ l = []) := by
  unfold registerMeasurement Config.pcrlock measurements
  cases hp : cfg.pcrlockDirectory with
  | none => exact Adds.pure (Or.inl ⟨rfl, rfl⟩)
  | some p =>
    dsimp only [Option.map_some]
    rw [measurement_target p hg]
    refine Adds.bindKeep (.pathExists _ _) fun b => ?_
    cases b with
    | true => exact Adds.bindExtend (Adds.pure (Or.inl ⟨rfl, rfl⟩))
    | false => exact Adds.pure (Or.inr ⟨rfl, by simp, rfl⟩)

theorem registerMeasurement_false {g : Gen} (hg : SafeGen g) {s : State}
    (h : (registerMeasurement env cfg g s).1 = .ok false) : ∃ p, cfg.pcrlockDirectory = some p ∧
      (Faultless env → s.fs.get (measurementFile p g) = none) := by
  unfold registerMeasurement Config.pcrlock at h
  cases hp : cfg.pcrlockDirectory with
  | none => rw [hp] at h; cases h
  | some p =>
    refine ⟨p, rfl, fun hf => ?_⟩
    rw [hp] at h
    dsimp only [Option.map_some] at h
    rw [measurement_target p hg] at h
    simp only [pathExists, faulty, next, getFs, RM.bind_run, RM.get, RM.pure_run, hf s.tick,
      Bool.not_false, Bool.true_and] at h
    cases hx : s.fs.get (measurementFile p g) with
    | none => rfl
    | some n =>
      simp only [hx, Option.isSome_some, if_true] at h
      cases h

theorem registerInstalledGeneration_adds {g : Gen} (hg : SafeGen g) (s : State) (b : Bool)
    (h : (registerInstalledGeneration env cfg g s).1 = .ok b) : ∃ l,
    (registerInstalledGeneration env cfg g s).2.roots = s.roots ++ l ∧
      Registered env cfg g s.fs b l := by
  unfold registerInstalledGeneration at h ⊢
  have hk := getPublicKey_triple (P := fun _ => True) (A := NoChange) env cfg.signer fun _ _ h => h
  have hk1 := (hk s trivial).post
  have hk2 := (hk.noChange (s := s) trivial).1
  have hk3 := KeepsRoots.getPublicKey env cfg.signer s
  rw [RM.bind_run] at h ⊢
  rcases hm : cfg.signer.getPublicKey env s with ⟨r, s1⟩
  rw [hm] at h hk1 hk2 hk3
  cases r with
  | err e => cases h
  | panic => cases h
  | ok key =>
    obtain ⟨-, hkey⟩ := hk1 key rfl
    have ht := Triple.attempt (readInstalledGeneration_triple env cfg
      (stubPrefix env.sha g key) (A := NoChange))
    have ht1 := (ht s1 trivial).post
    have ht2 := (ht.noChange (s := s1) trivial).1
    have ht3 := (KeepsRoots.readInstalledGeneration env cfg (stubPrefix env.sha g key)).attempt s1
    simp only at h hk2 hk3 ⊢
    rw [RM.bind_run] at h ⊢
    rcases hm2 : RM.attempt (readInstalledGeneration env cfg (stubPrefix env.sha g key)) s1 with ⟨r2, s2⟩
    rw [hm2] at h ht1 ht2 ht3
    cases r2 with
    | err e => cases h
    | panic => cases h
    | ok o =>
      simp only at h ht2 ht3 ⊢
      cases o with
      | none =>
        cases h
        exact ⟨[], by simp [ht3, hk3], ⟨Or.inl ⟨rfl, rfl⟩⟩⟩
      | some x =>
        obtain ⟨stub, kernel, initrd⟩ := x
        have hF := ht1 _ rfl _ rfl
        rw [ht2, hk2] at hF
        have hA : Adds (do extendRoots [stub, kernel, initrd]; registerMeasurement env cfg g)
            fun b l => (b = true ∧ l = [stub, kernel, initrd] ++ measurements cfg g) ∨
              (b = false ∧ l = [stub, kernel, initrd]) := by
          refine Adds.bindExtend ((registerMeasurement_adds hg).post ?_)
          rintro b l (⟨rfl, rfl⟩ | ⟨rfl, h, rfl⟩)
          · exact Or.inl ⟨rfl, rfl⟩
          · exact Or.inr ⟨rfl, by simp⟩
        obtain ⟨l, h1, h2⟩ := hA s2 b h
        refine ⟨l, ?_, ⟨Or.inr ⟨key, stub, kernel, initrd, hkey, hF, ?_⟩⟩⟩
        · rw [← hk3, ← ht3]; exact h1
        · rcases h2 with h2 | ⟨rfl, h2⟩
          · exact Or.inl h2
          · obtain ⟨p, hp, hm⟩ := registerMeasurement_false hg h
            refine Or.inr ⟨rfl, ⟨p, hp, fun hf => ?_⟩, h2⟩
            have := hm hf
            simp only at this
            rw [← hk2, ← ht2]; exact this

/-! ### One generation -/

/-- A successful installation of `g` that leads from `s` to `s'` by the changes `l`: an entry was
found and everything is left as it is, or the generation was installed anew.  In the second case an
entry may have been found as well, and only its measurement was missing. -/
inductive GenResult (env : Env) (cfg : Config) (g : Gen) (s s' : State) (l : List Change) : Prop
  | kept {key : Bytes} {stub kernel initrd : Path} (el : l = []) (kept : Kept env cfg g s')
      (hk : KeyOf env cfg.signer key)
      (hf : Found env cfg (stubPrefix env.sha g key) s.fs stub kernel initrd)
      (e : s'.roots = s.roots ++ ([stub, kernel, initrd] ++ measurements cfg g))
  | fresh {pre : List Path}
      (hp : pre = [] ∨ (∃ p, cfg.pcrlockDirectory = some p ∧
          (Faultless env → s.fs.get (measurementFile p g) = none)) ∧ ∃ key stub kernel initrd,
        KeyOf env cfg.signer key ∧ Found env cfg (stubPrefix env.sha g key) s.fs stub kernel initrd ∧
        pre = [stub, kernel, initrd])
      (fresh : FreshFrom env cfg g (s.roots ++ pre) s')

end Verif.Tool
