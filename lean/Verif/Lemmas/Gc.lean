import Verif.Lemmas.FsOps
/-!
# The changes garbage collection makes
-/
namespace Verif.Tool
open Verif

/-- `q` is collected: it is in the directory, no root, and the filter admits it. -/
structure Doomed (dir : Path) (pred : Path → Bool) (roots : List Path) (q : Path) : Prop where
  below : dir <+: q
  unused : q ∉ roots
  admitted : pred q = true

/-- One change of a garbage collection: a file or an empty directory is removed, because it or a
directory it is in is collected. -/
inductive GcStep (dir : Path) (pred : Path → Bool) (roots : List Path) (f : Fs) : Change → Prop
  | unlink {p q : Path} (hq : Doomed dir pred roots q) (hp : q <+: p) (hf : (f.fileAt p).isSome) :
      GcStep dir pred roots f (.unlink p)
  | rmdir {p q : Path} (hq : Doomed dir pred roots q) (hp : q <+: p) (hd : f.get p = some .dir)
      (he : (f.children p).isEmpty) (hn : p ≠ []) : GcStep dir pred roots f (.rmdir p)

/-- The path a change removes. -/
def removed : Change → Option Path
  | .unlink p => some p
  | .rmdir p => some p
  | _ => none

theorem mem_subtree {fs : Fs} {p q : Path} (h : q ∈ fs.subtree p) : p <+: q := by
  unfold Fs.subtree at h
  simp only [List.mem_filter] at h
  exact List.isPrefixOf_iff_prefix.1 h.2

theorem mem_subtree_iff {fs : Fs} {p q : Path} (hq : q ≠ []) :
    q ∈ fs.subtree p ↔ p <+: q ∧ (fs.get q).isSome := by
  unfold Fs.subtree Fs.get
  simp only [List.mem_filter, List.mem_map, List.isPrefixOf_iff_prefix, hq, if_false]
  constructor
  · rintro ⟨⟨e, he, rfl⟩, hp⟩
    refine ⟨hp, ?_⟩
    cases hf : fs.nodes.find? (fun x => x.1 == e.1) with
    | some x => rfl
    | none =>
      rw [List.find?_eq_none] at hf
      exact absurd (by simp) (hf e he)
  · rintro ⟨hp, h⟩
    refine ⟨?_, hp⟩
    split at h
    · next e he =>
      have := List.find?_some he
      exact ⟨e, List.mem_of_find?_eq_some he, by simpa using this⟩
    · cases h

section
variable {P : State → Prop} {A : Fs → Change → Prop} (os : Os)

/-- A condition that only speaks of the roots. -/
def OnRoots (X : List Path → Prop) : State → Prop := fun s => X s.roots

theorem OnRoots.ticks (X : List Path → Prop) : Ticks (OnRoots X) := fun _ _ h => h

variable {X : List Path → Prop}

theorem removeFile_triple (p : Path)
    (hA : ∀ s : State, X s.roots → (s.fs.fileAt p).isSome → A s.fs (.unlink p)) :
    Triple (OnRoots X) (removeFile os p) A (fun _ => OnRoots X) := by
  unfold removeFile
  refine Triple.bind (Triple.guarded os (OnRoots.ticks X)) fun _ => ?_
  refine Triple.bind (Triple.getFs (Q := fun fs s => OnRoots X s ∧ fs = s.fs) fun s h => ⟨h, rfl⟩)
    fun fs => ?_
  split
  · exact Triple.throw
  · next d hd =>
    refine Triple.change ?_ fun s h => h.1
    rintro s ⟨h, rfl⟩
    exact hA s h (by simp [hd])

theorem removeDir_triple (p : Path)
    (hA : ∀ s : State, X s.roots → s.fs.get p = some .dir → (s.fs.children p).isEmpty → p ≠ [] →
      A s.fs (.rmdir p)) :
    Triple (OnRoots X) (removeDir os p) A (fun _ => OnRoots X) := by
  unfold removeDir
  refine Triple.bind (Triple.guarded os (OnRoots.ticks X)) fun _ => ?_
  refine Triple.bind (Triple.getFs (Q := fun fs s => OnRoots X s ∧ fs = s.fs) fun s h => ⟨h, rfl⟩)
    fun fs => ?_
  refine Triple.bind (Q := fun _ s => OnRoots X s ∧ s.fs.get p = some .dir ∧
    (s.fs.children p).isEmpty ∧ p ≠ []) (Triple.require ?_) fun _ => ?_
  · rintro s ⟨h, rfl⟩ hb
    simp only [Bool.and_eq_true, decide_eq_true_eq] at hb
    exact ⟨h, hb.1.1, hb.1.2, hb.2⟩
  · exact Triple.change (fun s h => hA s h.1 h.2.1 h.2.2.1 h.2.2.2) fun s h => h.1

theorem removeOne_triple (p : Path)
    (h1 : ∀ s : State, X s.roots → (s.fs.fileAt p).isSome → A s.fs (.unlink p))
    (h2 : ∀ s : State, X s.roots → s.fs.get p = some .dir → (s.fs.children p).isEmpty → p ≠ [] →
      A s.fs (.rmdir p)) :
    Triple (OnRoots X) (removeOne os p) A (fun _ => OnRoots X) := by
  unfold removeOne
  refine Triple.bind (Triple.getFs (Q := fun _ => OnRoots X) fun s h => h) fun fs => ?_
  exact Triple.ite (fun _ => removeDir_triple os p h2) fun _ => removeFile_triple os p h1

theorem removeEach_triple (ps : List Path)
    (h1 : ∀ p ∈ ps, ∀ s : State, X s.roots → (s.fs.fileAt p).isSome → A s.fs (.unlink p))
    (h2 : ∀ p ∈ ps, ∀ s : State, X s.roots → s.fs.get p = some .dir → (s.fs.children p).isEmpty →
      p ≠ [] → A s.fs (.rmdir p)) :
    Triple (OnRoots X) (removeEach os ps) A (fun _ => OnRoots X) := by
  induction ps with
  | nil => exact Triple.pure fun s h => h
  | cons p ps ih =>
    unfold removeEach
    exact Triple.bind (removeOne_triple os p (h1 p (by simp)) (h2 p (by simp))) fun _ =>
      ih (fun q hq => h1 q (by simp [hq])) fun q hq => h2 q (by simp [hq])

end

section
variable (os : Os) {dir : Path} {pred : Path → Bool} {R : List Path}

theorem isort_mem_of {α : Type} {le : α → α → Bool} {l : List α} {x : α} (h : x ∈ l.isort le) : x ∈ l :=
  (List.isort_perm l le).mem_iff.1 h

theorem removeDirAll_triple (q : Path) (hq : Doomed dir pred R q) :
    Triple (OnRoots (· = R)) (removeDirAll os q) (GcStep dir pred R)
      (fun _ => OnRoots (· = R)) := by
  unfold removeDirAll
  refine Triple.bind (Triple.next (OnRoots.ticks _)) fun t => ?_
  refine Triple.bind (Triple.getFs (Q := fun _ => OnRoots (· = R)) fun s h => h) fun fs => ?_
  have hm : ∀ p ∈ (os.list t (fs.subtree q)).isort fun a b => decide (b.length ≤ a.length), q <+: p :=
    fun p hp => mem_subtree (os.list_sub _ _ _ (isort_mem_of hp))
  exact removeEach_triple os _ (fun p hp s _ hf => .unlink hq (hm p hp) hf)
    fun p hp s _ hd he hn => .rmdir hq (hm p hp) hd he hn

theorem collectEntry_triple (q : Path) (hq : Doomed dir pred R q) :
    Triple (OnRoots (· = R)) (collectEntry os q) (GcStep dir pred R)
      (fun _ => OnRoots (· = R)) := by
  unfold collectEntry
  refine Triple.bind (Triple.getFs (Q := fun _ => OnRoots (· = R)) fun s h => h) fun fs => ?_
  refine Triple.ite (fun _ => removeDirAll_triple os q hq) fun _ => ?_
  intro s hs
  -- the roots stay even if removing fails
  have h := Triple.attempt (removeFile_triple (A := GcStep dir pred R) os q
    (X := (· = R)) fun s _ hf => .unlink hq (List.prefix_refl q) hf)
  refine (Triple.bind (Q := fun _ => OnRoots (· = R)) (R := fun _ => OnRoots (· = R)) ?_ fun _ =>
    Triple.pure fun s h => h) s hs
  intro s hs
  obtain ⟨h1, h2, h3, h4⟩ := h s hs
  refine ⟨h1, h2, h3, fun o ho => ?_⟩
  have key : (RM.attempt (removeFile os q) s).2.roots = s.roots := by
    unfold removeFile guarded faulty
    simp only [RM.attempt]
    by_cases hf : os.fault s.tick = true
    · simp [hf, next, require, RM.throw]
    · simp only [Bool.not_eq_true] at hf
      cases hfile : s.fs.fileAt q with
      | none => simp [hf, next, require, RM.throw, getFs, hfile]
      | some data => simp [hf, next, require, getFs, hfile, change]
  show _ = R
  rw [key]
  exact hs

theorem collectEach_triple (qs : List Path) (hq : ∀ q ∈ qs, Doomed dir pred R q) :
    Triple (OnRoots (· = R)) (collectEach os qs) (GcStep dir pred R)
      (fun _ => OnRoots (· = R)) := by
  induction qs with
  | nil => exact Triple.pure fun s h => h
  | cons p ps ih =>
    unfold collectEach
    exact Triple.bind (collectEntry_triple os p (hq p (by simp))) fun _ =>
      ih fun q hq' => hq q (by simp [hq'])

/-- `collect_garbage_with_filter`. -/
theorem collectGarbageWithFilter_triple (dir : Path) (pred : Path → Bool) :
    Triple (OnRoots (· = R)) (collectGarbageWithFilter os dir pred) (GcStep dir pred R)
      (fun _ => OnRoots (· = R)) := by
  unfold collectGarbageWithFilter
  refine Triple.bind (Triple.next (OnRoots.ticks _)) fun t => ?_
  refine Triple.bind (Triple.get (Q := fun s' s => OnRoots (· = R) s ∧ s'.roots = R)
    fun s h => ⟨h, h⟩) fun s' => ?_
  refine Triple.pre (Triple.and_pre fun h => ?_) fun s h => h
  refine collectEach_triple os _ fun q hq => ?_
  rw [List.mem_filter, h] at hq
  obtain ⟨h1, h2⟩ := hq
  simp only [isGarbage, Bool.and_eq_true, Bool.not_eq_true', List.contains_eq_mem,
    decide_eq_false_iff_not] at h2
  exact ⟨mem_subtree (os.list_sub _ _ _ h1), h2.1, h2.2⟩

end

end Verif.Tool
