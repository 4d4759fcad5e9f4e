/-!
# Stable sorting

`slice::sort`, `sort_by` and (for values that are equal when their keys are) `sort_unstable` of the
Rust standard library, as a structurally recursive function.
-/

/-- Insert before the first element that is not smaller. (core; by `sort`, linux-bootloader/src/cpio.rs
55.) -/
def List.orderedInsertB {α : Type} (le : α → α → Bool) (a : α) : List α → List α
  | [] => [a]
  | b :: rest => if le a b then a :: b :: rest else b :: List.orderedInsertB le a rest

/-- Stable sort. (core; `sort` in linux-bootloader/src/cpio.rs 55, `sort_by_key` in install.rs 119.) -/
def List.isort {α : Type} (l : List α) (le : α → α → Bool) : List α :=
  l.foldr (List.orderedInsertB le) []

namespace List
variable {α : Type} {le : α → α → Bool}

theorem orderedInsertB_perm (a : α) (l : List α) : (orderedInsertB le a l).Perm (a :: l) := by
  induction l with
  | nil => exact .refl _
  | cons b rest ih =>
    unfold orderedInsertB
    split
    · exact .refl _
    · exact (Perm.cons b ih).trans (.swap a b rest)

theorem isort_perm (l : List α) (le : α → α → Bool) : (l.isort le).Perm l := by
  induction l with
  | nil => exact .refl _
  | cons a rest ih => exact (orderedInsertB_perm a _).trans (Perm.cons a ih)

theorem mem_isort {l : List α} {a : α} : a ∈ l.isort le ↔ a ∈ l := (isort_perm l le).mem_iff

theorem pairwise_orderedInsertB (trans : ∀ a b c, le a b = true → le b c = true → le a c = true)
    (total : ∀ a b, (le a b || le b a) = true) (a : α) {l : List α}
    (h : l.Pairwise fun x y => le x y = true) :
    (orderedInsertB le a l).Pairwise fun x y => le x y = true := by
  induction l with
  | nil => simp [orderedInsertB]
  | cons b rest ih =>
    rw [pairwise_cons] at h
    unfold orderedInsertB
    split
    · next hab =>
      rw [pairwise_cons]
      refine ⟨?_, pairwise_cons.2 h⟩
      intro c hc
      rcases mem_cons.1 hc with rfl | hc
      · exact hab
      · exact trans _ _ _ hab (h.1 c hc)
    · next hab =>
      rw [pairwise_cons]
      refine ⟨?_, ih h.2⟩
      intro c hc
      rcases mem_cons.1 ((orderedInsertB_perm a rest).mem_iff.1 hc) with rfl | hc
      · have := total c b
        rw [Bool.or_eq_true] at this
        exact this.resolve_left hab
      · exact h.1 c hc

theorem pairwise_isort (trans : ∀ a b c, le a b = true → le b c = true → le a c = true)
    (total : ∀ a b, (le a b || le b a) = true) (l : List α) :
    (l.isort le).Pairwise fun x y => le x y = true := by
  induction l with
  | nil => exact Pairwise.nil
  | cons a rest ih => exact pairwise_orderedInsertB trans total a ih

theorem isort_of_pairwise {l : List α} (h : l.Pairwise fun x y => le x y = true) : l.isort le = l := by
  induction l with
  | nil => rfl
  | cons a rest ih =>
    rw [pairwise_cons] at h
    show orderedInsertB le a (rest.isort le) = _
    rw [ih h.2]
    cases rest with
    | nil => rfl
    | cons b r =>
      unfold orderedInsertB
      rw [if_pos (h.1 b (by simp))]

end List
