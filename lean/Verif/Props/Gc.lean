import Verif.Lemmas.GcExact
/-!
# Garbage collection of one directory (C29, C30)
-/
namespace Verif.Tool
open Verif

/-- `x` is to be collected: it is unused and admitted by the filter, or something above it in the
directory is. -/
def ToBeCollected (dir : Path) (filter : Path → Bool) (roots : List Path) (x : Path) : Prop :=
  ∃ q, dir <+: q ∧ q <+: x ∧ q ∉ roots ∧ filter q = true

/-- **C29**. At any moment of a garbage collection, whatever fails and in whatever order the directory
is listed, a path that is in use and all of whose parents below the directory are in use is what it
was. (For paths outside the directory there is nothing to assume.) -/
theorem C29_roots_kept (os : Os) (dir : Path) (filter : Path → Bool) (s : State) {done : List Change}
    (hd : s.log ++ done <+: (collectGarbageWithFilter os dir filter s).2.log) {x : Path}
    (hx : ∀ q, dir <+: q → q <+: x → q ∈ s.roots) :
    (s.fs.replay done).get x = s.fs.get x := by
  obtain ⟨⟨l, h1, -, h3⟩, -⟩ := collectGarbageWithFilter_triple (R := s.roots) os dir filter s rfl
  rw [h1] at hd
  have hp : done <+: l := (List.prefix_append_right_inj _).1 hd
  refine (h3.prefix hp).inv (J := fun f => f.get x = s.fs.get x) rfl ?_
  intro f c j st
  cases st with
  | @unlink p q hq hqp hf =>
    rw [Fs.get_unlink (by rintro rfl; simp [Fs.fileAt] at hf)]
    by_cases e : x = p
    · subst e; exact absurd (hx q hq.below hqp) hq.unused
    · simpa [e] using j
  | @rmdir p q hq hqp hdir he hn =>
    rw [Fs.get_rmdir hn]
    by_cases e : x = p
    · subst e; exact absurd (hx q hq.below hqp) hq.unused
    · simpa [e] using j

/-- **C29** (filter). What the filter does not admit is kept as well, if nothing above it is
collected. -/
theorem C29_only_collected (os : Os) (dir : Path) (filter : Path → Bool) (s : State)
    {done : List Change} (hd : s.log ++ done <+: (collectGarbageWithFilter os dir filter s).2.log)
    {x : Path} (hx : ¬ ToBeCollected dir filter s.roots x) :
    (s.fs.replay done).get x = s.fs.get x := by
  obtain ⟨⟨l, h1, -, h3⟩, -⟩ := collectGarbageWithFilter_triple (R := s.roots) os dir filter s rfl
  rw [h1] at hd
  have hp : done <+: l := (List.prefix_append_right_inj _).1 hd
  refine (h3.prefix hp).inv (J := fun f => f.get x = s.fs.get x) rfl ?_
  intro f c j st
  cases st with
  | @unlink p q hq hqp hf =>
    rw [Fs.get_unlink (by rintro rfl; simp [Fs.fileAt] at hf)]
    by_cases e : x = p
    · subst e; exact absurd ⟨q, hq.below, hqp, hq.unused, hq.admitted⟩ hx
    · simpa [e] using j
  | @rmdir p q hq hqp hdir he hn =>
    rw [Fs.get_rmdir hn]
    by_cases e : x = p
    · subst e; exact absurd ⟨q, hq.below, hqp, hq.unused, hq.admitted⟩ hx
    · simpa [e] using j

/-- The disk is what the recorded changes make of it. -/
theorem gc_disk (os : Os) (dir : Path) (filter : Path → Bool) (s : State) :
    ∃ l, (collectGarbageWithFilter os dir filter s).2.log = s.log ++ l ∧
      (collectGarbageWithFilter os dir filter s).2.fs = s.fs.replay l := by
  obtain ⟨⟨l, h1, h2, -⟩, -⟩ := collectGarbageWithFilter_triple (R := s.roots) os dir filter s rfl
  exact ⟨l, h1, h2⟩

/-- **C30** (exactness). If nothing fails, garbage collection succeeds and removes exactly what is
unused and admitted by the filter, with everything below. -/
theorem C30_exact {os : Os} (hr : Reliable os) {dir : Path} (hd : dir ≠ []) (filter : Path → Bool)
    {s : State} (ht : s.fs.Tree) :
    (collectGarbageWithFilter os dir filter s).1 = .ok () ∧
    ∀ x, (ToBeCollected dir filter s.roots x →
        (collectGarbageWithFilter os dir filter s).2.fs.get x = none) ∧
      (¬ ToBeCollected dir filter s.roots x →
        (collectGarbageWithFilter os dir filter s).2.fs.get x = s.fs.get x) := by
  obtain ⟨s', e, -, -, -, h1, h2⟩ := collectGarbageWithFilter_exact hr hd filter ht
  rw [e]
  refine ⟨rfl, fun x => ⟨?_, ?_⟩⟩
  · rintro ⟨q, a, b, c, d⟩
    exact h1 x ⟨q, ⟨a, c, d⟩, b⟩
  · intro h
    exact h2 x fun ⟨q, hq, hx⟩ => h ⟨q, hq.below, hx, hq.unused, hq.admitted⟩

/-- **C30** (order). The result does not depend on the order in which directories are listed. -/
theorem C30_order_independent {os os' : Os} (hr : Reliable os) (hr' : Reliable os') {dir : Path}
    (hd : dir ≠ []) (filter : Path → Bool) {s : State} (ht : s.fs.Tree) (x : Path) :
    (collectGarbageWithFilter os dir filter s).2.fs.get x =
      (collectGarbageWithFilter os' dir filter s).2.fs.get x := by
  by_cases h : ToBeCollected dir filter s.roots x
  · rw [((C30_exact hr hd filter ht).2 x).1 h, ((C30_exact hr' hd filter ht).2 x).1 h]
  · rw [((C30_exact hr hd filter ht).2 x).2 h, ((C30_exact hr' hd filter ht).2 x).2 h]

/-- **C30** (idempotence). A second garbage collection makes no change at all. -/
theorem C30_idempotent {os os' : Os} (hr : Reliable os) {dir : Path} (hd : dir ≠ [])
    (filter : Path → Bool) {s s1 : State} (ht : s.fs.Tree)
    (h1 : s1 = (collectGarbageWithFilter os dir filter s).2) :
    (collectGarbageWithFilter os' dir filter s1).2.log = s1.log ∧
    (collectGarbageWithFilter os' dir filter s1).2.fs = s1.fs := by
  obtain ⟨s', e, -, hroots, -, hg, -⟩ := collectGarbageWithFilter_exact hr hd filter ht
  rw [e] at h1
  dsimp only at h1
  subst h1
  have : (os'.list s1.tick (s1.fs.subtree dir)).filter (isGarbage s1.roots filter) = [] := by
    rw [List.filter_eq_nil_iff]
    intro q hq hgar
    have hq' := os'.list_sub _ _ _ hq
    have hb := mem_subtree hq'
    have hne : q ≠ [] := by rintro rfl; exact hd (List.prefix_nil.1 hb)
    have hex := ((mem_subtree_iff hne).1 hq').2
    simp only [isGarbage, Bool.and_eq_true, Bool.not_eq_true', List.contains_eq_mem,
      decide_eq_false_iff_not, hroots] at hgar
    rw [hg q ⟨q, ⟨hb, hgar.1, hgar.2⟩, List.prefix_refl _⟩] at hex
    cases hex
  simp only [collectGarbageWithFilter, RM.bind_run, next, RM.get, this, collectEach, RM.pure_run]
  exact ⟨trivial, trivial⟩

/-! ### Files that cannot be removed -/

/-- Removing one file: either it is gone, or the operation failed and nothing changed. -/
theorem collectEntry_file (os : Os) {q : Path} (hq : q ≠ []) {s : State} (hf : s.fs.get q ≠ some .dir) :
    ∃ s', collectEntry os q s = (.ok (), s') ∧ s'.tick = s.tick + 1 ∧ s'.roots = s.roots ∧
      (∀ x, x ≠ q → s'.fs.get x = s.fs.get x) ∧
      (os.fault s.tick = false → s'.fs.get q = none) ∧
      (os.fault s.tick = true → s'.fs = s.fs) := by
  unfold collectEntry
  simp only [RM.bind_run, getFs, hf, if_false]
  cases hft : os.fault s.tick with
  | true =>
    refine ⟨{ s with tick := s.tick + 1 }, ?_, rfl, rfl, fun _ _ => rfl, by simp, fun _ => rfl⟩
    simp [RM.attempt, removeFile, guarded, faulty, next, hft, require, RM.bind_run]
  | false =>
    cases hg : s.fs.get q with
    | none =>
      refine ⟨{ s with tick := s.tick + 1 }, ?_, rfl, rfl, fun _ _ => rfl, fun _ => hg, by simp⟩
      simp [RM.attempt, removeFile, guarded, faulty, next, hft, require, RM.bind_run, getFs, Fs.fileAt, hg]
    | some node =>
      cases node with
      | dir => exact absurd hg hf
      | file d =>
        refine ⟨{ s with tick := s.tick + 1, fs := s.fs.apply (.unlink q), log := s.log ++ [.unlink q] }, ?_,
          rfl, rfl, ?_, ?_, by simp⟩
        · simp [RM.attempt, removeFile, guarded, faulty, next, hft, require, RM.bind_run, getFs, Fs.fileAt, hg,
            change]
        · intro x hx
          show (s.fs.apply (.unlink q)).get x = _
          rw [Fs.get_unlink hq, if_neg hx]
        · intro _
          show (s.fs.apply (.unlink q)).get q = _
          rw [Fs.get_unlink hq, if_pos rfl]

theorem collectEach_files (os : Os) (qs : List Path) : ∀ s : State, (∀ q ∈ qs, q ≠ []) →
    (∀ q ∈ qs, s.fs.get q ≠ some .dir) →
    ∃ s', collectEach os qs s = (.ok (), s') ∧
      (∀ x, x ∉ qs → s'.fs.get x = s.fs.get x) ∧
      (∀ x, s.fs.get x = none → s'.fs.get x = none) ∧
      (∀ x ∈ qs, s'.fs.get x ≠ none → ∃ t, s.tick ≤ t ∧ os.fault t = true) ∧
      ∀ x ∈ qs, ∀ y ∈ qs, x ≠ y → s'.fs.get x ≠ none → s'.fs.get y ≠ none →
        ∃ t t', t ≠ t' ∧ os.fault t = true ∧ os.fault t' = true := by
  induction qs with
  | nil => intro s _ _; exact ⟨s, rfl, fun _ _ => rfl, fun _ h => h, by simp, by simp⟩
  | cons q qs ih =>
    intro s hne hd
    obtain ⟨s1, e1, tk, -, keep, gone, fail⟩ := collectEntry_file os (hne q (by simp)) (hd q (by simp))
    have hd1 : ∀ x ∈ qs, s1.fs.get x ≠ some .dir := by
      intro x hx
      by_cases e : x = q
      · subst e
        cases hft : os.fault s.tick with
        | true => rw [fail hft]; exact hd x (by simp)
        | false => rw [gone hft]; simp
      · rw [keep x e]; exact hd x (by simp [hx])
    obtain ⟨s2, e2, keep2, none2, one2, two2⟩ := ih s1 (fun x hx => hne x (by simp [hx])) hd1
    have none1 : ∀ x, s.fs.get x = none → s1.fs.get x = none := by
      intro x hx
      by_cases e : x = q
      · subst e
        cases hft : os.fault s.tick with
        | true => rw [fail hft]; exact hx
        | false => exact gone hft
      · rw [keep x e]; exact hx
    have here : s2.fs.get q ≠ none → os.fault s.tick = true := by
      intro h
      cases hft : os.fault s.tick with
      | true => rfl
      | false => exact absurd (none2 q (gone hft)) h
    have pair : ∀ y ∈ qs, s2.fs.get q ≠ none → s2.fs.get y ≠ none →
        ∃ t t', t ≠ t' ∧ os.fault t = true ∧ os.fault t' = true := by
      intro y hy h h'
      obtain ⟨t, ht, hft⟩ := one2 y hy h'
      exact ⟨s.tick, t, by omega, here h, hft⟩
    refine ⟨s2, by simp only [collectEach, RM.bind_run, e1]; exact e2, ?_, fun x h => none2 x (none1 x h), ?_, ?_⟩
    · intro x hx
      simp only [List.mem_cons, not_or] at hx
      rw [keep2 x hx.2, keep x hx.1]
    · intro x hx h
      by_cases hm : x ∈ qs
      · obtain ⟨t, ht, hft⟩ := one2 x hm h
        exact ⟨t, by omega, hft⟩
      · have : x = q := by simpa [hm] using hx
        subst this
        exact ⟨s.tick, Nat.le_refl _, here h⟩
    · intro x hx y hy hxy h h'
      by_cases hmx : x ∈ qs
      · by_cases hmy : y ∈ qs
        · exact two2 x hmx y hmy hxy h h'
        · have : y = q := by simpa [hmy] using hy
          subst this
          exact pair x hmx h' h
      · have : x = q := by simpa [hmx] using hx
        subst this
        have hmy : y ∈ qs := by
          rcases List.mem_cons.1 hy with e | e
          · exact absurd e.symm hxy
          · exact e
        exact pair y hmy h h'

/-- **C30** (files that cannot be removed). If no directory is to be removed, the collection never fails,
whatever operations fail; and if at most one fails, at most one file stays that should have gone. -/
theorem C30_undeletable (os : Os) {dir : Path} (hd : dir ≠ []) (filter : Path → Bool) {s : State}
    (hdirs : ∀ q, dir <+: q → q ∉ s.roots → filter q = true → s.fs.get q ≠ some .dir) :
    (collectGarbageWithFilter os dir filter s).1 = .ok () ∧
    ((∀ t l, (os.list t l).Perm l) → (∀ t t', os.fault t = true → os.fault t' = true → t = t') →
      ∀ x y, dir <+: x → x ∉ s.roots → filter x = true → dir <+: y → y ∉ s.roots → filter y = true →
        (collectGarbageWithFilter os dir filter s).2.fs.get x ≠ none →
        (collectGarbageWithFilter os dir filter s).2.fs.get y ≠ none → x = y) := by
  have hmem : ∀ q, q ∈ (os.list s.tick (s.fs.subtree dir)).filter (isGarbage s.roots filter) →
      q ≠ [] ∧ s.fs.get q ≠ some .dir := by
    intro q hq
    rw [List.mem_filter] at hq
    have hb := mem_subtree (os.list_sub _ _ _ hq.1)
    have h := hq.2
    simp only [isGarbage, Bool.and_eq_true, Bool.not_eq_true', List.contains_eq_mem,
      decide_eq_false_iff_not] at h
    exact ⟨by rintro rfl; exact hd (List.prefix_nil.1 hb), hdirs q hb h.1 h.2⟩
  obtain ⟨s', e, keep, none', -, two⟩ := collectEach_files os
    ((os.list s.tick (s.fs.subtree dir)).filter (isGarbage s.roots filter)) { s with tick := s.tick + 1 }
    (fun q hq => (hmem q hq).1) (fun q hq => (hmem q hq).2)
  have e' : collectGarbageWithFilter os dir filter s = (.ok (), s') := by
    simp only [collectGarbageWithFilter, RM.bind_run, next, RM.get]
    exact e
  rw [e']
  refine ⟨rfl, ?_⟩
  intro hl hone x y hx hxr hxf hy hyr hyf hx' hy'
  have inl : ∀ z, dir <+: z → z ∉ s.roots → filter z = true → s'.fs.get z ≠ none →
      z ∈ (os.list s.tick (s.fs.subtree dir)).filter (isGarbage s.roots filter) := by
    intro z hz hr hf hz'
    have hne : z ≠ [] := by rintro rfl; exact hd (List.prefix_nil.1 hz)
    rw [List.mem_filter, (hl _ _).mem_iff, mem_subtree_iff hne]
    refine ⟨⟨hz, ?_⟩, by simp [isGarbage, hr, hf]⟩
    cases h : s.fs.get z with
    | none => exact absurd (none' z h) hz'
    | some _ => rfl
  refine Classical.byContradiction fun hne => ?_
  obtain ⟨t, t', htt, h1, h2⟩ := two x (inl x hx hxr hxf hx') y (inl y hy hyr hyf hy') hne hx' hy'
  exact htt (hone t t' h1 h2)

/-! ### A concrete case -/
namespace SampleGc

def os (rev : Bool) : Os where
  fault := fun _ => false
  partials := fun _ => []
  list := fun _ l => if rev then l.reverse else l
  list_sub := by intro t l p h; cases rev <;> simpa using h

theorem reliable (rev : Bool) : Reliable (os rev) where
  fault _ := rfl
  list _ l := by
    cases rev
    · exact List.Perm.refl _
    · exact List.reverse_perm _

/-- A directory `a` with a file in use, one that is not, and a directory that is not. -/
def state : State where
  fs := { nodes := [([lit "a"], .dir), ([lit "a", lit "used"], .file [1]),
            ([lit "a", lit "old"], .file [2]), ([lit "a", lit "d"], .dir),
            ([lit "a", lit "d", lit "x"], .file [3]), ([lit "b"], .file [])],
          dirty := [] }
  log := []
  tick := 0
  roots := [[lit "a"], [lit "a", lit "used"], [lit "a", lit "d", lit "x"]]
  broken := []

/-- Checks whether a file system is a tree. -/
def isTree (fs : Fs) : Bool :=
  fs.nodes.all (fun e => decide (e.1 ≠ []) && decide (fs.get e.1.dropLast = some .dir)) &&
  decide ((fs.nodes.map (·.1)).Nodup)

theorem tree_of {fs : Fs} (h : isTree fs = true) : fs.Tree := by
  rw [isTree, Bool.and_eq_true, List.all_eq_true] at h
  have h1 : ∀ e ∈ fs.nodes, e.1 ≠ [] ∧ fs.get e.1.dropLast = some .dir := by
    intro e he
    simpa using h.1 e he
  refine ⟨fun e he => (h1 e he).1, by simpa using h.2, fun p hp hs => ?_⟩
  have : p ∈ fs.subtree [] := (mem_subtree_iff hp).2 ⟨List.nil_prefix, hs⟩
  unfold Fs.subtree at this
  obtain ⟨e, he, rfl⟩ := List.mem_map.1 (List.mem_filter.1 this).1
  exact (h1 e he).2

theorem tree : state.fs.Tree := tree_of (by decide)

/-- `a/old` and `a/d` are removed, `a/d/x` with it although it is a root: its parent is not. -/
example (rev : Bool) :
    (collectGarbageWithFilter (os rev) [lit "a"] (fun _ => true) state).2.fs.nodes.map (·.1) =
      [[lit "a"], [lit "a", lit "used"], [lit "b"]] := by cases rev <;> decide +kernel

example : ToBeCollected [lit "a"] (fun _ => true) state.roots [lit "a", lit "d", lit "x"] ∧
    ¬ ToBeCollected [lit "a"] (fun _ => true) state.roots [lit "a", lit "used"] := by
  refine ⟨⟨[lit "a", lit "d"], by decide⟩, ?_⟩
  rintro ⟨q, h1, h2, h3, -⟩
  rcases h2 with ⟨t, ht⟩
  obtain ⟨u, rfl⟩ := h1
  cases u with
  | nil => exact h3 (by decide)
  | cons a u =>
    simp only [List.cons_append, List.nil_append, List.cons.injEq, List.append_eq_nil_iff, true_and] at ht
    obtain ⟨rfl, rfl, -⟩ := ht
    exact h3 (by decide)

example : ∀ q, [lit "a"] <+: q → q <+: [lit "a", lit "used"] → q ∈ state.roots := by
  rintro q ⟨u, rfl⟩ ⟨t, ht⟩
  cases u with
  | nil => decide
  | cons a u =>
    simp only [List.cons_append, List.nil_append, List.cons.injEq, List.append_eq_nil_iff, true_and] at ht
    obtain ⟨rfl, rfl, -⟩ := ht
    decide

/-- Every operation fails, and the collection of the unused file still succeeds. -/
example : (collectGarbageWithFilter { os true with fault := fun _ => true } [lit "a"]
    (fun q => q = [lit "a", lit "old"]) state).1 = .ok () :=
  (C30_undeletable _ (by decide) _ fun q _ _ hf => by
    have e : q = [lit "a", lit "old"] := by simpa using hf
    rw [e]; decide).1

end SampleGc

end Verif.Tool
