import Verif.Lemmas.Gc
import Verif.Spec.Installer
/-!
# What garbage collection removes when nothing goes wrong
-/
namespace Verif.Tool
open Verif

theorem dropLast_length {p : Path} (h : p ≠ []) : p.dropLast.length + 1 = p.length := by
  cases p with
  | nil => exact absurd rfl h
  | cons a l => simp

theorem Fs.Tree.above_aux {fs : Fs} (h : fs.Tree) (q : Path) (n : Nat) : ∀ t : Path, t.length = n + 1 →
    (fs.get (q ++ t)).isSome → fs.get q = some .dir := by
  induction n with
  | zero =>
    intro t ht hp
    obtain ⟨a, rfl⟩ : ∃ a, t = [a] := List.length_eq_one_iff.1 ht
    have h1 := h.parent (q ++ [a]) (by simp) hp
    rwa [List.dropLast_concat] at h1
  | succ n ih =>
    intro t ht hp
    rcases List.eq_nil_or_concat t with rfl | ⟨t', a, e⟩
    · simp at ht
    · rw [List.concat_eq_append] at e
      subst e
      have h1 := h.parent (q ++ (t' ++ [a])) (by simp) hp
      rw [← List.append_assoc, List.dropLast_concat] at h1
      exact ih t' (by simpa using ht) (by rw [h1]; rfl)

/-- Everything above something that exists is a directory. -/
theorem Fs.Tree.above {fs : Fs} (h : fs.Tree) {q p : Path} (hq : q <+: p) (hne : q ≠ p)
    (hp : (fs.get p).isSome) : fs.get q = some .dir := by
  obtain ⟨t, rfl⟩ := hq
  cases t with
  | nil => simp at hne
  | cons a t => exact h.above_aux q t.length (a :: t) rfl hp

theorem Fs.Tree.exists_above {fs : Fs} (h : fs.Tree) {q p : Path} (hq : q <+: p)
    (hp : (fs.get p).isSome) : (fs.get q).isSome := by
  by_cases e : q = p
  · rw [e]; exact hp
  · rw [h.above hq e hp]; rfl

theorem Fs.mem_children {fs : Fs} {p : Path} {n : Str} :
    n ∈ fs.children p ↔ (fs.get (p ++ [n])).isSome := by
  unfold Fs.children Fs.get
  simp only [List.mem_filterMap, List.append_eq_nil_iff, List.cons_ne_nil, and_false, if_false]
  constructor
  · rintro ⟨e, he, h⟩
    split at h
    · next hc =>
      have : e.1 = p ++ [n] := by
        obtain ⟨ys, hy⟩ := List.getLast?_eq_some_iff.1 h
        rw [hy, List.dropLast_concat] at hc
        rw [hy, hc.2]
      cases hf : fs.nodes.find? (fun x => x.1 == p ++ [n]) with
      | some x => rfl
      | none =>
        rw [List.find?_eq_none] at hf
        exact absurd (by simp [this]) (hf e he)
    · cases h
  · intro h
    split at h
    · next e he =>
      have h1 := List.find?_some he
      have h2 : e.1 = p ++ [n] := by simpa using h1
      exact ⟨e, List.mem_of_find?_eq_some he, by simp [h2]⟩
    · cases h

theorem Fs.children_empty {fs : Fs} {p : Path} :
    (fs.children p).isEmpty = true ↔ ∀ n, fs.get (p ++ [n]) = none := by
  constructor
  · intro h n
    cases hg : fs.get (p ++ [n]) with
    | none => rfl
    | some x =>
      have : n ∈ fs.children p := Fs.mem_children.2 (by rw [hg]; rfl)
      rw [List.isEmpty_iff.1 h] at this
      cases this
  · intro h
    rw [List.isEmpty_iff]
    cases hc : fs.children p with
    | nil => rfl
    | cons n l =>
      have : n ∈ fs.children p := by rw [hc]; simp
      rw [Fs.mem_children, h n] at this
      cases this

/-! ### Trees stay trees -/

theorem Fs.Tree.del {fs : Fs} (h : fs.Tree) {p : Path} (hp : p ≠ []) (hc : ∀ n, fs.get (p ++ [n]) = none) :
    (fs.del p).Tree where
  ne e he := h.ne e (List.mem_filter.1 he).1
  nodup := by
    unfold Fs.del
    exact (List.Sublist.map _ List.filter_sublist).nodup h.nodup
  parent q hq hs := by
    rw [Fs.get_del _ _ _ hp] at hs ⊢
    by_cases e : q = p
    · simp [e] at hs
    · simp only [e, if_false] at hs
      by_cases e' : q.dropLast = p
      · exfalso
        have : q = p ++ [q.getLast hq] := by rw [← e', List.dropLast_concat_getLast]
        rw [this, hc] at hs; cases hs
      · simp only [e', if_false]
        exact h.parent q hq hs

theorem Fs.Tree.put {fs : Fs} (h : fs.Tree) {p : Path} (hp : p ≠ []) {n : Node}
    (hd : fs.get p.dropLast = some .dir) (hn : n = .dir ∨ fs.get p ≠ some .dir) :
    (fs.put p n).Tree where
  ne e he := by
    rcases List.mem_cons.1 he with rfl | he
    · exact hp
    · exact h.ne e (List.mem_filter.1 he).1
  nodup := by
    unfold Fs.put
    simp only [List.map_cons, List.nodup_cons]
    refine ⟨?_, (List.Sublist.map _ List.filter_sublist).nodup h.nodup⟩
    simp only [List.mem_map, List.mem_filter, not_exists]
    rintro e ⟨⟨-, h1⟩, h2⟩
    simp [h2] at h1
  parent q hq hs := by
    rw [Fs.get_put _ _ _ _ hp] at hs ⊢
    have hpd : p.dropLast ≠ p := by
      intro e
      have := dropLast_length hp
      rw [e] at this; omega
    by_cases e : q = p
    · subst e; simp only [hpd, if_false]; exact hd
    · simp only [e, if_false] at hs
      have h1 := h.parent q hq hs
      by_cases e' : q.dropLast = p
      · simp only [e', if_true]
        rcases hn with rfl | hn
        · rfl
        · rw [e'] at h1; exact absurd h1 hn
      · simp only [e', if_false]; exact h1

theorem Fs.Tree.of_get {fs fs' : Fs} (h : fs.Tree) (e : fs'.nodes = fs.nodes) : fs'.Tree where
  ne := by rw [e]; exact h.ne
  nodup := by rw [e]; exact h.nodup
  parent p hp hs := by
    have : ∀ q, fs'.get q = fs.get q := by intro q; unfold Fs.get; rw [e]
    rw [this] at hs ⊢
    exact h.parent p hp hs

/-! ### Removing -/

theorem guarded_ok {os : Os} (h : ∀ t, os.fault t = false) (s : State) :
    guarded os s = (.ok (), { s with tick := s.tick + 1 }) := by
  simp [guarded, faulty, next, h, require]

/-- What removing entries leaves of a state. -/
structure Removed (ps : List Path) (s s' : State) : Prop where
  get : ∀ x, s'.fs.get x = if x ∈ ps then none else s.fs.get x
  tree : s'.fs.Tree
  roots : s'.roots = s.roots
  broken : s'.broken = s.broken

theorem removeOne_exact {os : Os} (hf : ∀ t, os.fault t = false) {s : State} (ht : s.fs.Tree)
    {p : Path} (hp : p ≠ []) (he : (s.fs.get p).isSome) (hc : ∀ n, s.fs.get (p ++ [n]) = none) :
    ∃ s', removeOne os p s = (.ok (), s') ∧ Removed [p] s s' := by
  unfold removeOne
  cases hg : s.fs.get p with
  | none => rw [hg] at he; cases he
  | some node =>
    cases node with
    | dir =>
      refine ⟨{ s with tick := s.tick + 1, fs := s.fs.apply (.rmdir p),
                       log := s.log ++ [.rmdir p] }, ?_, ?_, ?_, rfl, rfl⟩
      · simp only [RM.bind_run, getFs, hg, if_true, removeDir, guarded_ok hf]
        have h1 : (s.fs.children p).isEmpty = true := Fs.children_empty.2 hc
        simp [require, h1, hp, change]
      · intro x
        simp only [List.mem_singleton]
        exact Fs.get_rmdir hp x
      · exact ht.del hp hc
    | file d =>
      refine ⟨{ s with tick := s.tick + 1, fs := s.fs.apply (.unlink p),
                       log := s.log ++ [.unlink p] }, ?_, ?_, ?_, rfl, rfl⟩
      · simp only [RM.bind_run, getFs, hg, removeFile]
        simp [Fs.fileAt, hg, change, guarded_ok hf, getFs]
      · intro x
        simp only [List.mem_singleton]
        exact Fs.get_unlink hp x
      · exact ht.del hp hc

theorem removeEach_exact {os : Os} (hf : ∀ t, os.fault t = false) (ps : List Path) :
    ∀ s : State, s.fs.Tree → ps.Nodup → ps.Pairwise (fun a b => b.length ≤ a.length) →
      (∀ p ∈ ps, p ≠ [] ∧ (s.fs.get p).isSome) →
      (∀ p ∈ ps, ∀ x, p <+: x → (s.fs.get x).isSome → x ∈ ps) →
      ∃ s', removeEach os ps s = (.ok (), s') ∧ Removed ps s s' := by
  induction ps with
  | nil =>
    intro s ht _ _ _ _
    exact ⟨s, rfl, ⟨fun x => by simp, ht, rfl, rfl⟩⟩
  | cons p ps ih =>
    intro s ht hn hs he hc
    obtain ⟨hp, hex⟩ := he p (by simp)
    have hchild : ∀ n, s.fs.get (p ++ [n]) = none := by
      intro n
      cases hg : s.fs.get (p ++ [n]) with
      | none => rfl
      | some x =>
        have := hc p (by simp) (p ++ [n]) (List.prefix_append _ _) (by rw [hg]; rfl)
        rcases List.mem_cons.1 this with h | h
        · simp at h
        · have := (List.pairwise_cons.1 hs).1 _ h
          simp at this
          omega
    obtain ⟨s1, e1, r1⟩ := removeOne_exact hf ht hp hex hchild
    have hn' := List.nodup_cons.1 hn
    have hne : ∀ x ∈ ps, x ≠ p := by rintro x hx rfl; exact hn'.1 hx
    obtain ⟨s2, e2, r2⟩ := ih s1 r1.tree hn'.2 (List.pairwise_cons.1 hs).2
      (fun x hx => ⟨(he x (by simp [hx])).1, by
        rw [r1.get]; simp [hne x hx, (he x (by simp [hx])).2]⟩)
      (fun x hx y hy hs' => by
        rw [r1.get] at hs'
        by_cases e : y = p
        · simp [e] at hs'
        · simp only [List.mem_singleton, e, if_false] at hs'
          rcases List.mem_cons.1 (hc x (by simp [hx]) y hy hs') with h | h
          · exact absurd h e
          · exact h)
    refine ⟨s2, ?_, ?_, r2.tree, r2.roots.trans r1.roots, r2.broken.trans r1.broken⟩
    · simp only [removeEach, RM.bind_run, e1]; exact e2
    · intro x
      rw [r2.get, r1.get]
      by_cases h1 : x ∈ ps
      · simp [h1]
      · by_cases h2 : x = p
        · simp [h2]
        · simp [h1, h2]

/-- What removing everything at and below some paths leaves of a state. -/
structure Pruned (qs : List Path) (s s' : State) : Prop where
  gone : ∀ x, (∃ q ∈ qs, q <+: x) → s'.fs.get x = none
  kept : ∀ x, ¬ (∃ q ∈ qs, q <+: x) → s'.fs.get x = s.fs.get x
  tree : s'.fs.Tree
  roots : s'.roots = s.roots
  broken : s'.broken = s.broken

theorem subtree_nodup {fs : Fs} (h : fs.Tree) (p : Path) : (fs.subtree p).Nodup :=
  List.filter_sublist.nodup h.nodup

theorem removeDirAll_exact {os : Os} (hr : Reliable os) {s : State} (ht : s.fs.Tree) {q : Path}
    (hq : q ≠ []) : ∃ s', removeDirAll os q s = (.ok (), s') ∧ Pruned [q] s s' := by
  unfold removeDirAll
  have hperm : ((os.list s.tick (s.fs.subtree q)).isort fun a b => decide (b.length ≤ a.length)).Perm
      (s.fs.subtree q) := (List.isort_perm _ _).trans (hr.list _ _)
  have hmem : ∀ x, x ∈ (os.list s.tick (s.fs.subtree q)).isort (fun a b => decide (b.length ≤ a.length)) ↔
      q <+: x ∧ (s.fs.get x).isSome := by
    intro x
    rw [hperm.mem_iff]
    by_cases hx : x = []
    · subst hx
      constructor
      · intro h; exact absurd (List.prefix_nil.1 (mem_subtree h)) hq
      · intro h; exact absurd (List.prefix_nil.1 h.1) hq
    · exact mem_subtree_iff hx
  have hsorted : ((os.list s.tick (s.fs.subtree q)).isort fun a b => decide (b.length ≤ a.length)).Pairwise
      (fun a b => b.length ≤ a.length) := by
    have := List.pairwise_isort (le := fun a b : Path => decide (b.length ≤ a.length))
      (by intro a b c h1 h2; simp only [decide_eq_true_eq] at *; omega)
      (by intro a b; simp only [Bool.or_eq_true, decide_eq_true_eq]; omega)
      (os.list s.tick (s.fs.subtree q))
    exact this.imp (by simp)
  obtain ⟨s', e, r⟩ := removeEach_exact hr.fault
    ((os.list s.tick (s.fs.subtree q)).isort fun a b => decide (b.length ≤ a.length))
    { s with tick := s.tick + 1 } ht (hperm.nodup_iff.2 (subtree_nodup ht q)) hsorted
    (fun p hp => ⟨by rintro rfl; exact hq (List.prefix_nil.1 ((hmem _).1 hp).1), ((hmem p).1 hp).2⟩)
    (fun p hp x hx he => (hmem x).2 ⟨((hmem p).1 hp).1.trans hx, he⟩)
  refine ⟨s', ?_, ?_, ?_, r.tree, r.roots, r.broken⟩
  · simp only [RM.bind_run, next, getFs]
    exact e
  · rintro x ⟨q', hq', hx⟩
    rw [List.mem_singleton] at hq'
    subst hq'
    rw [r.get]
    by_cases h : (s.fs.get x).isSome
    · rw [if_pos ((hmem x).2 ⟨hx, h⟩)]
    · split
      · rfl
      · simpa using h
  · intro x hx
    rw [r.get, if_neg]
    intro h
    exact hx ⟨q, by simp, ((hmem x).1 h).1⟩

theorem collectEntry_exact {os : Os} (hr : Reliable os) {s : State} (ht : s.fs.Tree) {q : Path}
    (hq : q ≠ []) : ∃ s', collectEntry os q s = (.ok (), s') ∧ Pruned [q] s s' := by
  unfold collectEntry
  cases hg : s.fs.get q with
  | none =>
    refine ⟨{ s with tick := s.tick + 1 }, ?_, ?_, ?_, ht, rfl, rfl⟩
    · simp [getFs, hg, RM.attempt, removeFile, guarded_ok hr.fault, Fs.fileAt, RM.throw]
    · rintro x ⟨q', hq', hx⟩
      rw [List.mem_singleton] at hq'
      subst hq'
      cases hx' : s.fs.get x with
      | none => rfl
      | some n =>
        have := ht.exists_above hx (by rw [hx']; rfl)
        rw [hg] at this; cases this
    · intro x _; rfl
  | some node =>
    cases node with
    | dir =>
      obtain ⟨s', e, r⟩ := removeDirAll_exact hr ht hq
      refine ⟨s', ?_, r⟩
      simp only [RM.bind_run, getFs, hg, if_true]
      exact e
    | file d =>
      have hc : ∀ x, q <+: x → x ≠ q → s.fs.get x = none := by
        intro x hx hne
        cases hx' : s.fs.get x with
        | none => rfl
        | some n =>
          have := ht.above hx (Ne.symm hne) (by rw [hx']; rfl)
          rw [hg] at this; cases this
      refine ⟨{ s with tick := s.tick + 1, fs := s.fs.apply (.unlink q),
                       log := s.log ++ [.unlink q] }, ?_, ?_, ?_, ?_, rfl, rfl⟩
      · simp [getFs, hg, RM.attempt, removeFile, guarded_ok hr.fault, Fs.fileAt, change]
      · rintro x ⟨q', hq', hx⟩
        rw [List.mem_singleton] at hq'
        subst hq'
        show (s.fs.apply (.unlink q')).get x = none
        rw [Fs.get_unlink hq]
        by_cases e : x = q'
        · simp [e]
        · simp only [e, if_false]; exact hc x hx e
      · intro x hx
        show (s.fs.apply (.unlink q)).get x = _
        rw [Fs.get_unlink hq, if_neg]
        rintro rfl
        exact hx ⟨x, by simp, List.prefix_refl _⟩
      · exact ht.del hq fun n => hc _ (List.prefix_append _ _) (by simp)

theorem collectEach_exact {os : Os} (hr : Reliable os) (qs : List Path) : ∀ s : State, s.fs.Tree →
    (∀ q ∈ qs, q ≠ []) → ∃ s', collectEach os qs s = (.ok (), s') ∧ Pruned qs s s' := by
  induction qs with
  | nil => intro s ht _; exact ⟨s, rfl, ⟨by simp, fun _ _ => rfl, ht, rfl, rfl⟩⟩
  | cons q qs ih =>
    intro s ht hq
    obtain ⟨s1, e1, r1⟩ := collectEntry_exact hr ht (hq q (by simp))
    obtain ⟨s2, e2, r2⟩ := ih s1 r1.tree fun x hx => hq x (by simp [hx])
    refine ⟨s2, by simp only [collectEach, RM.bind_run, e1]; exact e2, ?_, ?_, r2.tree,
      r2.roots.trans r1.roots, r2.broken.trans r1.broken⟩
    · rintro x ⟨q', hq', hx⟩
      by_cases h : ∃ q ∈ qs, q <+: x
      · exact r2.gone x h
      · rw [r2.kept x h]
        rcases List.mem_cons.1 hq' with rfl | h'
        · exact r1.gone x ⟨q', by simp, hx⟩
        · exact absurd ⟨q', h', hx⟩ h
    · intro x hx
      rw [r2.kept x fun ⟨q', h1, h2⟩ => hx ⟨q', by simp [h1], h2⟩]
      refine r1.kept x fun ⟨q', h1, h2⟩ => ?_
      rw [List.mem_singleton] at h1
      exact hx ⟨q', by simp [h1], h2⟩

/-- When nothing goes wrong, exactly what is unused and admitted by the filter is removed, with
everything below it. -/
theorem collectGarbageWithFilter_exact {os : Os} (hr : Reliable os) {dir : Path} (hd : dir ≠ [])
    (pred : Path → Bool) {s : State} (ht : s.fs.Tree) :
    ∃ s', collectGarbageWithFilter os dir pred s = (.ok (), s') ∧ s'.fs.Tree ∧ s'.roots = s.roots ∧
      s'.broken = s.broken ∧
      (∀ x, (∃ q, Doomed dir pred s.roots q ∧ q <+: x) → s'.fs.get x = none) ∧
      (∀ x, ¬ (∃ q, Doomed dir pred s.roots q ∧ q <+: x) → s'.fs.get x = s.fs.get x) := by
  have hmem : ∀ q, q ∈ (os.list s.tick (s.fs.subtree dir)).filter (isGarbage s.roots pred) ↔
      Doomed dir pred s.roots q ∧ (s.fs.get q).isSome := by
    intro q
    rw [List.mem_filter, (hr.list _ _).mem_iff]
    simp only [isGarbage, Bool.and_eq_true, Bool.not_eq_true', List.contains_eq_mem,
      decide_eq_false_iff_not]
    constructor
    · rintro ⟨h1, h2, h3⟩
      have hb := mem_subtree h1
      have hne : q ≠ [] := by rintro rfl; exact hd (List.prefix_nil.1 hb)
      exact ⟨⟨hb, h2, h3⟩, ((mem_subtree_iff hne).1 h1).2⟩
    · rintro ⟨⟨h1, h2, h3⟩, h4⟩
      have hne : q ≠ [] := by rintro rfl; exact hd (List.prefix_nil.1 h1)
      exact ⟨(mem_subtree_iff hne).2 ⟨h1, h4⟩, h2, h3⟩
  obtain ⟨s', e, r⟩ := collectEach_exact hr
    ((os.list s.tick (s.fs.subtree dir)).filter (isGarbage s.roots pred))
    { s with tick := s.tick + 1 } ht (by
      intro q hq
      rintro rfl
      exact hd (List.prefix_nil.1 ((hmem _).1 hq).1.below))
  refine ⟨s', ?_, r.tree, r.roots, r.broken, ?_, ?_⟩
  · simp only [collectGarbageWithFilter, RM.bind_run, next, RM.get]
    exact e
  · rintro x ⟨q, hq, hx⟩
    by_cases hx' : (s.fs.get x).isSome
    · exact r.gone x ⟨q, (hmem q).2 ⟨hq, ht.exists_above hx hx'⟩, hx⟩
    · by_cases h : ∃ q ∈ (os.list s.tick (s.fs.subtree dir)).filter (isGarbage s.roots pred), q <+: x
      · exact r.gone x h
      · rw [r.kept x h]; simpa using hx'
  · intro x hx
    exact r.kept x fun ⟨q, h1, h2⟩ => hx ⟨q, ((hmem q).1 h1).1, h2⟩

end Verif.Tool
