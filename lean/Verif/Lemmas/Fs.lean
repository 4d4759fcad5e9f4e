import Verif.Model.Fs
/-!
# Reasoning about the installer's file system operations
-/
namespace Verif.Tool
open Verif

namespace Fs

theorem find_filter_ne {l : List (Path × Node)} {p q : Path} (h : q ≠ p) :
    (l.filter (fun e => e.1 ≠ p)).find? (fun e => e.1 == q) = l.find? (fun e => e.1 == q) := by
  induction l with
  | nil => rfl
  | cons e l ih =>
    by_cases he : e.1 = p
    · have : (e.1 == q) = false := by simp [he]; exact fun x => h x.symm
      simp only [ne_eq, decide_not] at ih
      simp [List.filter_cons, he, ih, List.find?_cons, Ne.symm h]
    · simp only [ne_eq, decide_not] at ih
      simp [List.filter_cons, he, ih, List.find?_cons]

theorem find_filter_eq {l : List (Path × Node)} {p : Path} :
    (l.filter (fun e => e.1 ≠ p)).find? (fun e => e.1 == p) = none := by
  rw [List.find?_eq_none]
  intro x hx
  simp at hx
  simp [hx.2]

@[simp] theorem get_root (fs : Fs) : fs.get [] = some .dir := by simp [get]

theorem get_put (fs : Fs) (p q : Path) (n : Node) (hp : p ≠ []) :
    (fs.put p n).get q = if q = p then some n else fs.get q := by
  by_cases h : q = p
  · subst h; simp [get, put, hp]
  · by_cases hq : q = []
    · subst hq; simp [h]
    · have : (p == q) = false := by simp; exact fun x => h x.symm
      simp only [get, put, hq, h, if_false, List.find?_cons, this]
      rw [find_filter_ne h]

theorem get_del (fs : Fs) (p q : Path) (hp : p ≠ []) :
    (fs.del p).get q = if q = p then none else fs.get q := by
  by_cases h : q = p
  · subst h
    simp only [get, del, hp, if_false, if_true]
    rw [find_filter_eq]
  · by_cases hq : q = []
    · subst hq; simp [h]
    · simp only [get, del, hq, h, if_false]
      rw [find_filter_ne h]

@[simp] theorem get_markDirty (fs : Fs) (p q : Path) : (fs.markDirty p).get q = fs.get q := rfl
@[simp] theorem get_markClean (fs : Fs) (p q : Path) : (fs.markClean p).get q = fs.get q := rfl

/-- A change of something other than the root. -/
def _root_.Verif.Tool.Change.proper : Change → Prop
  | .mkdir p => p ≠ []
  | .create p => p ≠ []
  | .write p _ => p ≠ []
  | .rename a b _ => a ≠ [] ∧ b ≠ []
  | .unlink p => p ≠ []
  | .rmdir p => p ≠ []
  | _ => True

theorem get_mkdir {fs : Fs} {p : Path} (hp : p ≠ []) (q : Path) :
    (fs.apply (.mkdir p)).get q = if q = p then some .dir else fs.get q := get_put fs p q .dir hp

theorem get_create {fs : Fs} {p : Path} (hp : p ≠ []) (q : Path) :
    (fs.apply (.create p)).get q = if q = p then some (.file []) else fs.get q := by
  simp [apply, get_put fs p q _ hp]

theorem get_write {fs : Fs} {p : Path} {d : Bytes} (hp : p ≠ []) (q : Path) :
    (fs.apply (.write p d)).get q = if q = p then some (.file d) else fs.get q := by
  simp [apply, get_put fs p q _ hp]

@[simp] theorem get_fsync {fs : Fs} {p : Path} (q : Path) :
    (fs.apply (.fsync p)).get q = fs.get q := rfl

theorem get_rename {fs : Fs} {a b : Path} {d : Bytes} (ha : a ≠ []) (hb : b ≠ []) (q : Path) :
    (fs.apply (.rename a b d)).get q =
      if q = b then some (.file d) else if q = a then none else fs.get q := by
  simp only [apply]
  split <;> simp [get_put _ b q _ hb, get_del _ a q ha]

@[simp] theorem get_chmod {fs : Fs} {p : Path} {m : Nat} (q : Path) :
    (fs.apply (.chmod p m)).get q = fs.get q := rfl
@[simp] theorem get_syncfs {fs : Fs} (p q : Path) : (fs.apply (.syncfs p)).get q = fs.get q := rfl
@[simp] theorem get_collecting {fs : Fs} (q : Path) : (fs.apply .collecting).get q = fs.get q := rfl

theorem get_unlink {fs : Fs} {p : Path} (hp : p ≠ []) (q : Path) :
    (fs.apply (.unlink p)).get q = if q = p then none else fs.get q := get_del fs p q hp
theorem get_rmdir {fs : Fs} {p : Path} (hp : p ≠ []) (q : Path) :
    (fs.apply (.rmdir p)).get q = if q = p then none else fs.get q := get_del fs p q hp

theorem fileAt_eq_some {fs : Fs} {p : Path} {d : Bytes} :
    fs.fileAt p = some d ↔ fs.get p = some (.file d) := by
  unfold fileAt
  split <;> simp_all

theorem fileAt_ne_nil {fs : Fs} {p : Path} {d : Bytes} (h : fs.fileAt p = some d) : p ≠ [] := by
  rintro rfl; simp [fileAt] at h

@[simp] theorem replay_nil (fs : Fs) : fs.replay [] = fs := rfl
@[simp] theorem replay_cons (fs : Fs) (c : Change) (l : List Change) :
    fs.replay (c :: l) = (fs.apply c).replay l := rfl
theorem replay_append (fs : Fs) (l l' : List Change) :
    fs.replay (l ++ l') = (fs.replay l).replay l' := by simp [replay]

/-- Every change of the list satisfies `A` in the state in which it is made. -/
def Chain (A : Fs → Change → Prop) : Fs → List Change → Prop
  | _, [] => True
  | f, c :: l => A f c ∧ Chain A (f.apply c) l

theorem Chain.append {A : Fs → Change → Prop} {f : Fs} {l l' : List Change} (h : Chain A f l)
    (h' : Chain A (f.replay l) l') : Chain A f (l ++ l') := by
  induction l generalizing f with
  | nil => exact h'
  | cons c l ih => exact ⟨h.1, ih h.2 h'⟩

theorem Chain.left {A : Fs → Change → Prop} {f : Fs} {l l' : List Change}
    (h : Chain A f (l ++ l')) : Chain A f l := by
  induction l generalizing f with
  | nil => trivial
  | cons c l ih => exact ⟨h.1, ih h.2⟩

theorem Chain.right {A : Fs → Change → Prop} {f : Fs} {l l' : List Change}
    (h : Chain A f (l ++ l')) : Chain A (f.replay l) l' := by
  induction l generalizing f with
  | nil => exact h
  | cons c l ih => exact ih h.2

theorem Chain.prefix {A : Fs → Change → Prop} {f : Fs} {l pre : List Change}
    (h : Chain A f l) (hp : pre <+: l) : Chain A f pre := by
  obtain ⟨t, rfl⟩ := hp
  exact h.left

/-- Weakening under an invariant. -/
theorem Chain.mono_inv {A A' : Fs → Change → Prop} {J : Fs → Prop} {f : Fs} {l : List Change}
    (h : Chain A f l) (hJ : J f) (step : ∀ f c, J f → A f c → J (f.apply c) ∧ A' f c) :
    Chain A' f l := by
  induction l generalizing f with
  | nil => trivial
  | cons c l ih =>
    obtain ⟨j, a⟩ := step f c hJ h.1
    exact ⟨a, ih h.2 j⟩

theorem Chain.mono {A A' : Fs → Change → Prop} {f : Fs} {l : List Change}
    (h : Chain A f l) (step : ∀ f c, A f c → A' f c) : Chain A' f l :=
  h.mono_inv (J := fun _ => True) trivial fun f c _ a => ⟨trivial, step f c a⟩

/-- An invariant holds at the end. -/
theorem Chain.inv {A : Fs → Change → Prop} {J : Fs → Prop} {f : Fs} {l : List Change}
    (h : Chain A f l) (hJ : J f) (step : ∀ f c, J f → A f c → J (f.apply c)) : J (f.replay l) := by
  induction l generalizing f with
  | nil => exact hJ
  | cons c l ih => exact ih h.2 (step f c hJ h.1)

/-- The changes themselves. -/
theorem Chain.forall {A : Fs → Change → Prop} {B : Change → Prop} {f : Fs} {l : List Change}
    (h : Chain A f l) (step : ∀ f c, A f c → B c) : ∀ c ∈ l, B c := by
  induction l generalizing f with
  | nil => simp
  | cons c l ih =>
    intro x hx
    rcases List.mem_cons.1 hx with rfl | hx
    · exact step _ _ h.1
    · exact ih h.2 x hx

end Fs

/-- What a function does when started in `s`: it makes changes that satisfy `A`, keeps the roots and
the broken generations, and if it returns `a` then `Q a` holds. -/
structure Does {α : Type} (A : Fs → Change → Prop) (m : M α) (s : State)
    (Q : α → State → Prop) : Prop where
  changes : ∃ l, (m s).2.log = s.log ++ l ∧ (m s).2.fs = s.fs.replay l ∧ Fs.Chain A s.fs l
  roots : ∀ p ∈ s.roots, p ∈ (m s).2.roots
  broken : (m s).2.broken = s.broken
  post : ∀ a, (m s).1 = .ok a → Q a (m s).2

/-- `Does` from every state satisfying `P`. -/
def Triple {α : Type} (P : State → Prop) (m : M α) (A : Fs → Change → Prop)
    (Q : α → State → Prop) : Prop := ∀ s, P s → Does A m s Q

namespace Triple
variable {α β : Type} {P P' : State → Prop} {A A' : Fs → Change → Prop}

theorem idle {m : M α} {Q : α → State → Prop} (h : ∀ s, P s → (m s).2.fs = s.fs ∧
    (m s).2.log = s.log ∧ (m s).2.roots = s.roots ∧ (m s).2.broken = s.broken ∧
    ∀ a, (m s).1 = .ok a → Q a (m s).2) : Triple P m A Q := fun s hs =>
  let ⟨h1, h2, h3, h4, h5⟩ := h s hs
  ⟨⟨[], by simp [h2], by simp [h1], trivial⟩, by simp [h3], h4, h5⟩

theorem pure {a : α} {Q : α → State → Prop} (h : ∀ s, P s → Q a s) :
    Triple P (pure a : M α) A Q :=
  idle fun s hs => ⟨rfl, rfl, rfl, rfl, fun _ e => by cases e; exact h s hs⟩

theorem throw {Q : α → State → Prop} : Triple P (RM.throw () : M α) A Q :=
  idle fun _ _ => ⟨rfl, rfl, rfl, rfl, fun _ e => by cases e⟩

theorem panic {Q : α → State → Prop} : Triple P (RM.panic : M α) A Q :=
  idle fun _ _ => ⟨rfl, rfl, rfl, rfl, fun _ e => by cases e⟩

theorem bind {m : M α} {f : α → M β} {Q : α → State → Prop} {R : β → State → Prop}
    (hm : Triple P m A Q) (hf : ∀ a, Triple (Q a) (f a) A R) : Triple P (m >>= f) A R := by
  intro s hs
  obtain ⟨⟨l, hl, hfs, hc⟩, hr, hb, hp⟩ := hm s hs
  rcases hms : m s with ⟨r, s'⟩
  simp only [hms] at hl hfs hr hb hp
  cases r with
  | ok a =>
    have e : (m >>= f) s = f a s' := by simp [hms]
    obtain ⟨⟨l', hl', hfs', hc'⟩, hr', hb', hp'⟩ := hf a s' (hp a rfl)
    refine ⟨⟨l ++ l', ?_, ?_, ?_⟩, ?_, ?_, ?_⟩
    · rw [e, hl', hl, List.append_assoc]
    · rw [e, hfs', hfs, Fs.replay_append]
    · exact hc.append (hfs ▸ hc')
    · intro p hp; rw [e]; exact hr' p (hr p hp)
    · rw [e, hb', hb]
    · rw [e]; exact hp'
  | err x =>
    have e : (m >>= f) s = (.err x, s') := by simp [hms]
    exact ⟨⟨l, by rw [e]; exact hl, by rw [e]; exact hfs, hc⟩, by rw [e]; exact hr,
      by rw [e]; exact hb, by rw [e]; intro a ha; cases ha⟩
  | panic =>
    have e : (m >>= f) s = (.panic, s') := by simp [hms]
    exact ⟨⟨l, by rw [e]; exact hl, by rw [e]; exact hfs, hc⟩, by rw [e]; exact hr,
      by rw [e]; exact hb, by rw [e]; intro a ha; cases ha⟩

theorem weaken {m : M α} {Q Q' : α → State → Prop} (h : Triple P m A Q) (hP : ∀ s, P' s → P s)
    (hA : ∀ f c, A f c → A' f c) (hQ : ∀ a s, Q a s → Q' a s) : Triple P' m A' Q' := by
  intro s hs
  obtain ⟨⟨l, hl, hfs, hc⟩, hr, hb, hp⟩ := h s (hP s hs)
  exact ⟨⟨l, hl, hfs, hc.mono hA⟩, hr, hb, fun a e => hQ a _ (hp a e)⟩

theorem pre {m : M α} {Q : α → State → Prop} (h : Triple P m A Q) (hP : ∀ s, P' s → P s) :
    Triple P' m A Q := h.weaken hP (fun _ _ a => a) fun _ _ q => q

theorem post {m : M α} {Q Q' : α → State → Prop} (h : Triple P m A Q)
    (hQ : ∀ a s, Q a s → Q' a s) : Triple P m A Q' := h.weaken (fun _ p => p) (fun _ _ a => a) hQ

theorem steps {m : M α} {Q : α → State → Prop} (h : Triple P m A Q)
    (hA : ∀ f c, A f c → A' f c) : Triple P m A' Q := h.weaken (fun _ p => p) hA fun _ _ q => q

/-- Facts about the file system that the changes keep can be carried along, and used to weaken the
description of the changes. -/
theorem carry {m : M α} {Q : α → State → Prop} {J : Fs → Prop} (h : Triple P m A Q)
    (step : ∀ f c, J f → A f c → J (f.apply c) ∧ A' f c) :
    Triple (fun s => P s ∧ J s.fs) m A' (fun a s => Q a s ∧ J s.fs) := by
  intro s ⟨hs, hj⟩
  obtain ⟨⟨l, hl, hfs, hc⟩, hr, hb, hp⟩ := h s hs
  refine ⟨⟨l, hl, hfs, hc.mono_inv hj step⟩, hr, hb, fun a e => ⟨hp a e, ?_⟩⟩
  rw [hfs]
  exact hc.inv hj fun f c j a => (step f c j a).1

/-- Roots are kept. -/
theorem carryRoots {m : M α} {Q : α → State → Prop} {R : List Path} (h : Triple P m A Q) :
    Triple (fun s => P s ∧ ∀ p ∈ R, p ∈ s.roots) m A (fun a s => Q a s ∧ ∀ p ∈ R, p ∈ s.roots) := by
  intro s ⟨hs, hR⟩
  obtain ⟨hc, hr, hb, hp⟩ := h s hs
  exact ⟨hc, hr, hb, fun a e => ⟨hp a e, fun p hp' => hr p (hR p hp')⟩⟩

theorem and_pre {m : M α} {Q : α → State → Prop} {X : Prop} (h : X → Triple P m A Q) :
    Triple (fun s => P s ∧ X) m A Q := fun s ⟨hs, x⟩ => h x s hs

theorem attempt {m : M α} {Q : α → State → Prop} (h : Triple P m A Q) :
    Triple P (RM.attempt m) A (fun o s => ∀ a, o = some a → Q a s) := by
  intro s hs
  obtain ⟨⟨l, hl, hfs, hc⟩, hr, hb, hp⟩ := h s hs
  rcases hms : m s with ⟨r, s'⟩
  simp only [hms] at hl hfs hr hb hp
  cases r with
  | ok a =>
    have e : RM.attempt m s = (.ok (some a), s') := by simp [RM.attempt, hms]
    refine ⟨⟨l, by rw [e]; exact hl, by rw [e]; exact hfs, hc⟩, by rw [e]; exact hr,
      by rw [e]; exact hb, ?_⟩
    rw [e]
    intro o ho b hb
    cases ho
    cases hb
    exact hp a rfl
  | err x =>
    have e : RM.attempt m s = (.ok none, s') := by simp [RM.attempt, hms]
    refine ⟨⟨l, by rw [e]; exact hl, by rw [e]; exact hfs, hc⟩, by rw [e]; exact hr,
      by rw [e]; exact hb, ?_⟩
    rw [e]
    intro o ho b hb
    cases ho
    cases hb
  | panic =>
    have e : RM.attempt m s = (.panic, s') := by simp [RM.attempt, hms]
    refine ⟨⟨l, by rw [e]; exact hl, by rw [e]; exact hfs, hc⟩, by rw [e]; exact hr,
      by rw [e]; exact hb, ?_⟩
    rw [e]
    intro o ho
    cases ho

theorem ite {m m' : M α} {Q : α → State → Prop} {c : Prop} [Decidable c]
    (h : c → Triple P m A Q) (h' : ¬ c → Triple P m' A Q) :
    Triple P (if c then m else m') A Q := by
  split
  · next hc => exact h hc
  · next hc => exact h' hc

theorem getFs {Q : Fs → State → Prop} (h : ∀ s, P s → Q s.fs s) : Triple P Tool.getFs A Q :=
  idle fun s hs => ⟨rfl, rfl, rfl, rfl, fun _ e => by cases e; exact h s hs⟩

theorem get {Q : State → State → Prop} (h : ∀ s, P s → Q s s) : Triple P RM.get A Q :=
  idle fun s hs => ⟨rfl, rfl, rfl, rfl, fun _ e => by cases e; exact h s hs⟩

theorem change {c : Change} {Q : Unit → State → Prop} (hA : ∀ s, P s → A s.fs c)
    (h : ∀ s, P s → Q () { s with fs := s.fs.apply c, log := s.log ++ [c] }) :
    Triple P (change c) A Q := fun s hs =>
  ⟨⟨[c], rfl, rfl, hA s hs, trivial⟩, fun _ hp => hp, rfl, fun _ e => by cases e; exact h s hs⟩

theorem require {b : Bool} {Q : Unit → State → Prop} (h : ∀ s, P s → b = true → Q () s) :
    Triple P (require b) A Q := by
  unfold Tool.require
  split
  · next hb => exact pure fun s hs => h s hs hb
  · exact throw

end Triple

/-- A condition on the file system, the roots and the broken generations only. -/
def Ticks (P : State → Prop) : Prop := ∀ s t, P s → P { s with tick := t }

namespace Triple
variable {α β : Type} {P : State → Prop} {A : Fs → Change → Prop}

theorem next (hP : Ticks P) : Triple P Tool.next A (fun _ => P) :=
  idle fun s hs => ⟨rfl, rfl, rfl, rfl, fun _ e => by cases e; exact hP s _ hs⟩

theorem faulty (os : Os) (hP : Ticks P) : Triple P (Tool.faulty os) A (fun _ => P) :=
  bind (next hP) fun _ => pure fun _ hs => hs

theorem guarded (os : Os) (hP : Ticks P) : Triple P (Tool.guarded os) A (fun _ => P) :=
  bind (faulty os hP) fun _ => require fun _ hs _ => hs

end Triple

end Verif.Tool
