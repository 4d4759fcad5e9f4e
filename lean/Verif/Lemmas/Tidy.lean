import Verif.Lemmas.RunFacts
/-!
# Temporary files of a run, one at a time
-/
namespace Verif.Tool
open Verif Verif.Generation

variable {env : Env} {cfg : Config}

/-- The change may put a file at `p`. -/
def Change.Touches (p : Path) : Change → Prop
  | .create q => q = p
  | .write q _ => q = p
  | .rename _ b _ => b = p
  | _ => False

/-- Of all temporary files only `t` is made or written. -/
def TouchesOnly (t : Option Path) (c : Change) : Prop := ∀ p, IsTmp p → c.Touches p → t = some p

/-- All temporary files are moved away in the end. -/
inductive MovedAway : List Change → Prop
  | nil : MovedAway []
  | quiet {l c} (h : MovedAway l) (hc : TouchesOnly none c) : MovedAway (l ++ [c])
  | moved {l w t b d} (h : MovedAway l) (hw : ∀ c ∈ w, TouchesOnly (some t) c) (hb : ¬ IsTmp b) :
      MovedAway (l ++ (w ++ [.rename t b d]))

/-- At most one temporary file is there. -/
def OneOpen (l : List Change) : Prop :=
  ∃ a w t, l = a ++ w ∧ MovedAway a ∧ ∀ c ∈ w, TouchesOnly t c

theorem MovedAway.append {a b : List Change} (ha : MovedAway a) (hb : MovedAway b) : MovedAway (a ++ b) := by
  induction hb with
  | nil => simpa using ha
  | quiet _ hc ih => rw [← List.append_assoc]; exact .quiet ih hc
  | moved _ hw hb ih => rw [← List.append_assoc]; exact .moved ih hw hb

theorem MovedAway.of_quiet {l : List Change} (h : ∀ c ∈ l, TouchesOnly none c) : MovedAway l := by
  induction l with
  | nil => exact .nil
  | cons c l ih =>
    have h1 : MovedAway [c] := .quiet (l := []) .nil (h c (by simp))
    exact h1.append (ih fun c hc => h c (by simp [hc]))

theorem tidy_prefix {a w l : List Change} (h : l <+: a ++ w) :
    l <+: a ∨ ∃ w', l = a ++ w' ∧ w' <+: w := by
  obtain ⟨r, e⟩ := h
  rcases List.append_eq_append_iff.1 e with ⟨x, h1, h2⟩ | ⟨x, h1, h2⟩
  · exact .inl ⟨x, h1.symm⟩
  · exact .inr ⟨x, h1, r, h2.symm⟩

theorem MovedAway.oneOpen {l : List Change} (h : MovedAway l) : OneOpen l := ⟨l, [], none, by simp, h, by simp⟩

theorem OneOpen.append {a b : List Change} (ha : MovedAway a) (hb : OneOpen b) : OneOpen (a ++ b) := by
  obtain ⟨x, w, t, rfl, h1, h2⟩ := hb
  exact ⟨a ++ x, w, t, by simp, ha.append h1, h2⟩

theorem MovedAway.prefix {l : List Change} (h : MovedAway l) : ∀ {l'}, l' <+: l → OneOpen l' := by
  induction h with
  | nil => intro l' h; rw [List.prefix_nil.1 h]; exact MovedAway.nil.oneOpen
  | @quiet l c h hc ih =>
    intro l' h'
    rcases List.prefix_concat_iff.1 h' with e | e
    · rw [e]; exact (MovedAway.quiet h hc).oneOpen
    · exact ih e
  | @moved l w t b d h hw hb ih =>
    intro l' h'
    rw [← List.append_assoc] at h'
    rcases List.prefix_concat_iff.1 h' with e | e
    · rw [e, List.append_assoc]; exact (MovedAway.moved h hw hb).oneOpen
    · rcases tidy_prefix e with e | ⟨w', rfl, hw'⟩
      · exact ih e
      · exact ⟨l, w', some t, rfl, h, fun c hc => hw c (hw'.subset hc)⟩

theorem OneOpen.prefix {l l' : List Change} (h : OneOpen l) (h' : l' <+: l) : OneOpen l' := by
  obtain ⟨a, w, t, rfl, h1, h2⟩ := h
  rcases tidy_prefix h' with e | ⟨w', rfl, hw'⟩
  · exact h1.prefix e
  · exact ⟨a, w', t, rfl, h1, fun c hc => h2 c (hw'.subset hc)⟩

/-! ### The effect of such changes -/

namespace Fs

theorem get_put_ne (fs : Fs) {p q : Path} (n : Node) (h : q ≠ p) : (fs.put p n).get q = fs.get q := by
  by_cases hq : q = []
  · subst hq; simp
  · have : (p == q) = false := by simp; exact fun x => h x.symm
    simp only [get, put, hq, if_false, List.find?_cons, this]
    rw [find_filter_ne h]

theorem get_del_ne (fs : Fs) {p q : Path} (h : q ≠ p) : (fs.del p).get q = fs.get q := by
  by_cases hq : q = []
  · subst hq; simp
  · simp only [get, del, hq, if_false]
    rw [find_filter_ne h]

theorem fileAt_put_dir (fs : Fs) (p : Path) : (fs.put p .dir).fileAt p = none := by
  unfold fileAt
  by_cases hp : p = []
  · subst hp; simp
  · rw [get_put _ _ _ _ hp, if_pos rfl]

theorem fileAt_del (fs : Fs) (p : Path) : (fs.del p).fileAt p = none := by
  unfold fileAt
  by_cases hp : p = []
  · subst hp; simp
  · rw [get_del _ _ _ hp, if_pos rfl]

theorem fileAt_congr {fs fs' : Fs} {q : Path} (h : fs.get q = fs'.get q) : fs.fileAt q = fs'.fileAt q := by
  unfold fileAt; rw [h]

/-- What is not touched stays, or goes away. -/
theorem fileAt_apply {fs : Fs} {c : Change} {q : Path} (h : ¬ c.Touches q) :
    (fs.apply c).fileAt q = fs.fileAt q ∨ (fs.apply c).fileAt q = none := by
  cases c with
  | mkdir p =>
    by_cases e : q = p
    · subst e; exact .inr (fileAt_put_dir _ _)
    · exact .inl (fileAt_congr (get_put_ne _ _ e))
  | create p => exact .inl (fileAt_congr (get_put_ne _ _ fun e => h e.symm))
  | write p d => exact .inl (fileAt_congr (get_put_ne _ _ fun e => h e.symm))
  | fsync p => exact .inl rfl
  | rename a b d =>
    have hb : q ≠ b := fun e => h e.symm
    have e1 : (fs.apply (.rename a b d)).get q = (fs.del a).get q := by
      simp only [apply]
      split <;> simp [get_put_ne _ _ hb]
    by_cases e : q = a
    · subst e
      exact .inr ((fileAt_congr e1).trans (fileAt_del _ _))
    · exact .inl (fileAt_congr (e1.trans (get_del_ne _ e)))
  | chmod p m => exact .inl rfl
  | syncfs _ => exact .inl rfl
  | unlink p =>
    by_cases e : q = p
    · subst e; exact .inr (fileAt_del _ _)
    · exact .inl (fileAt_congr (get_del_ne _ e))
  | rmdir p =>
    by_cases e : q = p
    · subst e; exact .inr (fileAt_del _ _)
    · exact .inl (fileAt_congr (get_del_ne _ e))
  | collecting => exact .inl rfl

theorem fileAt_replay {fs : Fs} {q : Path} : ∀ {l : List Change}, (∀ c ∈ l, ¬ c.Touches q) →
    (fs.replay l).fileAt q = fs.fileAt q ∨ (fs.replay l).fileAt q = none := by
  intro l
  induction l generalizing fs with
  | nil => intro _; exact .inl rfl
  | cons c l ih =>
    intro h
    show ((fs.apply c).replay l).fileAt q = _ ∨ ((fs.apply c).replay l).fileAt q = _
    rcases ih (fs := fs.apply c) fun c hc => h c (by simp [hc]) with e | e
    · rcases fileAt_apply (fs := fs) (h c (by simp)) with e' | e'
      · exact .inl (e.trans e')
      · exact .inr (e.trans e')
    · exact .inr e

theorem replay_append' (fs : Fs) (a b : List Change) : fs.replay (a ++ b) = (fs.replay a).replay b :=
  List.foldl_append

/-- A file that is moved is no longer there. -/
theorem fileAt_moved {fs : Fs} {a b : Path} {d : Bytes} (h : a ≠ b) :
    (fs.apply (.rename a b d)).fileAt a = none := by
  have e1 : (fs.apply (.rename a b d)).get a = (fs.del a).get a := by
    simp only [apply]
    split <;> simp [get_put_ne _ _ h]
  exact (fileAt_congr e1).trans (fileAt_del _ _)

end Fs

theorem TouchesOnly.other {t : Option Path} {c : Change} (h : TouchesOnly t c) {q : Path} (hq : IsTmp q)
    (ht : t ≠ some q) : ¬ c.Touches q := fun h' => ht (h q hq h')

theorem MovedAway.effect {l : List Change} (h : MovedAway l) (fs : Fs) {q : Path} (hq : IsTmp q) :
    (fs.replay l).fileAt q = fs.fileAt q ∨ (fs.replay l).fileAt q = none := by
  induction h with
  | nil => exact .inl rfl
  | @quiet l c h hc ih =>
    rw [Fs.replay_append']
    rcases Fs.fileAt_apply (fs := fs.replay l) (hc.other hq (by simp)) with e | e
    · rcases ih with e' | e'
      · exact .inl (e.trans e')
      · exact .inr (e.trans e')
    · exact .inr e
  | @moved l w t b d h hw hb ih =>
    rw [Fs.replay_append', Fs.replay_append']
    have hqb : q ≠ b := fun e => hb (e ▸ hq)
    by_cases e : q = t
    · subst e
      exact .inr (Fs.fileAt_moved hqb)
    · have h1 : ∀ c ∈ w, ¬ c.Touches q := fun c hc => (hw c hc).other hq (by simpa using Ne.symm e)
      have h2 : ¬ (Change.rename t b d).Touches q := fun h => hqb h.symm
      rcases Fs.fileAt_apply (fs := (fs.replay l).replay w) h2 with e | e
      · rcases Fs.fileAt_replay (fs := fs.replay l) h1 with e' | e'
        · rcases ih with e'' | e''
          · exact .inl (e.trans (e'.trans e''))
          · exact .inr (e.trans (e'.trans e''))
        · exact .inr (e.trans e')
      · exact .inr e

theorem OneOpen.effect {l : List Change} (h : OneOpen l) (fs : Fs) : ∃ t : Option Path,
    ∀ q, IsTmp q → t ≠ some q →
      (fs.replay l).fileAt q = fs.fileAt q ∨ (fs.replay l).fileAt q = none := by
  obtain ⟨a, w, t, rfl, h1, h2⟩ := h
  refine ⟨t, fun q hq ht => ?_⟩
  rw [Fs.replay_append']
  rcases Fs.fileAt_replay (fs := fs.replay a) fun c hc => (h2 c hc).other hq ht with e | e
  · rcases h1.effect fs hq with e' | e'
    · exact .inl (e.trans e')
    · exact .inr (e.trans e')
  · exact .inr e

/-! ### Functions whose changes have a property -/

/-- All changes `m` makes satisfy `P`. -/
def Logs {α : Type} (P : Change → Prop) (m : M α) : Prop :=
  ∀ s, ∃ l, (m s).2.log = s.log ++ l ∧ ∀ c ∈ l, P c

namespace Logs
variable {α β : Type} {P : Change → Prop}

theorem same {m : M α} (h : ∀ s, (m s).2.log = s.log) : Logs P m :=
  fun s => ⟨[], by rw [h s, List.append_nil], by simp⟩
theorem pure (a : α) : Logs P (Pure.pure a : M α) := same fun _ => rfl
theorem throw : Logs P (RM.throw () : M α) := same fun _ => rfl
theorem panic : Logs P (RM.panic : M α) := same fun _ => rfl
theorem next : Logs P Tool.next := same fun _ => rfl
theorem change {c : Change} (h : P c) : Logs P (Tool.change c) := fun _ =>
  ⟨[c], rfl, fun _ e => List.mem_singleton.1 e ▸ h⟩
theorem extendRoots (l : List Path) : Logs P (Tool.extendRoots l) := same fun _ => rfl
theorem getFs : Logs P Tool.getFs := same fun _ => rfl
theorem get : Logs P (RM.get : M State) := same fun _ => rfl

theorem bind {m : M α} {f : α → M β} (h : Logs P m) (hf : ∀ a, Logs P (f a)) :
    Logs P (m >>= f) := by
  intro s
  rw [RM.bind_run]
  have := h s
  rcases hm : m s with ⟨r, s'⟩
  rw [hm] at this
  cases r with
  | ok a =>
    obtain ⟨l, h2, h3⟩ := this
    obtain ⟨l', g2, g3⟩ := hf a s'
    refine ⟨l ++ l', ?_, ?_⟩
    · rw [← List.append_assoc, ← h2]
      exact g2
    · intro c hc
      rcases List.mem_append.1 hc with hc | hc
      · exact h3 c hc
      · exact g3 c hc
  | err e => exact this
  | panic => exact this

theorem attempt {m : M α} (h : Logs P m) : Logs P (RM.attempt m) := by
  intro s
  unfold RM.attempt
  have := h s
  rcases hm : m s with ⟨r, s'⟩
  rw [hm] at this
  cases r <;> exact this

theorem ite {c : Prop} [Decidable c] {m m' : M α} (h : Logs P m) (h' : Logs P m') :
    Logs P (if c then m else m') := by split <;> assumption

theorem require (b : Bool) : Logs P (Tool.require b) := by
  unfold Tool.require; exact .ite (.pure _) .throw
theorem faulty (os : Os) : Logs P (Tool.faulty os) := .bind .next fun _ => .pure _
theorem guarded (os : Os) : Logs P (Tool.guarded os) := .bind (.faulty os) fun _ => .require _
theorem ofOption (o : Option α) : Logs P (Tool.ofOption o) := by
  unfold Tool.ofOption; split
  · exact .pure _
  · exact .throw
theorem expectSome (o : Option α) : Logs P (Tool.expectSome o) := by
  unfold Tool.expectSome; split
  · exact .pure _
  · exact .panic
theorem ofRes (o : Res Unit α) : Logs P (Tool.ofRes o) := by
  unfold Tool.ofRes; split
  · exact .pure _
  · exact .throw
  · exact .panic

theorem createFile (os : Os) {p : Path} (h : P (.create p)) : Logs P (Tool.createFile os p) :=
  .bind (.guarded _) fun _ => .bind .getFs fun _ => .bind (.require _) fun _ => .change h
theorem writePartials {p : Path} (h : ∀ d, P (.write p d)) (l : List Bytes) :
    Logs P (Tool.writePartials p l) := by
  induction l with
  | nil => exact .pure _
  | cons d l ih => exact .bind (.change (h d)) fun _ => ih
theorem writeFile (os : Os) {p : Path} (h : ∀ d, P (.write p d)) (d : Bytes) :
    Logs P (Tool.writeFile os p d) :=
  .bind .next fun _ => .bind (.writePartials h _) fun _ => .bind (.guarded _) fun _ => .change (h d)
theorem fsync (os : Os) {p : Path} (h : P (.fsync p)) : Logs P (Tool.fsync os p) :=
  .bind (.guarded _) fun _ => .change h
theorem readSrc (env : Env) (src : Src) : Logs P (Tool.readSrc env src) :=
  .bind (.guarded _) fun _ => .ofOption _
theorem writeOut (env : Env) {p : Path} (h : P (.create p)) (h' : ∀ d, P (.write p d)) (d : Bytes) :
    Logs P (Tool.writeOut env p d) :=
  .bind (.createFile _ h) fun _ => .writeFile _ h' _
theorem failedOutput (env : Env) {p : Path} (h : P (.create p)) (h' : ∀ d, P (.write p d)) :
    Logs P (Tool.failedOutput env p) :=
  .bind (.createFile _ h) fun _ => .bind .next fun _ => .writePartials h' _
theorem signAndCopy (env : Env) (src : Src) {to : Path} (h : P (.create to)) (h' : ∀ d, P (.write to d))
    (hm : ∀ m, P (.chmod to m)) (s : Signer) :
    Logs P (s.signAndCopy env src to) := by
  cases s with
  | empty =>
    refine .bind (.readSrc _ _) fun _ => .bind (.createFile _ h) fun _ => .bind (.guarded _) fun _ => ?_
    exact .bind (.change (hm _)) fun _ => .writeFile _ h' _
  | «local» a b =>
    refine .bind (.readSrc _ _) fun _ => .bind .next fun _ => ?_
    split
    · exact .writeOut _ h h' _
    · exact .bind (.failedOutput _ h h') fun _ => .throw

end Logs


/-! ### Replacing a file -/

/-- `m` works on the temporary file `t` and at last moves it to `to`. -/
def Ends {α : Type} (t to : Path) (m : M α) : Prop :=
  ∀ s, (∃ w, (m s).2.log = s.log ++ w ∧ (∀ c ∈ w, TouchesOnly (some t) c) ∧ ∀ a, (m s).1 ≠ .ok a) ∨
    ∃ w d, (m s).2.log = s.log ++ (w ++ [.rename t to d]) ∧ ∀ c ∈ w, TouchesOnly (some t) c

theorem Ends.bind {α β : Type} {t to : Path} {m : M α} {f : α → M β}
    (h : Logs (TouchesOnly (some t)) m) (hf : ∀ a, Ends t to (f a)) : Ends t to (m >>= f) := by
  intro s
  rw [RM.bind_run]
  have := h s
  rcases hm : m s with ⟨r, s'⟩
  rw [hm] at this
  obtain ⟨l, h2, h3⟩ := this
  cases r with
  | ok a =>
    rcases hf a s' with ⟨w, g1, g2, g3⟩ | ⟨w, d, g1, g2⟩
    · refine .inl ⟨l ++ w, ?_, ?_, g3⟩
      · rw [← List.append_assoc, ← h2]; exact g1
      · intro c hc
        rcases List.mem_append.1 hc with hc | hc
        · exact h3 c hc
        · exact g2 c hc
    · refine .inr ⟨l ++ w, d, ?_, ?_⟩
      · rw [List.append_assoc, ← List.append_assoc s.log, ← h2]; exact g1
      · intro c hc
        rcases List.mem_append.1 hc with hc | hc
        · exact h3 c hc
        · exact g2 c hc
  | err e => exact .inl ⟨l, h2, h3, by simp⟩
  | panic => exact .inl ⟨l, h2, h3, by simp⟩

theorem Ends.rename (os : Os) {t to : Path} (h : t ≠ to) : Ends t to (Tool.rename os t to) := by
  have last : ∀ d, Ends t to (Tool.change (.rename t to d)) := fun d s => .inr ⟨[], d, rfl, by simp⟩
  refine .bind (.guarded _) fun _ => .bind .getFs fun fs => ?_
  split
  · exact fun s => .inl ⟨[], (List.append_nil _).symm, by simp, by intro a h; cases h⟩
  · refine .bind (.require _) fun _ => ?_
    rw [if_neg h]
    exact last _

/-- At most one temporary file is there at any moment, and none is left if `m` succeeds. -/
def Tidy {α : Type} (m : M α) : Prop :=
  ∀ s, ∃ l, (m s).2.log = s.log ++ l ∧ OneOpen l ∧ ∀ a, (m s).1 = .ok a → MovedAway l

theorem touchesOnly_create (t : Path) : TouchesOnly (some t) (.create t) := fun _ _ h => congrArg some h
theorem touchesOnly_write (t : Path) (d : Bytes) : TouchesOnly (some t) (.write t d) :=
  fun _ _ h => congrArg some h

/-- A change that makes no file. -/
theorem touchesOnly_of {t : Option Path} {c : Change} (h : ∀ p, ¬ c.Touches p) : TouchesOnly t c :=
  fun p _ h' => absurd h' (h p)

namespace Tidy
variable {α β : Type}

theorem of_logs {m : M α} (h : Logs (TouchesOnly none) m) : Tidy m := by
  intro s
  obtain ⟨l, h1, h2⟩ := h s
  have := MovedAway.of_quiet h2
  exact ⟨l, h1, this.oneOpen, fun _ _ => this⟩

theorem bind {m : M α} {f : α → M β} (h : Tidy m) (hf : ∀ a, Tidy (f a)) : Tidy (m >>= f) := by
  intro s
  rw [RM.bind_run]
  have := h s
  rcases hm : m s with ⟨r, s'⟩
  rw [hm] at this
  obtain ⟨l, h1, h2, h3⟩ := this
  cases r with
  | ok a =>
    obtain ⟨l', g1, g2, g3⟩ := hf a s'
    refine ⟨l ++ l', ?_, OneOpen.append (h3 a rfl) g2, fun b hb => (h3 a rfl).append (g3 b hb)⟩
    rw [← List.append_assoc, ← h1]
    exact g1
  | err e => exact ⟨l, h1, h2, by simp⟩
  | panic => exact ⟨l, h1, h2, by simp⟩

theorem of_ends {m : M α} {t to : Path} (h : Ends t to m) (hto : ¬ IsTmp to) : Tidy m := by
  intro s
  rcases h s with ⟨w, h1, h2, h3⟩ | ⟨w, d, h1, h2⟩
  · exact ⟨w, h1, ⟨[], w, some t, rfl, .nil, h2⟩, fun a ha => absurd ha (h3 a)⟩
  · have : MovedAway (w ++ [.rename t to d]) := .moved (l := []) .nil h2 hto
    exact ⟨_, h1, this.oneOpen, fun _ _ => this⟩

theorem ite {c : Prop} [Decidable c] {m m' : M α} (h : Tidy m) (h' : Tidy m') :
    Tidy (if c then m else m') := by split <;> assumption

theorem pure (a : α) : Tidy (Pure.pure a : M α) := of_logs (.pure _)
theorem throw : Tidy (RM.throw () : M α) := of_logs .throw
theorem panic : Tidy (RM.panic : M α) := of_logs .panic
theorem next : Tidy Tool.next := of_logs .next
theorem extendRoots (l : List Path) : Tidy (Tool.extendRoots l) := of_logs (.extendRoots l)
theorem getFs : Tidy Tool.getFs := of_logs .getFs
theorem get : Tidy (RM.get : M State) := of_logs .get
theorem guarded (os : Os) : Tidy (Tool.guarded os) := of_logs (.guarded os)
theorem faulty (os : Os) : Tidy (Tool.faulty os) := of_logs (.faulty os)
theorem require (b : Bool) : Tidy (Tool.require b) := of_logs (.require b)
theorem ofOption (o : Option α) : Tidy (Tool.ofOption o) := of_logs (.ofOption o)
theorem ofRes (o : Res Unit α) : Tidy (Tool.ofRes o) := of_logs (.ofRes o)
theorem expectSome (o : Option α) : Tidy (Tool.expectSome o) := of_logs (.expectSome o)
theorem change {c : Change} (h : ∀ p, ¬ c.Touches p) : Tidy (Tool.change c) :=
  of_logs (.change (touchesOnly_of h))
theorem pathExists (os : Os) (p : Path) : Tidy (Tool.pathExists os p) :=
  .bind (.faulty _) fun _ => .bind .getFs fun _ => .pure _
theorem readFs (os : Os) (p : Path) : Tidy (Tool.readFs os p) := by
  refine .bind (.guarded _) fun _ => .bind .getFs fun _ => ?_
  split
  · exact .pure _
  · exact .throw
theorem readDir (os : Os) (p : Path) : Tidy (Tool.readDir os p) :=
  .bind (.guarded _) fun _ => .bind .next fun _ => .bind .getFs fun _ => .bind (.require _) fun _ => .pure _
theorem readSrc (env : Env) (src : Src) : Tidy (Tool.readSrc env src) := of_logs (.readSrc env src)
theorem hashSrc (env : Env) (src : Src) : Tidy (Tool.hashSrc env src) :=
  .bind (.readSrc _ _) fun _ => .pure _
theorem hashFs (env : Env) (p : Path) : Tidy (Tool.hashFs env p) :=
  .bind (.readFs _ _) fun _ => .pure _

theorem mkdirMissing (os : Os) {P : Change → Prop} (h : ∀ p, P (.mkdir p)) :
    (l : List Path) → Logs P (Tool.mkdirMissing os l)
  | [] => .pure _
  | p :: l => by
    unfold Tool.mkdirMissing Tool.mkdir
    refine .bind .getFs fun _ => .ite (mkdirMissing os h l) (.bind ?_ fun _ => mkdirMissing os h l)
    exact .bind (.guarded _) fun _ => .bind .getFs fun _ => .bind (.require _) fun _ => .change (h p)

theorem ensureParentDir (os : Os) {P : Change → Prop} (h : ∀ p, P (.mkdir p)) (p : Path) :
    Logs P (Tool.ensureParentDir os p) := by
  unfold Tool.ensureParentDir Tool.createDirAll
  split
  · exact .bind (.attempt (mkdirMissing _ h _)) fun _ => .pure _
  · exact .pure _

theorem mkdir_quiet {t : Option Path} (p : Path) : TouchesOnly t (.mkdir p) := touchesOnly_of fun _ h => h

theorem setPermissionBits (os : Os) (p : Path) (m : Nat) : Tidy (Tool.setPermissionBits os p m) :=
  .bind (.guarded _) fun _ => .bind .getFs fun _ => .bind (.require _) fun _ => .bind (.guarded _) fun _ =>
    .change fun _ h => h
theorem syncFs (os : Os) (p : Path) : Tidy (Tool.syncFs os p) :=
  .bind (.guarded _) fun _ => .bind .getFs fun _ => .bind (.require _) fun _ => .bind (.guarded _) fun _ =>
    .change fun _ h => h

/-- A file that is replaced by way of a temporary one. -/
structure Target (to : Path) : Prop where
  not_tmp : ¬ IsTmp to
  ne : tmpOf to ≠ to

theorem installSigned (env : Env) (s : Signer) (src : Src) {to : Path} (h : Target to) :
    Tidy (Tool.installSigned env s src to) := by
  refine of_ends (t := tmpOf to) (to := to) ?_ h.not_tmp
  refine .bind (ensureParentDir _ mkdir_quiet _) fun _ => ?_
  refine .bind (.signAndCopy _ _ (touchesOnly_create _) (touchesOnly_write _)
    (fun _ => touchesOnly_of fun _ h => h) _) fun _ => ?_
  exact .rename _ h.ne

theorem atomicCopy (env : Env) (src : Src) {to : Path} (h : Target to) :
    Tidy (Tool.atomicCopy env src to) := by
  refine of_ends (t := tmpOf to) (to := to) ?_ h.not_tmp
  refine .bind (.readSrc _ _) fun _ => .bind (.createFile _ (touchesOnly_create _)) fun _ => ?_
  refine .bind (.writeFile _ (touchesOnly_write _) _) fun _ => ?_
  refine .bind (.fsync _ (touchesOnly_of fun _ h => h)) fun _ => ?_
  exact .rename _ h.ne

theorem forceInstall (env : Env) (src : Src) {to : Path} (h : Target to) :
    Tidy (Tool.forceInstall env src to) :=
  .bind (of_logs (ensureParentDir _ mkdir_quiet _)) fun _ => .bind (.atomicCopy _ _ h) fun _ =>
    .setPermissionBits _ _ _

theorem install (env : Env) (src : Src) {to : Path} (h : Target to) : Tidy (Tool.install env src to) := by
  unfold Tool.install Tool.needsInstall
  refine .bind (.bind (.pathExists _ _) fun _ => .ite (.pure _) ?_) fun _ =>
    .ite (.forceInstall _ _ h) (.pure _)
  exact .bind (.hashSrc _ _) fun _ => .bind (.hashFs _ _) fun _ => .pure _

/-- A measurement is written in place. -/
theorem lockPe (env : Env) (src : Src) {p : Path} (h : ¬ IsTmp p) : Tidy (Tool.lockPe env src p) := by
  have h1 : TouchesOnly none (.create p) := fun q hq e => absurd (e ▸ hq) h
  have h2 : ∀ d, TouchesOnly none (.write p d) := fun d q hq e => absurd (e ▸ hq) h
  unfold Tool.lockPe
  refine .bind (.readSrc _ _) fun _ => .bind (of_logs (ensureParentDir _ mkdir_quiet _)) fun _ =>
    .bind .next fun _ => ?_
  split
  · exact of_logs (.writeOut _ h1 h2 _)
  · exact .bind (of_logs (.failedOutput _ h1 h2)) fun _ => .throw

theorem renameTo (os : Os) (a : Path) {b : Path} (h : ¬ IsTmp b) : Tidy (Tool.rename os a b) := by
  refine .bind (.guarded _) fun _ => .bind .getFs fun _ => ?_
  split
  · exact .throw
  · refine .bind (.require _) fun _ => .ite (.pure _) (of_logs (.change ?_))
    exact fun q hq e => absurd (e ▸ hq) h

theorem writeSecureFile (env : Env) (d : Bytes) : Tidy (Tool.writeSecureFile env d) := by
  unfold Tool.writeSecureFile
  exact .bind (.guarded _) fun _ => .pure _
theorem fileSize (env : Env) (d : Bytes) : Tidy (Tool.fileSize env d) := by
  unfold Tool.fileSize
  exact .bind (.guarded _) fun _ => .pure _
theorem lanzabooteImage (env : Env) (p : StubParameters) : Tidy (Tool.lanzabooteImage env p) := by
  unfold Tool.lanzabooteImage Tool.wrapInPe
  repeat' (first | exact .writeSecureFile _ _ | exact .hashSrc _ _ | exact .readSrc _ _ | exact .ofOption _ |
    exact .ofRes _ | exact .fileSize _ _ | exact .guarded _ | exact .next | refine .bind ?_ fun _ => ?_)
theorem getPublicKey (env : Env) (s : Signer) : Tidy (s.getPublicKey env) := by
  cases s with
  | empty => exact .pure _
  | «local» a b => exact .readSrc _ _
theorem verifyPath (env : Env) (p : Path) (s : Signer) : Tidy (s.verifyPath env p) := by
  cases s with
  | empty => exact .pure _
  | «local» a b =>
    refine .bind (.guarded _) fun _ => .bind (.faulty _) fun _ => .bind .getFs fun _ => ?_
    split <;> exact .pure _

/-! ### Attempts only read -/

theorem readInstalledGeneration (env : Env) (cfg : Config) (p : Str) :
    Logs (TouchesOnly none) (Tool.readInstalledGeneration env cfg p) := by
  have readDir : ∀ d, Logs (TouchesOnly none) (Tool.readDir env.os d) := fun d =>
    .bind (.guarded _) fun _ => .bind .next fun _ => .bind .getFs fun _ => .bind (.require _) fun _ => .pure _
  have exists' : ∀ d, Logs (TouchesOnly none) (Tool.pathExists env.os d) := fun d =>
    .bind (.faulty _) fun _ => .bind .getFs fun _ => .pure _
  have readFs : ∀ d, Logs (TouchesOnly none) (Tool.readFs env.os d) := fun d => by
    refine .bind (.guarded _) fun _ => .bind .getFs fun _ => ?_
    split
    · exact .pure _
    · exact .throw
  unfold Tool.readInstalledGeneration Tool.sectionPath
  repeat' (first | exact readDir _ | exact .ofOption _ | exact .ofRes _ | exact readFs _ |
    exact exists' _ | exact .throw | exact .pure _ | refine .bind ?_ fun _ => ?_ | split)

theorem registerInstalledGeneration (env : Env) (cfg : Config) (g : Gen) :
    Tidy (Tool.registerInstalledGeneration env cfg g) := by
  unfold Tool.registerInstalledGeneration Tool.registerMeasurement
  refine .bind (.getPublicKey _ _) fun _ => .bind (of_logs (.attempt (readInstalledGeneration _ _ _))) fun _ => ?_
  repeat' (first | exact .extendRoots _ | exact .pathExists _ _ | exact .pure _ |
    refine .bind ?_ fun _ => ?_ | split)

theorem newerSystemdBoot (env : Env) (src to : Path) : Tidy (Tool.newerSystemdBoot env src to) := by
  unfold Tool.newerSystemdBoot Tool.installedVersion
  refine .bind (.pathExists _ _) fun _ => .ite (.pure _) (.bind (.readSrc _ _) fun _ =>
    .bind (.ofRes _) fun _ => .bind (of_logs (.attempt (.bind ?_ fun _ => .ofRes _))) fun _ => ?_)
  · refine .bind (.guarded _) fun _ => .bind .getFs fun _ => ?_
    split
    · exact .pure _
    · exact .throw
  · split <;> exact .pure _

/-! ### The targets -/

theorem caTarget {l : Str} (hl : '/' ∉ l) (cfg : Config) (h : Bytes) : Target (caFile cfg.esp l h) :=
  ⟨caFile_not_isTmp _ _ _, caFile_tmp_ne _ hl _⟩

theorem installNixosCa (env : Env) (cfg : Config) (src : Src) {l : Str} (hl : '/' ∉ l) :
    Tidy (Tool.installNixosCa env cfg src l) := by
  refine .bind (.hashSrc _ _) fun h => .bind (.extendRoots _) fun _ => .bind (.install _ _ ?_) fun _ => .pure _
  rw [kernel_target cfg hl]
  exact caTarget hl cfg h

theorem measurement_not_tmp (p : Path) (g : Gen) : ¬ IsTmp (measurementFile p g) := by
  have : measurementFile p g = (p ++ [lit "635-lanzaboote.pcrlock.d"]) ++
      [g.versionTag ++ lit ".pcrlock"] := by simp [measurementFile]
  rw [this]
  exact not_isTmp_snoc (not_isTmpName_append (by decide) (by decide))

theorem appendInitrdSecrets (env : Env) (script : Path) (d : Bytes) :
    Tidy (Tool.appendInitrdSecrets env script d) :=
  .bind (.guarded _) fun _ => .bind .next fun _ => .ofOption _
theorem initrdLocation (env : Env) (b : BootSpec) : Tidy (initrdLocation env b) := by
  unfold Tool.initrdLocation
  split
  · exact .bind (.ofOption _) fun _ => .bind (.readSrc _ _) fun _ =>
      .bind (.writeSecureFile _ _) fun _ => .bind (.appendInitrdSecrets _ _ _) fun _ => .pure _
  · exact .bind (.expectSome _) fun _ => .pure _

theorem stubParameters (cfg : Config) (g : Gen) (src : Src) (k i : Path) :
    Tidy (stubParameters cfg g src k i) := by
  unfold Tool.stubParameters
  exact .bind (.ofOption _) fun _ => .bind (.ofOption _) fun _ => .pure _

theorem measureImage (env : Env) (cfg : Config) {g : Gen} (hg : SafeGen g) (image : Bytes) :
    Tidy (Tool.measureImage env cfg g image) := by
  unfold Tool.measureImage Config.pcrlock
  cases hp : cfg.pcrlockDirectory with
  | none => exact .pure _
  | some p =>
    dsimp only [Option.map_some]
    rw [measurement_target p hg]
    exact .bind (.lockPe _ _ (measurement_not_tmp _ _)) fun _ => .extendRoots _

theorem ofOption_bind {o : Option α} {f : α → M β} (h : ∀ a, o = some a → Tidy (f a)) :
    Tidy (Tool.ofOption o >>= f) := by
  cases o with
  | none => exact fun s => Tidy.throw (α := β) s
  | some a => exact h a rfl

theorem installNewGeneration (env : Env) (cfg : Config) {g : Gen} (hg : SafeGen g) :
    Tidy (Tool.installNewGeneration env cfg g) := by
  unfold Tool.installNewGeneration
  refine .bind (.guarded _) fun _ => .ofOption_bind fun v hv => ?_
  refine .bind (.installNixosCa _ _ _ (kernelVersion_label hg hv _ (by decide))) fun _ => ?_
  refine .bind (.initrdLocation _ _) fun _ => ?_
  refine .bind (.installNixosCa _ _ _ (kernelVersion_label hg hv _ (by decide))) fun _ => ?_
  refine .bind (.stubParameters _ _ _ _ _) fun _ => .bind (.lanzabooteImage _ _) fun _ => ?_
  refine .bind (.measureImage _ _ hg _) fun _ => .bind (.getPublicKey _ _) fun key => ?_
  rw [stub_target hg]
  refine .bind (.extendRoots _) fun _ => .installSigned _ _ _ ⟨?_, entryFile_tmp_ne _ hg _ _⟩
  rw [entryFile_snoc]
  exact not_isTmp_snoc (stubName_not_tmp _ _ _ _)

theorem installGeneration (env : Env) (cfg : Config) {g : Gen} (hg : SafeGen g) :
    Tidy (Tool.installGeneration env cfg g) :=
  .bind (.registerInstalledGeneration _ _ _) fun _ => .ite (.pure _) (.installNewGeneration _ _ hg)

theorem installAll (env : Env) (cfg : Config) :
    (l : List Gen) → (∀ g ∈ l, SafeGen g) → Tidy (Tool.installAll env cfg l)
  | [], _ => .pure _
  | _ :: l, h => .bind (.installGeneration _ _ (h _ (by simp))) fun _ =>
      installAll env cfg l fun g hg => h g (by simp [hg])

theorem installGenerationsFromLinks (hs : SafeInput env cfg) {links : List Link}
    (hl : cfg.considered env = some links) : Tidy (Tool.installGenerationsFromLinks env cfg links) := by
  intro s
  obtain ⟨gs, t, b, he, h, -⟩ := readGenerations_spec env links s
  have hc : ∀ g ∈ gs.flatMap (fun g : Gen × List Gen => g.1 :: g.2), SafeGen g := by
    intro g hg
    obtain ⟨x, hx, hgx⟩ := List.mem_flatMap.1 hg
    obtain ⟨link, hlink, j, hj, rfl⟩ := h x hx
    exact hs g ⟨links, link, j, hl, hlink, hj, hgx⟩
  unfold Tool.installGenerationsFromLinks
  rw [RM.bind_run, he]
  exact Tidy.ite .throw (.bind (.installAll env cfg _ hc) fun _ => .syncFs _ _)
    { s with tick := t, broken := b }

theorem orM {a b : M Bool} (h : Tidy a) (h' : Tidy b) : Tidy (Tool.orM a b) :=
  .bind h fun _ => .ite (.pure _) h'
theorem andM {a b : M Bool} (h : Tidy a) (h' : Tidy b) : Tidy (Tool.andM a b) :=
  .bind h fun _ => .ite h' (.pure _)

theorem replaceSystemdBoot (env : Env) (cfg : Config) : Tidy (Tool.replaceSystemdBoot env cfg) := by
  unfold Tool.replaceSystemdBoot
  rw [fallback_target, systemd_target]
  refine .bind ?_ fun _ => .bind (.installSigned _ _ _ ⟨fallback_not_tmp _, fallbackFile_tmp_ne _⟩) fun _ =>
    .bind (.installSigned _ _ _ ⟨systemd_not_tmp _, systemdFile_tmp_ne _⟩) fun _ => ?_
  · unfold Tool.measureNext Config.pcrlock
    cases hp : cfg.pcrlockDirectory with
    | none => exact .pure _
    | some p =>
      dsimp only [Option.map_some]
      rw [next_target]
      exact .lockPe _ _ (isMeasurement_not_isTmp ⟨p, hp, .inr (.inl rfl)⟩)
  · unfold Tool.measurementDone Config.pcrlock
    cases hp : cfg.pcrlockDirectory with
    | none => exact .pure _
    | some p =>
      dsimp only [Option.map_some]
      rw [next_target, current_target]
      exact .renameTo _ _ (isMeasurement_not_isTmp ⟨p, hp, .inr (.inr rfl)⟩)

theorem installSystemdBoot (env : Env) (cfg : Config) : Tidy (Tool.installSystemdBoot env cfg) := by
  unfold Tool.installSystemdBoot
  rw [fallback_target, systemd_target, conf_target]
  have conf := Tidy.install env (.store cfg.loaderConfig) ⟨conf_not_tmp cfg, confFile_tmp_ne cfg⟩
  refine .bind (.orM (.newerSystemdBoot _ _ _) (.newerSystemdBoot _ _ _)) fun _ =>
    .bind (.andM (.verifyPath _ _ _) (.verifyPath _ _ _)) fun _ => .bind ?_ fun _ =>
    .ite (.bind (.replaceSystemdBoot _ _) fun _ => conf) conf
  unfold Tool.measurementExists
  split
  · exact .pure _
  · exact .pathExists _ _

/-! ### Removing makes no file -/

theorem removeFile (os : Os) (p : Path) : Logs (TouchesOnly none) (Tool.removeFile os p) := by
  refine .bind (.guarded _) fun _ => .bind .getFs fun _ => ?_
  split
  · exact .throw
  · exact .change (touchesOnly_of fun _ h => h)
theorem removeDir (os : Os) (p : Path) : Logs (TouchesOnly none) (Tool.removeDir os p) :=
  .bind (.guarded _) fun _ => .bind .getFs fun _ => .bind (.require _) fun _ =>
    .change (touchesOnly_of fun _ h => h)
theorem removeEach (os : Os) : (l : List Path) → Logs (TouchesOnly none) (Tool.removeEach os l)
  | [] => .pure _
  | _ :: l => .bind (.bind .getFs fun _ => .ite (removeDir _ _) (removeFile _ _)) fun _ => removeEach os l
theorem removeDirAll (os : Os) (p : Path) : Logs (TouchesOnly none) (Tool.removeDirAll os p) :=
  .bind .next fun _ => .bind .getFs fun _ => removeEach _ _
theorem collectEach (os : Os) : (l : List Path) → Logs (TouchesOnly none) (Tool.collectEach os l)
  | [] => .pure _
  | _ :: l => .bind (.bind .getFs fun _ => .ite (removeDirAll _ _)
      (.bind (.attempt (removeFile _ _)) fun _ => .pure _)) fun _ => collectEach os l
theorem collectGarbageWithFilter (os : Os) (d : Path) (f : Path → Bool) :
    Tidy (Tool.collectGarbageWithFilter os d f) :=
  of_logs (.bind .next fun _ => .bind .get fun _ => collectEach _ _)
theorem collect (env : Env) (cfg : Config) : Tidy (Tool.collect env cfg) := by
  unfold Tool.collect
  refine .bind .get fun _ => .ite (.bind (.change fun _ h => h) fun _ =>
    .bind (.collectGarbageWithFilter _ _ _) fun _ => .bind (.collectGarbageWithFilter _ _ _) fun _ => ?_) (.pure _)
  unfold Tool.collectMeasurements
  split
  · exact .pure _
  · exact .collectGarbageWithFilter _ _ _

theorem run (hs : SafeInput env cfg) : Tidy (Tool.run env cfg) := by
  unfold Tool.run
  refine .ofOption_bind fun links hl => .bind (.installGenerationsFromLinks hs hl) fun _ =>
    .bind (.installSystemdBoot _ _) fun _ => .collect _ _

end Tidy
end Verif.Tool
