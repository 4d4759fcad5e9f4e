import Verif.Spec.Busy
import Verif.Lemmas.Sound
import Verif.Lemmas.Carried
import Verif.Lemmas.Busy
/-!
# Runs on disks that agree where it matters
-/
namespace Verif.Tool
open Verif Generation StubName

variable {env : Env} {cfg : Config} {E : Path → Prop} {α β : Type}

/-- The others keep off. -/
class Off (o : Others) (cfg : Config) (E : Path → Prop) : Prop where
  off : o.KeepOff cfg E

variable {o : Others} [Off o cfg E]

/-! ### The view -/

theorem view_find {f : Fs} {q : Path} (h : Matters cfg q) :
    (f.view cfg).find? (fun e => e.1 == q) = (f.nodes.find? (fun e => e.1 == q)).map fun e => (e.1, some e.2) := by
  unfold Fs.view
  induction f.nodes with
  | nil => rfl
  | cons e l ih =>
    rw [List.filterMap_cons]
    by_cases hq : e.1 = q
    · have hm : Matters cfg e.1 := hq ▸ h
      simp [hq, h]
    · have hq' : (e.1 == q) = false := by simpa using hq
      rw [List.find?_cons_of_neg (by simp [hq])]
      split
      · exact ih
      · rename_i b hb
        have : b.1 = e.1 := by
          split at hb
          · cases hb; rfl
          · split at hb
            · cases hb; rfl
            · cases hb
        rw [List.find?_cons_of_neg (by simp [this, hq])]
        exact ih

theorem get_of_view {f f' : Fs} (h : f.view cfg = f'.view cfg) {q : Path} (hq : Matters cfg q) :
    f.get q = f'.get q := by
  have h1 := view_find (f := f) hq
  have h2 := view_find (f := f') hq
  rw [h, h2] at h1
  unfold Fs.get
  cases e1 : f.nodes.find? (fun e => e.1 == q) <;> cases e2 : f'.nodes.find? (fun e => e.1 == q) <;>
    simp_all

/-- The names in the view are all names of these places. -/
theorem view_names (f : Fs) {R : Path → Bool} (hR : ∀ q, R q = true → Matters cfg q ∨ linuxDir cfg.esp <+: q) :
    (f.nodes.map (·.1)).filter R = ((f.view cfg).map (·.1)).filter R := by
  unfold Fs.view
  induction f.nodes with
  | nil => rfl
  | cons e l ih =>
    rw [List.filterMap_cons, List.map_cons, List.filter_cons]
    by_cases h1 : Matters cfg e.1
    · simp only [h1, if_true, List.map_cons, List.filter_cons, ih]
    · by_cases h2 : linuxDir cfg.esp <+: e.1
      · simp only [h1, h2, if_true, if_false, List.map_cons, List.filter_cons, ih]
      · have : ¬ R e.1 = true := fun h => (hR _ h).elim h1 h2
        rw [if_neg this]
        simp only [h1, h2, if_false, ih]

/-- Everything at and below `p` is in the view by name. -/
def Listed (cfg : Config) (p : Path) : Prop := ∀ q, p <+: q → Matters cfg q ∨ linuxDir cfg.esp <+: q

/-- Everything at and below `p` is in the view. -/
def Deep (cfg : Config) (p : Path) : Prop := ∀ q, p <+: q → Matters cfg q

theorem Deep.listed {p : Path} (h : Deep cfg p) : Listed cfg p := fun q hq => .inl (h q hq)

theorem subtree_of_view {f f' : Fs} (h : f.view cfg = f'.view cfg) {p : Path} (hp : Listed cfg p) :
    f.subtree p = f'.subtree p := by
  unfold Fs.subtree
  rw [view_names f (cfg := cfg), view_names f' (cfg := cfg), h] <;>
    exact fun q hq => hp q (List.isPrefixOf_iff_prefix.1 hq)

theorem children_eq (f : Fs) (p : Path) :
    f.children p = ((f.nodes.map (·.1)).filter fun q => decide (q ≠ [] ∧ q.dropLast = p)).filterMap
      (·.getLast?) := by
  unfold Fs.children
  induction f.nodes with
  | nil => rfl
  | cons e l ih =>
    rw [List.filterMap_cons, List.map_cons, List.filter_cons, ih]
    by_cases h : e.1 ≠ [] ∧ e.1.dropLast = p
    · rw [if_pos h, if_pos (by simpa using h), List.filterMap_cons]
    · rw [if_neg h, if_neg (by simpa using h)]

theorem children_of_view {f f' : Fs} (h : f.view cfg = f'.view cfg) {p : Path} (hp : Listed cfg p) :
    f.children p = f'.children p := by
  rw [children_eq, children_eq, view_names f (cfg := cfg), view_names f' (cfg := cfg), h] <;>
  · intro q hq
    simp only [decide_eq_true_eq] at hq
    exact hp q (hq.2 ▸ List.dropLast_prefix _)

theorem view_del (f : Fs) (p : Path) : (f.del p).view cfg = (f.view cfg).filter fun e => e.1 ≠ p := by
  unfold Fs.view Fs.del
  dsimp only
  induction f.nodes with
  | nil => rfl
  | cons e l ih =>
    by_cases hp : e.1 = p
    · subst hp
      rw [List.filter_cons_of_neg (by simp), List.filterMap_cons, ih]
      split
      · rfl
      · rename_i b hb
        have : b.1 = e.1 := by
          split at hb
          · cases hb; rfl
          · split at hb
            · cases hb; rfl
            · cases hb
        rw [List.filter_cons_of_neg (by simp [this])]
    · rw [List.filter_cons_of_pos (by simp [hp]), List.filterMap_cons, List.filterMap_cons, ih]
      split
      · rfl
      · rename_i b hb
        have : b.1 = e.1 := by
          split at hb
          · cases hb; rfl
          · split at hb
            · cases hb; rfl
            · cases hb
        rw [List.filter_cons_of_pos (by simp [this, hp])]

theorem view_put (f : Fs) {p : Path} (n : Node) (hp : Matters cfg p) :
    (f.put p n).view cfg = (p, some n) :: (f.view cfg).filter fun e => e.1 ≠ p := by
  rw [← view_del]
  unfold Fs.view Fs.put Fs.del
  dsimp only
  rw [List.filterMap_cons]
  simp only [hp, if_true]

/-! ### Two states -/

/-- The same state of the installer, on disks that agree where it matters and on what exists in `E`. -/
structure Twin (cfg : Config) (E : Path → Prop) (s s' : State) : Prop where
  view : s.fs.view cfg = s'.fs.view cfg
  ex : ∀ q, E q → (s.fs.get q).isSome = (s'.fs.get q).isSome
  log : s.log = s'.log
  tick : s.tick = s'.tick
  roots : s.roots = s'.roots
  broken : s.broken = s'.broken

theorem Twin.get {s s' : State} (h : Twin cfg E s s') {q : Path} (hq : Matters cfg q) :
    s.fs.get q = s'.fs.get q := get_of_view h.view hq

/-- On such states `m` and `m'` do the same. -/
def Rel (cfg : Config) (E : Path → Prop) (m m' : M α) : Prop :=
  ∀ s s', Twin cfg E s s' → (m s).1 = (m' s').1 ∧ Twin cfg E (m s).2 (m' s').2

namespace Rel

theorem pure (a : α) : Rel cfg E (Pure.pure a) (Pure.pure a) := fun _ _ h => ⟨rfl, h⟩
theorem throw : Rel (α := α) cfg E (RM.throw ()) (RM.throw ()) := fun _ _ h => ⟨rfl, h⟩
theorem panic : Rel (α := α) cfg E RM.panic RM.panic := fun _ _ h => ⟨rfl, h⟩

/-- Sequences, where the second part may rely on something about the state after the first. -/
theorem bind_at {m m' : M α} {f f' : α → M β} {s s' : State}
    (h : (m s).1 = (m' s').1 ∧ Twin cfg E (m s).2 (m' s').2)
    (hf : ∀ a, (m s).1 = .ok a → (f a (m s).2).1 = (f' a (m' s').2).1 ∧
      Twin cfg E (f a (m s).2).2 (f' a (m' s').2).2) :
    ((m >>= f) s).1 = ((m' >>= f') s').1 ∧ Twin cfg E ((m >>= f) s).2 ((m' >>= f') s').2 := by
  rw [RM.bind_run, RM.bind_run]
  rcases hm : m s with ⟨r, t⟩
  rcases hm' : m' s' with ⟨r', t'⟩
  rw [hm, hm'] at h
  rw [hm, hm'] at hf
  obtain ⟨h1, h2⟩ := h
  dsimp only at h1 h2 hf
  subst h1
  cases r with
  | ok a => exact hf a rfl
  | err e => exact ⟨rfl, h2⟩
  | panic => exact ⟨rfl, h2⟩

theorem bind {m m' : M α} {f f' : α → M β} (h : Rel cfg E m m') (hf : ∀ a, Rel cfg E (f a) (f' a)) :
    Rel cfg E (m >>= f) (m' >>= f') := fun s s' hs =>
  bind_at (h s s' hs) fun a _ => hf a _ _ (h s s' hs).2

theorem bind_ofOption {o : Option α} {f f' : α → M β} (hf : ∀ a, o = some a → Rel cfg E (f a) (f' a)) :
    Rel cfg E (ofOption o >>= f) (ofOption o >>= f') := by
  cases o with
  | none => exact fun _ _ h => ⟨rfl, h⟩
  | some a => exact hf a rfl

theorem attempt {m m' : M α} (h : Rel cfg E m m') : Rel cfg E (RM.attempt m) (RM.attempt m') := fun s s' hs => by
  obtain ⟨h1, h2⟩ := h s s' hs
  unfold RM.attempt
  rcases hm : m s with ⟨r, t⟩
  rcases hm' : m' s' with ⟨r', t'⟩
  rw [hm, hm'] at h1 h2
  dsimp only at h1 h2
  subst h1
  cases r <;> exact ⟨rfl, h2⟩

theorem next : Rel cfg E Tool.next Tool.next := fun _ _ h =>
  ⟨by simp [Tool.next, h.tick], h.view, h.ex, h.log, by simp [Tool.next, h.tick], h.roots, h.broken⟩

theorem extendRoots (ps : List Path) : Rel cfg E (Tool.extendRoots ps) (Tool.extendRoots ps) := fun _ _ h =>
  ⟨rfl, h.view, h.ex, h.log, h.tick, by simp [Tool.extendRoots, RM.modify, h.roots], h.broken⟩

theorem require (b : Bool) : Rel cfg E (Tool.require b) (Tool.require b) := by
  cases b
  · exact throw
  · exact pure _
theorem faulty (os : Os) : Rel cfg E (Tool.faulty os) (Tool.faulty os) := bind next fun _ => pure _
theorem guarded (os : Os) : Rel cfg E (Tool.guarded os) (Tool.guarded os) :=
  bind (faulty _) fun _ => require _
theorem ofOption (o : Option α) : Rel cfg E (Tool.ofOption o) (Tool.ofOption o) := by
  cases o
  · exact throw
  · exact pure _
theorem ofRes (o : Res Unit α) : Rel cfg E (Tool.ofRes o) (Tool.ofRes o) := by
  cases o
  · exact pure _
  · exact throw
  · exact panic
theorem expectSome (o : Option α) : Rel cfg E (Tool.expectSome o) (Tool.expectSome o) := by
  cases o
  · exact panic
  · exact pure _
theorem ite {c : Prop} [Decidable c] {a b a' b' : M α} (h : Rel cfg E a a') (h' : Rel cfg E b b') :
    Rel cfg E (if c then a else b) (if c then a' else b') := by
  by_cases e : c
  · rw [if_pos e, if_pos e]; exact h
  · rw [if_neg e, if_neg e]; exact h'

/-- Looking at the disk. -/
theorem bind_getFs {f f' : Fs → M β}
    (h : ∀ fs fs' : Fs, fs.view cfg = fs'.view cfg → (∀ q, E q → (fs.get q).isSome = (fs'.get q).isSome) →
      Rel cfg E (f fs) (f' fs')) :
    Rel cfg E (getFs >>= f) (getFs >>= f') := fun s s' hs => h s.fs s'.fs hs.view hs.ex s s' hs

/-! ### Changes -/

/-- A change of a place in the view. -/
def _root_.Verif.Tool.Change.At (cfg : Config) : Change → Prop
  | .mkdir p => Matters cfg p
  | .create p => Matters cfg p
  | .write p _ => Matters cfg p
  | .rename _ b _ => Matters cfg b
  | _ => True

theorem apply_view {c : Change} (hc : c.At cfg) {f f' : Fs} (h : f.view cfg = f'.view cfg) :
    (f.apply c).view cfg = (f'.apply c).view cfg := by
  have nodes : ∀ {a b : Fs}, a.nodes = b.nodes → a.view cfg = b.view cfg := fun e => by
    unfold Fs.view; rw [e]
  cases c with
  | mkdir p => exact (view_put f _ hc).trans ((by rw [h]) : _ = _) |>.trans (view_put f' _ hc).symm
  | create p => exact (view_put f _ hc).trans ((by rw [h]) : _ = _) |>.trans (view_put f' _ hc).symm
  | write p d => exact (view_put f _ hc).trans ((by rw [h]) : _ = _) |>.trans (view_put f' _ hc).symm
  | fsync p => exact h
  | rename a b d =>
    have e : ∀ f : Fs, (f.apply (.rename a b d)).view cfg =
        (b, some (.file d)) :: ((f.view cfg).filter fun e => e.1 ≠ a).filter fun e => e.1 ≠ b := by
      intro f
      rw [← view_del, ← view_put _ _ hc]
      refine nodes ?_
      simp only [Fs.apply]
      split <;> rfl
    rw [e, e, h]
  | chmod p m => exact h
  | syncfs _ => exact h
  | unlink p => exact (view_del f p).trans ((by rw [h]) : _ = _) |>.trans (view_del f' p).symm
  | rmdir p => exact (view_del f p).trans ((by rw [h]) : _ = _) |>.trans (view_del f' p).symm
  | collecting => exact h

theorem isSome_put (f : Fs) (p q : Path) (n : Node) :
    ((f.put p n).get q).isSome = (decide (q = p) || (f.get q).isSome) := by
  by_cases e : q = p
  · subst e
    by_cases hq : q = []
    · subst hq; simp
    · rw [Fs.get_put _ _ _ _ hq]; simp
  · by_cases hp : p = []
    · subst hp
      unfold Fs.get
      simp only [e, if_false, Fs.put]
      rw [List.find?_cons_of_neg (by simpa using e), Fs.find_filter_ne e]
      simp
    · rw [Fs.get_put _ _ _ _ hp]; simp [e]

theorem isSome_del (f : Fs) (p q : Path) :
    ((f.del p).get q).isSome = (decide (q = []) || !decide (q = p) && (f.get q).isSome) := by
  by_cases hq : q = []
  · subst hq; simp
  · by_cases e : q = p
    · subst e; rw [Fs.get_del _ _ _ hq]; simp [hq]
    · have : (f.del p).get q = f.get q := by
        unfold Fs.get
        simp only [hq, if_false, Fs.del]
        rw [Fs.find_filter_ne e]
      rw [this]; simp [hq, e]

theorem apply_ex (c : Change) {f f' : Fs} {q : Path} (h : (f.get q).isSome = (f'.get q).isSome) :
    ((f.apply c).get q).isSome = ((f'.apply c).get q).isSome := by
  cases c with
  | mkdir p => exact (isSome_put f p q _).trans ((by rw [h]) : _ = _) |>.trans (isSome_put f' p q _).symm
  | create p => exact (isSome_put f p q _).trans ((by rw [h]) : _ = _) |>.trans (isSome_put f' p q _).symm
  | write p d => exact (isSome_put f p q _).trans ((by rw [h]) : _ = _) |>.trans (isSome_put f' p q _).symm
  | fsync p => exact h
  | rename a b d =>
    have e : ∀ f : Fs, ((f.apply (.rename a b d)).get q).isSome =
        (decide (q = b) || (decide (q = []) || !decide (q = a) && (f.get q).isSome)) := by
      intro f
      rw [← isSome_del, ← isSome_put _ _ _ (.file d)]
      simp only [Fs.apply]
      split <;> rfl
    rw [e, e, h]
  | chmod p m => exact h
  | syncfs _ => exact h
  | unlink p => exact (isSome_del f p q).trans ((by rw [h]) : _ = _) |>.trans (isSome_del f' p q).symm
  | rmdir p => exact (isSome_del f p q).trans ((by rw [h]) : _ = _) |>.trans (isSome_del f' p q).symm
  | collecting => exact h

theorem change {c : Change} (hc : c.At cfg) : Rel cfg E (Tool.change c) (Tool.change c) := fun _ _ h =>
  ⟨rfl, apply_view hc h.view, fun q hq => apply_ex c (h.ex q hq), by simp [Tool.change, h.log], h.tick, h.roots,
    h.broken⟩

/-! ### The others' turn -/

theorem after {m m' : M α} (h : Rel cfg E m m') : Rel cfg E m (disturb o >>= fun _ => m') := fun s s' hs =>
  h s { s' with fs := o.act s'.tick s'.log.length s'.fs }
    ⟨hs.view.trans ((Off.off (E := E)).view _ _ _).symm, fun q hq => (hs.ex q hq).trans ((Off.off (cfg := cfg)).ex _ _ _ _ hq).symm,
      hs.log, hs.tick, hs.roots, hs.broken⟩

omit [Off o cfg E] in
/-- Nothing shows up in a walk through a place of the installer's. -/
theorem walked (ho : o.KeepOff cfg E) (os : Os) (t : Nat) (f : Fs) {p : Path} (hp : Listed cfg p) :
    Busy.walked o os t f p = os.list t (f.subtree p) := by
  unfold Busy.walked
  rw [List.append_right_eq_self, List.filter_eq_nil_iff]
  intro q hq h
  have := ho.late t q hq
  exact (hp q (List.isPrefixOf_iff_prefix.1 h)).elim this.1 this.2

/-! ### Functions of std -/

theorem fileAt_of_view {f f' : Fs} (h : f.view cfg = f'.view cfg) {q : Path} (hq : Matters cfg q) :
    f.fileAt q = f'.fileAt q := by
  unfold Fs.fileAt
  rw [get_of_view h hq]

/-- A place where the installer may write: it matters, and so do the directories above. -/
def _root_.Verif.Tool.Spot (cfg : Config) (p : Path) : Prop :=
  Matters cfg p ∧ ∀ q, q <+: p.dropLast → Matters cfg q

theorem pathExists (os : Os) {p : Path} (hp : Matters cfg p ∨ E p) :
    Rel cfg E (Tool.pathExists os p) (Busy.pathExists o os p) :=
  after <| bind (faulty _) fun _ => bind_getFs fun fs fs' h he => by
    have : (fs.get p).isSome = (fs'.get p).isSome := by
      rcases hp with hp | hp
      · rw [get_of_view h hp]
      · exact he p hp
    rw [this]
    exact pure _

theorem readFs (os : Os) {p : Path} (hp : Matters cfg p) : Rel cfg E (Tool.readFs os p) (Busy.readFs o os p) :=
  after <| bind (guarded _) fun _ => bind_getFs fun fs fs' h _ => by
    rw [fileAt_of_view h hp]
    cases fs'.fileAt p with
    | none => exact throw
    | some d => exact pure _

theorem parentIsDir_of_view {f f' : Fs} (h : f.view cfg = f'.view cfg) {p : Path} (hp : Spot cfg p) :
    parentIsDir f p = parentIsDir f' p := by
  unfold parentIsDir
  rw [get_of_view h (hp.2 _ (List.prefix_refl _))]

theorem mkdir (os : Os) {p : Path} (hp : Spot cfg p) : Rel cfg E (Tool.mkdir os p) (Busy.mkdir o os p) :=
  after <| bind (guarded _) fun _ => bind_getFs fun fs fs' h _ => by
    rw [get_of_view h hp.1, parentIsDir_of_view h hp]
    exact bind (require _) fun _ => change hp.1

theorem createFile (os : Os) {p : Path} (hp : Spot cfg p) :
    Rel cfg E (Tool.createFile os p) (Busy.createFile o os p) :=
  after <| bind (guarded _) fun _ => bind_getFs fun fs fs' h _ => by
    rw [get_of_view h hp.1, parentIsDir_of_view h hp]
    exact bind (require _) fun _ => change hp.1

theorem writePartials {p : Path} (hp : Matters cfg p) :
    (l : List Bytes) → Rel cfg E (Tool.writePartials p l) (Busy.writePartials o p l)
  | [] => pure _
  | _ :: l => after <| bind (change hp) fun _ => writePartials hp l

theorem writeFile (os : Os) {p : Path} (hp : Matters cfg p) (d : Bytes) :
    Rel cfg E (Tool.writeFile os p d) (Busy.writeFile o os p d) :=
  bind next fun _ => bind (writePartials hp _) fun _ => bind (guarded _) fun _ => after <| change hp

theorem fsync (os : Os) (p : Path) : Rel cfg E (Tool.fsync os p) (Busy.fsync o os p) :=
  after <| bind (guarded _) fun _ => change trivial

theorem rename (os : Os) {a b : Path} (ha : Matters cfg a) (hb : Spot cfg b) :
    Rel cfg E (Tool.rename os a b) (Busy.rename o os a b) :=
  after <| bind (guarded _) fun _ => bind_getFs fun fs fs' h _ => by
    rw [fileAt_of_view h ha]
    cases fs'.fileAt a with
    | none => exact throw
    | some d =>
      dsimp only
      rw [get_of_view h hb.1, parentIsDir_of_view h hb]
      exact bind (require _) fun _ => ite (pure _) (change hb.1)

theorem setPermissionBits (os : Os) {p : Path} (hp : Matters cfg p) (m : Nat) :
    Rel cfg E (Tool.setPermissionBits os p m) (Busy.setPermissionBits o os p m) :=
  after <| bind (guarded _) fun _ => bind_getFs fun fs fs' h _ => by
    rw [get_of_view h hp]
    exact bind (require _) fun _ => bind (guarded _) fun _ => after <| change trivial

theorem syncFs (os : Os) {p : Path} (hp : Matters cfg p) : Rel cfg E (Tool.syncFs os p) (Busy.syncFs o os p) :=
  after <| bind (guarded _) fun _ => bind_getFs fun fs fs' h _ => by
    rw [get_of_view h hp]
    exact bind (require _) fun _ => bind (guarded _) fun _ => after <| change trivial

theorem removeFile (os : Os) {p : Path} (hp : Matters cfg p) :
    Rel cfg E (Tool.removeFile os p) (Busy.removeFile o os p) :=
  after <| bind (guarded _) fun _ => bind_getFs fun fs fs' h _ => by
    rw [fileAt_of_view h hp]
    cases fs'.fileAt p with
    | none => exact throw
    | some d => exact change trivial

theorem removeDir (os : Os) {p : Path} (hp : Deep cfg p) :
    Rel cfg E (Tool.removeDir os p) (Busy.removeDir o os p) :=
  after <| bind (guarded _) fun _ => bind_getFs fun fs fs' h _ => by
    rw [get_of_view h (hp p (List.prefix_refl _)), children_of_view h hp.listed]
    exact bind (require _) fun _ => change trivial

theorem removeOne (os : Os) {p : Path} (hp : Deep cfg p) :
    Rel cfg E (Tool.removeOne os p) (Busy.removeOne o os p) :=
  after <| bind_getFs fun fs fs' h _ => by
    rw [get_of_view h (hp p (List.prefix_refl _))]
    exact ite (removeDir os hp) (removeFile os (hp p (List.prefix_refl _)))

theorem removeEach (os : Os) : (l : List Path) → (∀ p ∈ l, Deep cfg p) →
    Rel cfg E (Tool.removeEach os l) (Busy.removeEach o os l)
  | [], _ => pure _
  | p :: l, h => bind (removeOne os (h p (by simp))) fun _ => removeEach os l fun q hq => h q (by simp [hq])

theorem removeDirAll (os : Os) {p : Path} (hp : Deep cfg p) :
    Rel cfg E (Tool.removeDirAll os p) (Busy.removeDirAll o os p) :=
  after <| bind next fun t => bind_getFs fun fs fs' h _ => by
    rw [walked (Off.off (E := E)) _ _ _ hp.listed, subtree_of_view h hp.listed]
    refine removeEach os _ fun q hq => ?_
    have hq := (List.isort_perm _ _).mem_iff.1 hq
    have hq := os.list_sub _ _ _ hq
    unfold Fs.subtree at hq
    have hq := List.isPrefixOf_iff_prefix.1 (List.mem_filter.1 hq).2
    exact fun r hr => hp r (hq.trans hr)

theorem mkdirMissing (os : Os) : (l : List Path) → (∀ p ∈ l, Spot cfg p) →
    Rel cfg E (Tool.mkdirMissing os l) (Busy.mkdirMissing o os l)
  | [], _ => pure _
  | p :: l, hl => after <| bind_getFs fun fs fs' h _ => by
    rw [get_of_view h (hl p (by simp)).1]
    exact ite (mkdirMissing os l fun q hq => hl q (by simp [hq]))
      (bind (mkdir os (hl p (by simp))) fun _ => mkdirMissing os l fun q hq => hl q (by simp [hq]))

theorem ensureParentDir (os : Os) {p : Path} (hp : Spot cfg p) :
    Rel cfg E (Tool.ensureParentDir os p) (Busy.ensureParentDir o os p) := by
  unfold Tool.ensureParentDir Busy.ensureParentDir
  cases hq : p.parent with
  | none => exact pure _
  | some q =>
    have hq : q = p.dropLast := by
      unfold Path.parent at hq
      split at hq
      · cases hq
      · cases hq; rfl
    subst hq
    refine bind (attempt (mkdirMissing os _ fun q hq => ?_)) fun _ => pure _
    have := ancestors_prefix hq
    exact ⟨hp.2 _ this, fun r hr => hp.2 _ ((hr.trans (List.dropLast_prefix _)).trans this)⟩

theorem readDir (os : Os) {p : Path} (hm : Matters cfg p) (hp : Listed cfg p) :
    Rel cfg E (Tool.readDir os p) (Busy.readDir o os p) :=
  after <| bind (guarded _) fun _ => bind next fun _ => bind_getFs fun fs fs' h _ => by
    rw [get_of_view h hm, children_of_view h hp]
    exact bind (require _) fun _ => pure _

/-! ### gc.rs -/

theorem collectEntry (os : Os) {p : Path} (hp : Deep cfg p) :
    Rel cfg E (Tool.collectEntry os p) (Busy.collectEntry o os p) :=
  after <| bind_getFs fun fs fs' h _ => by
    rw [get_of_view h (hp p (List.prefix_refl _))]
    exact ite (removeDirAll os hp) (bind (attempt (removeFile os (hp p (List.prefix_refl _)))) fun _ => pure _)

theorem collectEach (os : Os) : (l : List Path) → (∀ p ∈ l, Deep cfg p) →
    Rel cfg E (Tool.collectEach os l) (Busy.collectEach o os l)
  | [], _ => pure _
  | p :: l, h => bind (collectEntry os (h p (by simp))) fun _ => collectEach os l fun q hq => h q (by simp [hq])

theorem bind_get {f f' : State → M β} (h : ∀ s s', Twin cfg E s s' → Rel cfg E (f s) (f' s')) :
    Rel cfg E (RM.get >>= f) (RM.get >>= f') := fun s s' hs => h s s' hs s s' hs

theorem collectGarbageWithFilter (os : Os) {d : Path} {pr : Path → Bool} (hd : Listed cfg d)
    (hp : ∀ p, d <+: p → pr p = true → Deep cfg p) :
    Rel cfg E (Tool.collectGarbageWithFilter os d pr) (Busy.collectGarbageWithFilter o os d pr) :=
  after <| bind next fun t => bind_get fun s s' hs => by
    rw [walked (Off.off (E := E)) _ _ _ hd, subtree_of_view hs.view hd, hs.roots]
    refine collectEach os _ fun p h => ?_
    obtain ⟨h1, h2⟩ := List.mem_filter.1 h
    have h1 := os.list_sub _ _ _ h1
    unfold Fs.subtree at h1
    have h1 := List.isPrefixOf_iff_prefix.1 (List.mem_filter.1 h1).2
    unfold isGarbage at h2
    simp only [Bool.and_eq_true] at h2
    exact hp p h1 h2.2

/-! ### pe.rs, signature, pcrlock.rs -/

theorem readSrc (src : Src) : Rel cfg E (Tool.readSrc env src) (Tool.readSrc env src) :=
  bind (guarded _) fun _ => ofOption _
theorem hashSrc (src : Src) : Rel cfg E (Tool.hashSrc env src) (Tool.hashSrc env src) :=
  bind (readSrc src) fun _ => pure _
theorem hashFs {p : Path} (hp : Matters cfg p) : Rel cfg E (Tool.hashFs env p) (Busy.hashFs o env p) :=
  bind (readFs _ hp) fun _ => pure _
theorem writeSecureFile (d : Bytes) : Rel cfg E (Tool.writeSecureFile env d) (Tool.writeSecureFile env d) :=
  bind (guarded _) fun _ => pure _
theorem fileSize (d : Bytes) : Rel cfg E (Tool.fileSize env d) (Tool.fileSize env d) :=
  bind (guarded _) fun _ => pure _
theorem wrapInPe (d : Bytes) (l : List Added) : Rel cfg E (Tool.wrapInPe env d l) (Tool.wrapInPe env d l) :=
  bind (guarded _) fun _ => bind next fun _ => ofOption _
theorem lanzabooteImage (p : StubParameters) :
    Rel cfg E (Tool.lanzabooteImage env p) (Tool.lanzabooteImage env p) :=
  bind (writeSecureFile _) fun _ => bind (writeSecureFile _) fun _ => bind (hashSrc _) fun _ =>
  bind (writeSecureFile _) fun _ => bind (writeSecureFile _) fun _ => bind (hashSrc _) fun _ =>
  bind (writeSecureFile _) fun _ => bind (writeSecureFile _) fun _ => bind (readSrc _) fun _ =>
  bind (ofRes _) fun _ => bind (fileSize _) fun _ => bind (fileSize _) fun _ => bind (fileSize _) fun _ =>
  bind (fileSize _) fun _ => bind (fileSize _) fun _ => bind (readSrc _) fun _ => wrapInPe _ _
theorem appendInitrdSecrets (p : Path) (d : Bytes) :
    Rel cfg E (Tool.appendInitrdSecrets env p d) (Tool.appendInitrdSecrets env p d) :=
  bind (guarded _) fun _ => bind next fun _ => ofOption _
theorem getPublicKey (s : Signer) : Rel cfg E (s.getPublicKey env) (s.getPublicKey env) := by
  cases s
  · exact pure _
  · exact readSrc _

theorem writeOut {p : Path} (hp : Spot cfg p) (d : Bytes) :
    Rel cfg E (Tool.writeOut env p d) (Busy.writeOut o env p d) :=
  bind (createFile _ hp) fun _ => writeFile _ hp.1 _
theorem failedOutput {p : Path} (hp : Spot cfg p) :
    Rel cfg E (Tool.failedOutput env p) (Busy.failedOutput o env p) :=
  bind (createFile _ hp) fun _ => bind next fun _ => writePartials hp.1 _
theorem copyFile (src : Src) {p : Path} (hp : Spot cfg p) :
    Rel cfg E (Tool.copyFile env src p) (Busy.copyFile o env src p) :=
  bind (readSrc _) fun _ => bind (createFile _ hp) fun _ => bind (guarded _) fun _ =>
    after <| bind (change trivial) fun _ => writeFile _ hp.1 _

theorem signAndCopy (src : Src) {p : Path} (hp : Spot cfg p) (s : Signer) :
    Rel cfg E (s.signAndCopy env src p) (Busy.signAndCopy o env src p s) := by
  cases s with
  | empty => exact copyFile _ hp
  | «local» pub priv =>
    refine bind (readSrc _) fun d => bind next fun t => ?_
    cases env.sbsign t priv pub d with
    | none => exact bind (failedOutput hp) fun _ => throw
    | some x => exact writeOut hp _

theorem verifyPath {p : Path} (hp : Matters cfg p) (s : Signer) :
    Rel cfg E (s.verifyPath env p) (Busy.verifyPath o env p s) := by
  refine after ?_
  cases s with
  | empty => exact pure _
  | «local» pub priv =>
    refine bind (guarded _) fun _ => bind (faulty _) fun _ => bind_getFs fun fs fs' h _ => ?_
    rw [fileAt_of_view h hp]
    cases fs'.fileAt p <;> exact pure _

theorem lockPe (src : Src) {p : Path} (hp : Spot cfg p) :
    Rel cfg E (Tool.lockPe env src p) (Busy.lockPe o env src p) := by
  refine bind (readSrc _) fun d => bind (ensureParentDir _ hp) fun _ => bind next fun t => ?_
  cases env.lockPe t d with
  | none => exact bind (failedOutput hp) fun _ => throw
  | some x => exact writeOut hp _

/-! ### install.rs -/

theorem installSigned (s : Signer) (src : Src) {p : Path} (hp : Spot cfg p) (ht : Spot cfg (tmpOf p)) :
    Rel cfg E (Tool.installSigned env s src p) (Busy.installSigned o env s src p) :=
  bind (ensureParentDir _ ht) fun _ => bind (signAndCopy _ ht _) fun _ => rename _ ht.1 hp

theorem atomicCopy (src : Src) {p : Path} (hp : Spot cfg p) (ht : Spot cfg (tmpOf p)) :
    Rel cfg E (Tool.atomicCopy env src p) (Busy.atomicCopy o env src p) :=
  bind (readSrc _) fun _ => bind (createFile _ ht) fun _ => bind (writeFile _ ht.1 _) fun _ =>
    bind (fsync _ _) fun _ => rename _ ht.1 hp

theorem forceInstall (src : Src) {p : Path} (hp : Spot cfg p) (ht : Spot cfg (tmpOf p)) :
    Rel cfg E (Tool.forceInstall env src p) (Busy.forceInstall o env src p) :=
  bind (ensureParentDir _ hp) fun _ => bind (atomicCopy _ hp ht) fun _ => setPermissionBits _ hp.1 _

theorem needsInstall (src : Src) {p : Path} (hp : Matters cfg p) :
    Rel cfg E (Tool.needsInstall env src p) (Busy.needsInstall o env src p) :=
  bind (pathExists _ (.inl hp)) fun _ => ite (pure _) (bind (hashSrc _) fun _ => bind (hashFs hp) fun _ => pure _)

theorem install (src : Src) {p : Path} (hp : Spot cfg p) (ht : Spot cfg (tmpOf p)) :
    Rel cfg E (Tool.install env src p) (Busy.install o env src p) :=
  bind (needsInstall _ hp.1) fun _ => ite (forceInstall _ hp ht) (pure _)

end Rel

/-! ### Places -/

theorem spot_nixos (n : Str) : Spot cfg (nixosDir cfg.esp ++ [n]) :=
  ⟨.owned (owned_nixos n), fun q hq => .nixos (by simpa using hq)⟩

theorem spot_tmp {p : Path} (hp : Spot cfg p) (ht : Owned cfg (tmpOf p)) : Spot cfg (tmpOf p) :=
  ⟨.owned ht, fun q hq => hp.2 q (by rwa [tmpOf_dropLast] at hq)⟩

theorem spot_ca {l : Str} (hl : '/' ∉ l) (h : Bytes) :
    Spot cfg (caFile cfg.esp l h) ∧ Spot cfg (tmpOf (caFile cfg.esp l h)) := by
  rw [caFile_nixosDir, tmpOf_snoc _ (caName_plain hl _).ne_dots]
  exact ⟨spot_nixos _, spot_nixos _⟩

theorem spot_entry {g : Gen} (hg : SafeGen g) (key : Bytes) (t : Nat) :
    Spot cfg (entryFile cfg.esp (stubName env.sha g key t)) ∧
      Spot cfg (tmpOf (entryFile cfg.esp (stubName env.sha g key t))) := by
  have hn := stubName_nixos env.sha g key t
  rw [entryFile_linuxDir]
  have h1 : Spot cfg (linuxDir cfg.esp ++ [stubName env.sha g key t]) :=
    ⟨.owned (.entry (List.prefix_refl _) hn.1 (List.prefix_refl _)), fun q hq => .linux (by simpa using hq)⟩
  refine ⟨h1, spot_tmp h1 ?_⟩
  rw [tmpOf_snoc _ (stubName_plain hg _ _).ne_dots]
  exact .entry (List.prefix_refl _) (hn.2.trans (List.prefix_append _ _)) (List.prefix_refl _)

theorem spot_boot {q : Path} (h : q = fallbackFile cfg ∨ q = systemdFile cfg ∨ q = confFile cfg)
    (ho : Owned cfg q) (ht : IsTmp (tmpOf q)) : Spot cfg q ∧ Spot cfg (tmpOf q) := by
  have h1 : Spot cfg q := ⟨.owned ho, fun r hr => .boot h hr⟩
  exact ⟨h1, spot_tmp h1 (.tmp h (tmpOf_dropLast _) ht)⟩

theorem spot_measurement {d : Path} (hd : cfg.pcrlockDirectory = some d) (g : Gen) :
    Spot cfg (measurementFile d g) :=
  ⟨.owned (owned_measurement hd), fun q hq => .lock hd (by simpa [measurementFile, lockDir] using hq)⟩

theorem spot_next {d : Path} (hd : cfg.pcrlockDirectory = some d) : Spot cfg (nextFile d) :=
  ⟨.owned (.bootloader hd (Or.inl rfl)), fun _ hq => .bootloader hd hq⟩

theorem spot_current {d : Path} (hd : cfg.pcrlockDirectory = some d) : Spot cfg (currentFile d) :=
  ⟨.owned (.bootloader hd (Or.inr rfl)), fun q hq => .bootloader hd (by
    simpa [nextFile, currentFile] using hq)⟩

theorem deep_nixos : Deep cfg (nixosDir cfg.esp) := fun q hq => by
  by_cases h : q = nixosDir cfg.esp
  · exact .nixos (h ▸ List.prefix_refl _)
  · exact .owned (.nixos hq h)

theorem deep_lock {d : Path} (hd : cfg.pcrlockDirectory = some d) : Deep cfg (lockDir d) := fun q hq => by
  by_cases h : q = lockDir d
  · exact .lock hd (h ▸ List.prefix_refl _)
  · exact .owned (.lock hd hq h)

theorem listed_linux : Listed cfg (linuxDir cfg.esp) := fun _ hq => .inr hq

theorem deep_entry {p : Path} (hp : linuxDir cfg.esp <+: p) (hn : startsWithNixos p = true) : Deep cfg p := by
  rcases List.eq_nil_or_concat p with rfl | ⟨q, n, e⟩
  · simp [linuxDir] at hp
  · rw [List.concat_eq_append] at e
    subst e
    rw [startsWithNixos_snoc] at hn
    rcases prefix_snoc_iff.1 hp with hb | hb
    · exact fun r hr => .owned (.entry hb hn.2 hr)
    · exfalso
      have : linuxDir cfg.esp = (cfg.esp ++ [lit "EFI"]) ++ [lit "Linux"] := by simp [linuxDir]
      rw [this] at hb
      have := (List.append_inj' hb rfl).2
      simp only [List.cons.injEq, and_true] at this
      rw [← this] at hn
      exact absurd (List.isPrefixOf_iff_prefix.2 hn.2) (by decide)

/-! ### Entries that are there already -/

/-- The installer asks whether the kernel and the initrd of an entry exist: it depends on this. -/
def RefsIn (env : Env) (cfg : Config) (E : Path → Prop) (f : Fs) : Prop :=
  ∀ p data sec b x, IsEntry cfg.esp p → f.fileAt p = some data → (sec = lit ".linux" ∨ sec = lit ".initrd") →
    FileSection env data sec b → resolveEfiPath cfg.esp b = .ok x → Matters cfg x ∨ E x

/-- On such states with `P`, `m` and `m'` do the same, with `Q` after that. -/
def RelIn (cfg : Config) (E : Path → Prop) (P : State → Prop) (m m' : M α) (Q : α → State → Prop) : Prop :=
  ∀ s s', Twin cfg E s s' → P s → (m s).1 = (m' s').1 ∧ Twin cfg E (m s).2 (m' s').2 ∧
    ∀ a, (m s).1 = .ok a → Q a (m s).2

namespace RelIn
variable {P P' : State → Prop}

theorem of {m m' : M α} {A : Fs → Change → Prop} {Q : α → State → Prop} (h : Rel cfg E m m') (ht : Triple P m A Q) :
    RelIn cfg E P m m' Q := fun s s' hs hp => ⟨(h s s' hs).1, (h s s' hs).2, (ht s hp).post⟩

theorem of_rel {m m' : M α} (h : Rel cfg E m m') : RelIn cfg E P m m' fun _ _ => True := fun s s' hs _ =>
  ⟨(h s s' hs).1, (h s s' hs).2, fun _ _ => trivial⟩

theorem rel {m m' : M α} {Q : α → State → Prop} (h : RelIn cfg E (fun _ => True) m m' Q) : Rel cfg E m m' :=
  fun s s' hs => ⟨(h s s' hs trivial).1, (h s s' hs trivial).2.1⟩

theorem bind {m m' : M α} {f f' : α → M β} {Q : α → State → Prop} {R : β → State → Prop}
    (h : RelIn cfg E P m m' Q) (hf : ∀ a, RelIn cfg E (Q a) (f a) (f' a) R) :
    RelIn cfg E P (m >>= f) (m' >>= f') R := fun s s' hs hp => by
  obtain ⟨h1, h2, h3⟩ := h s s' hs hp
  rw [RM.bind_run, RM.bind_run]
  rcases hm : m s with ⟨r, t⟩
  rcases hm' : m' s' with ⟨r', t'⟩
  rw [hm, hm'] at h1 h2
  rw [hm] at h3
  dsimp only at h1 h2 h3
  subst h1
  cases r with
  | ok a => exact hf a t t' h2 (h3 a rfl)
  | err e => exact ⟨rfl, h2, nofun⟩
  | panic => exact ⟨rfl, h2, nofun⟩

theorem pre {m m' : M α} {Q : α → State → Prop} (h : RelIn cfg E P m m' Q) (hp : ∀ s, P' s → P s) :
    RelIn cfg E P' m m' Q := fun s s' hs h' => h s s' hs (hp s h')

theorem ite {c : Prop} [Decidable c] {a b a' b' : M α} {Q : α → State → Prop} (h : c → RelIn cfg E P a a' Q)
    (h' : ¬ c → RelIn cfg E P b b' Q) : RelIn cfg E P (if c then a else b) (if c then a' else b') Q := by
  by_cases e : c
  · rw [if_pos e, if_pos e]; exact h e
  · rw [if_neg e, if_neg e]; exact h' e

/-- A fact about the state that can be used outside. -/
theorem fact {m m' : M α} {Q : α → State → Prop} {C : Prop} (h : C → RelIn cfg E P m m' Q)
    (hc : ∀ s, P s → C) : RelIn cfg E P m m' Q := fun s s' hs hp => h (hc s hp) s s' hs hp

end RelIn

theorem Rel.sectionPath (d : Bytes) (n : Str) : Rel cfg E (Tool.sectionPath env cfg d n) (Tool.sectionPath env cfg d n) :=
  bind (ofRes _) fun _ => bind (ofOption _) fun _ => ofRes _

theorem matters_entry {n : Str} (h : lit "nixos-" <+: n) : Matters cfg (linuxDir cfg.esp ++ [n]) :=
  .owned (.entry (List.prefix_refl _) h (List.prefix_refl _))

theorem readInstalledGeneration_twin (g : Gen) (key : Bytes) :
    RelIn cfg E (fun s => RefsIn env cfg E s.fs) (readInstalledGeneration env cfg (stubPrefix env.sha g key))
      (Busy.readInstalledGeneration o env cfg (stubPrefix env.sha g key)) fun _ _ => True := by
  have hT : Ticks fun s => RefsIn env cfg E s.fs := fun _ _ h => h
  unfold readInstalledGeneration Busy.readInstalledGeneration
  refine .bind (.of (Rel.readDir _ ?_ ?_) (readDir_triple (A := NoChange) env.os _ hT)) fun entries => ?_
  · rw [paths_linux']; exact .linux (List.prefix_refl _)
  · rw [paths_linux']; exact listed_linux
  refine .bind (.of (Rel.ofOption _) (ofOption_triple (A := NoChange) _)) fun stub => ?_
  refine .fact (C := ∃ n, stub = entryFile cfg.esp n ∧ isMatch env.uni (stubPrefix env.sha g key) n = true) ?_ ?_
  rotate_left
  · rintro s ⟨⟨-, he⟩, hm⟩
    have hmem : stub ∈ matchingEntries env (stubPrefix env.sha g key) entries := List.mem_of_head? hm
    unfold matchingEntries at hmem
    rw [List.mem_filter] at hmem
    obtain ⟨n, rfl⟩ := he _ hmem.1
    exact ⟨n, by rw [paths_linux]; simp [entryFile], by simpa using hmem.2⟩
  rintro ⟨n, rfl, hn⟩
  have hent := isMatch_isEntry (esp := cfg.esp) hn
  have hmat : Matters cfg (entryFile cfg.esp n) := by
    obtain ⟨m, e, hm, -⟩ := hent
    rw [entryFile_inj e, entryFile_linuxDir]
    exact matters_entry hm
  refine RelIn.pre (P := fun s => RefsIn env cfg E s.fs) ?_ fun s h => h.1.1
  refine .bind (.of (Rel.readFs _ hmat) (readFs_triple (A := NoChange) hT env.os _)) fun data => ?_
  refine .bind (.of (Rel.sectionPath _ _) (sectionPath_triple (A := NoChange) env cfg data _)) fun kernel => ?_
  refine .bind (.of (Rel.sectionPath _ _) (sectionPath_triple (A := NoChange) env cfg data _)) fun initrd => ?_
  refine .fact (C := (Matters cfg kernel ∨ E kernel) ∧ (Matters cfg initrd ∨ E initrd)) ?_ ?_
  · rintro ⟨hk, hi⟩
    refine RelIn.of_rel ?_
    exact Rel.bind (Rel.pathExists _ hk) fun _ => Rel.ite Rel.throw (Rel.bind (Rel.pathExists _ hi) fun _ =>
      Rel.ite Rel.throw (Rel.pure _))
  · rintro s ⟨⟨⟨h0, h1⟩, kb, h2, h3⟩, ib, h4, h5⟩
    exact ⟨h0 _ _ _ _ _ hent h1 (.inl rfl) h2 h3, h0 _ _ _ _ _ hent h1 (.inr rfl) h4 h5⟩

/-! ### The installer -/

theorem Rel.registerMeasurement {g : Gen} (hg : SafeGen g) :
    Rel cfg E (Tool.registerMeasurement env cfg g) (Busy.registerMeasurement o env cfg g) := by
  unfold Tool.registerMeasurement Busy.registerMeasurement Config.pcrlock
  cases hp : cfg.pcrlockDirectory with
  | none => exact pure _
  | some p =>
    dsimp only [Option.map_some]
    rw [measurement_target p hg]
    exact bind (pathExists _ (.inl (spot_measurement hp g).1)) fun _ =>
      ite (bind (extendRoots _) fun _ => pure _) (pure _)

theorem registerInstalledGeneration_twin {g : Gen} (hg : SafeGen g) :
    RelIn cfg E (fun s => RefsIn env cfg E s.fs) (registerInstalledGeneration env cfg g)
      (Busy.registerInstalledGeneration o env cfg g) fun _ _ => True := by
  unfold registerInstalledGeneration Busy.registerInstalledGeneration
  refine .bind (.of (Rel.getPublicKey _) (getPublicKey_triple (A := NoChange) env cfg.signer
    (P := fun s => RefsIn env cfg E s.fs) fun _ _ h => h)) fun key => ?_
  refine RelIn.pre (P := fun s => RefsIn env cfg E s.fs) ?_ fun s h => h.1
  refine RelIn.bind (Q := fun _ _ => True) ?_ fun o => RelIn.of_rel ?_
  · intro s s' hs hp
    obtain ⟨h1, h2, -⟩ := readInstalledGeneration_twin (o := o) (E := E) g key s s' hs hp
    unfold RM.attempt
    rcases hm : readInstalledGeneration env cfg (stubPrefix env.sha g key) s with ⟨r, t⟩
    rcases hm' : Busy.readInstalledGeneration o env cfg (stubPrefix env.sha g key) s' with ⟨r', t'⟩
    rw [hm, hm'] at h1 h2
    dsimp only at h1 h2
    subst h1
    cases r <;> exact ⟨rfl, h2, fun _ _ => trivial⟩
  · rcases o with _ | ⟨a, b, c⟩
    · exact Rel.pure _
    · exact Rel.bind (Rel.extendRoots _) fun _ => Rel.registerMeasurement hg

namespace Rel

theorem installNixosCa (src : Src) {l : Str} (hl : '/' ∉ l) :
    Rel cfg E (Tool.installNixosCa env cfg src l) (Busy.installNixosCa o env cfg src l) := by
  refine bind (hashSrc _) fun h => ?_
  dsimp only
  rw [kernel_target cfg hl]
  exact bind (extendRoots _) fun _ => bind (install _ (spot_ca hl _).1 (spot_ca hl _).2) fun _ => pure _

theorem initrdLocation (b : BootSpec) : Rel cfg E (Tool.initrdLocation env b) (Tool.initrdLocation env b) := by
  unfold Tool.initrdLocation
  cases b.initrdSecrets with
  | none => exact bind (expectSome _) fun _ => pure _
  | some s =>
    exact bind (ofOption _) fun _ => bind (readSrc _) fun _ => bind (writeSecureFile _) fun _ =>
      bind (appendInitrdSecrets _ _) fun _ => pure _

theorem stubParameters (g : Gen) (i : Src) (a b : Path) :
    Rel cfg E (Tool.stubParameters cfg g i a b) (Tool.stubParameters cfg g i a b) :=
  bind (ofOption _) fun _ => bind (ofOption _) fun _ => pure _

theorem measureImage {g : Gen} (hg : SafeGen g) (d : Bytes) :
    Rel cfg E (Tool.measureImage env cfg g d) (Busy.measureImage o env cfg g d) := by
  unfold Tool.measureImage Busy.measureImage Config.pcrlock
  cases hp : cfg.pcrlockDirectory with
  | none => exact pure _
  | some p =>
    dsimp only [Option.map_some]
    rw [measurement_target p hg]
    exact bind (lockPe _ (spot_measurement hp g)) fun _ => extendRoots _

theorem installNewGeneration {g : Gen} (hg : SafeGen g) :
    Rel cfg E (Tool.installNewGeneration env cfg g) (Busy.installNewGeneration o env cfg g) :=
  bind (guarded _) fun _ => bind_ofOption fun v hv =>
  bind (installNixosCa _ (kernelVersion_label hg hv _ (by decide))) fun _ => bind (initrdLocation _) fun _ =>
  bind (installNixosCa _ (kernelVersion_label hg hv _ (by decide))) fun _ => bind (stubParameters _ _ _ _) fun _ =>
  bind (lanzabooteImage _) fun _ => bind (measureImage hg _) fun _ => bind (getPublicKey _) fun key => by
    dsimp only
    rw [stub_target hg]
    exact bind (extendRoots _) fun _ => installSigned _ _ (spot_entry hg _ _).1 (spot_entry hg _ _).2

end Rel

theorem installGeneration_twin {g : Gen} (hg : SafeGen g) :
    RelIn cfg E (fun s => RefsIn env cfg E s.fs) (installGeneration env cfg g)
      (Busy.installGeneration o env cfg g) fun _ _ => True :=
  .bind (registerInstalledGeneration_twin hg) fun _ => .of_rel (Rel.ite (Rel.pure _) (Rel.installNewGeneration hg))

theorem installAll_twin (hs : SafeInput env cfg) {J : Fs → Prop} (hJ : ∀ f, J f → RefsIn env cfg E f)
    (hstep : ∀ g f c, J f → InstallStep env cfg (.one g) f c → J (f.apply c)) :
    (gens : List Gen) → (∀ g ∈ gens, Considers env cfg g) →
    RelIn cfg E (fun s => J s.fs) (installAll env cfg gens) (Busy.installAll o env cfg gens) fun _ _ => True
  | [], _ => .of_rel (Rel.pure _)
  | g :: gens, hc => by
    refine RelIn.bind (Q := fun _ s => J s.fs) ?_ fun _ => installAll_twin hs hJ hstep gens fun g h => hc g (by simp [h])
    intro s s' ht hj
    obtain ⟨h1, h2, -⟩ := installGeneration_twin (o := o) (E := E) (hs g (hc g (by simp))) s s' ht (hJ _ hj)
    obtain ⟨l, -, e, ch, -⟩ := installGeneration_one hs (hc g (by simp)) s
    refine ⟨h1, h2, fun _ _ => ?_⟩
    show J _
    rw [e]
    exact ch.inv hj fun f c j st => hstep g f c j st

namespace Rel

theorem readGeneration (l : Link) : Rel cfg E (Tool.readGeneration env l) (Tool.readGeneration env l) :=
  bind (faulty _) fun _ => ite (pure _) (pure _)

theorem readGenerations : (l : List Link) → Rel cfg E (Tool.readGenerations env l) (Tool.readGenerations env l)
  | [] => pure _
  | l :: rest => bind (readGeneration l) fun o => by
    cases o with
    | none =>
      refine bind ?_ fun _ => readGenerations rest
      exact fun s s' h => ⟨rfl, h.view, h.ex, h.log, h.tick, h.roots, by simp [RM.modify, h.broken]⟩
    | some g => exact bind (readGenerations rest) fun _ => pure _

end Rel

theorem installGenerationsFromLinks_twin (hs : SafeInput env cfg) {J : Fs → Prop}
    (hJ : ∀ f, J f → RefsIn env cfg E f)
    (hstep : ∀ g f c, J f → InstallStep env cfg (.one g) f c → J (f.apply c)) {links : List Link}
    (hl : cfg.considered env = some links) :
    RelIn cfg E (fun s => J s.fs) (installGenerationsFromLinks env cfg links)
      (Busy.installGenerationsFromLinks o env cfg links) fun _ _ => True := by
  refine RelIn.bind (Q := fun gs s => J s.fs ∧
    ∀ g ∈ gs.flatMap (fun g : Gen × List Gen => g.1 :: g.2), Considers env cfg g) ?_ fun gs => ?_
  · intro s s' ht hj
    obtain ⟨h1, h2⟩ := Rel.readGenerations (env := env) links s s' ht
    refine ⟨h1, h2, ?_⟩
    obtain ⟨gs, t, b, he, h, -⟩ := readGenerations_spec env links s
    rw [he]
    rintro a ha
    cases ha
    refine ⟨hj, fun g hg => ?_⟩
    obtain ⟨x, hx, hgx⟩ := List.mem_flatMap.1 hg
    obtain ⟨link, hlink, j, hj, rfl⟩ := h x hx
    exact ⟨links, link, j, hl, hlink, hj, hgx⟩
  · refine RelIn.fact (fun hc => ?_) fun s h => h.2
    refine RelIn.pre (P := fun s => J s.fs) ?_ fun s h => h.1
    refine RelIn.ite (fun _ => .of_rel Rel.throw) fun _ => ?_
    refine RelIn.bind (installAll_twin hs hJ hstep _ hc) fun _ => .of_rel (Rel.syncFs _ ?_)
    exact .nixos (List.prefix_append _ _)

namespace Rel

theorem installedVersion {p : Path} (hp : Matters cfg p) :
    Rel cfg E (Tool.installedVersion env p) (Busy.installedVersion o env p) :=
  bind (readFs _ hp) fun _ => ofRes _

theorem newerSystemdBoot (a : Path) {p : Path} (hp : Matters cfg p) :
    Rel cfg E (Tool.newerSystemdBoot env a p) (Busy.newerSystemdBoot o env a p) :=
  bind (pathExists _ (.inl hp)) fun _ => ite (pure _) (bind (readSrc _) fun _ => bind (ofRes _) fun _ =>
    bind (attempt (installedVersion hp)) fun o => by cases o <;> exact pure _)

theorem orM {a b a' b' : M Bool} (h : Rel cfg E a a') (h' : Rel cfg E b b') :
    Rel cfg E (Tool.orM a b) (Tool.orM a' b') :=
  bind h fun _ => ite (pure _) h'

theorem andM {a b a' b' : M Bool} (h : Rel cfg E a a') (h' : Rel cfg E b b') :
    Rel cfg E (Tool.andM a b) (Tool.andM a' b') :=
  bind h fun _ => ite h' (pure _)

theorem measurementExists : Rel cfg E (Tool.measurementExists env cfg) (Busy.measurementExists o env cfg) := by
  unfold Tool.measurementExists Busy.measurementExists Config.pcrlock
  cases hp : cfg.pcrlockDirectory with
  | none => exact pure _
  | some p =>
    dsimp only [Option.map_some]
    rw [current_target]
    exact pathExists _ (.inl (spot_current hp).1)

theorem measureNext : Rel cfg E (Tool.measureNext env cfg) (Busy.measureNext o env cfg) := by
  unfold Tool.measureNext Busy.measureNext Config.pcrlock
  cases hp : cfg.pcrlockDirectory with
  | none => exact pure _
  | some p =>
    dsimp only [Option.map_some]
    rw [next_target]
    exact lockPe _ (spot_next hp)

theorem measurementDone : Rel cfg E (Tool.measurementDone env cfg) (Busy.measurementDone o env cfg) := by
  unfold Tool.measurementDone Busy.measurementDone Config.pcrlock
  cases hp : cfg.pcrlockDirectory with
  | none => exact pure _
  | some p =>
    dsimp only [Option.map_some]
    rw [next_target, current_target]
    exact rename _ (spot_next hp).1 (spot_current hp)

theorem spot_fallback : Spot cfg (fallbackFile cfg) ∧ Spot cfg (tmpOf (fallbackFile cfg)) :=
  spot_boot (.inl rfl) .fallback (by rw [fallbackFile_snoc]; exact isTmp_tmpOf _ (efiFallbackFilename_plain _))
theorem spot_systemd : Spot cfg (systemdFile cfg) ∧ Spot cfg (tmpOf (systemdFile cfg)) :=
  spot_boot (.inr (.inl rfl)) .systemd (by rw [systemdFile_snoc]; exact isTmp_tmpOf _ (systemdFilename_plain _))
theorem spot_conf : Spot cfg (confFile cfg) ∧ Spot cfg (tmpOf (confFile cfg)) :=
  spot_boot (.inr (.inr rfl)) .conf (by rw [confFile_snoc]; exact isTmp_tmpOf _ loaderConf_plain)

theorem replaceSystemdBoot : Rel cfg E (Tool.replaceSystemdBoot env cfg) (Busy.replaceSystemdBoot o env cfg) := by
  unfold Tool.replaceSystemdBoot Busy.replaceSystemdBoot
  rw [fallback_target, systemd_target]
  exact bind measureNext fun _ => bind (installSigned _ _ spot_fallback.1 spot_fallback.2) fun _ =>
    bind (installSigned _ _ spot_systemd.1 spot_systemd.2) fun _ => measurementDone

theorem installSystemdBoot : Rel cfg E (Tool.installSystemdBoot env cfg) (Busy.installSystemdBoot o env cfg) := by
  unfold Tool.installSystemdBoot Busy.installSystemdBoot
  rw [fallback_target, systemd_target, conf_target]
  exact bind (orM (newerSystemdBoot _ spot_fallback.1.1) (newerSystemdBoot _ spot_systemd.1.1)) fun _ =>
    bind (andM (verifyPath spot_fallback.1.1 _) (verifyPath spot_systemd.1.1 _)) fun _ =>
    bind measurementExists fun _ => ite (bind replaceSystemdBoot fun _ => install _ spot_conf.1 spot_conf.2)
      (install _ spot_conf.1 spot_conf.2)

theorem collectMeasurements : Rel cfg E (Tool.collectMeasurements env cfg) (Busy.collectMeasurements o env cfg) := by
  unfold Tool.collectMeasurements Busy.collectMeasurements Config.pcrlock
  cases hp : cfg.pcrlockDirectory with
  | none => exact pure _
  | some p =>
    have e : (PcrlockPaths.new p).lanzaboote = lockDir p := pcrlock_lanzaboote p
    dsimp only [Option.map_some]
    rw [e]
    exact collectGarbageWithFilter _ (deep_lock hp).listed fun q hq _ r hr => deep_lock hp r (hq.trans hr)

theorem collect : Rel cfg E (Tool.collect env cfg) (Busy.collect o env cfg) := by
  unfold Tool.collect Busy.collect
  rw [paths_nixos', paths_linux']
  refine bind_get fun s s' h => ?_
  rw [h.broken]
  exact ite (bind (change trivial) fun _ => bind (collectGarbageWithFilter _ deep_nixos.listed fun q hq _ r hr =>
    deep_nixos r (hq.trans hr)) fun _ => bind (collectGarbageWithFilter _ listed_linux fun q hq hn => deep_entry hq hn)
    fun _ => collectMeasurements) (pure _)

end Rel

/-- The run alone and the run among others that keep off do the same, on such disks. -/
theorem run_twin (hs : SafeInput env cfg) {J : Fs → Prop} (hJ : ∀ f, J f → RefsIn env cfg E f)
    (hstep : ∀ g f c, J f → InstallStep env cfg (.one g) f c → J (f.apply c)) :
    RelIn cfg E (fun s => J s.fs) (run env cfg) (Busy.run o env cfg) fun _ _ => True := by
  unfold run Busy.run
  cases hl : cfg.considered env with
  | none => exact .of_rel Rel.throw
  | some links =>
    show RelIn cfg E _ (installGenerationsFromLinks env cfg links >>= fun _ => _)
      (Busy.installGenerationsFromLinks o env cfg links >>= fun _ => _) _
    exact .bind (installGenerationsFromLinks_twin hs hJ hstep hl) fun _ =>
      .of_rel (Rel.bind Rel.installSystemdBoot fun _ => Rel.collect)

end Verif.Tool
