import Verif.Spec.Ready
import Verif.Lemmas.LoaderFiles
import Verif.Lemmas.Trees
/-!
# Operations that succeed
-/
namespace Verif.Tool
open Verif StubName Generation

variable {env : Env} {cfg : Config} {α β : Type}

/-- On the file system `f` the function returns a value, and this relates it to the file system afterwards. -/
def Live (m : M α) (f : Fs) (Q : α → Fs → Prop) : Prop :=
  ∀ s : State, s.fs = f → ∃ a s', m s = (.ok a, s') ∧ Q a s'.fs

namespace Live

theorem pure {a : α} {f : Fs} {Q : α → Fs → Prop} (h : Q a f) : Live (Pure.pure a : M α) f Q :=
  fun s e => ⟨a, s, rfl, e ▸ h⟩

theorem bind {m : M α} {k : α → M β} {f : Fs} {Q : α → Fs → Prop} {R : β → Fs → Prop}
    (h : Live m f Q) (h' : ∀ a f', Q a f' → Live (k a) f' R) : Live (m >>= k) f R := by
  intro s e
  obtain ⟨a, s', e1, q⟩ := h s e
  obtain ⟨b, s'', e2, r⟩ := h' a s'.fs q s' rfl
  exact ⟨b, s'', by rw [RM.bind_run, e1]; exact e2, r⟩

theorem mono {m : M α} {f : Fs} {Q Q' : α → Fs → Prop} (h : Live m f Q)
    (hq : ∀ a f', Q a f' → Q' a f') : Live m f Q' := fun s e =>
  let ⟨a, s', e1, q⟩ := h s e
  ⟨a, s', e1, hq _ _ q⟩

/-- A function that returns `a` and only takes time. -/
theorem of_answers {m : M α} {f : Fs} {a : α} (h : ∀ s : State, s.fs = f → Answers m s a) :
    Live m f fun x f' => x = a ∧ f' = f := fun s e =>
  let ⟨_, e1⟩ := h s e
  ⟨a, _, e1, rfl, e⟩

/-- Continue after a function that only takes time. -/
theorem after {m : M α} {k : α → M β} {f : Fs} {a : α} {R : β → Fs → Prop}
    (h : ∀ s : State, s.fs = f → Answers m s a) (h' : Live (k a) f R) : Live (m >>= k) f R :=
  (of_answers h).bind fun _ _ ⟨h1, h2⟩ => h1 ▸ h2 ▸ h'

theorem getFs {k : Fs → M β} {f : Fs} {R : β → Fs → Prop} (h : Live (k f) f R) :
    Live (Tool.getFs >>= k) f R :=
  fun s e => h s e |>.imp fun a h => h.imp fun s' h => ⟨by
    rw [RM.bind_run]; show k s.fs s = _; rw [e]; exact h.1, h.2⟩

theorem next {k : Nat → M β} {f : Fs} {R : β → Fs → Prop} (h : ∀ t, Live (k t) f R) :
    Live (Tool.next >>= k) f R := fun s e => by
  obtain ⟨a, s', h1, h2⟩ := h s.tick { s with tick := s.tick + 1 } e
  exact ⟨a, s', by rw [RM.bind_run]; exact h1, h2⟩

theorem change {c : Change} {f : Fs} : Live (Tool.change c) f fun _ f' => f' = f.apply c :=
  fun s e => ⟨(), _, rfl, by rw [← e]⟩

theorem attempt {m : M α} {f : Fs} {Q : α → Fs → Prop} (h : Live m f Q) :
    Live (RM.attempt m) f fun o f' => ∃ a, o = some a ∧ Q a f' := fun s e => by
  obtain ⟨a, s', h1, h2⟩ := h s e
  exact ⟨some a, s', by simp [RM.attempt, h1], a, rfl, h2⟩

theorem guarded (hf : Faultless env) {k : Unit → M β} {f : Fs} {R : β → Fs → Prop} (h : Live (k ()) f R) :
    Live (Tool.guarded env.os >>= k) f R := after (fun s _ => answers_guarded hf s) h

theorem readSrc (hf : Faultless env) {src : Src} {d : Bytes} (hd : env.content src = some d)
    {k : Bytes → M β} {f : Fs} {R : β → Fs → Prop} (h : Live (k d) f R) :
    Live (Tool.readSrc env src >>= k) f R := after (fun s _ => answers_readSrc hf s hd) h

theorem readFs (hf : Faultless env) {p : Path} {d : Bytes} {f : Fs} (hd : f.fileAt p = some d)
    {k : Bytes → M β} {R : β → Fs → Prop} (h : Live (k d) f R) :
    Live (Tool.readFs env.os p >>= k) f R := after (fun s e => answers_readFs hf s (e ▸ hd)) h

theorem pathExists (hf : Faultless env) (p : Path) {f : Fs}
    {k : Bool → M β} {R : β → Fs → Prop} (h : Live (k (f.get p).isSome) f R) :
    Live (Tool.pathExists env.os p >>= k) f R := after (fun s e => e ▸ answers_pathExists hf s p) h

theorem writeSecureFile (hf : Faultless env) (d : Bytes) {f : Fs}
    {k : Bytes → M β} {R : β → Fs → Prop} (h : Live (k d) f R) :
    Live (Tool.writeSecureFile env d >>= k) f R :=
  after (fun s _ => Answers.bind (answers_guarded hf s) fun _ => .pure _ _) h

theorem fileSize (hf : Faultless env) (d : Bytes) {f : Fs}
    {k : UInt64 → M β} {R : β → Fs → Prop} (h : Live (k (UInt64.ofNat d.length)) f R) :
    Live (Tool.fileSize env d >>= k) f R :=
  after (fun s _ => Answers.bind (answers_guarded hf s) fun _ => .pure _ _) h

theorem hashSrc (hf : Faultless env) {src : Src} {d : Bytes} (hd : env.content src = some d)
    {k : Bytes → M β} {f : Fs} {R : β → Fs → Prop} (h : Live (k (env.sha.hash d)) f R) :
    Live (Tool.hashSrc env src >>= k) f R :=
  after (fun s _ => Answers.bind (answers_readSrc hf s hd) fun _ => .pure _ _) h

theorem ofOption {o : Option α} {a : α} (ho : o = some a) {k : α → M β} {f : Fs} {R : β → Fs → Prop}
    (h : Live (k a) f R) : Live (Tool.ofOption o >>= k) f R :=
  after (fun s _ => ⟨s.tick, by rw [ho]; rfl⟩) h

theorem require {b : Bool} (hb : b = true) {k : Unit → M β} {f : Fs} {R : β → Fs → Prop}
    (h : Live (k ()) f R) : Live (Tool.require b >>= k) f R :=
  after (fun s _ => ⟨s.tick, by rw [hb]; rfl⟩) h

theorem extendRoots (ps : List Path) {k : Unit → M β} {f : Fs} {R : β → Fs → Prop}
    (h : Live (k ()) f R) : Live (Tool.extendRoots ps >>= k) f R := by
  refine Live.bind (Q := fun _ f' => f' = f) (fun s e => ⟨(), _, rfl, e⟩) ?_
  rintro _ _ rfl
  exact h

theorem key (hf : Faultless env) {signer : Signer} {key : Bytes} (hk : KeyOf env signer key)
    {k : Bytes → M β} {f : Fs} {R : β → Fs → Prop} (h : Live (k key) f R) :
    Live (signer.getPublicKey env >>= k) f R := by
  cases signer with
  | empty => rw [show key = _ from hk] at h; exact after (fun s _ => .pure _ s) h
  | «local» pub priv => exact readSrc (src := .store pub) hf hk h

end Live

/-! ### Writing files -/

/-- `f'` is `f` with the file `p` replaced by one with content `d`. -/
structure Rewritten (p : Path) (d : Bytes) (f f' : Fs) : Prop where
  tree : f'.Tree
  at_ : f'.get p = some (.file d)
  else_ : ∀ x, x ≠ p → f'.get x = f.get x

/-- `f'` is `f` with some directories made above and including `p`. -/
structure DirsMade (p : Path) (f f' : Fs) : Prop where
  tree : f'.Tree
  at_ : f'.get p = some .dir
  else_ : ∀ x, f'.get x = f.get x ∨ (f'.get x = some .dir ∧ x <+: p)

variable {f : Fs} {p : Path}

theorem live_createFile (hf : Faultless env) (h1 : f.get p ≠ some .dir) (h2 : f.get p.dropLast = some .dir) :
    Live (createFile env.os p) f fun _ f' => f' = f.apply (.create p) := by
  unfold createFile
  refine .guarded hf (.getFs (.require ?_ .change))
  simp [parentIsDir, h1, h2]

theorem rewritten_write {d x : Bytes} {f0 : Fs} (hp : p ≠ []) (h : Rewritten p d f0 f) :
    Rewritten p x f0 (f.apply (.write p x)) where
  tree := by
    have hd := h.tree.parent p hp (by rw [h.at_]; rfl)
    exact (h.tree.put hp hd (Or.inr (by rw [h.at_]; simp)) : (f.put p (.file x)).Tree).of_get rfl
  at_ := by simp [Fs.apply, Fs.get_put _ _ _ _ hp]
  else_ q hq := by simp [Fs.apply, Fs.get_put _ _ _ _ hp, hq]; exact h.else_ q hq

theorem live_writePartials (hp : p ≠ []) (ds : List Bytes) : ∀ {f f0 : Fs} {d : Bytes}, Rewritten p d f0 f →
    Live (writePartials p ds) f fun _ f' => ∃ d', Rewritten p d' f0 f' := by
  induction ds with
  | nil => exact fun h => .pure ⟨_, h⟩
  | cons x ds ih =>
    intro f f0 d h
    unfold writePartials
    refine Live.bind .change ?_
    rintro _ _ rfl
    exact ih (rewritten_write hp h)

theorem live_writeFile (hf : Faultless env) (hp : p ≠ []) {f f0 : Fs} {d : Bytes} (h : Rewritten p d f0 f)
    (c : Bytes) : Live (writeFile env.os p c) f fun _ f' => Rewritten p c f0 f' := by
  unfold writeFile
  refine .next fun t => ?_
  refine (live_writePartials hp _ h).bind ?_
  rintro _ f' ⟨d', h'⟩
  refine .guarded hf (Live.change.mono ?_)
  rintro _ _ rfl
  exact rewritten_write hp h'

theorem rewritten_create (ht : f.Tree) (h1 : f.get p ≠ some .dir) (h2 : f.get p.dropLast = some .dir) :
    Rewritten p [] f (f.apply (.create p)) := by
  have hp : p ≠ [] := by rintro rfl; simp at h1
  refine ⟨(ht.put hp h2 (Or.inr h1) : (f.put p (.file [])).Tree).of_get rfl, ?_, fun x hx => ?_⟩
  · rw [Fs.get_create hp, if_pos rfl]
  · rw [Fs.get_create hp, if_neg hx]

theorem live_writeOut (hf : Faultless env) (ht : f.Tree) (h1 : f.get p ≠ some .dir)
    (h2 : f.get p.dropLast = some .dir) (d : Bytes) :
    Live (writeOut env p d) f fun _ f' => Rewritten p d f f' := by
  have hp : p ≠ [] := by rintro rfl; simp at h1
  unfold writeOut
  refine (live_createFile hf h1 h2).bind ?_
  rintro _ _ rfl
  exact live_writeFile hf hp (rewritten_create ht h1 h2) d

theorem live_mkdir (hf : Faultless env) (h1 : f.get p = none) (h2 : f.get p.dropLast = some .dir) :
    Live (mkdir env.os p) f fun _ f' => f' = f.apply (.mkdir p) := by
  unfold mkdir
  refine .guarded hf (.getFs (.require ?_ .change))
  simp [parentIsDir, h1, h2]

/-- Making the directories of `ps`, each in the previous one. -/
theorem live_mkdirMissing (hf : Faultless env) (p : Path) (k : Nat) : ∀ (n : Nat) {f : Fs}, f.Tree →
    n + k = p.length → f.get (p.take n) = some .dir → (∀ q, q <+: p → ∀ d, f.get q ≠ some (.file d)) →
    Live (mkdirMissing env.os ((List.range' n k).map fun i => p.take (i + 1))) f
      fun _ f' => DirsMade p f f' := by
  induction k with
  | zero =>
    intro n f ht hn hd _
    rw [show n = p.length by omega, List.take_length] at hd
    exact .pure ⟨ht, hd, fun _ => Or.inl rfl⟩
  | succ k ih =>
    intro n f ht hn hd hq
    rw [List.range'_succ, List.map_cons]
    unfold mkdirMissing
    refine .getFs ?_
    have hne : p.take (n + 1) ≠ [] := by
      intro e
      have := congrArg List.length e
      rw [List.length_take, List.length_nil] at this
      omega
    have hdl : (p.take (n + 1)).dropLast = p.take n := by
      rw [List.dropLast_eq_take, List.take_take, List.length_take]
      congr 1
      omega
    split
    · next h => exact ih (n + 1) ht (by omega) h hq
    · next h =>
      have hnone : f.get (p.take (n + 1)) = none := by
        cases hx : f.get (p.take (n + 1)) with
        | none => rfl
        | some x =>
          cases x with
          | dir => exact absurd hx h
          | file d => exact absurd hx (hq _ (List.take_prefix _ _) d)
      refine (live_mkdir hf hnone (by rw [hdl]; exact hd)).bind ?_
      rintro _ _ rfl
      have hget : ∀ q, (f.apply (.mkdir (p.take (n + 1)))).get q =
          if q = p.take (n + 1) then some .dir else f.get q := fun q => Fs.get_mkdir hne q
      refine (ih (n + 1) (f := f.apply (.mkdir (p.take (n + 1)))) ?_ (by omega) ?_ ?_).mono ?_
      · exact ht.put hne (by rw [hdl]; exact hd) (Or.inl rfl)
      · rw [hget, if_pos rfl]
      · intro q hqp d
        rw [hget]
        split
        · simp
        · exact hq q hqp d
      · rintro _ f' ⟨h1, h2, h3⟩
        refine ⟨h1, h2, fun x => ?_⟩
        rcases h3 x with e | e
        · rw [hget] at e
          split at e
          · next e' => exact Or.inr ⟨e, e' ▸ List.take_prefix _ _⟩
          · exact Or.inl e
        · exact Or.inr e

theorem live_createDirAll (hf : Faultless env) (ht : f.Tree) (h : ∀ q, q <+: p → ∀ d, f.get q ≠ some (.file d)) :
    Live (createDirAll env.os p) f fun _ f' => DirsMade p f f' := by
  have := live_mkdirMissing hf p p.length 0 ht (by omega) (by simp) h
  unfold createDirAll ancestors
  rw [List.range_eq_range']
  exact this

theorem live_ensureParentDir (hf : Faultless env) (ht : f.Tree) (hp : p ≠ [])
    (h : ∀ q, q <+: p.dropLast → ∀ d, f.get q ≠ some (.file d)) :
    Live (ensureParentDir env.os p) f fun _ f' => DirsMade p.dropLast f f' := by
  unfold ensureParentDir Path.parent
  rw [if_neg hp]
  refine (live_createDirAll hf ht h).attempt.bind ?_
  rintro _ f' ⟨_, -, h⟩
  exact .pure h

theorem live_rename (hf : Faultless env) {a b : Path} {d : Bytes} (ha : f.fileAt a = some d)
    (h1 : f.get b ≠ some .dir) (h2 : f.get b.dropLast = some .dir) (hne : a ≠ b) :
    Live (rename env.os a b) f fun _ f' => f' = f.apply (.rename a b d) := by
  unfold rename
  refine .guarded hf (.getFs ?_)
  rw [ha]
  refine .require ?_ ?_
  · simp [parentIsDir, h1, h2]
  · rw [if_neg hne]
    exact .change

/-- `f'` is `f` after `to` has been replaced, through a temporary file, by a file with content `d`; missing directories
have been made. -/
structure Replaced (to : Path) (d : Bytes) (f f' : Fs) : Prop where
  tree : f'.Tree
  at_ : f'.get to = some (.file d)
  else_ : ∀ x, x ≠ to → f'.get x = f.get x ∨ (f'.get x = some .dir ∧ x <+: to.dropLast) ∨
    (x = tmpOf to ∧ f'.get x = none)

/-- What it takes to replace `to`. -/
structure CanReplace (f : Fs) (to : Path) : Prop where
  tree : f.Tree
  ne : tmpOf to ≠ to
  here : RoomFor f to
  tmp : RoomFor f (tmpOf to)

theorem RoomFor.ne_nil (h : RoomFor f p) : p ≠ [] := by
  rintro rfl
  exact h.not_dir (by simp)

theorem dropLast_ne {q : Path} (hp : p ≠ []) (h : q <+: p.dropLast) : q ≠ p := by
  rintro rfl
  have := h.length_le
  have := dropLast_length hp
  omega

theorem RoomFor.parents (h : RoomFor f p) : ∀ q, q <+: p.dropLast → ∀ d, f.get q ≠ some (.file d) :=
  fun q hq => h.above q (hq.trans (List.dropLast_prefix p)) (dropLast_ne h.ne_nil hq)

theorem DirsMade.keeps_room {d : Path} {f' : Fs} (h : DirsMade d f f') (hr : RoomFor f p) (hd : ¬ p <+: d) :
    RoomFor f' p where
  not_dir := by
    rcases h.else_ p with e | ⟨-, e⟩
    · rw [e]; exact hr.not_dir
    · exact absurd e hd
  above q hq hne x := by
    rcases h.else_ q with e | ⟨e, -⟩
    · rw [e]; exact hr.above q hq hne x
    · rw [e]; simp

theorem not_prefix_dropLast (hp : p ≠ []) : ¬ p <+: p.dropLast := by
  intro h
  exact dropLast_ne hp h rfl

/-- The last part of replacing a file. -/
theorem replaced_rename {to : Path} {d : Bytes} {f0 f1 : Fs} (hn : tmpOf to ≠ to) (hto : to ≠ [])
    (hm : DirsMade to.dropLast f0 f1) (hw : Rewritten (tmpOf to) d f1 f) (h1 : f.get to ≠ some .dir)
    (h2 : f.get to.dropLast = some .dir) :
    Replaced to d f0 (f.apply (.rename (tmpOf to) to d)) := by
  have hfa : f.fileAt (tmpOf to) = some d := Fs.fileAt_eq_some.2 hw.at_
  have ht := Fs.fileAt_ne_nil hfa
  have hget := fun q => Fs.get_rename (fs := f) (d := d) ht hto q
  refine ⟨hw.tree.rename hfa hto hn h1 h2, ?_, fun x hx => ?_⟩
  · rw [hget, if_pos rfl]
  · rw [hget, if_neg hx]
    by_cases e : x = tmpOf to
    · exact Or.inr (Or.inr ⟨e, by rw [if_pos e]⟩)
    · rw [if_neg e, hw.else_ x e]
      rcases hm.else_ x with h | h
      · exact Or.inl h
      · exact Or.inr (Or.inl h)

theorem live_signAndCopy (hf : Faultless env) (ht : f.Tree) (h1 : f.get p ≠ some .dir)
    (h2 : f.get p.dropLast = some .dir) {signer : Signer} {src : Src} {d : Bytes} (hd : env.content src = some d)
    (hs : ∀ pub priv, signer = .local pub priv → ∀ t, (env.sbsign t priv pub d).isSome) :
    Live (signer.signAndCopy env src p) f fun _ f' => ∃ out, SignedBy env signer d out ∧ Rewritten p out f f' := by
  cases signer with
  | empty =>
    have hp : p ≠ [] := by rintro rfl; simp at h1
    unfold Signer.signAndCopy copyFile
    refine .readSrc hf hd ((live_createFile hf h1 h2).bind ?_)
    rintro _ _ rfl
    refine .guarded hf (Live.bind .change ?_)
    rintro _ _ rfl
    have hr := rewritten_create ht h1 h2
    have hr' : Rewritten p [] f ((f.apply (.create p)).apply (.chmod p (env.mode src))) :=
      ⟨hr.tree.of_get rfl, hr.at_, hr.else_⟩
    exact (live_writeFile hf hp hr' d).mono fun _ f' h => ⟨d, rfl, h⟩
  | «local» pub priv =>
    unfold Signer.signAndCopy
    refine .readSrc hf hd (.next fun t => ?_)
    obtain ⟨out, ho⟩ := Option.isSome_iff_exists.1 (hs pub priv rfl t)
    rw [ho]
    exact (live_writeOut hf ht h1 h2 out).mono fun _ f' h => ⟨out, ⟨t, ho⟩, h⟩

theorem live_installSigned (hf : Faultless env) {to : Path} (h : CanReplace f to) {signer : Signer} {src : Src}
    {d : Bytes} (hd : env.content src = some d)
    (hs : ∀ pub priv, signer = .local pub priv → ∀ t, (env.sbsign t priv pub d).isSome) :
    Live (installSigned env signer src to) f fun _ f' => ∃ out, SignedBy env signer d out ∧ Replaced to out f f' := by
  obtain ⟨ht, hn, hto, htmp⟩ := h
  have hne := hto.ne_nil
  unfold installSigned
  refine (live_ensureParentDir hf ht htmp.ne_nil htmp.parents).bind fun _ f1 hm => ?_
  have r1 : RoomFor f1 (tmpOf to) := hm.keeps_room htmp (not_prefix_dropLast htmp.ne_nil)
  have hm' : DirsMade to.dropLast f f1 := tmpOf_dropLast to ▸ hm
  have r2 : RoomFor f1 to := hm'.keeps_room hto (not_prefix_dropLast hne)
  refine (live_signAndCopy hf hm.tree r1.not_dir hm.at_ hd hs).bind ?_
  rintro _ f2 ⟨out, hso, hw⟩
  have e1 : f2.get to = f1.get to := hw.else_ _ (Ne.symm hn)
  have e2 : f2.get to.dropLast = some .dir := by
    rw [hw.else_ _ ?_]; exact hm'.at_
    rw [← tmpOf_dropLast]
    exact fun e => dropLast_ne htmp.ne_nil (e ▸ List.prefix_refl _) e
  refine (live_rename hf (Fs.fileAt_eq_some.2 hw.at_) (by rw [e1]; exact r2.not_dir) e2 hn).mono ?_
  rintro _ _ rfl
  exact ⟨out, hso, replaced_rename hn hne hm' hw (by rw [e1]; exact r2.not_dir) e2⟩

theorem live_forceInstall (hf : Faultless env) {to : Path} (h : CanReplace f to) {src : Src} {d : Bytes}
    (hd : env.content src = some d) :
    Live (forceInstall env src to) f fun _ f' => Replaced to d f f' := by
  obtain ⟨ht, hn, hto, htmp⟩ := h
  have hne := hto.ne_nil
  unfold forceInstall atomicCopy
  refine (live_ensureParentDir hf ht hne hto.parents).bind fun _ f1 hm => ?_
  have hm' : DirsMade (tmpOf to).dropLast f f1 := (tmpOf_dropLast to).symm ▸ hm
  have r1 : RoomFor f1 (tmpOf to) := hm'.keeps_room htmp (not_prefix_dropLast htmp.ne_nil)
  have r2 : RoomFor f1 to := hm.keeps_room hto (not_prefix_dropLast hne)
  refine Live.bind (Q := fun _ f' => Replaced to d f f') ?_ ?_
  · refine .readSrc hf hd ?_
    refine (live_createFile hf r1.not_dir hm'.at_).bind ?_
    rintro _ _ rfl
    refine (live_writeFile hf htmp.ne_nil (rewritten_create hm.tree r1.not_dir hm'.at_) d).bind fun _ f2 hw => ?_
    refine Live.bind (Q := fun _ f' => Rewritten (tmpOf to) d f1 f') ?_ fun _ f3 hw => ?_
    · unfold fsync
      refine .guarded hf (Live.change.mono ?_)
      rintro _ _ rfl
      exact ⟨hw.tree.of_get rfl, hw.at_, hw.else_⟩
    have e1 : f3.get to = f1.get to := hw.else_ _ (Ne.symm hn)
    have e2 : f3.get to.dropLast = some .dir := by
      rw [hw.else_ _ ?_]; exact hm.at_
      rw [← tmpOf_dropLast]
      exact fun e => dropLast_ne htmp.ne_nil (e ▸ List.prefix_refl _) e
    refine (live_rename hf (Fs.fileAt_eq_some.2 hw.at_) (by rw [e1]; exact r2.not_dir) e2 hn).mono ?_
    rintro _ _ rfl
    exact replaced_rename hn hne hm hw (by rw [e1]; exact r2.not_dir) e2
  · intro _ f2 hr
    unfold setPermissionBits
    refine .guarded hf (.getFs (.require (by rw [hr.at_]; rfl) (.guarded hf (Live.change.mono ?_))))
    rintro _ _ rfl
    exact hr

theorem live_install (hf : Faultless env) {to : Path} (h : CanReplace f to) {src : Src} {d : Bytes}
    (hd : env.content src = some d) :
    Live (install env src to) f fun _ f' => f' = f ∨ Replaced to d f f' := by
  unfold install
  refine Live.bind (Q := fun _ f' => f' = f) ?_ ?_
  · unfold needsInstall
    refine .pathExists hf _ ?_
    split
    · exact .pure rfl
    · next hb =>
      refine .hashSrc hf hd ?_
      have : ∃ d', f.fileAt to = some d' := by
        cases hg : f.get to with
        | none => rw [hg] at hb; simp at hb
        | some x =>
          cases x with
          | dir => exact absurd hg h.here.not_dir
          | file d' => exact ⟨d', Fs.fileAt_eq_some.2 hg⟩
      obtain ⟨d', hd'⟩ := this
      refine .after (a := env.sha.hash d') (fun s e => ?_) (.pure rfl)
      exact Answers.bind (answers_readFs hf s (e ▸ hd')) fun _ => .pure _ _
  · rintro b _ rfl
    split
    · exact (live_forceInstall hf h hd).mono fun _ _ => Or.inr
    · exact .pure (Or.inl rfl)

theorem live_lockPe (hf : Faultless env) (ht : f.Tree) (hr : RoomFor f p) {src : Src} {d : Bytes}
    (hd : env.content src = some d) (hs : ∀ t, (env.lockPe t d).isSome) :
    Live (lockPe env src p) f fun _ f' => ∃ t m f1, env.lockPe t d = some m ∧ DirsMade p.dropLast f f1 ∧
      Rewritten p m f1 f' := by
  unfold lockPe
  refine .readSrc hf hd ?_
  refine (live_ensureParentDir hf ht hr.ne_nil hr.parents).bind fun _ f1 hm => ?_
  refine .next fun t => ?_
  obtain ⟨m, e⟩ := Option.isSome_iff_exists.1 (hs t)
  rw [e]
  have r1 : RoomFor f1 p := hm.keeps_room hr (not_prefix_dropLast hr.ne_nil)
  exact (live_writeOut hf hm.tree r1.not_dir hm.at_ m).mono fun _ f' h => ⟨t, m, f1, e, hm, h⟩

end Verif.Tool
