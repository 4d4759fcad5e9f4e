import Verif.Lemmas.Protect
/-!
# The installer keeps the file system a tree
-/
namespace Verif.Tool
open Verif StubName Generation

variable {env : Env} {cfg : Config} {ld : Scope}

theorem Fs.Tree.no_child {f : Fs} (h : f.Tree) {p : Path} {d : Bytes} (hp : f.fileAt p = some d)
    (n : Str) : f.get (p ++ [n]) = none := by
  cases hx : f.get (p ++ [n]) with
  | none => rfl
  | some x =>
    have := h.parent (p ++ [n]) (by simp) (by simp [hx])
    rw [List.dropLast_concat] at this
    rw [Fs.fileAt_eq_some, this] at hp
    cases hp

theorem Fs.Tree.rename {f : Fs} (h : f.Tree) {a b : Path} {x d : Bytes} (ha : f.fileAt a = some x)
    (hb : b ≠ []) (hne : a ≠ b) (hn : f.get b ≠ some .dir) (hp : f.get b.dropLast = some .dir) :
    (f.apply (.rename a b d)).Tree := by
  have hane := Fs.fileAt_ne_nil ha
  have h1 : (f.del a).Tree := h.del hane (h.no_child ha)
  have hpa : b.dropLast ≠ a := by
    intro e
    rw [Fs.fileAt_eq_some, ← e, hp] at ha
    cases ha
  have h2 : ((f.del a).put b (.file d)).Tree := by
    refine h1.put hb ?_ (Or.inr ?_)
    · rw [Fs.get_del _ _ _ hane, if_neg hpa]; exact hp
    · rw [Fs.get_del _ _ _ hane, if_neg (fun e => hne e.symm)]; exact hn
  refine h2.of_get ?_
  unfold Fs.apply
  dsimp only
  split <;> rfl

theorem Replaces.tree {to : Path} {S : Bytes → Prop} {dur : Bool} {f : Fs} {c : Change}
    (h : Replaces to S dur f c) (ht : f.Tree) : (f.apply c).Tree := by
  cases h with
  | mkdir a b c => exact ht.put (ancestors_ne_nil a) c (Or.inl rfl)
  | create a b =>
    have : tmpOf to ≠ [] := by intro e; rw [e] at a; simp at a
    exact (ht.put this b (Or.inr a)).of_get rfl
  | write a =>
    obtain ⟨d, hd⟩ := Option.isSome_iff_exists.1 a
    have hne := fileAt_isSome_ne a
    rw [Fs.fileAt_eq_some] at hd
    refine (ht.put hne (ht.parent _ hne (by simp [hd])) (Or.inr (by simp [hd]))).of_get rfl
  | fsync => exact ht.of_get rfl
  | rename a b c d e g =>
    have h2 : to ≠ [] := by intro x; rw [x] at d; simp at d
    exact ht.rename a h2 c d e
  | chmod => exact ht.of_get rfl
  | bits => exact ht.of_get rfl

theorem Outputs.tree {p : Path} {f : Fs} {c : Change} (h : Outputs p f c) (ht : f.Tree) :
    (f.apply c).Tree := by
  cases h with
  | mkdir a b c => exact ht.put (ancestors_ne_nil a) c (Or.inl rfl)
  | create a b =>
    have : p ≠ [] := by intro e; rw [e] at a; simp at a
    exact (ht.put this b (Or.inr a)).of_get rfl
  | write a =>
    obtain ⟨d, hd⟩ := Option.isSome_iff_exists.1 a
    have hne := fileAt_isSome_ne a
    rw [Fs.fileAt_eq_some] at hd
    refine (ht.put hne (ht.parent _ hne (by simp [hd])) (Or.inr (by simp [hd]))).of_get rfl
  | chmod => exact ht.of_get rfl

theorem InstallStep.tree {f : Fs} {c : Change} (h : InstallStep env cfg ld f c) (ht : f.Tree) :
    (f.apply c).Tree := by
  cases h with
  | replace t r => exact r.tree ht
  | measured _ _ _ o => exact o.tree ht
  | next _ _ o => exact o.tree ht
  | @current p t d m out out' hl hp hd hlm hf h1 h1s h2 h2s hn e =>
    subst e
    refine ht.rename hf (by simp [currentFile]) ?_ hn ?_
    · intro e
      have := congrArg lastTwo e
      rw [nextFile_lastTwo, currentFile_lastTwo] at this
      simp at this
      exact absurd this (by decide)
    · have := ht.parent (nextFile p) (Fs.fileAt_ne_nil hf) (by rw [Fs.fileAt_eq_some.1 hf]; rfl)
      have e : (currentFile p).dropLast = (nextFile p).dropLast := by
        rw [show currentFile p = (p ++ [lit "630-bootloader.pcrlock.d"]) ++ [lit "current.pcrlock"] by
          simp [currentFile], show nextFile p = (p ++ [lit "630-bootloader.pcrlock.d"]) ++
          [lit "next.pcrlock"] by simp [nextFile], List.dropLast_concat, List.dropLast_concat]
      rw [e]; exact this
  | sync _ e => subst e; exact ht.of_get rfl

theorem GcStep.tree {dir : Path} {pred : Path → Bool} {roots : List Path} {f : Fs} {c : Change}
    (h : GcStep dir pred roots f c) (ht : f.Tree) : (f.apply c).Tree := by
  cases h with
  | unlink hq hp hf =>
    obtain ⟨d, hd⟩ := Option.isSome_iff_exists.1 hf
    exact ht.del (Fs.fileAt_ne_nil hd) (ht.no_child hd)
  | @rmdir p q hq hp hd he hn =>
    refine ht.del hn fun n => ?_
    exact Fs.children_empty.1 (by simpa using he) n

theorem GcAny.tree {roots : List Path} {f : Fs} {c : Change} (h : GcAny cfg roots f c) (ht : f.Tree) :
    (f.apply c).Tree := by
  cases h with
  | nixos h => exact h.tree ht
  | linux h => exact h.tree ht
  | lock _ h => exact h.tree ht

/-- At every moment the file system is a tree. -/
theorem killed_tree (hs : SafeInput env cfg) {fs : Fs} (ht : fs.Tree) {done : List Change}
    (hk : KilledAfter env cfg fs done) : (fs.replay done).Tree := by
  obtain ⟨a, b, gens, final, sh⟩ := run_plain hs fs
  rcases sh.phases hk with ⟨-, -, hch⟩ | ⟨-, hst, l, -, hgc, e, -⟩
  · exact hch.inv ht fun f c j st => st.tree j
  · rw [e]
    exact hgc.inv (hst.inv ht fun f c j st => st.tree j) fun f c j st => st.tree j

end Verif.Tool
