import Verif.Props.Literal
import Verif.Spec.Archive
/-!
# C05, C07, C72: the archives of companion files, against the specification of their members
-/
namespace Verif.Companion
open Verif Verif.Cpio Verif.Companion.Spec

theorem lastComponent_baseName (p : Str16) : LastComponent p (baseName p) := by
  have e : p = ((p.reverse.dropWhile (· != sep16)).reverse) ++ baseName p := by
    unfold baseName
    rw [← List.reverse_append, List.takeWhile_append_dropWhile, List.reverse_reverse]
  refine ⟨?_, ?_⟩
  · unfold baseName
    intro h
    have h' := List.mem_reverse.1 h
    have := List.all_takeWhile (p := (· != sep16)) (l := p.reverse)
    have := (List.all_eq_true.1 this) _ h'
    exact absurd this (by decide)
  · cases hd : p.reverse.dropWhile (· != sep16) with
    | nil =>
      rw [hd] at e
      exact Or.inl e
    | cons x l =>
      rw [hd] at e
      have hx : x = sep16 := by
        have := List.head?_dropWhile_not (· != sep16) p.reverse
        rw [hd] at this
        simpa using this
      subst hx
      exact Or.inr ⟨l.reverse, by rw [List.reverse_cons] at e; exact e⟩

theorem lastComponent_eq {p n : Str16} (h : LastComponent p n) : n = baseName p := by
  obtain ⟨h1, rfl | ⟨dir, rfl⟩⟩ := h
  · unfold baseName
    have := List.takeWhile_append_of_pos (p := (· != sep16)) (l₁ := p.reverse) (l₂ := []) (by
      intro u hu
      simp only [bne_iff_ne, ne_eq]
      rintro rfl
      exact h1 (List.mem_reverse.1 hu))
    rw [List.append_nil, List.takeWhile_nil, List.append_nil] at this
    rw [this, List.reverse_reverse]
  · exact (Stub.baseName_append (dir := dir) (name := n) h1).symm

theorem inUtf8_toUtf8 (n : Str16) : InUtf8 n (toUtf8 n) := by
  intro text h
  unfold toUtf8 utf8
  induction n generalizing text with
  | nil => cases text with
    | nil => rfl
    | cons => simp at h
  | cons u n ih => cases text with
    | nil => simp at h
    | cons c text =>
      simp only [List.map_cons, List.cons.injEq] at h
      rw [List.flatMap_cons, List.flatMap_cons, ih text h.2, ← h.1, Char.ofNat_toNat]

theorem packFileList_named {fw : Fw} {pfx : Bytes} {am : UInt32} {l : List Str16} {s s' : State}
    (h : packFileList fw pfx am l s = (.ok (), s')) : ∀ f ∈ l, baseName f ≠ [] := by
  induction l generalizing s with
  | nil => simp
  | cons f l ih =>
    simp only [packFileList] at h
    by_cases hb : baseName f = []
    · simp [hb] at h
    · simp only [hb, if_false] at h
      cases hc : fw.read f with
      | none => simp [hc] at h
      | some c =>
        simp only [hc, RM.bind_run] at h
        rcases hp : packOne (toUtf8 (baseName f)) c pfx am s with ⟨n | e | _, s1⟩
        · simp only [hp] at h
          intro x hx
          rcases List.mem_cons.1 hx with rfl | hx
          · exact hb
          · exact ih h x hx
        · simp [hp] at h
        · simp [hp] at h

theorem packCpio_named {fw : Fw} {files : List Str16} {pfx : Bytes} {dm am : UInt32} {s : State}
    (h : packCpio fw files pfx dm am = .ok s) : ∀ f ∈ sortPaths files, baseName f ≠ [] := by
  unfold packCpio at h
  simp only [RM.bind_run] at h
  rcases hp : packPrefix pfx dm new with ⟨⟨_⟩ | e | _, s1⟩
  · simp only [hp] at h
    rcases hf : packFileList fw pfx am (sortPaths files) s1 with ⟨⟨_⟩ | e | _, s2⟩
    · exact packFileList_named hf
    · simp [hf] at h
    · simp [hf] at h
  · simp [hp] at h
  · simp [hp] at h

/-- **C07.** In a companion archive with a non-empty directory prefix, the only member with the
end-of-archive name is the last one; extracting the archive yields the directories and then one member for
every packed file, in the order of their paths. No file name can hide the files after it. -/
theorem C07_trailer_only_last {fw : Fw} {files : List Str16} {pfx : Bytes} {dm am : UInt32}
    {s : State} (h : packCpio fw files pfx dm am = .ok s) (hpfx : pfx ≠ []) :
    (∃ sorted members, sorted.Perm files ∧ sorted.Pairwise (· ≤ ·) ∧
      List.Forall₂ (MemberFor fw pfx am.toNat) sorted members ∧
      Newc.extract s.buffer = some (numbered
        ((properAncestors pfx).map (fun a => ⟨0o555 ||| Newc.S_IFDIR, [0x2F] ++ a, []⟩) ++
          [⟨dm.toNat ||| Newc.S_IFDIR, [0x2F] ++ pfx, []⟩] ++ members))) ∧
    (∃ recs t, Newc.readAll s.buffer = some (recs ++ [t]) ∧ t.name = Newc.trailer ∧
      ∀ r ∈ recs, r.name ≠ Newc.trailer) := by
  obtain ⟨h1, h2, h3, h4⟩ := trailer_only_last h hpfx
  refine ⟨⟨sortPaths files, (sortPaths files).map (fileMember fw pfx am), h3, sortPaths_sorted _, ?_, h1⟩, h2⟩
  have hr : ∀ f ∈ sortPaths files, baseName f ≠ [] ∧ ∃ c, fw.read f = some c := fun f hf =>
    ⟨packCpio_named h f hf, h4 f (h3.mem_iff.1 hf)⟩
  revert hr
  generalize sortPaths files = l
  intro hr
  induction l with
  | nil => exact .nil
  | cons f l ih =>
    refine .cons ?_ (ih fun x hx => hr x (by simp [hx]))
    obtain ⟨hb, c, hc⟩ := hr f (by simp)
    exact ⟨⟨_, _, lastComponent_baseName f, hb, inUtf8_toUtf8 _, rfl⟩, by simp [fileMember, hc], rfl⟩

/-- **C05** for the archives the boot stub actually builds: files that can be read, with non-empty
names shorter than 2^29 units, are packed without a panic under any prefix shorter than 2^31. -/
theorem C05_companions_no_panic {fw : Fw} {files : List Str16} {pfx : Bytes} {dm am : UInt32}
    (hread : ∀ f ∈ files, ∃ n c, LastComponent f n ∧ n ≠ [] ∧ n.length < 2 ^ 29 ∧ fw.read f = some c)
    (hpfx : pfx.length < 2 ^ 31 - 1) : packCpio fw files pfx dm am ≠ .panic :=
  companions_no_panic (fun f hf => by
    obtain ⟨n, c, h1, h2, h3, h4⟩ := hread f hf
    have := lastComponent_eq h1
    subst this
    have := toUtf8_length_le (baseName f)
    exact ⟨h2, ⟨c, h4⟩, by omega⟩) hpfx

/-- Non-vacuity of `C05_companions_no_panic`. -/
example : packCpio (demoFw []) [lit16 "\\d\\a.cred"] [0x61] 0o500 0o400 ≠ .panic :=
  C05_companions_no_panic (fun f hf => by
    rw [List.mem_singleton.1 hf]
    exact ⟨lit16 "a.cred", _, ⟨by decide, .inr ⟨lit16 "\\d", rfl⟩⟩, by decide, by decide, rfl⟩) (by decide)

/-- **C72.** An archive made from a file in memory unpacks to the directories of the prefix and that one
file, with its full contents, whatever it is called, and its only end marker is its last member. -/
theorem C72_literal_exact {contents : Bytes} {fname : Str16} {pfx : Bytes} {dm am : UInt32} {s : State}
    (h : packCpioLiteral contents fname pfx dm am = .ok s) (hpfx : pfx ≠ []) :
    (∃ b, InUtf8 fname b ∧ Newc.extract s.buffer = some (numbered
      ((properAncestors pfx).map (fun a => ⟨0o555 ||| Newc.S_IFDIR, [0x2F] ++ a, []⟩) ++
        [⟨dm.toNat ||| Newc.S_IFDIR, [0x2F] ++ pfx, []⟩,
         ⟨am.toNat ||| Newc.S_IFREG, pfx ++ [0x2F] ++ b, contents⟩]))) ∧
    (∃ recs t, Newc.readAll s.buffer = some (recs ++ [t]) ∧ t.name = Newc.trailer ∧
      ∀ r ∈ recs, r.name ≠ Newc.trailer) := by
  obtain ⟨h1, h2⟩ := literal_exact h hpfx
  exact ⟨⟨_, inUtf8_toUtf8 _, h1⟩, h2⟩

/-- **C72.** Byte for byte, the archive is the one that a file of the same name and contents on the volume
would have been packed into. -/
theorem C72_literal_agrees (fw : Fw) (path fname : Str16) (contents pfx : Bytes) (dm am : UInt32)
    (hname : LastComponent path fname) (hne : fname ≠ []) (hread : fw.read path = some contents) :
    packCpioLiteral contents fname pfx dm am = packCpio fw [path] pfx dm am :=
  literal_agrees fw path fname contents pfx dm am (lastComponent_eq hname).symm hne hread

/-- Non-vacuity of C72: a name with a character outside ASCII. -/
example : InUtf8 [0xE4] [0xC3, 0xA4] := by
  intro text h
  cases text with
  | nil => simp at h
  | cons c t => cases t with
    | nil =>
      simp only [List.map_cons, List.map_nil, List.cons.injEq, and_true] at h
      have : c = 'ä' := Char.toNat_inj.1 (h.trans (by decide))
      rw [this]
      decide +kernel
    | cons => simp at h

end Verif.Companion
