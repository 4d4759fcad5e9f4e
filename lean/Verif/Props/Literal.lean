import Verif.Props.Discovery
/-!
# C72: archives made from a file that is in memory already
-/
namespace Verif.Companion
open Verif Verif.Cpio

/-- The calls `pack_cpio_literal` makes. -/
theorem packCpioLiteral_ok {contents : Bytes} {fname : Str16} {pfx : Bytes} {dm am : UInt32} {s : State}
    (h : packCpioLiteral contents fname pfx dm am = .ok s) :
    AllOk [.prefix pfx dm, .one (toUtf8 fname) contents pfx am, .trailer] ∧
      runAll [.prefix pfx dm, .one (toUtf8 fname) contents pfx am, .trailer] new = s := by
  unfold packCpioLiteral at h
  simp only [RM.bind_run] at h
  rcases hp : packPrefix pfx dm new with ⟨⟨_⟩ | e | _, s1⟩
  · simp only [hp] at h
    rcases hf : packOne (toUtf8 fname) contents pfx am s1 with ⟨n | e | _, s2⟩
    · simp only [hf] at h
      rcases ht : packTrailer s2 with ⟨n | e | _, s3⟩
      · simp only [ht] at h
        simp at h
        subst h
        refine ⟨?_, ?_⟩
        · intro r hr
          simp only [outcomes, List.mem_cons, Op.run, hp, hf, RM.bind_run, ht, RM.pure_run,
            List.not_mem_nil, or_false] at hr
          rcases hr with rfl | rfl | rfl <;> rfl
        · simp only [runAll, Op.run, hp, hf, RM.bind_run, ht, RM.pure_run]
      · simp [ht] at h
      · simp [ht] at h
    · simp [hf] at h
    · simp [hf] at h
  · simp [hp] at h
  · simp [hp] at h

/-- An archive made from a file in memory unpacks to the directories of the prefix and that one
file, with its full contents, whatever it is called, and its only end marker is its last member. -/
theorem literal_exact {contents : Bytes} {fname : Str16} {pfx : Bytes} {dm am : UInt32} {s : State}
    (h : packCpioLiteral contents fname pfx dm am = .ok s) (hpfx : pfx ≠ []) :
    Newc.extract s.buffer = some (numbered
      ((properAncestors pfx).map (fun a => ⟨0o555 ||| Newc.S_IFDIR, [0x2F] ++ a, []⟩) ++
        [⟨dm.toNat ||| Newc.S_IFDIR, [0x2F] ++ pfx, []⟩,
         ⟨am.toNat ||| Newc.S_IFREG, pfx ++ [0x2F] ++ toUtf8 fname, contents⟩])) ∧
    (∃ recs t, Newc.readAll s.buffer = some (recs ++ [t]) ∧ t.name = Newc.trailer ∧
      ∀ r ∈ recs, r.name ≠ Newc.trailer) := by
  obtain ⟨hok, hrun⟩ := packCpioLiteral_ok h
  have hr := C01_cpio_roundtrip_ok _ hok
  rw [hrun] at hr
  let body : List Member := (properAncestors pfx).map (fun a => ⟨0o555 ||| Newc.S_IFDIR, [0x2F] ++ a, []⟩) ++
        [⟨dm.toNat ||| Newc.S_IFDIR, [0x2F] ++ pfx, []⟩,
         ⟨am.toNat ||| Newc.S_IFREG, pfx ++ [0x2F] ++ toUtf8 fname, contents⟩]
  have hms : ([.prefix pfx dm, .one (toUtf8 fname) contents pfx am, .trailer] : List Op).flatMap Op.members
      = body ++ [⟨Newc.S_IFREG, Newc.trailer, []⟩] := by
    simp only [List.flatMap_cons, List.flatMap_nil, Op.members, hpfx, if_false, body, List.append_assoc,
      List.append_nil, List.cons_append, List.nil_append]
  rw [hms] at hr
  obtain ⟨b', hb, hn⟩ := numbered_append body [⟨Newc.S_IFREG, Newc.trailer, []⟩]
  rw [hb] at hr
  obtain ⟨t, rfl⟩ : ∃ t, b' = [t] := by
    have := congrArg List.length hn
    simp only [List.length_map, List.length_cons, List.length_nil] at this
    exact List.length_eq_one_iff.mp this
  have ht : t.name = Newc.trailer := by simpa using hn
  have htr : Newc.trailer = [0x54, 0x52, 0x41, 0x49, 0x4C, 0x45, 0x52, 0x21, 0x21, 0x21] := by decide
  have hbody : ∀ m ∈ body, m.name ≠ Newc.trailer := by
    intro m hm hc
    have h1 : (0x2F : UInt8) ∈ m.name := by
      rcases List.mem_append.mp hm with hm | hm
      · obtain ⟨a, _, rfl⟩ := List.mem_map.mp hm
        simp
      · rcases List.mem_cons.mp hm with rfl | hm
        · simp
        · rw [List.mem_singleton.mp hm]
          simp
    rw [hc, htr] at h1
    simp at h1
  have hrecs : ∀ r ∈ numbered body, r.name ≠ Newc.trailer := by
    intro r hr hc
    have : r.name ∈ (numbered body).map (·.name) := List.mem_map_of_mem hr
    rw [numbered_names] at this
    obtain ⟨m, hm, hmn⟩ := List.mem_map.mp this
    exact hbody m hm (hmn.trans hc)
  refine ⟨?_, ⟨_, t, hr, ht, hrecs⟩⟩
  unfold Newc.extract
  rw [hr]
  simp only [Option.map_some, Option.some.injEq]
  rw [List.takeWhile_append_of_pos (by intro r hr; simpa using hrecs r hr)]
  simp [ht, body]

/-- Byte for byte, the archive is the one that a file of the same name and contents on the volume
would have been packed into. -/
theorem literal_agrees (fw : Fw) (path fname : Str16) (contents pfx : Bytes) (dm am : UInt32)
    (hname : baseName path = fname) (hne : fname ≠ []) (hread : fw.read path = some contents) :
    packCpioLiteral contents fname pfx dm am = packCpio fw [path] pfx dm am := by
  subst hname
  unfold packCpioLiteral packCpio
  have hs : sortPaths [path] = [path] := rfl
  simp only [RM.bind_run, hs, packFileList, hne, if_false, hread]
  rcases packPrefix pfx dm new with ⟨⟨_⟩ | e | _, s1⟩ <;> try rfl
  dsimp only
  rcases packOne (toUtf8 (baseName path)) contents pfx am s1 with ⟨n | e | _, s2⟩ <;> rfl

/-- **C72.** It succeeds for every file smaller than 4 GiB. -/
theorem C72_literal_succeeds (contents : Bytes) (fname : Str16) (pfx : Bytes) (dm am : UInt32)
    (hpfx : pfx.length < 2 ^ 8) (hc : contents.length < 2 ^ 32) (hne : fname ≠ [])
    (hsep : sep16 ∉ fname) (hf : fname.length < 2 ^ 28) :
    ∃ s, packCpioLiteral contents fname pfx dm am = .ok s := by
  have hb : baseName fname = fname := by
    unfold baseName
    have := List.takeWhile_append_of_pos (p := (· != sep16)) (l₁ := fname.reverse) (l₂ := []) (by
      intro u hu
      simp only [bne_iff_ne, ne_eq]
      rintro rfl
      exact hsep (List.mem_reverse.1 hu))
    rw [List.append_nil, List.takeWhile_nil, List.append_nil] at this
    rw [this, List.reverse_reverse]
  let fw : Fw := { Fw.gone with read := fun _ => some contents }
  rw [literal_agrees fw fname fname contents pfx dm am hb hne rfl]
  refine packCpio_fits hpfx (by simp) ?_
  intro f hf'
  rw [List.mem_singleton.mp hf', hb]
  have := toUtf8_length_le fname
  exact ⟨hne, by omega, contents, rfl, hc⟩

/-- Non-vacuity of C72: a file called like the end marker. -/
example : ∃ s, packCpioLiteral [1, 2, 3] (lit16 "TRAILER!!!") [0x2E, 0x65, 0x2F, 0x67] 0o500 0o400 = .ok s :=
  C72_literal_succeeds _ _ _ _ _ (by decide) (by decide) (by decide) (by decide) (by decide)

end Verif.Companion
