import Verif.Spec.Accepts
import Verif.Props.Discovery
/-!
# C76: which members an archive takes
-/
namespace Verif.Cpio
open Verif Spec

/-- Every outcome of `pack_one` on an archive that can exist (a `Vec` has less than 2^63 bytes). -/
theorem packOne_answer (f c p : Bytes) (m : UInt32) (s : State) (hb : s.buffer.length < 2 ^ 63) :
    (fileAnswer s.inodeCounter.toNat c.length p.length f.length).Is c.length (packOne f c p m s).1 := by
  have hu : u32Max = 4294967295 := rfl
  have hU : usizeMax = 18446744073709551615 := rfl
  have hh : staticHeaderLen = 110 := rfl
  have hino : s.inodeCounter.toNat = 2 ^ 32 - 1 ↔ s.inodeCounter = UInt32.ofNat u32Max := by
    constructor
    · intro h; apply UInt32.toNat.inj; rw [h]; rfl
    · intro h; rw [h]; rfl
  unfold fileAnswer
  by_cases h1 : c.length > 2 ^ 32 - 1
  · rw [if_pos h1]
    unfold packOne
    rw [if_pos (by omega)]
    rfl
  rw [if_neg h1]
  by_cases h2 : s.inodeCounter.toNat = 2 ^ 32 - 1
  · rw [if_pos h2]
    unfold packOne
    rw [if_neg (by omega), if_pos (hino.1 h2)]
    rfl
  rw [if_neg h2]
  have h2' : ¬ s.inodeCounter = UInt32.ofNat u32Max := fun h => h2 (hino.2 h)
  by_cases h3 : p.length + f.length ≥ 2 ^ 32 - 1
  · rw [if_pos h3]
    unfold packOne
    rw [if_neg (by omega), if_neg h2']
    dsimp only
    by_cases g1 : staticHeaderLen + 1 > usizeMax - p.length
    · rw [if_pos g1]; rfl
    rw [if_neg g1]
    by_cases g2 : staticHeaderLen + 1 + p.length > usizeMax - f.length
    · rw [if_pos g2]; rfl
    rw [if_neg g2, if_pos (by omega)]
    rfl
  rw [if_neg h3]
  have hA := Companion.align4_bound (n := staticHeaderLen + 1 + p.length + f.length) (by omega)
  have hC := Companion.align4_bound (n := c.length) (by omega)
  have hno : ¬ ∃ e, packOne f c p m s = (.err e, s) := by
    rintro ⟨e, he⟩
    unfold packOne at he
    dsimp only at he
    rw [if_neg (by omega), if_neg h2', if_neg (by omega), if_neg (by omega), if_neg (by omega),
      if_neg (by omega), if_neg (by omega), if_neg (by omega), if_neg (by omega)] at he
    unfold Cpio.emit at he
    split at he <;> simp at he
  rcases packOne_cases f c p m s with h | ⟨e, hee, -, -, -, -, ⟨h5, h6⟩ | ⟨h5, h6⟩⟩
  · exact absurd h hno
  · rw [if_neg]
    · rw [h6]; exact ⟨_, rfl⟩
    · rintro ⟨g1, g2⟩
      rw [hee] at h5
      have : p ≠ [] := by rintro rfl; simp at g1
      simp only [oneEntry, ne_eq, this, not_false_eq_true, if_true, List.length_append,
        List.length_cons, List.length_nil] at h5
      omega
  · rw [if_pos]
    · rw [h6]; rfl
    · rw [hee] at h5
      by_cases g : p = []
      · subst g
        simp only [oneEntry, ne_eq, not_true_eq_false, if_false, List.length_nil] at h5 h3
        omega
      · simp only [oneEntry, ne_eq, g, not_false_eq_true, if_true, List.length_append,
          List.length_cons, List.length_nil] at h5
        have := List.length_pos_iff.2 g
        omega

/-- Every outcome of `pack_dir`. -/
theorem packDir_answer (p : Bytes) (m : UInt32) (s : State) (hb : s.buffer.length < 2 ^ 63)
    (hp : p.length < 2 ^ 63 - 128) :
    (dirAnswer s.inodeCounter.toNat p.length).Is 0 (packDir p m s).1 := by
  have hu : u32Max = 4294967295 := rfl
  have hU : usizeMax = 18446744073709551615 := rfl
  have hh : staticHeaderLen = 110 := rfl
  have hino : s.inodeCounter.toNat = 2 ^ 32 - 1 ↔ s.inodeCounter = UInt32.ofNat u32Max := by
    constructor
    · intro h; apply UInt32.toNat.inj; rw [h]; rfl
    · intro h; rw [h]; rfl
  unfold dirAnswer
  by_cases h2 : s.inodeCounter.toNat = 2 ^ 32 - 1
  · rw [if_pos h2]
    unfold packDir
    rw [if_pos (hino.1 h2)]
    rfl
  rw [if_neg h2]
  have h2' : ¬ s.inodeCounter = UInt32.ofNat u32Max := fun h => h2 (hino.2 h)
  have hA := Companion.align4_bound (n := staticHeaderLen + p.length) (by omega)
  have hno : ¬ ∃ e, packDir p m s = (.err e, s) := by
    rintro ⟨e, he⟩
    unfold packDir at he
    dsimp only at he
    rw [if_neg h2', if_neg (by omega), if_neg (by omega)] at he
    unfold Cpio.emit at he
    split at he
    · cases he
    · next h =>
      split at h
      · cases h
      · cases h
    · cases he
  rcases packDir_cases p m s with h | ⟨e, hee, -, ⟨h5, h6⟩ | ⟨h5, h6⟩⟩
  · exact absurd h hno
  · rw [hee] at h5
    simp only [dirEntry] at h5
    rw [if_neg (by omega), h6]
    exact ⟨_, rfl⟩
  · rw [hee] at h5
    simp only [dirEntry] at h5
    rw [if_pos (by omega), h6]
    rfl

/-- **C76.** What `pack_one` and `pack_dir` answer on any archive made by a session of calls, as far as an
archive can exist at all (a `Vec` or `String` has less than 2^63 bytes). -/
theorem C76_answers (ops : List Op) (hnp : NoPanic ops) (hb : (runAll ops new).buffer.length < 2 ^ 63)
    (members : List Newc.Rec) (hr : Newc.readAll (runAll ops new).buffer = some members) :
    (∀ f c p m, (fileAnswer members.length c.length p.length f.length).Is c.length
      (packOne f c p m (runAll ops new)).1) ∧
    (∀ p m, p.length < 2 ^ 63 - 128 →
      (dirAnswer members.length p.length).Is 0 (packDir p m (runAll ops new)).1) := by
  obtain ⟨fs, _, h1, h2, _, _⟩ := session ops Holds.new (by simp [Plain]) hnp
  simp only [List.nil_append] at h1 h2
  have hread : Newc.readAll (runAll ops new).buffer = some (fs.map fun p => recOf p.1 p.2) := by
    rw [h1.buffer]; exact readAll_archive _ h1.sized
  rw [hread] at hr
  have hl : (runAll ops new).inodeCounter.toNat = members.length := by
    rw [h1.counter, ← Option.some.inj hr]; simp
  rw [← hl]
  exact ⟨fun f c p m => packOne_answer f c p m _ hb, fun p m hp => packDir_answer p m _ hb hp⟩

/-- The hypotheses can be met: an archive with one member. -/
example : ∃ members, NoPanic [.dir [0x61] 0] ∧
    (runAll [.dir [0x61] 0] new).buffer.length < 2 ^ 63 ∧
    Newc.readAll (runAll [.dir [0x61] 0] new).buffer = some members ∧ members.length = 1 ∧
    fileAnswer members.length 3 1 2 = .added ∧ fileAnswer members.length 3 1 (2 ^ 32 - 3) = .crash ∧
    fileAnswer members.length (2 ^ 32) 1 2 = .fileTooLarge ∧
    dirAnswer members.length (2 ^ 32 - 1) = .crash := by
  refine ⟨[{ ino := 1, mode := 0o040000, uid := 0, gid := 0, nlink := 1, mtime := 0
             devMajor := 0, devMinor := 0, rdevMajor := 0, rdevMinor := 0, check := 0
             name := [0x61], data := [] }], ?_, ?_, ?_, rfl,
    ?_, ?_, ?_, ?_⟩
  · unfold NoPanic; decide +kernel
  all_goals decide +kernel

end Verif.Cpio
