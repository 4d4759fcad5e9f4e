import Verif.Model.LinuxLoader
import Verif.Spec.LoadFile2
import Verif.Props.PeLoader
/-!
# C19: the LoadFile2 protocol serving the initrd
-/
namespace Verif.Stub
open Verif Spec

/-- C19: every call, with whatever arguments, is answered as the specification demands. -/
theorem C19_load_file_answers (initrd : Bytes) (mem : Nat → UInt8) (c : Call) :
    Answers initrd mem c (loadFile initrd mem c.size c.buffer) := by
  refine ⟨?_, ?_, ?_⟩
  · intro h; rw [h]; exact ⟨rfl, rfl⟩
  · intro n h hs; rw [h]; unfold loadFile; simp only [if_pos hs, and_self]
  · intro n h hb hl
    rw [h]; unfold loadFile
    have : ¬ (c.buffer = 0 ∨ n < initrd.length) := by omega
    simp only [if_neg this, true_and]
    constructor
    · intro i hi
      rw [writeMem_in (by omega) (by omega), Nat.add_sub_cancel_left,
        List.getElem?_eq_getElem hi, List.getD_eq_getElem?_getD, List.getElem?_eq_getElem hi]
      rfl
    · intro x hx; exact writeMem_out hx

/-- C19: no call writes outside the buffer its caller owns. -/
theorem C19_writes_only_buffer (initrd : Bytes) (mem : Nat → UInt8) (c : Call) (x : Nat)
    (h : (loadFile initrd mem c.size c.buffer).2.2 x ≠ mem x) : Owns c x := by
  unfold loadFile at h
  cases hs : c.size with
  | none => rw [hs] at h; exact absurd rfl h
  | some n =>
    rw [hs] at h
    by_cases hc : c.buffer = 0 ∨ n < initrd.length
    · simp only [if_pos hc] at h; exact absurd rfl h
    · simp only [if_neg hc] at h
      by_cases hx : c.buffer ≤ x ∧ x < c.buffer + initrd.length
      · exact ⟨n, hs, hx.1, by omega⟩
      · exact absurd (writeMem_out hx) h

/-- Memory after a sequence of calls. -/
def callMany (initrd : Bytes) (mem : Nat → UInt8) : List Call → (Nat → UInt8)
  | [] => mem
  | c :: rest => callMany initrd (loadFile initrd mem c.size c.buffer).2.2 rest

/-- C19: after any calls with any arguments, a caller that asks for the size with a null buffer and
then passes a buffer of the reported size finds exactly the initrd in it. -/
theorem C19_two_step_protocol (initrd : Bytes) (mem : Nat → UInt8) (before : List Call)
    (hint buffer : Nat) (hb : buffer ≠ 0) :
    let m0 := callMany initrd mem before
    let ask := loadFile initrd m0 (some hint) 0
    let get := loadFile initrd ask.2.2 ask.2.1 buffer
    ask.1 = .bufferTooSmall ∧ ∃ n, ask.2.1 = some n ∧ get.1 = .success ∧
      readMem get.2.2 buffer n = initrd := by
  intro m0 ask get
  have h1 : ask = (.bufferTooSmall, some initrd.length, m0) := by
    show loadFile initrd m0 (some hint) 0 = _
    unfold loadFile
    simp
  have h2 : get = (.success, some initrd.length, writeMem m0 buffer initrd) := by
    show loadFile initrd ask.2.2 ask.2.1 buffer = _
    rw [h1]
    unfold loadFile
    have : ¬ (buffer = 0 ∨ initrd.length < initrd.length) := by omega
    simp only [if_neg this]
  refine ⟨by rw [h1], initrd.length, by rw [h1], by rw [h2], ?_⟩
  rw [h2]
  apply List.ext_getElem?
  intro i
  by_cases hi : i < initrd.length
  · unfold readMem
    rw [List.getElem?_map, List.getElem?_range hi, List.getElem?_eq_getElem hi]
    simp only [Option.map_some]
    rw [writeMem_in (by omega) (by omega), Nat.add_sub_cancel_left, List.getD_eq_getElem?_getD,
      List.getElem?_eq_getElem hi]
    rfl
  · rw [List.getElem?_eq_none (by rw [readMem_length]; omega), List.getElem?_eq_none (by omega)]

/-- The device path under which Linux looks for the initrd: a vendor media node with GUID
5568e427-68fc-4f3d-ac74-ca555231cc68 and the end node. -/
theorem C19_device_path :
    initrdDevicePathBytes =
      [4, 3, 20, 0] ++
      [0x27, 0xe4, 0x68, 0x55] ++ [0xfc, 0x68] ++ [0x3d, 0x4f] ++
      [0xac, 0x74, 0xca, 0x55, 0x52, 0x31, 0xcc, 0x68] ++
      [0x7f, 0xff, 4, 0] ∧ initrdDevicePathBytes.length = 20 + 4 := by decide

/-- A case: a three byte initrd, a buffer that is one byte too small is left alone. -/
example : let m : Nat → UInt8 := fun _ => 7
    (loadFile [1, 2, 3] m (some 2) 100).1 = .bufferTooSmall ∧
    (loadFile [1, 2, 3] m (some 2) 100).2.1 = some 3 ∧
    (loadFile [1, 2, 3] m (some 2) 100).2.2 100 = 7 ∧
    (loadFile [1, 2, 3] m (some 3) 100).1 = .success ∧
    readMem (loadFile [1, 2, 3] m (some 3) 100).2.2 99 5 = [7, 1, 2, 3, 7] := by decide

/-- The specification also says that on success the number behind `BufferSize` becomes the amount of
data transferred. The implementation leaves it alone: a caller with a larger buffer learns nothing
about the size of the initrd. Linux asks for the size first, so the two agree for it. -/
theorem C19_size_not_updated (initrd : Bytes) (mem : Nat → UInt8) (n buffer : Nat)
    (hb : buffer ≠ 0) (hn : initrd.length < n) :
    (loadFile initrd mem (some n) buffer).1 = .success ∧
      (loadFile initrd mem (some n) buffer).2.1 = some n := by
  unfold loadFile
  have : ¬ (buffer = 0 ∨ n < initrd.length) := by omega
  simp only [if_neg this, and_self]

end Verif.Stub
