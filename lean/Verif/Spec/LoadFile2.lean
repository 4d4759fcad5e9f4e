import Verif.Model.Firmware
/-!
# The EFI_LOAD_FILE2 contract

From the UEFI specification of LoadFile: BufferSize is on input the size of Buffer in bytes and on
output, with a return code of EFI_BUFFER_TOO_SMALL, the size of Buffer required to retrieve the
requested file; EFI_INVALID_PARAMETER is returned if BufferSize is NULL.
-/
namespace Verif.Stub.Spec
open Verif Verif.Stub

/-- One call: the number behind `BufferSize` (`none`: null pointer) and the buffer address (0: null),
the memory before. -/
structure Call where
  size : Option Nat
  buffer : Nat

/-- Status, number behind `BufferSize`, and memory after the call. -/
abbrev Outcome := Status × Option Nat × (Nat → UInt8)

/-- The buffer the caller owns. -/
def Owns (c : Call) (x : Nat) : Prop := ∃ n, c.size = some n ∧ c.buffer ≤ x ∧ x < c.buffer + n

/-- A correct answer to one call for the file `f`. -/
def Answers (f : Bytes) (mem : Nat → UInt8) (c : Call) (o : Outcome) : Prop :=
  (c.size = none → o.1 = .invalidParameter ∧ o.2.2 = mem) ∧
  (∀ n, c.size = some n → (c.buffer = 0 ∨ n < f.length) →
    o.1 = .bufferTooSmall ∧ o.2.1 = some f.length ∧ o.2.2 = mem) ∧
  (∀ n, c.size = some n → c.buffer ≠ 0 → f.length ≤ n →
    o.1 = .success ∧
    (∀ i < f.length, some (o.2.2 (c.buffer + i)) = f[i]?) ∧
    (∀ x, ¬ (c.buffer ≤ x ∧ x < c.buffer + f.length) → o.2.2 x = mem x))

end Verif.Stub.Spec
