import Verif.Model.Text
/-!
# Specification: systemd version numbers

What a systemd version is, how it is written, and which of two versions is older.  Nothing here
mentions the implementation (`toDec` writes a number in decimal).
-/
namespace Verif.Version.Spec
open Verif

/-- systemd releases: release candidate `k` of `n`, the release `n`, stable update `m` of `n`. -/
inductive Release
  | rc (n k : Nat)
  | full (n : Nat)
  | stable (n m : Nat)
  deriving DecidableEq, Repr

/-- Release `a` came out on its branch before `b`, or belongs to an older branch. -/
inductive Older : Release → Release → Prop
  | rc_rc {n k k'} : k < k' → Older (.rc n k) (.rc n k')
  | rc_full {n k} : Older (.rc n k) (.full n)
  | rc_stable {n k m} : Older (.rc n k) (.stable n m)
  | full_stable {n m} : Older (.full n) (.stable n m)
  | stable_stable {n m m'} : m < m' → Older (.stable n m) (.stable n m')
  | rc_major {n n' k b} : n < n' → (b = .full n' ∨ (∃ k', b = .rc n' k') ∨ ∃ m', b = .stable n' m') →
      Older (.rc n k) b
  | full_major {n n' b} : n < n' → (b = .full n' ∨ (∃ k', b = .rc n' k') ∨ ∃ m', b = .stable n' m') →
      Older (.full n) b
  | stable_major {n n' m b} : n < n' →
      (b = .full n' ∨ (∃ k', b = .rc n' k') ∨ ∃ m', b = .stable n' m') → Older (.stable n m) b

/-- How systemd writes a release: decimal numbers without leading zeros or signs. -/
def written : Release → Str
  | .rc n k => toDec n ++ lit "-rc" ++ toDec k
  | .full n => toDec n
  | .stable n m => toDec n ++ lit "." ++ toDec m

/-- The release's numbers fit the parser's types; stable updates count from 1. -/
def Fits : Release → Prop
  | .rc n k => n < 2 ^ 32 ∧ k < 2 ^ 32
  | .full n => n < 2 ^ 32
  | .stable n m => n < 2 ^ 32 ∧ 0 < m ∧ m < 2 ^ 31

/-- The value of a string of decimal digits. -/
def value (ds : Str) : Nat := ds.foldl (fun acc c => acc * 10 + (c.toNat - '0'.toNat)) 0

def IsDigits (ds : Str) : Prop := ds ≠ [] ∧ ∀ c ∈ ds, '0' ≤ c ∧ c ≤ '9'

/-- `s` writes the number `n` below `2^32`; a leading plus sign is tolerated. -/
def U32 (s : Str) (n : Nat) : Prop :=
  ∃ ds, (s = ds ∨ s = '+' :: ds) ∧ IsDigits ds ∧ value ds = n ∧ n < 2 ^ 32

/-- `s` writes the signed 32-bit number `i`. -/
def I32 (s : Str) (i : Int) : Prop :=
  ∃ ds, IsDigits ds ∧
    (((s = ds ∨ s = '+' :: ds) ∧ i = (value ds : Int) ∧ i < 2 ^ 31) ∨
      (s = '-' :: ds ∧ i = -(value ds : Int) ∧ -(2 ^ 31) ≤ i))

end Verif.Version.Spec
