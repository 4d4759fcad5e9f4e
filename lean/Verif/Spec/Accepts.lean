import Verif.Spec.CpioMembers
/-!
# Specification: which members an archive takes
-/
namespace Verif.Cpio.Spec
open Verif Verif.Cpio

/-- What a caller gets back. -/
inductive Answer where
  | added
  | fileTooLarge
  | noInodesLeft
  | nameTooLong
  | crash
  deriving Repr, DecidableEq

/-- The answer to `pack_one`: the archive has `members` members, the file has `size` bytes; `dir` and
`name` are the lengths of the directory and the name. A name of 2^32 - 2 bytes does not fit the 32-bit
field once slash and zero byte are added. -/
def fileAnswer (members size dir name : Nat) : Answer :=
  if size > 2 ^ 32 - 1 then .fileTooLarge
  else if members = 2 ^ 32 - 1 then .noInodesLeft
  else if dir + name ≥ 2 ^ 32 - 1 then .nameTooLong
  else if dir > 0 ∧ dir + name = 2 ^ 32 - 2 then .crash
  else .added

/-- The answer to `pack_dir`. There is no check of the length of the path. -/
def dirAnswer (members path : Nat) : Answer :=
  if members = 2 ^ 32 - 1 then .noInodesLeft
  else if path ≥ 2 ^ 32 - 1 then .crash
  else .added

/-- The answer as the API gives it. -/
def Answer.Is {α : Type} (size : Nat) (a : Answer) (r : Res Err α) : Prop :=
  match a with
  | .added => ∃ x, r = .ok x
  | .fileTooLarge => r = .err (.tooLargeFileSize size)
  | .noInodesLeft => r = .err .maximumInodesReached
  | .nameTooLong => r = .err .maximumArchiveReached
  | .crash => r = .panic

end Verif.Cpio.Spec
