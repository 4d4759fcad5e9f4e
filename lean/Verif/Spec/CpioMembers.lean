import Verif.Model.Cpio
import Verif.Spec.Newc
/-!
# What each public packing call is supposed to put into the archive

Written from the documentation of the calls, without the writer's code: only the type `Op` (the
calls as data) comes from the model.
-/
namespace Verif.Cpio
open Verif

/-- Mode, full name and data of an archive member; the inode is assigned by position. -/
structure Member where
  mode : Nat
  name : Bytes
  data : Bytes
  deriving Repr, DecidableEq

/-- The proper ancestors of a slash-separated path: its initial parts in front of each slash. -/
def properAncestors (path : Bytes) : List Bytes :=
  ((List.range path.length).filter fun i => path[i]? = some 0x2F).map path.take

/-- Members a successful call adds. -/
def Op.members : Op → List Member
  | .one f c p m =>
    [⟨m.toNat ||| Newc.S_IFREG, if p = [] then f else p ++ [0x2F] ++ f, c⟩]
  | .dir p m => [⟨m.toNat ||| Newc.S_IFDIR, p, []⟩]
  | .prefix p m =>
    (properAncestors p).map (fun a => ⟨0o555 ||| Newc.S_IFDIR, [0x2F] ++ a, []⟩)
      ++ [⟨m.toNat ||| Newc.S_IFDIR, [0x2F] ++ p, []⟩]
  | .trailer => [⟨Newc.S_IFREG, Newc.trailer, []⟩]

/-- Archive members numbered 1, 2, 3, ... -/
def numbered (ms : List Member) : List Newc.Rec :=
  (ms.zipIdx 1).map fun x => Newc.member x.2 x.1.mode x.1.name x.1.data

/-- The calls of a session with their results (the caller carries on after errors). -/
def outcomes : List Op → State → List (Op × Res Err Unit)
  | [], _ => []
  | o :: os, s => (o, (o.run s).1) :: outcomes os (o.run s).2

/-- No call of the session panicked (a panic ends the program, there is no state after it). -/
def NoPanic (ops : List Op) : Prop := ∀ r ∈ outcomes ops new, r.2 ≠ .panic

/-- Every call of the session succeeded. -/
def AllOk (ops : List Op) : Prop := ∀ r ∈ outcomes ops new, r.2 = .ok ()

end Verif.Cpio
