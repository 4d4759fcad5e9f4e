import Verif.Model.Text
/-!
# Model of `rust/tool/systemd/src/version.rs`
-/
namespace Verif.Version
open Verif

/-- `struct SystemdVersion` (version.rs 19-27): `u32`, `i32`, `u32`; here unbounded numbers, the
bounds come from the parser. -/
structure SystemdVersion where
  major : Nat
  minor : Int
  patch : Nat
  deriving DecidableEq, Repr

/-- `#[derive(PartialOrd)]` (version.rs 19): lexicographic in field order. `v > w` in the Rust code
is `gt v w`. -/
def gt (v w : SystemdVersion) : Bool :=
  if v.major = w.major then
    if v.minor = w.minor then decide (v.patch > w.patch)
    else decide (v.minor > w.minor)
  else decide (v.major > w.major)

/-- `SystemdVersion::from_str` (version.rs 60-87). Fields are parsed in order; every failure is the
same kind of error, so `Option` is enough. -/
def fromStr (s : Str) : Option SystemdVersion :=
  match splitOnce (lit "-rc") s with
  | some (majorStr, rcStr) =>
    match parseUnsigned u32Max majorStr with
    | some major => match parseUnsigned u32Max rcStr with
      | some patch => some { major := major, minor := -1, patch := patch }
      | none => none
    | none => none
  | none =>
    match splitOnce (lit ".") s with
    | some (majorStr, minorStr) =>
      match parseUnsigned u32Max majorStr with
      | some major => match parseI32 minorStr with
        | some minor => some { major := major, minor := minor, patch := 0 }
        | none => none
      | none => none
    | none =>
      match parseUnsigned u32Max s with
      | some major => some { major := major, minor := 0, patch := 0 }
      | none => none

end Verif.Version
