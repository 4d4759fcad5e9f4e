import Verif.Model.Sort
/-!
# Shared vocabulary of the model

Rust `Result` with explicit panics, and `&mut self` methods as state transformers whose final
state is visible also when they fail.
-/
namespace Verif

/-- A byte string (`Vec<u8>`, `&[u8]`). (e.g. the archive buffer, pio/src/writer.rs 137-140.) -/
abbrev Bytes := List UInt8

/-- Text (`String`, `&str`): always valid UTF-8 in Rust, hence a list of scalar values. (e.g.
`OsRelease`, os_release.rs 16.) -/
abbrev Str := List Char

/-- Outcome of a Rust call: `Ok`, `Err`, or a panic (failed `assert!`, `unwrap`, `expect`,
slice index out of range). (e.g. `pack_cpio` in cpio.rs 45-71 can end in all three ways.) -/
inductive Res (ε α : Type) where
  | ok (a : α)
  | err (e : ε)
  | panic
  deriving Repr, DecidableEq

namespace Res
variable {ε α β : Type}

/-- `?` operator. (std; used in every fallible function, e.g. install.rs 109-174.) -/
def bind (x : Res ε α) (f : α → Res ε β) : Res ε β :=
  match x with
  | ok a => f a
  | err e => err e
  | panic => panic

instance : Monad (Res ε) where
  pure := Res.ok
  bind := Res.bind

/-- `Result::is_ok` (std; e.g. measure.rs 75-82). -/
def isOk : Res ε α → Bool
  | ok _ => true
  | _ => false

/-- `.ok()` : keep the value, forget the error; a panic is not caught, callers treat it apart. (std;
e.g. companions.rs 58.) -/
def toOption : Res ε α → Option α
  | ok a => some a
  | _ => none

end Res

/-- A `&mut σ` method: result and the state it leaves behind. (e.g. `Cpio::pack_one`, pio/src/writer.rs
176.) -/
def RM (σ ε α : Type) := σ → Res ε α × σ

namespace RM
variable {σ ε α β : Type}

/-- `Ok(x)`, e.g. install.rs 172. -/
def pure (a : α) : RM σ ε α := fun s => (.ok a, s)

/-- Sequencing with the `?` operator: on an error or panic the rest is skipped, the state stays. (std;
used in every fallible function, e.g. install.rs 109-174.) -/
def bind (m : RM σ ε α) (f : α → RM σ ε β) : RM σ ε β := fun s =>
  match m s with
  | (.ok a, s') => f a s'
  | (.err e, s') => (.err e, s')
  | (.panic, s') => (.panic, s')

instance : Monad (RM σ ε) where
  pure := RM.pure
  bind := RM.bind

/-- `&self`, e.g. install.rs 141. -/
def get : RM σ ε σ := fun s => (.ok s, s)
/-- `&mut self`, e.g. pio/src/writer.rs 264-268. -/
def set (s : σ) : RM σ ε Unit := fun _ => (.ok (), s)
/-- `&mut self`, e.g. gc.rs 26-28. -/
def modify (f : σ → σ) : RM σ ε Unit := fun s => (.ok (), f s)
/-- `Err(e)`, `bail!`, e.g. install.rs 199-203. -/
def throw (e : ε) : RM σ ε α := fun s => (.err e, s)
/-- `panic!`, `expect`, e.g. stub/src/common.rs 91. -/
def panic : RM σ ε α := fun s => (.panic, s)

/-- `.ok()` on a `Result`: the error is swallowed, a panic still propagates. (std; e.g. gc.rs 75,
install.rs 669.) -/
def attempt (m : RM σ ε α) : RM σ ε (Option α) := fun s =>
  match m s with
  | (.ok a, s') => (.ok (some a), s')
  | (.err _, s') => (.ok none, s')
  | (.panic, s') => (.panic, s')

@[simp] theorem pure_run (a : α) (s : σ) : (Pure.pure a : RM σ ε α) s = (.ok a, s) := rfl
@[simp] theorem bind_run (m : RM σ ε α) (f : α → RM σ ε β) (s : σ) :
    (m >>= f) s = match m s with
      | (.ok a, s') => f a s'
      | (.err e, s') => (.err e, s')
      | (.panic, s') => (.panic, s') := rfl
@[simp] theorem throw_run (e : ε) (s : σ) : (throw e : RM σ ε α) s = (.err e, s) := rfl
@[simp] theorem panic_run (s : σ) : (panic : RM σ ε α) s = (.panic, s) := rfl
@[simp] theorem get_run (s : σ) : (get : RM σ ε σ) s = (.ok s, s) := rfl
@[simp] theorem set_run (s t : σ) : (set t : RM σ ε Unit) s = (.ok (), t) := rfl
@[simp] theorem modify_run (f : σ → σ) (s : σ) : (modify f : RM σ ε Unit) s = (.ok (), f s) := rfl

end RM

/-- `usize::MAX` on the two supported targets (x86_64, aarch64). (used in pe_loader.rs 94-111.) -/
def usizeMax : Nat := 2 ^ 64 - 1
/-- `u32::MAX`. (used in pio/src/writer.rs 176-340.) -/
def u32Max : Nat := 2 ^ 32 - 1

end Verif
