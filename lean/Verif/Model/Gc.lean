import Verif.Model.Fs
/-!
# Model of `rust/tool/shared/src/gc.rs`
-/
namespace Verif.Tool
open Verif

/-- `Roots::extend` (gc.rs 29-31). -/
def extendRoots (ps : List Path) : M Unit :=
  RM.modify fun s => { s with roots := s.roots ++ ps }

/-- Remove one unused entry (gc.rs 65-76). -/
def collectEntry (os : Os) (p : Path) : M Unit := do
  let fs ← getFs
  if fs.get p = some .dir then removeDirAll os p
  else do
    let _ ← RM.attempt (removeFile os p)
    pure ()

/-- The loop (gc.rs 64-77). -/
def collectEach (os : Os) : List Path → M Unit
  | [] => pure ()
  | p :: rest => do
    collectEntry os p
    collectEach os rest

/-- Is the entry to be removed (gc.rs 57-62)? -/
def isGarbage (roots : List Path) (predicate : Path → Bool) (p : Path) : Bool :=
  !(roots.contains p) && predicate p

/-- `collect_garbage_with_filter` (gc.rs 46-80). `WalkDir` lists the directory and everything below
it lazily; entries that cannot be listed are skipped. An entry below a directory that has been
removed meanwhile is either not listed or cannot be removed any more, so the walk is represented by
a list of the entries present at its beginning. -/
def collectGarbageWithFilter (os : Os) (directory : Path) (predicate : Path → Bool) : M Unit := do
  let t ← next
  let s ← RM.get
  collectEach os ((os.list t (s.fs.subtree directory)).filter (isGarbage s.roots predicate))

/-- `collect_garbage` (gc.rs 37-39). -/
def collectGarbage (os : Os) (directory : Path) : M Unit :=
  collectGarbageWithFilter os directory fun _ => true

end Verif.Tool
