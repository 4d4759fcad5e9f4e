import Verif.Model.Path
/-!
# The file system the installer writes to

The ESP and the pcrlock directory. A file system is a finite map from paths to files and
directories. Permission bits are not part of it, the record of changes tells them (`Spec/Modes`). Not
modelled: owners, time stamps, symbolic and hard links, names that
are not UTF-8, and the case-insensitivity of FAT. Other processes are in `Model/Busy`.

Every change the installer makes is recorded in `State.log`, oldest first. The state of the disk at
the moment the installer is killed is the result of replaying a prefix of the log, so "at every
interruption point" is "for every prefix of the log".
-/
namespace Verif.Tool
open Verif

/-- A file with its contents, or a directory. (std::fs; install.rs 576-697.) -/
inductive Node where
  | file (content : Bytes)
  | dir
  deriving DecidableEq, Repr

/-- A file system: what is at which path, and which files have data that is not yet known to be on
the disk. (std::fs; install.rs 576-697, gc.rs 46-80.) -/
structure Fs where
  nodes : List (Path × Node)
  dirty : List Path
  deriving DecidableEq, Repr

/-- One change of the file system, or one of the installer's messages. (std::fs; the message is that of
install.rs 139.) -/
inductive Change where
  | mkdir (p : Path)
  /-- `open(O_CREAT | O_TRUNC)` -/
  | create (p : Path)
  /-- the file now has this content -/
  | write (p : Path) (content : Bytes)
  | fsync (p : Path)
  /-- the file `content` moves from `a` to `b`, replacing what was there -/
  | rename (a b : Path) (content : Bytes)
  /-- the permission bits -/
  | chmod (p : Path) (mode : Nat)
  /-- `syncfs` on the file system of which `p` is the top directory -/
  | syncfs (p : Path)
  | unlink (p : Path)
  | rmdir (p : Path)
  /-- `log::info!("Collecting garbage...")` (install.rs 138) -/
  | collecting
  deriving DecidableEq, Repr

namespace Fs

/-- What is at `p`. The root always is a directory. (std::fs; e.g. install.rs 597.) -/
def get (fs : Fs) (p : Path) : Option Node :=
  if p = [] then some .dir
  else match fs.nodes.find? (fun e => e.1 == p) with
    | some e => some e.2
    | none => none

/-- The file system with this at `p` (std::fs; e.g. install.rs 643-648). -/
def put (fs : Fs) (p : Path) (n : Node) : Fs :=
  { fs with nodes := (p, n) :: fs.nodes.filter (fun e => e.1 ≠ p) }

/-- The file system with nothing at `p` (std::fs; e.g. gc.rs 75). -/
def del (fs : Fs) (p : Path) : Fs :=
  { fs with nodes := fs.nodes.filter (fun e => e.1 ≠ p) }

/-- Data in the page cache, install.rs 645. -/
def markDirty (fs : Fs) (p : Path) : Fs := { fs with dirty := p :: fs.dirty }

/-- `sync_all`, install.rs 649. -/
def markClean (fs : Fs) (p : Path) : Fs := { fs with dirty := fs.dirty.filter (· ≠ p) }

/-- Names in the directory `p`. (std::fs; install.rs 382.) -/
def children (fs : Fs) (p : Path) : List Str :=
  fs.nodes.filterMap fun e => if e.1 ≠ [] ∧ e.1.dropLast = p then e.1.getLast? else none

/-- All paths below `p`, and `p` itself, that exist. (std::fs; gc.rs 55-61 and 71.) -/
def subtree (fs : Fs) (p : Path) : List Path :=
  (fs.nodes.map (·.1)).filter fun q => p.isPrefixOf q

/-- Effect of a change. (std::fs; e.g. install.rs 585 and 652.) -/
def apply (fs : Fs) : Change → Fs
  | .mkdir p => fs.put p .dir
  | .create p => (fs.put p (.file [])).markDirty p
  | .write p d => (fs.put p (.file d)).markDirty p
  | .fsync p => fs.markClean p
  | .rename a b d =>
    let moved := (fs.del a).put b (.file d)
    if a ∈ fs.dirty then (moved.markClean a).markDirty b else moved.markClean b
  | .chmod _ _ => fs
  | .syncfs p => { fs with dirty := fs.dirty.filter fun q => !p.isPrefixOf q }
  | .unlink p => fs.del p
  | .rmdir p => fs.del p
  | .collecting => fs

/-- The file system after a sequence of changes. (the sequence of system calls of install.rs 109-174.) -/
def replay (fs : Fs) (l : List Change) : Fs := l.foldl apply fs

/-- Is `p` a file, with this content? (std::fs; e.g. install.rs 395). -/
def fileAt (fs : Fs) (p : Path) : Option Bytes :=
  match fs.get p with
  | some (.file d) => some d
  | _ => none

end Fs

/-- State of the installer: the file system with the record of its changes, the number of
operations so far, `gc_roots` and `broken_gens` (install.rs 93-94). -/
structure State where
  fs : Fs
  log : List Change
  tick : Nat
  roots : List Path
  broken : List Nat
  deriving DecidableEq, Repr

/-- What the operating system does that the installer cannot influence. Functions of a number are
asked with the number of the operation. (std::fs; any of install.rs 221, 382, 580-697, gc.rs 55-77.) -/
structure Os where
  /-- the operation fails -/
  fault : Nat → Bool
  /-- contents a file has on the way while it is being written -/
  partials : Nat → List Bytes
  /-- Order and completeness of a directory listing or walk: entries that cannot be read are
  missing. -/
  list : Nat → List Path → List Path
  list_sub : ∀ t l p, p ∈ list t l → p ∈ l

/-- The installer's functions; errors carry no information (`anyhow::Error`). (`Result<T>` of install.rs
109 and all it calls.) -/
abbrev M := RM State Unit

/-- Number of this operation. (any file operation of install.rs and gc.rs, e.g. install.rs 643.) -/
def next : M Nat := fun s => (.ok s.tick, { s with tick := s.tick + 1 })

/-- Make a change. (any file operation of install.rs and gc.rs, e.g. install.rs 652.) -/
def change (c : Change) : M Unit := fun s =>
  (.ok (), { s with fs := s.fs.apply c, log := s.log ++ [c] })

/-- Does this operation fail? (any file operation of install.rs and gc.rs, e.g. install.rs 643). -/
def faulty (os : Os) : M Bool := do
  let t ← next
  pure (os.fault t)

/-- Fail unless the condition holds. (e.g. install.rs 585: renaming needs an existing file.) -/
def require (b : Bool) : M Unit := if b then pure () else RM.throw ()

/-- An operation that can fail at any time. (e.g. install.rs 643, 649 and 652.) -/
def guarded (os : Os) : M Unit := do
  let f ← faulty os
  require (!f)

/-- The file system at this moment (std::fs; e.g. install.rs 597). -/
def getFs : M Fs := fun s => (.ok s.fs, s)

/-- `Path::is_dir` of the parent. (the operating system's condition for install.rs 643 and 652.) -/
def parentIsDir (fs : Fs) (p : Path) : Bool := decide (fs.get p.dropLast = some .dir)

/-- `Path::exists`: also false if the answer cannot be had. (install.rs 363, 406, 461, 597 and 681.) -/
def pathExists (os : Os) (p : Path) : M Bool := do
  let f ← faulty os
  let fs ← getFs
  pure (!f && (fs.get p).isSome)

/-- `fs::read` of a path on the written file systems. (install.rs 395, version.rs 32, utils.rs 74,
signature/mod.rs 60.) -/
def readFs (os : Os) (p : Path) : M Bytes := do
  guarded os
  let fs ← getFs
  match fs.fileAt p with
  | some d => pure d
  | none => RM.throw ()

/-- `fs::create_dir`. (by `create_dir_all`, install.rs 669.) -/
def mkdir (os : Os) (p : Path) : M Unit := do
  guarded os
  let fs ← getFs
  require (decide (fs.get p = none) && parentIsDir fs p)
  change (.mkdir p)

/-- `File::create`. (install.rs 643, signature/mod.rs 50.) -/
def createFile (os : Os) (p : Path) : M Unit := do
  guarded os
  let fs ← getFs
  require (decide (fs.get p ≠ some .dir) && parentIsDir fs p)
  change (.create p)

/-- Intermediate contents of a file that is being written. (of install.rs 645, signature/mod.rs 50.) -/
def writePartials (p : Path) : List Bytes → M Unit
  | [] => pure ()
  | d :: rest => do
    change (.write p d)
    writePartials p rest

/-- Writing to an open file: some intermediate contents, then either a failure or the complete
contents. The intermediate contents are arbitrary. (install.rs 645, signature/mod.rs 50.) -/
def writeFile (os : Os) (p : Path) (content : Bytes) : M Unit := do
  let t ← next
  writePartials p (os.partials t)
  guarded os
  change (.write p content)

/-- `File::sync_all`. (install.rs 649.) -/
def fsync (os : Os) (p : Path) : M Unit := do
  guarded os
  change (.fsync p)

/-- `fs::rename` of a file. (install.rs 497, 585 and 652.) -/
def rename (os : Os) (a b : Path) : M Unit := do
  guarded os
  let fs ← getFs
  match fs.fileAt a with
  | none => RM.throw ()
  | some d => do
    require (decide (fs.get b ≠ some .dir) && parentIsDir fs b)
    if a = b then pure () else change (.rename a b d)

/-- `fs::metadata` and `fs::set_permissions` (install.rs 657-664). -/
def setPermissionBits (os : Os) (p : Path) (mode : Nat) : M Unit := do
  guarded os
  let fs ← getFs
  require (fs.get p).isSome
  guarded os
  change (.chmod p mode)

/-- `File::open` and `syncfs` (install.rs 221-222). Simplification: `p` is taken to be the top directory
of its file system, as the ESP is; what is not below `p` is not synced. -/
def syncFs (os : Os) (p : Path) : M Unit := do
  guarded os
  let fs ← getFs
  require (fs.get p).isSome
  guarded os
  change (.syncfs p)

/-- `fs::remove_file`. (gc.rs 75.) -/
def removeFile (os : Os) (p : Path) : M Unit := do
  guarded os
  let fs ← getFs
  match fs.fileAt p with
  | none => RM.throw ()
  | some _ => change (.unlink p)

/-- `fs::remove_dir`. (by `remove_dir_all`, gc.rs 71.) -/
def removeDir (os : Os) (p : Path) : M Unit := do
  guarded os
  let fs ← getFs
  require (decide (fs.get p = some .dir) && (fs.children p).isEmpty && decide (p ≠ []))
  change (.rmdir p)

/-- Remove a file or an empty directory. (by `remove_dir_all`, gc.rs 71.) -/
def removeOne (os : Os) (p : Path) : M Unit := do
  let fs ← getFs
  if fs.get p = some .dir then removeDir os p else removeFile os p

/-- Remove the listed entries one after the other. (by `remove_dir_all`, gc.rs 71.) -/
def removeEach (os : Os) : List Path → M Unit
  | [] => pure ()
  | p :: rest => do
    removeOne os p
    removeEach os rest

/-- `fs::remove_dir_all`: everything below is removed entry by entry, deeper entries first, in
whatever order the directories list them; the first failure ends it. (gc.rs 71.) -/
def removeDirAll (os : Os) (p : Path) : M Unit := do
  let t ← next
  let fs ← getFs
  removeEach os ((os.list t (fs.subtree p)).isort fun a b => decide (b.length ≤ a.length))

/-- The directories above and including `p`, outermost first, without the root. (by `create_dir_all`,
install.rs 669.) -/
def ancestors (p : Path) : List Path := (List.range p.length).map fun i => p.take (i + 1)

/-- Make the missing ones of these directories. (by `create_dir_all`, install.rs 669.) -/
def mkdirMissing (os : Os) : List Path → M Unit
  | [] => pure ()
  | p :: rest => do
    let fs ← getFs
    if fs.get p = some .dir then mkdirMissing os rest
    else do
      mkdir os p
      mkdirMissing os rest

/-- `fs::create_dir_all`. (install.rs 669.) -/
def createDirAll (os : Os) (p : Path) : M Unit := mkdirMissing os (ancestors p)

/-- `ensure_parent_dir` (install.rs 667-671). -/
def ensureParentDir (os : Os) (p : Path) : M Unit :=
  match p.parent with
  | some q => do
    let _ ← RM.attempt (createDirAll os q)
    pure ()
  | none => pure ()

/-- Names listed by `fs::read_dir`, as paths. (install.rs 382.) -/
def readDir (os : Os) (p : Path) : M (List Path) := do
  guarded os
  let t ← next
  let fs ← getFs
  require (decide (fs.get p = some .dir))
  pure (os.list t ((fs.children p).map fun n => p ++ [n]))

end Verif.Tool
