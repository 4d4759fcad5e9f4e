import Verif.Spec.Installer
import Verif.Spec.BootCounting
/-!
# Histories of an ESP

Runs of the installer, each in its own surroundings and with its own configuration and perhaps
interrupted, perhaps by a power failure, alternate with boots, which count down the tries of boot entries, and with whatever else
happens to the rest of the disk.
-/
namespace Verif.Tool
open Verif Generation BootCounting

/-- A run of the installer that belongs to the world: the tools work, the generations it is asked to
install are among the known ones. -/
structure ProperRun (world : Env) (esp : Path) (known : Gen → Bytes → Prop) (env : Env) (cfg : Config) :
    Prop where
  esp : cfg.esp = esp
  inWorld : InWorld world env cfg
  safe : SafeInput env cfg
  tools : FaithfulTools env
  separate : Separate cfg
  known : ∀ g key, Considers env cfg g → KeyOf env cfg.signer key → known g key

/-- The base name does not end in what the installer would take for a counter, such as `+3`. -/
def NoCounter (uni : Char → Bool) (base : Str) : Prop :=
  ∀ a b, base = a ++ '+' :: b → ∃ x ∈ b, StubName.isRegexDigit uni x = false ∧ x ≠ '+' ∧ x ≠ '-'

/-- What may happen between two moments, the runs that happen being of the kind `ofKind`. -/
inductive Event (world : Env) (esp : Path) (known : Gen → Bytes → Prop) (ofKind : Env → Config → Prop)
    (fs : Fs) : Fs → Prop
  /-- the installer runs, to the end or until it is killed -/
  | run {env : Env} {cfg : Config} {done : List Change} (h : ProperRun world esp known env cfg)
      (hk : ofKind env cfg) (hd : KilledAfter env cfg fs done) :
      Event world esp known ofKind fs (fs.replay done)
  /-- the power fails while the installer runs or after that, later than its sync of the boot partition -/
  | powerLoss {env : Env} {cfg : Config} {done : List Change} {fs' : Fs} (h : ProperRun world esp known env cfg)
      (hk : ofKind env cfg) (hd : KilledAfter env cfg fs done) (hs : .syncfs esp ∈ done)
      (hl : AfterPowerLoss fs done fs') : Event world esp known ofKind fs fs'
  /-- the boot loader or user space renames a boot entry for boot counting -/
  | count {base : Str} {c c' : Counter} {data : Bytes} (hb : NoCounter world.uni base)
      (he : IsEntry esp (entryFile esp (entryName base c))) (hc : CounterStep c c')
      (hf : fs.fileAt (entryFile esp (entryName base c)) = some data)
      (hn : fs.get (entryFile esp (entryName base c')) = none) :
      Event world esp known ofKind fs (fs.apply (.rename (entryFile esp (entryName base c))
        (entryFile esp (entryName base c')) data))
  /-- anything that leaves the boot entries and `EFI/nixos` alone -/
  | other {fs' : Fs} (h : ∀ p, IsEntry esp p ∨ nixosDir esp <+: p → fs'.get p = fs.get p) :
      Event world esp known ofKind fs fs'

/-- Any number of events. -/
inductive History (world : Env) (esp : Path) (known : Gen → Bytes → Prop)
    (ofKind : Env → Config → Prop) (fs : Fs) : Fs → Prop
  | nil : History world esp known ofKind fs fs
  | snoc {f f' : Fs} (h : History world esp known ofKind fs f)
      (e : Event world esp known ofKind f f') : History world esp known ofKind fs f'

/-- Any number of: further runs of the installer with the same inputs, in which the operating system does
not fail; renames for boot counting; changes outside the ESP and the directory for measurements. -/
inductive Undisturbed (env : Env) (cfg : Config) (fs : Fs) : Fs → Prop
  | nil : Undisturbed env cfg fs fs
  | run {f : Fs} {env' : Env} (h : Undisturbed env cfg fs f) (hi : SameInputs env env')
      (hr : Reliable env'.os) : Undisturbed env cfg fs (run env' cfg (start cfg f)).2.fs
  | count {f : Fs} {base : Str} {c c' : Counter} {data : Bytes} (h : Undisturbed env cfg fs f)
      (hb : NoCounter env.uni base) (he : IsEntry cfg.esp (entryFile cfg.esp (entryName base c)))
      (hc : CounterStep c c') (hf : f.fileAt (entryFile cfg.esp (entryName base c)) = some data)
      (hn : f.get (entryFile cfg.esp (entryName base c')) = none) :
      Undisturbed env cfg fs (f.apply (.rename (entryFile cfg.esp (entryName base c))
        (entryFile cfg.esp (entryName base c')) data))
  | other {f f' : Fs} (h : Undisturbed env cfg fs f)
      (hg : ∀ p, cfg.esp <+: p ∨ (∃ l, cfg.pcrlockDirectory = some l ∧ l <+: p) → f'.get p = f.get p) :
      Undisturbed env cfg fs f'

end Verif.Tool
