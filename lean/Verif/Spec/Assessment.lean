import Verif.Spec.History
/-!
# Specification: automatic boot assessment across updates

systemd-boot counts the attempts to boot an entry in its file name, and user space renames the entry once it has
booted well. An entry for which no tries are left is only booted when nothing else is there. All this is worth nothing
if installing again gives an entry that failed new tries, or makes one that was found good be tried again.
-/
namespace Verif.Tool
open Verif Generation StubName BootCounting

/-- `n`, with the content `data`, is the only boot entry of `g` for the key. It can be booted, and there is a
measurement if measurements are made. -/
structure Assessed (world : Env) (esp : Path) (pcrlock : Option Path) (g : Gen) (key : Bytes) (n : Str)
    (data : Bytes) (f : Fs) : Prop where
  linux : f.get (linuxDir esp) = some .dir
  name : IsNameOf world.uni world.sha g key n
  entry : f.fileAt (entryFile esp n) = some data
  only : ∀ n', IsNameOf world.uni world.sha g key n' → (f.get (entryFile esp n')).isSome → n' = n
  refs : ∃ kl kh il ih,
    RefersToCa world esp data (lit ".linux") (lit ".linuxh") kl kh ∧
    RefersToCa world esp data (lit ".initrd") (lit ".initrdh") il ih ∧
    Present world f (caFile esp kl kh) kh ∧ Present world f (caFile esp il ih) ih
  measured : ∀ dir, pcrlock = some dir → (f.get (measurementFile dir g)).isSome

/-- A run of the installer that has to install `g`, among others. The operating system does not fail. -/
structure AssessedRun (world : Env) (esp : Path) (known : Gen → Bytes → Prop) (pcrlock : Option Path) (g : Gen)
    (key : Bytes) (env : Env) (cfg : Config) : Prop where
  proper : ProperRun world esp known env cfg
  reliable : Reliable env.os
  considers : Considers env cfg g
  signer : KeyOf env cfg.signer key
  pcrlock : cfg.pcrlockDirectory = pcrlock

/-- Any number of steps of boot counting. -/
inductive CounterSteps (c : Counter) : Counter → Prop
  | refl : CounterSteps c c
  | step {c₁ c₂ : Counter} (h : CounterSteps c c₁) (hs : CounterStep c₁ c₂) : CounterSteps c c₂

/-- Any number of: runs of the installer, to the end or until they are killed; renames for boot counting, of any
entry; changes elsewhere. -/
inductive BootsAndUpdates (world : Env) (esp : Path) (known : Gen → Bytes → Prop) (pcrlock : Option Path) (g : Gen)
    (key : Bytes) (fs : Fs) : Fs → Prop
  | nil : BootsAndUpdates world esp known pcrlock g key fs fs
  | run {f : Fs} {env : Env} {cfg : Config} {done : List Change} (h : BootsAndUpdates world esp known pcrlock g key fs f)
      (hr : AssessedRun world esp known pcrlock g key env cfg) (hk : KilledAfter env cfg f done) :
      BootsAndUpdates world esp known pcrlock g key fs (f.replay done)
  | count {f : Fs} {base : Str} {c c' : Counter} {data : Bytes} (h : BootsAndUpdates world esp known pcrlock g key fs f)
      (hb : NoCounter world.uni base) (he : IsEntry esp (entryFile esp (entryName base c))) (hc : CounterStep c c')
      (hf : f.fileAt (entryFile esp (entryName base c)) = some data)
      (hn : f.get (entryFile esp (entryName base c')) = none) :
      BootsAndUpdates world esp known pcrlock g key fs (f.apply (.rename (entryFile esp (entryName base c))
        (entryFile esp (entryName base c')) data))
  | other {f f' : Fs} (h : BootsAndUpdates world esp known pcrlock g key fs f)
      (hp : ∀ p, IsEntry esp p ∨ nixosDir esp <+: p ∨ p = linuxDir esp ∨
        (∃ dir, pcrlock = some dir ∧ p = measurementFile dir g) → f'.get p = f.get p) :
      BootsAndUpdates world esp known pcrlock g key fs f'

/-- How many more times the boot loader will try an entry before it counts as bad. `none`: it has been found good. -/
def Counter.tries : Counter → Option Nat
  | .none => Option.none
  | .left n => some n
  | .leftDone n _ => some n

end Verif.Tool
