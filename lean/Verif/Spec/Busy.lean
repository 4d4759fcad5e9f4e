import Verif.Model.Busy
import Verif.Spec.Footprint
import Verif.Spec.BootLoader
/-!
# Specification: other processes that keep off the installer's places
-/
namespace Verif.Tool
open Verif

/-- The other processes leave the part of the disk alone that can matter to the installer: contents of its places and
the directories above, and names in `EFI/Linux`. In `E` they neither create nor delete. -/
structure Others.KeepOff (o : Others) (cfg : Config) (E : Path → Prop) : Prop where
  view : ∀ t n f, (o.act t n f).view cfg = f.view cfg
  ex : ∀ t n f q, E q → ((o.act t n f).get q).isSome = (f.get q).isSome
  late : ∀ t q, q ∈ o.late t → ¬ Matters cfg q ∧ ¬ linuxDir cfg.esp <+: q

/-- The run among the others does the same as the run alone: the result, the changes in their order, the numbers
of malformed generations, and what is in the installer's places in the end. -/
structure AsIfAlone (o : Others) (env : Env) (cfg : Config) (f : Fs) : Prop where
  result : (Busy.run o env cfg (start cfg f)).1 = (run env cfg (start cfg f)).1
  changes : (Busy.run o env cfg (start cfg f)).2.log = (run env cfg (start cfg f)).2.log
  malformed : (Busy.run o env cfg (start cfg f)).2.broken = (run env cfg (start cfg f)).2.broken
  after : (Busy.run o env cfg (start cfg f)).2.fs.view cfg = (run env cfg (start cfg f)).2.fs.view cfg
  files : ∀ p, Matters cfg p →
    (Busy.run o env cfg (start cfg f)).2.fs.get p = (run env cfg (start cfg f)).2.fs.get p

/-- The change removes a file or a directory. -/
def Removal : Change → Prop
  | .unlink _ => True
  | .rmdir _ => True
  | _ => False

/-- The change touches the installer's files only; directories for them may be made. -/
def InPlaces (cfg : Config) (c : Change) : Prop :=
  ∀ q, Touches c q → Owned cfg q ∨ c = .mkdir q ∧ q ≠ [] ∧ ∃ p, Owned cfg p ∧ q <+: p

/-- The others are installers for this configuration: whatever they do, it is in their places. -/
structure Others.InstallFor (o : Others) (cfg : Config) : Prop where
  act : ∀ t n f, ∃ l, o.act t n f = f.replay l ∧ ∀ c ∈ l, InPlaces cfg c
  late : ∀ t q, q ∈ o.late t → Owned cfg q

/-- Two installations that have nothing to do with each other, as with two boot partitions. -/
def NothingInCommon (cfg cfg' : Config) : Prop :=
  ∀ p, p ≠ [] → (∃ q, Owned cfg' q ∧ p <+: q) → ¬ Matters cfg p ∧ ¬ linuxDir cfg.esp <+: p

/-- The others are one other run of the installer, to the end and with success, at some moment. -/
def Others.OneRun (o : Others) (env : Env) (cfg : Config) : Prop :=
  (∀ t, o.late t = []) ∧ ∃ T N, ∀ t n f, (t = T ∧ n = N ∧ (run env cfg (start cfg f)).1 = .ok () →
    o.act t n f = (run env cfg (start cfg f)).2.fs) ∧
    (¬ (t = T ∧ n = N ∧ (run env cfg (start cfg f)).1 = .ok ()) → o.act t n f = f)

end Verif.Tool
