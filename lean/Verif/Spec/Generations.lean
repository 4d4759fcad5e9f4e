import Verif.Model.Generation
import Verif.Spec.Version
/-!
# Specification: which generations there are, and what the boot menu says about them

NixOS hands the installer links to generations. A generation is numbered by the name of its link; what it
is made of is in the bootspec the link leads to, which also lists the specialisations of the generation.
-/
namespace Verif.Generation
open Verif Version.Spec

/-- `s` writes the number `n` below `2^64`; a leading plus sign is tolerated. -/
def Writes64 (s : Str) (n : Nat) : Prop :=
  ∃ ds, (s = ds ∨ s = '+' :: ds) ∧ IsDigits ds ∧ value ds = n ∧ n < 2 ^ 64

/-- The name of the link is made of fields separated by dashes, and the second one writes `n`. -/
def LinkNumber (p : Path) (n : Nat) : Prop :=
  ∃ dir a f rest, p = dir ++ [a ++ '-' :: (f ++ rest)] ∧ '-' ∉ a ∧ '-' ∉ f ∧
    (rest = [] ∨ ∃ b, rest = '-' :: b) ∧ Writes64 f n

/-- `g` is the generation with this number, date and bootspec document, or a specialisation of it. -/
inductive SaidBy (number : Nat) (date : Option Date) (j : BootJson) : Gen → Prop
  | itself {g : Gen} (hv : g.version = number) (hd : g.buildTime = date)
      (hn : g.specialisationName = none) (hs : g.spec = j.main) : SaidBy number date j g
  | specialisation {g : Gen} {name : Str} {b : BootSpec} (hm : (name, b) ∈ j.specialisations)
      (hv : g.version = number) (hd : g.buildTime = date)
      (hn : g.specialisationName = some name) (hs : g.spec = b) : SaidBy number date j g

/-- A number below 100 with two digits. -/
def twoDigits (n : Nat) (s : Str) : Prop :=
  ∃ a b, s = [a, b] ∧ IsDigits s ∧ value s = n

/-- A year with four digits, with a minus sign before the year 0. -/
def YearText (y : Int) (s : Str) : Prop :=
  ∃ a b c d, (0 ≤ y ∧ s = [a, b, c, d] ∨ y < 0 ∧ s = ['-', a, b, c, d]) ∧
    IsDigits [a, b, c, d] ∧ (value [a, b, c, d] : Int) = y.natAbs

/-- The date in the form year-month-day; `Unknown` if there is none. -/
def DateText : Option Date → Str → Prop
  | none, s => s = lit "Unknown"
  | some d, s => ∃ y m dd, YearText d.year y ∧ twoDigits d.month m ∧ twoDigits d.day dd ∧
      s = y ++ lit "-" ++ m ++ lit "-" ++ dd

/-- `Generation 12, <date>` or, for a specialisation, `Generation 12-name, <date>`. -/
def described (g : Gen) (date : Str) : Str :=
  lit "Generation " ++ toDec g.version ++ (match g.specialisationName with
    | none => []
    | some name => lit "-" ++ name) ++ lit ", " ++ date

/-- `Generation 12, 2024-01-31` or, for a specialisation, `Generation 12-name, 2024-01-31`. -/
def Description (g : Gen) (s : Str) : Prop :=
  ∃ date, DateText g.buildTime date ∧ s = described g date

end Verif.Generation
