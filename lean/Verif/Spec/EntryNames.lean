import Verif.Model.Text
/-!
# Specification: how the names of the installed files are spelled

Other programs find the files of an installation by their names: systemd-boot strips the boot counter from
the name of an entry, systemd-pcrlock goes by the name of a measurement, and scripts recompute the names.
Nothing here uses an operation of the model: numbers are written by `Nat.toDigits` of Lean's library, and
base 32 is described by the bits a text stands for (RFC 4648, section 6, lower case, without padding).
-/
namespace Verif.Spelling
open Verif

/-- `n` in decimal. -/
def decimal (n : Nat) : Str := Nat.toDigits 10 n

/-- The low `k` bits of `n`, most significant first. -/
def bits : Nat → Nat → List Bool
  | 0, _ => []
  | k + 1, n => bits k (n / 2) ++ [decide (n % 2 = 1)]

/-- The digits of base 32. -/
def alphabet : Str := "abcdefghijklmnopqrstuvwxyz234567".toList

/-- The bits of a byte string. -/
def bitsOf (b : Bytes) : List Bool := b.flatMap fun x => bits 8 x.toNat

/-- `s` is `b` in base 32: every digit stands for five bits, together they are the bits of `b` and fewer
than five zeros to fill the last digit. -/
def Base32 (b : Bytes) (s : Str) : Prop :=
  (∀ c ∈ s, c ∈ alphabet) ∧ ∃ zeros < 5,
    s.flatMap (fun c => bits 5 (alphabet.idxOf c)) = bitsOf b ++ List.replicate zeros false

/-- A JSON array of the bytes. -/
def byteArray (b : Bytes) : Str :=
  "[".toList ++ List.intercalate ",".toList (b.map fun x => decimal x.toNat) ++ "]".toList

/-- The JSON document by which toplevel and public key enter the name of an entry. -/
def document (toplevel publicKey : Bytes) : Str :=
  "[[\"toplevel\",".toList ++ byteArray toplevel ++ "],[\"public_key\",".toList ++ byteArray publicKey ++
    "]]".toList

/-- The name of the boot entry of generation `version`, or of a specialisation of it, that has not been
tried yet. `h` is the hash of the document. -/
def EntryName (version : Nat) (specialisation : Option Str) (h : Bytes) (tries : Nat) (name : Str) : Prop :=
  ∃ digits, Base32 h digits ∧
    name = "nixos-generation-".toList ++ decimal version ++
      (match specialisation with
        | none => []
        | some s => "-specialisation-".toList ++ s) ++
      "-".toList ++ digits ++
      (if tries = 0 then [] else "+".toList ++ decimal tries) ++ ".efi".toList

/-- The name of a kernel (`kind` is `kernel`) or an initrd (`kind` is `initrd`) with the hash `h`. -/
def ContentName (kind version : Str) (h : Bytes) (name : Str) : Prop :=
  ∃ digits, Base32 h digits ∧ name = kind ++ "-".toList ++ version ++ "-".toList ++ digits ++ ".efi".toList

/-- The name of the measurement of a generation or specialisation. -/
def measurementName (version : Nat) (specialisation : Option Str) : Str :=
  decimal version ++ (match specialisation with
    | none => []
    | some s => "-".toList ++ s) ++ ".pcrlock".toList

/-- One or more digits. -/
def Number (digit : Char → Prop) (s : Str) : Prop := s ≠ [] ∧ ∀ c ∈ s, digit c

/-- The boot counter in the name of an entry (UAPI Boot Loader Specification): none, the number of tries
left, or the numbers of tries left and done. -/
inductive CounterText (digit : Char → Prop) : Str → Prop
  | none : CounterText digit []
  | left {l : Str} (h : Number digit l) : CounterText digit ("+".toList ++ l)
  | leftDone {l d : Str} (h : Number digit l) (h' : Number digit d) :
      CounterText digit ("+".toList ++ l ++ "-".toList ++ d)

/-- A name of the boot entry of generation `version`, or of a specialisation of it, tried or not. -/
def AnyEntryName (digit : Char → Prop) (version : Nat) (specialisation : Option Str) (h : Bytes) (name : Str) :
    Prop :=
  ∃ digits counter, Base32 h digits ∧ CounterText digit counter ∧
    name = "nixos-generation-".toList ++ decimal version ++
      (match specialisation with
        | none => []
        | some s => "-specialisation-".toList ++ s) ++
      "-".toList ++ digits ++ counter ++ ".efi".toList

/-- A digit. The lookup allows digits of other scripts, too; `uni` says which characters these are. -/
def Digit (uni : Char → Bool) (c : Char) : Prop := c ∈ "0123456789".toList ∨ (128 ≤ c.toNat ∧ uni c = true)

end Verif.Spelling
