import Verif.Model.Basic
/-!
# Model of the Rust standard library text functions the tool uses

`str::parse` for integers, `Display` for integers, `str::split`, `split_once`, `trim_end`,
`replace`, UTF-8.  These are the documented behaviours of std, written out.
-/
namespace Verif

/-- A string literal. (e.g. esp.rs of tool/systemd, lines 25-31.) -/
def lit (s : String) : Str := s.toList

/-- Decimal digit character of `n % 10`. (std; e.g. generation.rs 150-165, install.rs 535-568.) -/
def digitChar (n : Nat) : Char := Char.ofNat (0x30 + n % 10)

/-- `Display` for unsigned integers (`format!("{}", n)`). (std; e.g. generation.rs 150-165, install.rs
535-568.) -/
def toDec (n : Nat) : Str :=
  if n < 10 then [digitChar n] else toDec (n / 10) ++ [digitChar n]
termination_by n
decreasing_by omega

/-- Value of an ASCII decimal digit. (std; generation.rs 219, version.rs 64-85.) -/
def digitVal (c : Char) : Option Nat :=
  if 0x30 ≤ c.toNat ∧ c.toNat ≤ 0x39 then some (c.toNat - 0x30) else none

/-- Value of a string of digits, most significant first, continuing from `acc`. (std; generation.rs 219,
version.rs 64-85.) -/
def digitsFrom (acc : Nat) : Str → Option Nat
  | [] => some acc
  | c :: cs => match digitVal c with
    | some d => digitsFrom (acc * 10 + d) cs
    | none => none

/-- A non-empty string of digits. (std; generation.rs 219, version.rs 64-85.) -/
def digits : Str → Option Nat
  | [] => none
  | s => digitsFrom 0 s

/-- `str::parse::<uN>()` with `uN::MAX = max`: one optional `+`, then digits, no overflow. (std;
generation.rs 219, version.rs 64-85.) -/
def parseUnsigned (max : Nat) (s : Str) : Option Nat :=
  match (match s with
    | '+' :: r => digits r
    | _ => digits s) with
  | some n => if n ≤ max then some n else none
  | none => none

/-- `str::parse::<i32>()`: one optional sign. (std; version.rs 71-78.) -/
def parseI32 (s : Str) : Option Int :=
  match s with
  | '-' :: r => match digits r with
    | some n => if n ≤ 2 ^ 31 then some (-(n : Int)) else none
    | none => none
  | '+' :: r => match digits r with
    | some n => if n ≤ 2 ^ 31 - 1 then some n else none
    | none => none
  | _ => match digits s with
    | some n => if n ≤ 2 ^ 31 - 1 then some n else none
    | none => none

/-- `str::split(c)`: always at least one piece. (std; generation.rs 218, install.rs 252.) -/
def splitOn (sep : Char) : Str → List Str
  | [] => [[]]
  | c :: cs =>
    if c = sep then [] :: splitOn sep cs
    else match splitOn sep cs with
      | [] => [[c]]
      | p :: ps => (c :: p) :: ps

/-- `str::split_once(pat)`: around the first occurrence of the pattern. (std; version.rs 64 and 71.) -/
def splitOnce (pat : Str) : Str → Option (Str × Str)
  | [] => if pat = [] then some ([], []) else none
  | c :: cs =>
    if pat.isPrefixOf (c :: cs) then some ([], (c :: cs).drop pat.length)
    else match splitOnce pat cs with
      | some (a, b) => some (c :: a, b)
      | none => none

/-- Unicode `White_Space` (`char::is_whitespace`). (std; by `trim_end`, os_release.rs 113.) -/
def isWhitespace (c : Char) : Bool :=
  let n := c.toNat
  (0x09 ≤ n && n ≤ 0x0D) || n == 0x20 || n == 0x85 || n == 0xA0 || n == 0x1680
    || (0x2000 ≤ n && n ≤ 0x200A) || n == 0x2028 || n == 0x2029 || n == 0x202F || n == 0x205F
    || n == 0x3000

/-- `str::trim_end`. (std; os_release.rs 113-217.) -/
def trimEnd (s : Str) : Str := (s.reverse.dropWhile isWhitespace).reverse

/-- `str::replace(char, one-char string)`. (std; pe.rs 206, install.rs 524.) -/
def replaceChar (a b : Char) (s : Str) : Str := s.map fun c => if c = a then b else c

/-- The UTF-8 bytes of a string (`as_bytes`). (std; e.g. pe.rs 97-108.) -/
def utf8 (s : Str) : Bytes := s.flatMap String.utf8EncodeChar

/-- `[..].join(sep)`. (std; pe.rs 98.) -/
def joinWith (sep : Str) : List Str → Str
  | [] => []
  | [x] => x
  | x :: xs => x ++ sep ++ joinWith sep xs

end Verif
