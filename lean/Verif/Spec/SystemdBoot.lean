import Verif.Spec.Generations
import Verif.Spec.SecureBoot
/-!
# Specification: the boot menu of systemd-boot

How systemd-boot makes the items of its menu from the `.osrel` sections of the images in `EFI/Linux`, and
how it sorts them. Nothing here is code of lanzaboote: it is written after systemd-boot
(`line_get_key_value`, `boot_entry_add_unified`, `boot_entry_compare`) and the UAPI specification of
version numbers (`strverscmp_improved`).
-/
namespace Verif.Menu
open Verif Generation Version.Spec

/-! ### Reading os-release -/

/-- A text is cut into lines at line feeds and carriage returns. -/
def lines : Str → List Str
  | [] => [[]]
  | c :: cs =>
    if c = '\n' ∨ c = '\r' then [] :: lines cs
    else match lines cs with
      | l :: ls => (c :: l) :: ls
      | [] => [[c]]

/-- Blanks and tabs are dropped at both ends. -/
def strip (l : Str) : Str :=
  let blank := fun c : Char => c == ' ' || c == '\t'
  ((l.dropWhile blank).reverse.dropWhile blank).reverse

/-- Quotes around a value are dropped; nothing inside is. -/
def unquote (v : Str) : Str :=
  if v.head? = some '"' ∧ v.getLast? = some '"' then v.tail.dropLast else v

/-- A line is an assignment if it is no comment and has an equals sign. The value starts after the
equals signs. -/
def assignment (line : Str) : Option (Str × Str) :=
  let l := strip line
  if l.head? = some '#' then none
  else match l.dropWhile (· ≠ '=') with
    | [] => none
    | rest => some (l.takeWhile (· ≠ '='), unquote (rest.dropWhile (· = '=')))

/-- The value of a field: that of the last assignment. The text ends at a NUL. -/
def field (text key : Str) : Option Str :=
  let all := (lines (text.takeWhile (· ≠ '\x00'))).filterMap assignment
  ((all.filter fun a => a.1 = key).getLast?).map (·.2)

/-! ### Items -/

/-- An item of the menu. `id` is the file name; `exhausted` means that no tries are left in it. -/
structure Item where
  title : Option Str
  version : Option Str
  sortKey : Option Str
  id : Str
  exhausted : Bool
  deriving DecidableEq, Repr

/-- The item for an image with this os-release text and this file name. -/
def itemOf (text id : Str) (exhausted : Bool) : Item where
  title := field text (lit "PRETTY_NAME") <|> field text (lit "IMAGE_ID") <|> field text (lit "NAME") <|>
    field text (lit "ID")
  version := field text (lit "IMAGE_VERSION") <|> field text (lit "VERSION") <|>
    field text (lit "VERSION_ID") <|> field text (lit "BUILD_ID")
  sortKey := field text (lit "IMAGE_ID") <|> field text (lit "ID")
  id := id
  exhausted := exhausted

/-! ### Sorting -/

def isDigit (c : Char) : Bool := 0x30 ≤ c.toNat && c.toNat ≤ 0x39

def isAlpha (c : Char) : Bool :=
  (0x41 ≤ c.toNat && c.toNat ≤ 0x5A) || (0x61 ≤ c.toNat && c.toNat ≤ 0x7A)

/-- The characters of version numbers; all others are skipped. -/
def versionChar (c : Char) : Bool :=
  isDigit c || isAlpha c || c == '~' || c == '-' || c == '^' || c == '.'

/-- Letter by letter; what is longer is greater. -/
def textCmp : Str → Str → Ordering
  | [], [] => .eq
  | [], _ :: _ => .lt
  | _ :: _, [] => .gt
  | a :: as, b :: bs => (compare a.toNat b.toNat).then (textCmp as bs)

/-- If only one of the two starts with the mark `c` then this one is older. If both do, the mark is
skipped. -/
def mark (c : Char) (a b : Str) (next : Str → Str → Ordering) : Ordering :=
  if a.head? = some c then
    if b.head? = some c then next a.tail b.tail else .lt
  else if b.head? = some c then .gt
  else next a b

/-- Comparison of two version numbers, segment by segment, for at most this many segments: numbers by
their value, words by their letters. -/
def versionCmpUpTo : Nat → Str → Str → Ordering
  | 0, _, _ => .eq
  | n + 1, a, b =>
    mark '~' (a.dropWhile (!versionChar ·)) (b.dropWhile (!versionChar ·)) fun a b =>
    if a = [] ∨ b = [] then compare a.length b.length
    else mark '-' a b fun a b => mark '^' a b fun a b => mark '.' a b fun a b =>
      if a.head?.any isDigit || b.head?.any isDigit then
        if a.head?.any isDigit && b.head?.any isDigit then
          (compare (value (a.takeWhile isDigit)) (value (b.takeWhile isDigit))).then
            (versionCmpUpTo n (a.dropWhile isDigit) (b.dropWhile isDigit))
        else if a.head?.any isDigit then .gt else .lt
      else
        (textCmp (a.takeWhile isAlpha) (b.takeWhile isAlpha)).then
          (versionCmpUpTo n (a.dropWhile isAlpha) (b.dropWhile isAlpha))

/-- Comparison of two version numbers: `.gt` if the first one is newer. A text has no more segments than
characters. -/
def versionCmp (a b : Str) : Ordering := versionCmpUpTo (a.length + b.length + 1) a b

/-- The order of the menu: `.lt` if the first item is above the second. Items without tries left come
last, items with a sort key before items without; then by sort key, then the newest version first, then
by file name. (Images have no machine id, which systemd-boot also looks at. Of two items that are equal
in all this it puts the one with more tries left first.) -/
def menuCmp (a b : Item) : Ordering :=
  (compare a.exhausted.toNat b.exhausted.toNat).then <|
  (compare a.sortKey.isNone.toNat b.sortKey.isNone.toNat).then <|
  (match a.sortKey, b.sortKey with
    | some k, some k' => (textCmp k k').then (versionCmp (b.version.getD []) (a.version.getD []))
    | _, _ => .eq).then (versionCmp b.id a.id)

/-- A menu: the items from top to bottom. -/
def IsMenu (items : List Item) : Prop := items.Pairwise fun a b => menuCmp a b ≠ .gt

/-! ### Texts the menu can show -/

/-- No line break and no NUL. -/
def OnOneLine (s : Str) : Prop := '\n' ∉ s ∧ '\r' ∉ s ∧ '\x00' ∉ s

/-- The texts of the generation get through the format as they are: they are on one line, the label and
the sort key do not start with an equals sign, and the sort key does not end with a blank and is not in
quotes. The date is one with a year of four and a month and day of two digits (as every date is that the
installer finds, `C77_dates`). -/
structure Fits (g : Gen) : Prop where
  label : OnOneLine g.spec.label
  label_start : g.spec.label.head? ≠ some '='
  name : ∀ s ∈ g.specialisationName, OnOneLine s
  sortKey : ∀ s ∈ g.spec.sortKey, OnOneLine s ∧ s.head? ≠ some '=' ∧ s.getLast? ≠ some ' ' ∧
    s.getLast? ≠ some '\t' ∧ ¬ (s.head? = some '"' ∧ s.getLast? = some '"')
  date : ∀ d ∈ g.buildTime, d.year.natAbs < 10000 ∧ d.month < 100 ∧ d.day < 100

/-- The item the menu should have for `g`, described by `d`: the label with the description, the
description as version and the configured sort key. -/
def itemFor (g : Gen) (d id : Str) (exhausted : Bool) : Item where
  title := some (g.spec.label ++ lit " (" ++ d ++ lit ")")
  version := some d
  sortKey := some (g.spec.sortKey.getD (lit "lanzaboote"))
  id := id
  exhausted := exhausted

end Verif.Menu

namespace Verif.Menu
open Verif Tool

/-- `x` is above `y` in the menu. -/
def Above (items : List Item) (x y : Item) : Prop := ∃ a b c, items = a ++ x :: (b ++ y :: c)

/-- The menu shows the image `data` as the item `i`. -/
def Shows (env : Env) (data : Bytes) (i : Item) : Prop :=
  ∃ text, FileSection env data (lit ".osrel") (utf8 text) ∧ i = itemOf text i.id i.exhausted

/-- The item `i` stands for the generation `g`: it shows an image that the installer has signed for
`g`, in some run. -/
def StandsFor (i : Item) (g : Generation.Gen) : Prop :=
  ∃ env cfg data, FaithfulTools env ∧ SignedEntry env cfg g data ∧ Shows env data i

/-- `g` should be above `g'`: they have the same sort key, and `g` has a greater number, or it is the
main system and `g'` one of its specialisations. -/
def Precedes (g g' : Generation.Gen) : Prop :=
  g.spec.sortKey.getD (lit "lanzaboote") = g'.spec.sortKey.getD (lit "lanzaboote") ∧
  (g'.version < g.version ∨ g'.version = g.version ∧ g.specialisationName = none ∧
    g'.specialisationName ≠ none ∧ ∀ d ∈ g.buildTime, 0 ≤ d.year)

end Verif.Menu
