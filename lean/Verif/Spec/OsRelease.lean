import Verif.Model.Basic
/-!
# Specification: the os-release file format

An os-release file is a list of lines, each a comment, a blank line or an assignment whose value
is written with shell-like quoting.  `render` is how such a line is spelled, `meaning` what it
says.
-/
namespace Verif.OsRelease.Spec
open Verif

def Newline (c : Char) : Prop := c = '\n' ∨ c = '\r'
def Blank (c : Char) : Prop := c = ' ' ∨ c = '\t' ∨ c = '\n' ∨ c = '\r'

/-- An item inside double quotes. -/
inductive DqItem
  /-- an ordinary character, neither `"` nor backslash -/
  | char (c : Char)
  /-- backslash and one of the characters `"`, backslash, backquote, `$` -/
  | escape (c : Char)
  /-- backslash and any other character except a line feed: the backslash is kept -/
  | other (c : Char)
  /-- backslash and line feed: a continuation line -/
  | continuation

def DqItem.Ok : DqItem → Prop
  | .char c => c ≠ '"' ∧ c ≠ '\\'
  | .escape c => c = '"' ∨ c = '\\' ∨ c = '`' ∨ c = '$'
  | .other c => c ≠ '"' ∧ c ≠ '\\' ∧ c ≠ '`' ∧ c ≠ '$' ∧ c ≠ '\n'
  | .continuation => True

def DqItem.render : DqItem → Str
  | .char c => [c]
  | .escape c => ['\\', c]
  | .other c => ['\\', c]
  | .continuation => ['\\', '\n']

def DqItem.meaning : DqItem → Str
  | .char c => [c]
  | .escape c => [c]
  | .other c => ['\\', c]
  | .continuation => []

/-- A quoted piece, possibly preceded by blanks. -/
inductive Quoted
  | single (blanks : Str) (text : Str)
  | double (blanks : Str) (items : List DqItem)

def Blanks (s : Str) : Prop := ∀ c ∈ s, c = ' ' ∨ c = '\t'

def Quoted.Ok : Quoted → Prop
  | .single b t => Blanks b ∧ '\'' ∉ t
  | .double b is => Blanks b ∧ ∀ i ∈ is, i.Ok

def Quoted.render : Quoted → Str
  | .single b t => b ++ ['\''] ++ t ++ ['\'']
  | .double b is => b ++ ['"'] ++ is.flatMap DqItem.render ++ ['"']

def Quoted.meaning : Quoted → Str
  | .single _ t => t
  | .double _ is => is.flatMap DqItem.meaning

/-- An item of an unquoted value. -/
inductive Item
  | char (c : Char)
  | escape (c : Char)

def Item.Ok : Item → Prop
  | .char c => ¬ Newline c ∧ c ≠ '\\'
  | .escape _ => True

def Item.render : Item → Str
  | .char c => [c]
  | .escape c => ['\\', c]

/-- An escaped line break vanishes, any other escaped character stands for itself. -/
def Item.meaning : Item → Str
  | .char c => [c]
  | .escape c => if c = '\n' ∨ c = '\r' then [] else [c]

/-- An unquoted value does not start with a blank or a quote. -/
def Item.OkFirst : Item → Prop
  | .char c => ¬ Blank c ∧ c ≠ '\'' ∧ c ≠ '"' ∧ c ≠ '\\'
  | .escape _ => True

/-- A line. `assign` has: blanks before the key, the key, blanks before and after `=`, quoted
pieces, blanks, then an unquoted rest (possibly none). `junk` is a line without `=`. -/
inductive Line
  | comment (blanks : Str) (mark : Char) (text : Str)
  | blank (blanks : Str)
  | junk (blanks : Str) (text : Str)
  | assign (blanks : Str) (key : Str) (quoted : List Quoted) (blanks' : Str) (rest : List Item)

/-- A key (or a junk line) starts with a character that is neither blank nor a comment mark. -/
def KeyText (s : Str) : Prop :=
  ∃ c cs, s = c :: cs ∧ ¬ Blank c ∧ c ≠ '#' ∧ c ≠ ';' ∧ ∀ x ∈ cs, ¬ Newline x ∧ x ≠ '='

def Line.Ok : Line → Prop
  | .comment b m t => (∀ c ∈ b, Blank c) ∧ (m = '#' ∨ m = ';') ∧ ∀ c ∈ t, ¬ Newline c
  | .blank b => ∀ c ∈ b, Blank c
  | .junk b t => (∀ c ∈ b, Blank c) ∧ KeyText t
  | .assign b k q b' r => (∀ c ∈ b, Blank c) ∧ KeyText k ∧ (∀ x ∈ q, x.Ok) ∧ Blanks b' ∧
      (∀ x ∈ r, x.Ok) ∧ (∀ x ∈ r.head?, x.OkFirst)

def Line.render : Line → Str
  | .comment b m t => b ++ [m] ++ t ++ ['\n']
  | .blank b => b ++ ['\n']
  | .junk b t => b ++ t ++ ['\n']
  | .assign b k q b' r =>
      b ++ k ++ ['='] ++ q.flatMap Quoted.render ++ b' ++ r.flatMap Item.render ++ ['\n']

/-- The white space of Unicode (property `White_Space`, version 15): tab to carriage return, space, next line,
no-break space, ogham space, the typographic spaces from en quad to hair space, line and paragraph separator,
narrow no-break space, mathematical space and ideographic space. -/
def whiteSpace : List Nat :=
  [0x09, 0x0A, 0x0B, 0x0C, 0x0D, 0x20, 0x85, 0xA0, 0x1680,
   0x2000, 0x2001, 0x2002, 0x2003, 0x2004, 0x2005, 0x2006, 0x2007, 0x2008, 0x2009, 0x200A,
   0x2028, 0x2029, 0x202F, 0x205F, 0x3000]

/-- The text without trailing white space. -/
def trim (s : Str) : Str := (s.reverse.dropWhile fun c => decide (c.toNat ∈ whiteSpace)).reverse

/-- The assignments made by the lines, in order. Quoted values are not trimmed. -/
def Line.assigns : Line → List (Str × Str)
  | .assign _ k q _ r =>
      let v := q.flatMap Quoted.meaning ++ r.flatMap Item.meaning
      [(trim k, if r = [] then v else trim v)]
  | _ => []

/-- The value of a key: the last assignment counts. -/
def lastValue (k : Str) (as : List (Str × Str)) : Option Str :=
  as.foldl (fun acc a => if a.1 = k then some a.2 else acc) none

end Verif.OsRelease.Spec
