import Verif.Model.Text
/-!
# Model of `rust/tool/shared/src/os_release.rs`
-/
namespace Verif.OsRelease
open Verif

/-- `BTreeMap<String, String>` (os_release.rs 16): an association list with strictly ascending
keys. Rust orders strings by their UTF-8 bytes, which is the same as by code points. -/
abbrev Map := List (Str × Str)

/-- `BTreeMap::insert`. (std; os_release.rs 20-40 and 115-220.) -/
def Map.insert (k v : Str) : Map → Map
  | [] => [(k, v)]
  | (k', v') :: m =>
    if k = k' then (k, v) :: m
    else if k < k' then (k, v) :: (k', v') :: m
    else (k', v') :: Map.insert k v m

/-- `BTreeMap::get`. (std; version.rs 51-54.) -/
def Map.get (k : Str) : Map → Option Str
  | [] => none
  | (k', v') :: m => if k = k' then some v' else Map.get k m

/-- `enum State` (os_release.rs 64-75). -/
inductive PState
  | preKey | key | preValue | value | valueEscape | singleQuoteValue | doubleQuoteValue
  | doubleQuoteValueEscape | comment | commentEscape
  deriving DecidableEq, Repr

/-- The local variables of `from_str` (os_release.rs 62-81). -/
structure Parser where
  map : Map := []
  state : PState := .preKey
  key : Str := []
  value : Str := []
  deriving DecidableEq, Repr

/-- `COMMENTS.contains(c)` (os_release.rs 83). -/
def isCommentChar (c : Char) : Bool := c == '#' || c == ';'
/-- `WHITESPACE.contains(c)` (os_release.rs 84). -/
def isBlank (c : Char) : Bool := c == ' ' || c == '\t' || c == '\n' || c == '\r'
/-- `NEWLINE.contains(c)` (os_release.rs 85). -/
def isNewline (c : Char) : Bool := c == '\r' || c == '\n'
/-- `SHELL_NEED_ESCAPE.contains(c)` (os_release.rs 86). -/
def needsEscape (c : Char) : Bool := c == '"' || c == '\\' || c == '`' || c == '$'

/-- The body of the `for c in value.chars()` loop (os_release.rs 88-202). -/
def step (p : Parser) (c : Char) : Parser :=
  match p.state with
  | .preKey =>                                              -- 90-97
    if isCommentChar c then { p with state := .comment }
    else if !isBlank c then { p with state := .key, key := p.key ++ [c] }
    else p
  | .key =>                                                 -- 98-108
    if isNewline c then { p with state := .preKey, key := [] }
    else if c = '=' then { p with state := .preValue }
    else { p with key := p.key ++ [c] }
  | .preValue =>                                            -- 109-128
    if isNewline c then
      { map := p.map.insert (trimEnd p.key) p.value, state := .preKey, key := [], value := [] }
    else if c = '\'' then { p with state := .singleQuoteValue }
    else if c = '"' then { p with state := .doubleQuoteValue }
    else if c = '\\' then { p with state := .valueEscape }
    else if !isBlank c then { p with state := .value, value := p.value ++ [c] }
    else p
  | .value =>                                               -- 129-145
    if isNewline c then
      { map := p.map.insert (trimEnd p.key) (trimEnd p.value), state := .preKey, key := [],
        value := [] }
    else if c = '\\' then { p with state := .valueEscape }
    else { p with value := p.value ++ [c] }
  | .valueEscape =>                                         -- 146-153
    if !isNewline c then { p with state := .value, value := p.value ++ [c] }
    else { p with state := .value }
  | .singleQuoteValue =>                                    -- 154-160
    if c = '\'' then { p with state := .preValue }
    else { p with value := p.value ++ [c] }
  | .doubleQuoteValue =>                                    -- 161-169
    if c = '"' then { p with state := .preValue }
    else if c = '\\' then { p with state := .doubleQuoteValueEscape }
    else { p with value := p.value ++ [c] }
  | .doubleQuoteValueEscape =>                              -- 170-183
    if needsEscape c then { p with state := .doubleQuoteValue, value := p.value ++ [c] }
    else if c ≠ '\n' then { p with state := .doubleQuoteValue, value := p.value ++ ['\\', c] }
    else { p with state := .doubleQuoteValue }
  | .comment =>                                             -- 184-190
    if c = '\\' then { p with state := .commentEscape }
    else if isNewline c then { p with state := .preKey }
    else p
  | .commentEscape =>                                       -- 191-200
    if isNewline c then { p with state := .preKey } else { p with state := .comment }

/-- The end of `from_str` (os_release.rs 204-224). -/
def finish (p : Parser) : Map :=
  match p.state with
  | .value => p.map.insert (trimEnd p.key) (trimEnd p.value)
  | .preValue | .valueEscape | .singleQuoteValue | .doubleQuoteValue | .doubleQuoteValueEscape =>
    p.map.insert (trimEnd p.key) p.value
  | .preKey | .key | .comment | .commentEscape => p.map

/-- `OsRelease::from_str` (os_release.rs 61-225). It never fails. -/
def fromStr (s : Str) : Map := finish (s.foldl step {})

/-- `Display for OsRelease` (os_release.rs 229-236). -/
def display : Map → Str
  | [] => []
  | (k, v) :: m => k ++ lit "=" ++ v ++ lit "\n" ++ display m

end Verif.OsRelease
