import Verif.Model.Generation
/-!
# Model of the stub file names: `stub_name`, `stub_prefix` and the lookup pattern
(`rust/tool/systemd/src/install.rs`)
-/
namespace Verif.StubName
open Verif Generation

/-- SHA-256, abstractly: any function with 32-byte results. (sha2 crate; install.rs 555, utils.rs 74.) -/
structure Sha where
  hash : Bytes → Bytes
  len : ∀ b, (hash b).length = 32

/-- The base 32 alphabet of `Base32Unpadded` (lower case RFC 4648). (base32ct crate; install.rs 422 and
555.) -/
def b32Alphabet : Str := lit "abcdefghijklmnopqrstuvwxyz234567"

/-- One base 32 digit. (base32ct crate; install.rs 422 and 555.) -/
def b32Char (n : Nat) : Char := b32Alphabet.getD (n % 32) 'a'

/-- The low `k` digits of `m` in base 32, most significant first. (base32ct crate; install.rs 422 and
555.) -/
def b32Digits : Nat → Nat → Str
  | 0, _ => []
  | k + 1, m => b32Digits k (m / 32) ++ [b32Char m]

/-- Big-endian value of a byte string. (base32ct crate; install.rs 422 and 555.) -/
def beValue (b : Bytes) : Nat := b.foldl (fun a x => a * 256 + x.toNat) 0

/-- `Base32Unpadded::encode_string`: the bits of the input followed by enough zero bits to make
their number divisible by 5, in groups of five. (base32ct crate; install.rs 422 and 555.) -/
def base32 (b : Bytes) : Str :=
  let pad := (5 - 8 * b.length % 5) % 5
  b32Digits ((8 * b.length + pad) / 5) (beValue b * 2 ^ pad)

/-- `serde_json` of a byte slice: an array of numbers. (serde_json crate; install.rs 547-557.) -/
def jsonBytes (b : Bytes) : Str := ['['] ++ joinWith [','] (b.map fun x => toDec x.toNat) ++ [']']

/-- `serde_json::to_string(&stub_inputs)` (install.rs 547-557). -/
def stubInputs (toplevel publicKey : Bytes) : Str :=
  lit "[[\"toplevel\"," ++ jsonBytes toplevel ++ lit "],[\"public_key\"," ++ jsonBytes publicKey
    ++ lit "]]"

/-- `stub_prefix` (install.rs 544-569), given the result of `signer.get_public_key()`. -/
def stubPrefix (sha : Sha) (g : Gen) (publicKey : Bytes) : Str :=
  let h := base32 (sha.hash (utf8 (stubInputs g.spec.toplevel publicKey)))
  match g.specialisationName with
  | some s =>
    lit "nixos-generation-" ++ toDec g.version ++ lit "-specialisation-" ++ s ++ lit "-" ++ h
  | none => lit "nixos-generation-" ++ toDec g.version ++ lit "-" ++ h

/-- `stub_name` (install.rs 530-542). -/
def stubName (sha : Sha) (g : Gen) (publicKey : Bytes) (tries : Nat) : Str :=
  if tries > 0 then stubPrefix sha g publicKey ++ lit "+" ++ toDec tries ++ lit ".efi"
  else stubPrefix sha g publicKey ++ lit ".efi"

/-- `\d` in the `regex` crate is the Unicode class Nd. Of its non-ASCII members nothing is assumed:
`uni` decides about them. (regex crate; install.rs 343-348.) -/
def isRegexDigit (uni : Char → Bool) (c : Char) : Bool :=
  (0x30 ≤ c.toNat && c.toNat ≤ 0x39) || (128 ≤ c.toNat && uni c)

/-- Does the text match `(\+\d+(-\d+)?)?\.efi$`? (regex crate; install.rs 343-348). -/
def matchSuffix (uni : Char → Bool) (r : Str) : Bool :=
  match r with
  | '+' :: r' =>
    let d := r'.takeWhile (isRegexDigit uni)
    let rest := r'.dropWhile (isRegexDigit uni)
    d ≠ [] &&
      (match rest with
      | '-' :: r'' =>
        r''.takeWhile (isRegexDigit uni) ≠ [] && r''.dropWhile (isRegexDigit uni) = lit ".efi"
      | _ => rest = lit ".efi")
  | _ => r = lit ".efi"

/-- `regex.is_match(name)` for the pattern of `register_installed_generation`
(install.rs 343-348): `^<escaped prefix>(\+\d+(-\d+)?)?\.efi$`. -/
def isMatch (uni : Char → Bool) (pfx name : Str) : Bool :=
  pfx.isPrefixOf name && matchSuffix uni (name.drop pfx.length)

end Verif.StubName
