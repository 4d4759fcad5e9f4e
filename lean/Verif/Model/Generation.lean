import Verif.Model.Path
import Verif.Model.OsRelease
/-!
# Model of `rust/tool/shared/src/generation.rs` and `OsRelease::from_generation`

A bootspec document is given here as a `BootJson` value, without specialisations of specialisations,
which are parsed by the code but never installed. `Model/Bootspec.lean` models how such a value comes
about: reading `boot.json` or synthesising a document, nested specialisations, extensions.
-/
namespace Verif.Generation
open Verif

/-- The fields of `bootspec::BootSpec` that the tool uses, plus the `sort_key` of the
`org.nix-community.lanzaboote` extension if it is present and well-formed (generation.rs 19-53). -/
structure BootSpec where
  label : Str
  kernel : Path
  kernelParams : List Str
  init : Path
  initrd : Option Path
  initrdSecrets : Option Path
  /-- the bytes of the toplevel store path (`as_os_str().as_bytes()`) -/
  toplevel : Bytes
  sortKey : Option Str
  deriving DecidableEq, Repr

/-- A bootspec document: the toplevel system and its specialisations. (bootspec crate; used in
generation.rs 76-130.) -/
structure BootJson where
  main : BootSpec
  specialisations : List (Str × BootSpec)
  deriving DecidableEq, Repr

/-- `time::Date`: a date of the Gregorian calendar. (time crate; generation.rs 68 and 183-187.) -/
structure Date where
  year : Int
  month : Nat
  day : Nat
  deriving DecidableEq, Repr

/-- Two-digit zero padded number. (for `time::Date`, generation.rs 160.) -/
def pad2 (n : Nat) : Str := if n < 10 then '0' :: toDec n else toDec n

/-- Four-digit zero padded number. (for `time::Date`, generation.rs 160.) -/
def pad4 (n : Nat) : Str :=
  if n < 10 then lit "000" ++ toDec n
  else if n < 100 then lit "00" ++ toDec n
  else if n < 1000 then '0' :: toDec n
  else toDec n

/-- The year, at least four digits, with a sign before the year 0. (time crate, whose years are -9999 to
9999; generation.rs 160.) -/
def yearText (y : Int) : Str := if y < 0 then '-' :: pad4 y.natAbs else pad4 y.natAbs

/-- `Display for time::Date`. (time crate; generation.rs 160.) -/
def Date.display (d : Date) : Str := yearText d.year ++ ['-'] ++ pad2 d.month ++ ['-'] ++ pad2 d.day

/-- The date of a day, counted from 1970-01-01 on. The time crate computes it with multiplications and
shifts; here: years begin in March, 400 of them have 146097 days, a century 36524 and four years 1461,
with one day more at the end of the last century and of the last year. (time crate; generation.rs 185.) -/
def dateOfDay (n : Int) : Date :=
  let z := n + 719468
  let era := z / 146097
  let inEra := (z % 146097).toNat
  let century := min (inEra / 36524) 3
  let inCentury := inEra - 36524 * century
  let four := inCentury / 1461
  let inFour := inCentury % 1461
  let one := min (inFour / 365) 3
  let inYear := inFour - 365 * one
  let month := (5 * inYear + 2) / 153
  let year := 400 * era + (100 * century + 4 * four + one : Nat)
  { year := if month < 10 then year else year + 1
    month := if month < 10 then month + 3 else month - 9
    day := inYear - (153 * month + 2) / 5 + 1 }

/-- `OffsetDateTime::from_unix_timestamp(t).ok()` and `.date()`: seconds from the beginning of 1970 in
UTC. The years -9999 to 9999 can be represented. (time crate without `large-dates`; generation.rs
184-185.) -/
def dateOfTimestamp (t : Int) : Option Date :=
  if -377705116800 ≤ t ∧ t ≤ 253402300799 then some (dateOfDay (t / 86400)) else none

/-- The modification times of what is at a path, in whole seconds: of the symbolic link that is there
itself, and of what it leads to. `none`: it cannot be examined. (std::fs `symlink_metadata` and
`metadata`; generation.rs 185.) -/
structure Times where
  link : Option Int
  target : Option Int
  deriving DecidableEq, Repr

/-- `read_build_time(path).ok()` (generation.rs 183-187 and 205). -/
def readBuildTime (times : Times) : Option Date := times.link.bind dateOfTimestamp

/-- `struct Generation` (generation.rs 63-75), without nested specialisations. -/
structure Gen where
  version : Nat
  buildTime : Option Date
  specialisationName : Option Str
  spec : BootSpec
  deriving DecidableEq, Repr

/-- `LanzabooteExtension::default` (generation.rs 29-35) used when the extension is absent or
malformed (generation.rs 37-53). -/
def BootSpec.sortKeyOrDefault (b : BootSpec) : Str := b.sortKey.getD (lit "lanzaboote")

/-- `struct GenerationLink` (generation.rs 194-198). -/
structure Link where
  version : Nat
  path : Path
  buildTime : Option Date
  deriving DecidableEq, Repr

/-- `u64::MAX`. (generation.rs 219.) -/
def u64Max : Nat := 2 ^ 64 - 1

/-- `parse_version` (generation.rs 213-223). -/
def parseVersion (p : Path) : Option Nat :=
  match p.fileName with
  | some n => match (splitOn '-' n)[1]? with
    | some f => parseUnsigned u64Max f
    | none => none
  | none => none

/-- `GenerationLink::from_path` (generation.rs 201-207). `buildTime` is the result of
`read_build_time(path).ok()`. -/
def Link.fromPath (buildTime : Path → Option Date) (p : Path) : Option Link :=
  match parseVersion p with
  | some v => some { version := v, path := p, buildTime := buildTime p }
  | none => none

/-- `Generation::parse_boot_json` and `parse_specialisation(s)` (generation.rs 89-139): the
generation itself, and its specialisations (a `HashMap`, hence in an unspecified order: the order
of the list is arbitrary). -/
def fromBootJson (link : Link) (b : BootJson) : Gen × List Gen :=
  ({ version := link.version, buildTime := link.buildTime, specialisationName := none,
     spec := b.main },
   b.specialisations.map fun (n, s) =>
    { version := link.version, buildTime := link.buildTime, specialisationName := some n,
      spec := s })

/-- `describe_specialisation` (generation.rs 142-148). -/
def Gen.describeSpecialisation (g : Gen) : Str :=
  match g.specialisationName with
  | some s => '-' :: s
  | none => []

/-- `describe` (generation.rs 157-169). -/
def Gen.describe (g : Gen) : Str :=
  let buildTime := match g.buildTime with
    | some d => d.display
    | none => lit "Unknown"
  lit "Generation " ++ toDec g.version ++ g.describeSpecialisation ++ lit ", " ++ buildTime

/-- `version_tag` (generation.rs 172-174). -/
def Gen.versionTag (g : Gen) : Str := toDec g.version ++ g.describeSpecialisation

/-- `OsRelease::from_generation` (os_release.rs 19-50). -/
def osRelease (g : Gen) : OsRelease.Map :=
  let m := OsRelease.Map.insert (lit "ID") g.spec.sortKeyOrDefault []
  let m := OsRelease.Map.insert (lit "PRETTY_NAME")
    (g.spec.label ++ lit " (" ++ g.describe ++ lit ")") m
  OsRelease.Map.insert (lit "VERSION_ID") g.describe m

/-- File name of a generation's measurement: `lanzaboote_measurement(version_tag())`
(systemd/src/pcrlock.rs 33-35, install.rs 315). -/
def Gen.measurementName (g : Gen) : Str := g.versionTag ++ lit ".pcrlock"

/-- The selection of links in `Installer::install` (systemd/src/install.rs 112-133). `sort_by_key`
is a stable sort. -/
def selectLinks (limit : Nat) (links : List Link) : List Link :=
  let sorted := links.isort (fun a b => decide (a.version ≤ b.version))
  if limit > 0 then (sorted.reverse.take limit).reverse else sorted

end Verif.Generation
