import Verif.Model.Generation
/-!
# Model of the part of `rust/tool/shared/src/generation.rs` that reads bootspec documents

The `bootspec` crate and serde are external: `Sources` holds what reading, parsing and synthesising
give. Documents are modelled with everything the tool does with them: nested specialisations,
extensions of every specialisation, and JSON values for the extensions.
-/
namespace Verif.Bootspec
open Verif Generation

/-- `serde_json::Value`. The keys of an object are distinct; numbers are their text. (serde_json crate;
generation.rs 41 and 50.) -/
inductive Json where
  | null
  | bool (b : Bool)
  | num (text : Str)
  | str (s : Str)
  | arr (l : List Json)
  | obj (members : List (Str × Json))

/-- The fields of `bootspec::BootSpec` that the tool uses. (bootspec crate; used in generation.rs 97-100,
os_release.rs 24-37, systemd/src/install.rs 241-310.) -/
structure Fields where
  label : Str
  kernel : Path
  kernelParams : List Str
  init : Path
  initrd : Option Path
  initrdSecrets : Option Path
  toplevel : Bytes
  deriving DecidableEq, Repr

/-- The `extensions` of a document or specialisation. (bootspec crate; used in generation.rs 39 and 48.)
-/
abbrev Extensions := List (Str × Json)

/-- `bootspec::Specialisation`: a bootspec with specialisations of its own, and extensions. (bootspec
crate; used in generation.rs 89-108.) -/
inductive Specialisation where
  | mk (fields : Fields) (specialisations : List (Str × Specialisation)) (extensions : Extensions)

/-- `bootspec::BootJson`; the generation is `none` for a schema version that cannot be converted.
(bootspec crate; used in generation.rs 80-84 and 124-139.) -/
structure Document where
  generation : Option (Fields × List (Str × Specialisation))
  extensions : Extensions

/-- What the external libraries give. (generation.rs 79-84.) -/
structure Sources where
  /-- `fs::read` of a file; `none` if there is none or reading fails -/
  read : Path → Option Bytes
  /-- `serde_json::from_slice` -/
  parse : Bytes → Option Document
  /-- `BootJson::synthesize_latest` -/
  synthesize : Path → Option Document

/-- `struct Generation` (generation.rs 63-75), with `spec` flattened. -/
inductive Generation where
  | mk (version : Nat) (buildTime : Option Date) (specialisationName : Option Str) (fields : Fields)
      (sortKey : Str) (specialisations : List (Str × Generation))

/-- `HashMap::get`. (std; generation.rs 40 and 49.) -/
def get (m : List (Str × Json)) (k : Str) : Option Json := (m.find? fun p => decide (p.1 = k)).map (·.2)

/-- `serde_json::from_value::<LanzabooteExtension>(..).ok()` (generation.rs 24-27, 41 and 50): the derived
`Deserialize` takes an object with a string member `sort_key` (others are ignored) or an array with
one string. -/
def sortKeyFromValue : Json → Option Str
  | .obj m => match get m (lit "sort_key") with
    | some (.str s) => some s
    | _ => none
  | .arr [.str s] => some s
  | _ => none

/-- `LanzabooteExtension::default` (generation.rs 29-35). -/
def defaultSortKey : Str := lit "lanzaboote"

/-- `LanzabooteExtension::from` for specialisations and documents (generation.rs 37-53). -/
def extensionFrom (e : Extensions) : Str :=
  ((get e (lit "org.nix-community.lanzaboote")).bind sortKeyFromValue).getD defaultSortKey

mutual
/-- `parse_specialisation` (generation.rs 89-108). Nothing in it can fail. -/
def parseSpecialisation (link : Link) (name : Str) : Specialisation → Generation
  | .mk fields specialisations extensions =>
    .mk link.version link.buildTime (some name) fields (extensionFrom extensions)
      (parseSpecialisations link specialisations)

/-- `parse_specialisations` (generation.rs 110-122). -/
def parseSpecialisations (link : Link) : List (Str × Specialisation) → List (Str × Generation)
  | [] => []
  | (name, s) :: rest => (name, parseSpecialisation link name s) :: parseSpecialisations link rest
end

/-- `parse_boot_json` (generation.rs 124-139), called with no specialisation name. -/
def parseBootJson (link : Link) (d : Document) : Option Generation :=
  match d.generation with
  | none => none
  | some (fields, specialisations) =>
    some (.mk link.version link.buildTime none fields (extensionFrom d.extensions)
      (parseSpecialisations link specialisations))

/-- Reading `boot.json`, or synthesising a document (generation.rs 79-84). -/
def readDocument (src : Sources) (path : Path) : Option Document :=
  match (src.read (path.join (lit "boot.json"))).bind src.parse with
  | some d => some d
  | none => src.synthesize path

/-- `Generation::from_link` (generation.rs 78-87). -/
def fromLink (src : Sources) (link : Link) : Option Generation :=
  (readDocument src link.path).bind (parseBootJson link)

/-- A `Generation` as `install_generation` looks at it: without its specialisations. (used in
systemd/src/install.rs 232-330.) -/
def Generation.plain : Generation → Gen
  | .mk version buildTime name f sortKey _ =>
    { version := version, buildTime := buildTime, specialisationName := name
      spec := { label := f.label, kernel := f.kernel, kernelParams := f.kernelParams, init := f.init
                initrd := f.initrd, initrdSecrets := f.initrdSecrets, toplevel := f.toplevel
                sortKey := some sortKey } }

/-- `generation.specialisations.values()` (systemd/src/install.rs 212). -/
def Generation.values : Generation → List Generation
  | .mk _ _ _ _ _ s => s.map (·.2)

/-- The generations `install_generations_from_links` installs for one link, in order
(systemd/src/install.rs 206-216). -/
def installed (g : Generation) : List Gen := g.plain :: g.values.map Generation.plain

/-- What `Model/Install.lean` takes a document for: `Env.bootJson`. (generation.rs 78-139.) -/
def toBootJson (d : Document) : Option BootJson :=
  d.generation.map fun (f, specialisations) =>
    { main := spec f (extensionFrom d.extensions)
      specialisations := specialisations.map fun (n, .mk f _ e) => (n, spec f (extensionFrom e)) }
where
  /-- Fields and sort key. (generation.rs 96-100 and 132-135.) -/
  spec (f : Fields) (sortKey : Str) : BootSpec :=
    { label := f.label, kernel := f.kernel, kernelParams := f.kernelParams, init := f.init
      initrd := f.initrd, initrdSecrets := f.initrdSecrets, toplevel := f.toplevel
      sortKey := some sortKey }

/-- `Env.bootJson` for given sources: what `from_link` obtains in this run, from the file or
synthesised. (generation.rs 78-84.) -/
def bootJson (src : Sources) (path : Path) : Option BootJson := (readDocument src path).bind toBootJson

end Verif.Bootspec
