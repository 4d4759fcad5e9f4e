import Verif.Spec.Pcr
import Verif.Spec.SecureBoot
/-!
# What PCR 11 is for a generation

The UKI specification says that name and contents of each section are measured in turn. This is the list of
sections for a generation that was installed.
-/
namespace Verif.Tool
open Verif Generation

/-- What sections are measured as: the name with a NUL, and the contents, for one after the other. -/
def measuredAs (sections : List (Str × Bytes)) : List Bytes :=
  sections.flatMap fun s => [utf8 (s.1 ++ ['\x00']), s.2]

/-- The sections of a unified kernel image for `g`, with the kernel and the initrd themselves in place of the
references to them, followed by the sections that the stub has itself. -/
def unified (g : Gen) (kernel initrd : Bytes) (own : List (Str × Bytes)) : List (Str × Bytes) :=
  [(lit ".linux", kernel), (lit ".osrel", utf8 (OsRelease.display (osRelease g))),
   (lit ".cmdline", utf8 (commandLine g)), (lit ".initrd", initrd)] ++ own

/-- The names of the sections that the installer adds. -/
def extraNames : List Str := [".osrel", ".cmdline", ".initrd", ".linux", ".initrdh", ".linuxh"].map lit

/-- The sections of the PE file have these names. -/
def Named (env : Env) (data : Bytes) (names : List Str) : Prop :=
  ∃ pe, env.parse data = some pe ∧ Stub.Spec.sectionNames pe = names

/-- `own` are the sections of the stub that are measured, in the order of the UKI specification; none of them is
one of those that the installer adds, and none is there twice. -/
structure OwnSections (env : Env) (stub : Bytes) (own : List (Str × Bytes)) : Prop where
  names : ∃ ns, Named env stub ns ∧ (∀ n ∈ extraNames, n ∉ ns) ∧
    (∀ n ∈ Stub.Spec.canonicalOrder, ns.count n ≤ 1) ∧
    own.map (·.1) = Stub.Spec.canonicalOrder.filter fun n => decide (n ∈ ns)
  contents : ∀ s ∈ own, FileSection env stub s.1 s.2

/-- objcopy adds the sections behind those of the stub and keeps these, and signing keeps all. -/
structure KeepsSections (env : Env) (stub : Bytes) : Prop where
  names : ∀ t added image, env.objcopy t stub added = some image → added.map (·.name) = extraNames →
    ∀ ns, Named env stub ns → Named env image (ns ++ extraNames)
  contents : ∀ t added image, env.objcopy t stub added = some image → added.map (·.name) = extraNames →
    ∀ n b, n ∉ extraNames → FileSection env stub n b → FileSection env image n b
  signed : ∀ t priv pub data out, env.sbsign t priv pub data = some out →
    ∀ ns, Named env data ns → Named env out ns

end Verif.Tool
