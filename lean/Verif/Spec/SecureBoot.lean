import Verif.Spec.StubImage
import Verif.Spec.Companions
/-!
# An attacker who can write to the ESP

Under Secure Boot the firmware starts only images with a valid signature. The signing key is on the
system's encrypted disk. An attacker who gets hold of the machine can write to the ESP: replace or change
every file on it, at any time, also while the stub runs. They can choose which of the signed images is
started, with which load options, change EFI variables and interfere with the TPM.
-/
namespace Verif.Tool
open Verif Generation

/-- What the installer makes to be signed: the stub with the sections of a considered generation, or
the boot loader. -/
inductive ToSign (env : Env) (cfg : Config) (image : Bytes) : Prop
  | entry {g : Gen} {v : Str} {kernel initrd : Bytes} (hg : Considers env cfg g)
      (hk : env.store g.spec.kernel = some kernel) (hi : InitrdOf env g.spec initrd)
      (h : StubImage env cfg g v kernel initrd image)
  | loader (h : env.store (loaderSource cfg) = some image)

/-- `data` is a boot entry that was signed for `g`, by this run of the installer. -/
structure SignedEntry (env : Env) (cfg : Config) (g : Gen) (data : Bytes) : Prop where
  considered : Considers env cfg g
  ex : ∃ v kernel initrd image, env.store g.spec.kernel = some kernel ∧ InitrdOf env g.spec initrd ∧
    StubImage env cfg g v kernel initrd image ∧ SignedBy env cfg.signer image data

/-- The machine `m` runs the image `data`. Nothing is said about its file system, its variables, its TPM
and the options the image is started with. -/
structure Runs (env : Env) (data : Bytes) (m : Stub.Env) : Prop where
  sha : m.sha = env.sha
  loaded : ∃ pe, m.parseOwn m.ownImage = some pe ∧ LoadedAs env data m.ownImage pe

/-- Names of files contain neither a slash nor a backslash. -/
def PlainNames (fw : Companion.Fw) : Prop :=
  ∀ dir es e, fw.readDir dir = some es → some e ∈ es →
    Companion.sep16 ∉ e.name ∧ (0x2F : UInt16) ∉ e.name

/-- The bytes of an ASCII text. -/
def asciiBytes (s : String) : Bytes := s.toList.map fun c => UInt8.ofNat c.toNat

/-- The path of an archive member is `.extra`, one of the three directories in it, or a file directly
in one of these. -/
inductive InExtra : Bytes → Prop
  | top : InExtra (asciiBytes "/.extra")
  | dir {d : String} (h : d ∈ ["credentials", "global_credentials", "sysext"]) :
      InExtra (asciiBytes "/.extra/" ++ asciiBytes d)
  | file {d : String} {n : Bytes} (h : d ∈ ["credentials", "global_credentials", "sysext"])
      (hn : (0x2F : UInt8) ∉ n) (hne : n ≠ asciiBytes ".." ∧ n ≠ asciiBytes "." ∧ n ≠ []) :
      InExtra (asciiBytes ".extra/" ++ asciiBytes d ++ asciiBytes "/" ++ n)

/-- The archive unpacks, and all its members are in `.extra`. -/
def ConfinedToExtra (archive : Bytes) : Prop :=
  ∃ recs, Newc.extract archive = some recs ∧ ∀ r ∈ recs, InExtra r.name

/-- The start `s` is one of `g`: its kernel, with its initrd, followed only by archives that put files
into `.extra`. -/
def GenuineStart (env : Env) (m : Stub.Env) (g : Gen) (s : Stub.Started) : Prop :=
  ∃ kernel initrd kpe extras joined, env.store g.spec.kernel = some kernel ∧ InitrdOf env g.spec initrd ∧
    m.parseFile kernel = some kpe ∧ Stub.Spec.IsLoaded kpe kernel s.image s.entry ∧
    s.initrd = some joined ∧ Stub.Spec.Joined (initrd :: extras) joined ∧
    ∀ a ∈ extras, ConfinedToExtra a

/-- The attacker has found a file with the hash of the kernel or the initrd of `g`. -/
def FoundCollision (env : Env) (m : Stub.Env) (g : Gen) : Prop :=
  ∃ t fw name d d', m.fs t = some fw ∧ fw.read name = some d ∧
    (env.store g.spec.kernel = some d' ∨ InitrdOf env g.spec d') ∧ StubName.Collision env.sha d d'

end Verif.Tool
