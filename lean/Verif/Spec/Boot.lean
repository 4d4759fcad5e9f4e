import Verif.Spec.Uki
import Verif.Model.OsRelease
/-!
# Vocabulary for what a boot has to look like
-/
namespace Verif.Stub.Spec
open Verif Verif.Stub Verif.Companion

/-- The section `name` of the image holds the text `s`: UTF-8 in the image, 16 bit code units for the
firmware. -/
def TextSection (pe : PE) (own : Bytes) (name : Str) (s : Str16) : Prop :=
  ∃ text : Str, SectionContents pe own name (utf8 text) ∧
    s = text.map (fun c => UInt16.ofNat c.toNat) ∧ ∀ c ∈ text, 0 < c.toNat ∧ c.toNat < 0x10000

/-- The load options saying `s`: little-endian code units with terminating NUL. -/
def optionsOf (s : Str16) : Bytes :=
  (s ++ [0]).flatMap fun (u : UInt16) => [UInt8.ofNat (u.toNat % 256), UInt8.ofNat (u.toNat / 256)]

/-- `joined` is the concatenation of the parts, each filled with less than four zero bytes to a
multiple of four. -/
inductive Joined : List Bytes → Bytes → Prop
  | nil : Joined [] []
  | cons {part rest joined : Bytes} {parts : List Bytes} {fill : Nat} (h : Joined parts joined)
      (hfill : fill < 4) (hmul : (part.length + fill) % 4 = 0)
      (hrest : rest = part ++ List.replicate fill 0 ++ joined) :
      Joined (part :: parts) rest

/-- The firmware says that Secure Boot is off: the variable holds 0 or does not exist. -/
def SaysOff (r : Res Status Bytes) : Prop := r = .ok [0] ∨ r = .err .notFound

/-- The kernel `kernel` was verified against `.linuxh`, the initrd against `.initrdh` of the image. -/
structure Verified (sha : StubName.Sha) (pe : PE) (own kernel initrd : Bytes) : Prop where
  kernel : SectionContents pe own (lit ".linuxh") (sha.hash kernel)
  initrd : SectionContents pe own (lit ".initrdh") (sha.hash initrd)

/-- The directory can be listed, and the regular files in it can be read and have proper names. -/
def ReadableDir (fw : Fw) (dir : Str16) : Prop :=
  ∃ es, fw.readDir dir = some es ∧ ∀ e, some e ∈ es → e.regular = true →
    sep16 ∉ e.name ∧ e.name.length < 2 ^ 29 ∧ (fw.read (dir ++ [sep16] ++ e.name)).isSome

/-- The companion files of the image at `imagePath` can be read: the volume is there all the time or
never, the firmware can tell whether there are credentials for all images, and the directories for
companions that exist are readable, also later. -/
structure CompanionsReadable (fs : Nat → Option Fw) (imagePath : Option (Option Str16)) : Prop where
  stays : ∀ t fw, fs t = some fw → ∀ t', ∃ fw', fs t' = some fw'
  credentials : ∀ t fw, fs t = some fw → ∃ b, fw.tryExists (lit16 "\\loader\\credentials") = some b
  global : ∀ t fw, fs t = some fw → fw.metadataIsDir (lit16 "\\loader\\credentials") = some true →
    ReadableDir fw (lit16 "\\loader\\credentials")
  own : ∀ p, imagePath = some (some p) → ∀ t fw, fs t = some fw →
    fw.metadataIsDir (p ++ lit16 ".extra") = some true →
    ∀ t' fw', fs t' = some fw' → ReadableDir fw' (p ++ lit16 ".extra")

/-- Nothing the stub asks of the firmware to start a kernel fails. What else it asks for may fail. -/
structure Healthy (env : Env) (w : World) : Prop where
  image : ∀ t, env.openLoadedImageFault t = none
  memory : ∀ t n, ∃ base, env.allocate t n = .ok base
  protocols : ∀ t, env.installFault t = none
  companions : CompanionsReadable env.fs env.imagePath
  options : ∀ o, w.loaded.options = some o → o.length < 2 ^ 32

end Verif.Stub.Spec
