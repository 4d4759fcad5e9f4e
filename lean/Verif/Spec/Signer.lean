import Verif.Spec.Installer
/-!
# Specification: the interface of signers
-/
namespace Verif.Tool
open Verif

/-- The signer takes `d` for signed with its certificate. Without keys everything is accepted. -/
def Accepts (env : Env) : Signer → Bytes → Prop
  | .empty, _ => True
  | .local pub _, d => env.sbverify pub d = true

/-- `m` reads, runs programs and takes time, but leaves the disk and all records as they are, whatever
happens. -/
def OnlyReads {α : Type} (m : M α) : Prop := ∀ s : State, ∃ t, (m s).2 = { s with tick := t }

/-- The sections a stub is to have for these parameters, kernel and initrd. -/
def stubContents (env : Env) (p : StubParameters) (kernel initrd : Bytes) : List (Str × Bytes) :=
  [(lit ".osrel", p.osReleaseContents),
   (lit ".cmdline", utf8 (List.intercalate " ".toList p.kernelCmdline)),
   (lit ".initrd", utf8 p.initrdPathAtEsp),
   (lit ".linux", utf8 p.kernelPathAtEsp),
   (lit ".initrdh", env.sha.hash initrd),
   (lit ".linuxh", env.sha.hash kernel)]

/-- The program that signs takes `d`. -/
def Signs (env : Env) (signer : Signer) (d : Bytes) : Prop :=
  ∀ pub priv, signer = .local pub priv → ∀ t, (env.sbsign t priv pub d).isSome

end Verif.Tool
