import Verif.Spec.BootLoader
/-!
# Vocabulary for the command line
-/
namespace Verif.Tool
open Verif Generation

/-- The outside world `k` operations later. -/
def Os.later (k : Nat) (os : Os) : Os where
  fault := fun t => os.fault (t + k)
  partials := fun t => os.partials (t + k)
  list := fun t => os.list (t + k)
  list_sub := fun t => os.list_sub (t + k)

/-- The outside world `k` operations later: sources are the same, programs that are run answer what they
would answer then. -/
def Env.later (k : Nat) (env : Env) : Env :=
  { env with
    os := env.os.later k
    objcopy := fun t => env.objcopy (t + k)
    secrets := fun t => env.secrets (t + k)
    sbsign := fun t => env.sbsign (t + k)
    lockPe := fun t => env.lockPe (t + k) }

/-- The systems lanzaboote supports, with the names the UEFI specification and systemd-boot give to boot
loaders on them. -/
inductive Supported : (system fallback loader : Str) → Prop
  | x86_64 : Supported (lit "x86_64-linux") (lit "BOOTX64.EFI") (lit "systemd-bootx64.efi")
  | aarch64 : Supported (lit "aarch64-linux") (lit "BOOTAA64.EFI") (lit "systemd-bootaa64.efi")

/-- All that is needed is there: the variable `LANZABOOTE_STUB`, a supported system and both key options. -/
structure AllGiven (c : Cli) : Prop where
  stub : c.lanzabooteStub.isSome
  system : ∃ fallback loader, Supported c.system fallback loader
  publicKey : c.publicKey.isSome
  privateKey : c.privateKey.isSome

/-- The signer is the one the command line asks for: the keys given, or none if that is allowed and there are
no such files (or the file system did not say). -/
inductive SignerAsTold (env : Env) (c : Cli) : Signer → Prop
  | keys {pub priv : Path} (hpub : c.publicKey = some pub) (hpriv : c.privateKey = some priv)
      (h : ¬ (c.allowUnsigned = true ∧ Faultless env ∧ env.store pub = none ∧ env.store priv = none)) :
      SignerAsTold env c (.local pub priv)
  | none {pub priv : Path} (hpub : c.publicKey = some pub) (hpriv : c.privateKey = some priv)
      (ha : c.allowUnsigned = true) (h : Faultless env → env.store pub = none ∧ env.store priv = none) :
      SignerAsTold env c .empty

/-- The installer is set up as the command line says. -/
structure AsTold (env : Env) (c : Cli) (cfg : Config) : Prop where
  stub : c.lanzabooteStub = some cfg.lanzabooteStub
  /-- the boot loaders are called after the system -/
  system : ∃ fallback loader, Supported c.system fallback loader ∧
    fallbackFile cfg = c.esp ++ [lit "EFI", lit "BOOT", fallback] ∧
    systemdFile cfg = c.esp ++ [lit "EFI", lit "systemd", loader] ∧
    loaderSource cfg = c.systemd ++ [lit "lib", lit "systemd", lit "boot", lit "efi", loader]
  loaderConfig : cfg.loaderConfig = c.loaderConfig
  limit : cfg.configurationLimit = c.configurationLimit
  tries : cfg.tries = c.tries
  pcrlock : cfg.pcrlockDirectory = c.pcrlockDirectory
  esp : cfg.esp = c.esp
  links : cfg.links = c.generations
  signer : SignerAsTold env c cfg.signer

end Verif.Tool
