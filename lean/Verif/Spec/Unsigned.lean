import Verif.Spec.Program
/-!
# When the program may leave binaries unsigned
-/
namespace Verif.Tool
open Verif Generation

/-- The program finds one of the key files of the command line: the file exists, and the file system does not
fail when the program asks for it. The program asks for the public key first, then, if it has not been told that this
file exists, for the private key. -/
inductive FindsKey (env : Env) (c : Cli) : Prop
  | publicKey {p : Path} (h : c.publicKey = some p) (he : (env.store p).isSome) (hf : env.os.fault 0 = false)
  | privateKey {p : Path} (h : c.privateKey = some p) (he : (env.store p).isSome) (hf : env.os.fault 1 = false)

/-- Both key files of the command line exist. -/
def KeysExist (env : Env) (c : Cli) : Prop :=
  ∃ pub priv, c.publicKey = some pub ∧ c.privateKey = some priv ∧ (env.store pub).isSome ∧ (env.store priv).isSome

/-- `d` is what the signing tool makes of some image with the keys of the command line. -/
def SignedWithKeys (env : Env) (c : Cli) (d : Bytes) : Prop :=
  ∃ pub priv t image, c.publicKey = some pub ∧ c.privateKey = some priv ∧ env.sbsign t priv pub image = some d

end Verif.Tool
