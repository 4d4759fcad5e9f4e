import Verif.Spec.Boot
import Verif.Spec.Names
/-!
# The values of platform configuration registers (PCRs)

Written from the TPM 2.0 specification: a PCR cannot be set, only extended, and extending replaces its
value by the hash of the old value followed by the hash of the measured data. `tpm` is the hash of the
PCR bank; only the length of its values matters here.
-/
namespace Verif.Stub.Spec
open Verif Verif.Stub

/-- The value of a PCR with value `v` after it was extended with `data`. -/
def extend (tpm : StubName.Sha) (v data : Bytes) : Bytes := tpm.hash (v ++ tpm.hash data)

/-- The value after extending with a list of data, in this order. -/
def predicted (tpm : StubName.Sha) (v : Bytes) (datas : List Bytes) : Bytes := datas.foldl (extend tpm) v

/-- What an event does to the value of PCR `pcr`: only a measurement to this PCR which the TPM has
carried out changes it. -/
def step (tpm : StubName.Sha) (pcr : Nat) (v : Bytes) : Event → Bytes
  | .measure p data _ .extended => if p = pcr then extend tpm v data else v
  | _ => v

/-- The value of PCR `pcr`, which was `v`, after the events. -/
def pcrAfter (tpm : StubName.Sha) (pcr : Nat) (v : Bytes) (t : List Event) : Bytes :=
  t.foldl (step tpm pcr) v

/-- The TPM is there and carries out every measurement. -/
structure WorkingTpm (env : Env) : Prop where
  opens : ∀ t, env.tpmOpens t = true
  builds : ∀ t, env.eventFault t = none
  accepts : ∀ t, env.extendFault t = none

/-- The data a PCR was extended with. -/
def extendedWith (pcr : Nat) (t : List Event) : List Bytes :=
  t.filterMap fun e => match e with
    | .measure p data _ .extended => if p = pcr then some data else none
    | _ => none

/-- Evidence that the hash of the PCR bank is broken: extending `v` with two lists ran into a
collision, at the same distance from their ends, or came back to `v`. Everything in it is computed
from the two lists. -/
inductive Clash (tpm : StubName.Sha) (v : Bytes) (l l' : List Bytes) : Prop
  /-- two different data have the same hash -/
  | data {a b a' b' : List Bytes} {d d' : Bytes} (h : l = a ++ d :: b) (h' : l' = a' ++ d' :: b')
      (hlen : b.length = b'.length) (c : StubName.Collision tpm d d')
  /-- two different extensions have the same hash -/
  | extension {a b a' b' : List Bytes} {d d' : Bytes} (h : l = a ++ d :: b) (h' : l' = a' ++ d' :: b')
      (hlen : b.length = b'.length)
      (c : StubName.Collision tpm (predicted tpm v a ++ tpm.hash d) (predicted tpm v a' ++ tpm.hash d'))
  /-- the value is the initial one again -/
  | back {a b : List Bytes} (h : l = a ++ b ∨ l' = a ++ b) (ha : a ≠ []) (e : predicted tpm v a = v)

end Verif.Stub.Spec
