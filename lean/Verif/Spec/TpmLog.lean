import Verif.Spec.Pcr
/-!
# The event log of the TPM

Written from the TCG EFI protocol specification and the TCG PC client platform firmware profile: the
firmware keeps, next to the PCRs, a log with one entry for each extension. A verifier who gets the log
replays it and compares with the PCR values the TPM signs; then it can rely on the digests in the log, and
reads the texts to find out what the digests stand for.
-/
namespace Verif.Tpm
open Verif

/-- An entry of the log: the PCR, the type of the event, the digest the PCR was extended with, and the event
data. -/
structure Entry where
  pcr : Nat
  type : Nat
  digest : Bytes
  event : Bytes
  deriving DecidableEq, Repr

/-- What a verifier computes for a PCR that had the value `v` when the log began. -/
def replay (hash : Bytes → Bytes) (pcr : Nat) (v : Bytes) (log : List Entry) : Bytes :=
  log.foldl (fun v e => if e.pcr = pcr then hash (v ++ e.digest) else v) v

/-- An ASCII text in UTF-16, little-endian, without terminating NUL. -/
def wide (s : Str) : Bytes := s.flatMap fun c => [UInt8.ofNat c.toNat, 0]

/-- `EV_IPL`, the type for what boot loaders measure. -/
def evIpl : Nat := 13

/-- The entry for the data measured into a PCR, with a text that says what it is. -/
def entry (hash : Bytes → Bytes) (pcr : Nat) (data : Bytes) (text : Str) : Entry :=
  { pcr := pcr, type := evIpl, digest := hash data, event := wide text }

/-- The entries for an image: for each section of the UKI specification, in canonical order and as often as
it occurs, one for its name with a NUL and one for its contents; the text is the name of the section. -/
def imageEntries (hash : Bytes → Bytes) (names : List Str) (contents : Str → Bytes) : List Entry :=
  Stub.Spec.canonicalOrder.flatMap fun n => (List.replicate (names.count n)
    [entry hash 11 (utf8 (n ++ ['\x00'])) n, entry hash 11 (contents n) n]).flatten

/-- The entry for an archive with companion files. -/
def companionEntry (hash : Bytes → Bytes) (c : Companion.Companion) : Entry :=
  match c.kind with
  | .credentials => entry hash 12 c.cpio.buffer (lit "Credentials initrd")
  | .globalCredentials => entry hash 12 c.cpio.buffer (lit "Global credentials initrd")
  | _ => entry hash 13 c.cpio.buffer (lit "System extension initrd")

/-- The entry for a command line that is not the embedded one. -/
def cmdlineEntry (hash : Bytes → Bytes) (options : Bytes) : Entry :=
  entry hash 4 options (lit "Custom user provided kernel cmdline")

end Verif.Tpm
