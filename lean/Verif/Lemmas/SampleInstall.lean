import Verif.Lemmas.InstallSteps
/-!
# A concrete installation, to show that hypotheses can be met

Toy tools over a toy image format: one byte for the number of sections, then eight bytes of header
for each section (one byte for the name, two for the offset, two for the size), then the contents.
Two generations, the first one with a specialisation, the second one with a script for secrets.
-/
namespace Verif.Tool.Sample
open Verif Verif.Generation

/-- Stands in for SHA-256. -/
def sha : StubName.Sha where
  hash b :=
    let n := b.foldl (fun h x => (h * 257 + x.toNat + 1) % 2 ^ 128) 7
    (List.range 32).map fun i => if i < 16 then UInt8.ofNat (n / 256 ^ i % 256) else 0
  len b := by simp

def names : List (UInt8 × Str) :=
  [(1, lit ".text"), (2, lit ".osrel"), (3, lit ".cmdline"), (4, lit ".initrd"), (5, lit ".linux"),
   (6, lit ".initrdh"), (7, lit ".linuxh"), (8, lit ".sbat")]

def nameOf (c : UInt8) : Option Str := (names.find? fun e => e.1 = c).map (·.2)
def codeOf (n : Str) : UInt8 := ((names.find? fun e => e.2 = n).map (·.1)).getD 0

/-- Encode sections. -/
def build (secs : List (Str × Bytes)) : Bytes :=
  let start := 1 + 5 * secs.length
  let rec go (at_ : Nat) : List (Str × Bytes) → Bytes
    | [] => []
    | (n, b) :: rest => [codeOf n, UInt8.ofNat (at_ / 256), UInt8.ofNat at_,
        UInt8.ofNat (b.length / 256), UInt8.ofNat b.length] ++ go (at_ + b.length) rest
  UInt8.ofNat secs.length :: (go start secs ++ secs.flatMap (·.2))

/-- Decode `n` headers. -/
def headers : Nat → Bytes → Option (List Stub.Section)
  | 0, _ => some []
  | n + 1, c :: a :: b :: x :: y :: rest =>
    (headers n rest).map fun l =>
      { name := nameOf c
        virtualAddress := a.toUInt32 * 256 + b.toUInt32
        virtualSize := x.toUInt32 * 256 + y.toUInt32
        pointerToRawData := a.toUInt32 * 256 + b.toUInt32
        sizeOfRawData := x.toUInt32 * 256 + y.toUInt32 } :: l
  | _ + 1, _ => none

def parse : Bytes → Option Stub.PE
  | [] => none
  | n :: rest =>
    if n = 0 ∨ 9 < n then none
    else (headers n.toNat rest).map fun l => ⟨l, 0, false⟩

/-- The content of a section. -/
def section_ (img : Bytes) (name : Str) : Option Bytes :=
  match parse img with
  | none => none
  | some pe => (pe.sections.find? fun s => s.name = some name).map fun s =>
      (img.drop s.pointerToRawData.toNat).take s.virtualSize.toNat

/-- All sections. -/
def sections (img : Bytes) : List (Str × Bytes) :=
  match parse img with
  | none => []
  | some pe => pe.sections.map fun s => (s.name.getD [],
      (img.drop s.pointerToRawData.toNat).take s.virtualSize.toNat)

/-- A world without tools. -/
def bare (fault : Nat → Bool) : Env where
  os := { fault := fault, partials := fun _ => [[1]], list := fun _ l => l,
          list_sub := fun _ _ _ h => h }
  sha := sha
  uni := fun _ => false
  store := fun _ => none
  mode := fun src => match src with | .store _ => 0o444 | .temp _ => 0o755
  times := fun _ => ⟨none, none⟩
  bootJson := fun _ => none
  parse := parse
  imageBase := fun _ => some 4096
  objcopy := fun _ _ _ => none
  secrets := fun _ _ _ => none
  sbsign := fun _ _ _ _ => none
  sbverify := fun _ _ => false
  lockPe := fun _ _ => none

/-- objcopy: an error if the result would not be right. -/
def objcopy (stub : Bytes) (added : List Added) : Option Bytes :=
  let img := build (sections stub ++ added.map fun s => (s.name, s.content))
  if added.all fun s => decide (readSectionData (bare fun _ => false) img s.name = .ok (some s.content))
  then some img else none

/-- sbsign: appends a signature, an error if that would change the sections. -/
def sbsign (data : Bytes) : Option Bytes :=
  if parse (data ++ [83]) = parse data then some (data ++ [83]) else none

def stub : Bytes := build [(lit ".text", [5, 5])]
def loader : Bytes := build [(lit ".osrel", utf8 (lit "VERSION=\"257.1\"\n"))]

def kernel1 : Bytes := [77, 90, 1]
def kernel2 : Bytes := [77, 90, 2, 2]
def initrd1 : Bytes := [9, 9]
def initrd2 : Bytes := [8]

def storePath (n : String) : Path := [lit "nix", lit "store", lit n]

def spec1 : BootSpec where
  label := lit "NixOS 1"
  kernel := storePath "aaa-linux-6.1" ++ [lit "bzImage"]
  kernelParams := [lit "quiet"]
  init := storePath "aaa-sys" ++ [lit "init"]
  initrd := some (storePath "aaa-initrd")
  initrdSecrets := none
  toplevel := [1]
  sortKey := none

def spec1s : BootSpec := { spec1 with kernelParams := [lit "debug"], toplevel := [11] }

def spec2 : BootSpec where
  label := lit "NixOS 2"
  kernel := storePath "bbb-linux-6.2" ++ [lit "bzImage"]
  kernelParams := []
  init := storePath "bbb-sys" ++ [lit "init"]
  initrd := some (storePath "bbb-initrd")
  initrdSecrets := some (storePath "bbb-secrets")
  toplevel := [2]
  sortKey := none

def link1 : Path := [lit "nix", lit "var", lit "system-1-link"]
def link2 : Path := [lit "nix", lit "var", lit "system-2-link"]
/-- A generation whose bootspec cannot be read. -/
def link3 : Path := [lit "nix", lit "var", lit "system-3-link"]

def cfg : Config where
  lanzabooteStub := storePath "stub.efi"
  arch := .x86
  systemd := storePath "systemd"
  loaderConfig := storePath "loader.conf"
  configurationLimit := 0
  tries := 3
  pcrlockDirectory := some [lit "var", lit "pcrlock.d"]
  esp := [lit "boot"]
  links := [link2, link1]
  signer := .local [lit "keys", lit "db.pem"] [lit "keys", lit "db.key"]

def loaderConf : Bytes := utf8 (lit "timeout 5\n")

def store : List (Path × Bytes) :=
  [(spec1.kernel, kernel1), (spec2.kernel, kernel2), (storePath "aaa-initrd", initrd1),
   (storePath "bbb-initrd", initrd2), (storePath "stub.efi", stub),
   (loaderSource cfg, loader), (storePath "loader.conf", loaderConf),
   ([lit "keys", lit "db.pem"], [80, 75]), ([lit "keys", lit "db.key"], [83, 75])]

/-- The world of the installation. -/
def env (fault : Nat → Bool) : Env :=
  { bare fault with
    store := fun p => (store.find? fun e => e.1 = p).map (·.2)
    times := fun _ => ⟨some 1738324800, some 1⟩
    bootJson := fun p =>
      if p = link1 then some ⟨spec1, [(lit "foo", spec1s)]⟩
      else if p = link2 then some ⟨spec2, []⟩
      else none
    objcopy := fun _ => objcopy
    secrets := fun _ _ d => some (d ++ [115])
    sbsign := fun _ _ _ => sbsign
    sbverify := fun _ d => d.getLast? = some 83
    lockPe := fun _ d => some (76 :: d) }

/-- Nothing goes wrong. -/
def good : Env := env fun _ => false

/-- A machine with a foreign boot loader, a file of the user's, and a left-over kernel. -/
def disk : Fs where
  nodes :=
    [([lit "boot"], .dir), ([lit "boot", lit "EFI"], .dir),
     ([lit "boot", lit "EFI", lit "Linux"], .dir),
     ([lit "boot", lit "EFI", lit "Linux", lit "arch.efi"], .file [1, 2]),
     ([lit "boot", lit "EFI", lit "Linux", lit "nixos-generation-0-old.efi"], .file [3]),
     ([lit "boot", lit "EFI", lit "nixos"], .dir),
     ([lit "boot", lit "EFI", lit "nixos", lit "kernel-5-old.efi"], .file [4]),
     ([lit "var"], .dir), ([lit "var", lit "pcrlock.d"], .dir)]
  dirty := []

theorem fileSection_append {e : Env} {data x : Bytes} {name : Str} {b : Bytes}
    (hp : e.parse (data ++ x) = e.parse data) (h : FileSection e data name b) :
    FileSection e (data ++ x) name b := by
  obtain ⟨pe, pre, s, post, h1, h2, h3, h4, h5, h6, h7, h8⟩ := h
  refine ⟨pe, pre, s, post, hp.trans h1, h2, h3, h4, h5, by simp; omega, h7, fun i hi => ?_⟩
  rw [h8 i hi, List.getElem?_append_left (by omega)]

/-- All generations that are considered. -/
def allOf (e : Env) (c : Config) : List Gen :=
  ((c.considered e).getD []).flatMap fun link => match e.bootJson link.path with
    | some j => (fromBootJson link j).1 :: (fromBootJson link j).2
    | none => []

theorem considers_iff {e : Env} {c : Config} {g : Gen} : Considers e c g ↔ g ∈ allOf e c := by
  unfold allOf
  constructor
  · rintro ⟨links, link, j, h1, h2, h3, h4⟩
    rw [h1]
    exact List.mem_flatMap.2 ⟨link, h2, by rw [h3]; exact h4⟩
  · intro h
    obtain ⟨link, h2, h4⟩ := List.mem_flatMap.1 h
    cases h1 : c.considered e with
    | none => rw [h1] at h2; cases h2
    | some links =>
      rw [h1] at h2
      split at h4
      · next j hj => exact ⟨links, link, j, h1, h2, hj, h4⟩
      · cases h4

theorem safeInput_of {e : Env} {c : Config} (h : (allOf e c).all (fun g =>
    g.spec.kernel.all (fun c => decide ('/' ∉ c ∧ '\\' ∉ c)) &&
    (match g.specialisationName with | some n => decide ('/' ∉ n) | none => true)) = true) :
    SafeInput e c := by
  intro g hg
  have := List.all_eq_true.1 h g (considers_iff.1 hg)
  rw [Bool.and_eq_true, List.all_eq_true] at this
  refine ⟨fun c hc => by simpa using this.1 c hc, fun n hn => ?_⟩
  have h2 := this.2
  rw [hn] at h2
  simpa using h2

theorem safe_good : SafeInput good cfg := safeInput_of (by decide +kernel)

/-- Faults do not change what is considered. -/
theorem safe (fault : Nat → Bool) : SafeInput (env fault) cfg := fun g hg => safe_good g ⟨hg.ex⟩

theorem faithful (fault : Nat → Bool) : FaithfulTools (env fault) where
  objcopy t st added image h _ s hs := by
    have h : objcopy st added = some image := h
    unfold objcopy at h
    dsimp only at h
    split at h
    · next hc =>
      cases h
      have := List.all_eq_true.1 hc s hs
      rw [decide_eq_true_eq] at this
      exact (readSectionData_iff (env fault) _ _ _).1 this
    · cases h
  sbsign t priv pub data out h name b hb := by
    have h : sbsign data = some out := h
    unfold sbsign at h
    split at h
    · next hp => cases h; exact fileSection_append hp hb
    · cases h

theorem separate : Separate cfg := by
  intro p h
  have : p = [lit "var", lit "pcrlock.d"] := by
    have e : cfg.pcrlockDirectory = some [lit "var", lit "pcrlock.d"] := rfl
    rw [e] at h; exact (Option.some.inj h).symm
  subst this
  decide

/-- The run of the sample succeeds. -/
theorem good_ok : (run good cfg (start cfg disk)).1 = .ok () := by decide +kernel

end Verif.Tool.Sample
