import Verif.Model.Install
import Verif.Spec.Names
/-!
# Vocabulary for what an installation has to look like

Written from the documentation of lanzaboote: where things are on the ESP, what a boot entry is made
of, and what it needs to boot. Uses the model's data types and the name encoding (`base32`,
`stubName`), none of its operations.
-/
namespace Verif.Tool
open Verif Generation

/-! ### Inputs -/

/-- `g` is one of the generations the installer is asked to install: the generation, or one of the
specialisations, of a selected link whose bootspec can be read. -/
structure Considers (env : Env) (cfg : Config) (g : Gen) : Prop where
  ex : ∃ links link j, cfg.considered env = some links ∧ link ∈ links ∧
    env.bootJson link.path = some j ∧ g ∈ (fromBootJson link j).1 :: (fromBootJson link j).2

/-- The generations and specialisations of the links whose bootspec can be read, in order. -/
def allOf (env : Env) (links : List Link) : List Gen :=
  links.flatMap fun link => match env.bootJson link.path with
    | none => []
    | some j => (fromBootJson link j).1 :: (fromBootJson link j).2

/-- `d` is an initrd for the bootspec: the file it names, or, if the bootspec has a script for secrets, the
output of that script for the file. -/
def InitrdOf (env : Env) (b : BootSpec) (d : Bytes) : Prop :=
  ∃ p d₀, b.initrd = some p ∧ env.store p = some d₀ ∧
    match b.initrdSecrets with
    | none => d = d₀
    | some script => ∃ t, env.secrets t script d₀ = some d

/-- The kernel is in a directory of the store whose name, after its last dash if it has one, is
`v`. -/
def KernelVersion (kernel : Path) (v : Str) : Prop :=
  ∃ dir name file, kernel = dir ++ [name, file] ∧ name ≠ lit ".." ∧ '-' ∉ v ∧
    (name = v ∨ ∃ x, name = x ++ lit "-" ++ v)

/-- `key` is what the signer presents as its public key. -/
def KeyOf (env : Env) : Signer → Bytes → Prop
  | .empty, key => key = utf8 (lit "unsigned")
  | .local pub _, key => env.store pub = some key

/-- `out` is what the signer makes of `d`: a signed copy, or a mere copy without keys. -/
def SignedBy (env : Env) : Signer → Bytes → Bytes → Prop
  | .empty, d, out => out = d
  | .local pub priv, d, out => ∃ t, env.sbsign t priv pub d = some out

/-! ### Places on the ESP -/

/-- A kernel or initrd with hash `h`. -/
def caFile (esp : Path) (label : Str) (h : Bytes) : Path :=
  esp ++ [lit "EFI", lit "nixos", label ++ lit "-" ++ StubName.base32 h ++ lit ".efi"]

/-- The file `name` in the directory of boot entries. -/
def entryFile (esp : Path) (name : Str) : Path := esp ++ [lit "EFI", lit "Linux", name]

/-- The default boot loader, `EFI/BOOT/BOOTX64.EFI` or `BOOTAA64.EFI`. -/
def fallbackFile (cfg : Config) : Path :=
  cfg.esp ++ [lit "EFI", lit "BOOT", match cfg.arch with
    | .x86 => lit "BOOTX64.EFI"
    | .aarch64 => lit "BOOTAA64.EFI"]

/-- systemd-boot's own place. -/
def systemdFile (cfg : Config) : Path :=
  cfg.esp ++ [lit "EFI", lit "systemd", match cfg.arch with
    | .x86 => lit "systemd-bootx64.efi"
    | .aarch64 => lit "systemd-bootaa64.efi"]

/-- The configuration of systemd-boot. -/
def confFile (cfg : Config) : Path := cfg.esp ++ [lit "loader", lit "loader.conf"]

/-- The measurement of a generation. -/
def measurementFile (pcrlock : Path) (g : Gen) : Path :=
  pcrlock ++ [lit "635-lanzaboote.pcrlock.d", g.versionTag ++ lit ".pcrlock"]

/-- Measurement of the next boot loader. -/
def nextFile (pcrlock : Path) : Path :=
  pcrlock ++ [lit "630-bootloader.pcrlock.d", lit "next.pcrlock"]

/-- Measurement of the current boot loader. -/
def currentFile (pcrlock : Path) : Path :=
  pcrlock ++ [lit "630-bootloader.pcrlock.d", lit "current.pcrlock"]

/-- The file systemd-boot is taken from. -/
def loaderSource (cfg : Config) : Path :=
  cfg.systemd ++ [lit "lib", lit "systemd", lit "boot", lit "efi", match cfg.arch with
    | .x86 => lit "systemd-bootx64.efi"
    | .aarch64 => lit "systemd-bootaa64.efi"]

/-- A NixOS boot entry: systemd-boot shows files of `EFI/Linux` ending in `.efi`. -/
def IsEntry (esp p : Path) : Prop :=
  ∃ n, p = entryFile esp n ∧ lit "nixos-" <+: n ∧ lit ".efi" <:+ n

/-! ### PE files -/

/-- The PE file `data` has a section called `name` with content `b`: the first section of that name
holds `b` in the file, all sections up to it have proper names. -/
def FileSection (env : Env) (data : Bytes) (name : Str) (b : Bytes) : Prop :=
  ∃ pe pre s post, env.parse data = some pe ∧ pe.sections = pre ++ s :: post ∧ s.name = some name ∧
    (∀ x ∈ pre, ∃ n, x.name = some n ∧ n ≠ name) ∧
    s.virtualSize.toNat ≤ s.sizeOfRawData.toNat ∧
    s.pointerToRawData.toNat + s.virtualSize.toNat ≤ data.length ∧
    b.length = s.virtualSize.toNat ∧
    ∀ i < b.length, b[i]? = data[s.pointerToRawData.toNat + i]?

/-- The text by which a stub refers to the file `rel` of its file system. -/
def uefiText (rel : Path) : Str := '\\' :: joinWith ['\\'] rel

/-- The image refers by its sections `path` and `hash` to the file `p` of the ESP with hash `h`. -/
def RefersTo (env : Env) (esp : Path) (data : Bytes) (path hash : Str) (p : Path) (h : Bytes) :
    Prop :=
  ∃ rel, p = esp ++ rel ∧ FileSection env data path (utf8 (uefiText rel)) ∧
    FileSection env data hash h

/-- The file exists and has this hash. -/
def Present (env : Env) (fs : Fs) (p : Path) (h : Bytes) : Prop :=
  ∃ d, fs.fileAt p = some d ∧ env.sha.hash d = h

/-- The boot entry `data` can be booted: the kernel and the initrd it refers to are there and match
the hashes in it. -/
def Bootable (env : Env) (esp : Path) (fs : Fs) (data : Bytes) : Prop :=
  ∃ kp kh ip ih, RefersTo env esp data (lit ".linux") (lit ".linuxh") kp kh ∧
    RefersTo env esp data (lit ".initrd") (lit ".initrdh") ip ih ∧
    Present env fs kp kh ∧ Present env fs ip ih

/-- The boot entry `data` belongs to `g`: it refers to the generation's kernel and initrd in their
places, which are named by the kernel's version, and has its command line. -/
structure EntryFor (env : Env) (esp : Path) (g : Gen) (data kernel initrd : Bytes)
    (version : Str) : Prop where
  kernel_is : env.store g.spec.kernel = some kernel
  initrd_is : InitrdOf env g.spec initrd
  version_is : KernelVersion g.spec.kernel version
  kernel_ref : RefersTo env esp data (lit ".linux") (lit ".linuxh")
    (caFile esp (lit "kernel-" ++ version) (env.sha.hash kernel)) (env.sha.hash kernel)
  initrd_ref : RefersTo env esp data (lit ".initrd") (lit ".initrdh")
    (caFile esp (lit "initrd-" ++ version) (env.sha.hash initrd)) (env.sha.hash initrd)
  cmdline : FileSection env data (lit ".cmdline")
    (utf8 (joinWith [' '] ((lit "init=/" ++ joinWith ['/'] g.spec.init) :: g.spec.kernelParams)))

/-- The boot entry at `p` boots `g`. -/
def Boots (env : Env) (esp : Path) (fs : Fs) (g : Gen) (p : Path) : Prop :=
  ∃ data kernel initrd version, fs.fileAt p = some data ∧
    EntryFor env esp g data kernel initrd version ∧
    Present env fs (caFile esp (lit "kernel-" ++ version) (env.sha.hash kernel)) (env.sha.hash kernel) ∧
    Present env fs (caFile esp (lit "initrd-" ++ version) (env.sha.hash initrd)) (env.sha.hash initrd)

/-! ### Sound states of the ESP -/

/-- The image refers by its sections `path` and `hash` to a file of `EFI/nixos` that is named by
`label` and the hash. -/
def RefersToCa (env : Env) (esp : Path) (data : Bytes) (path hash label : Str) (h : Bytes) : Prop :=
  ('/' ∉ label ∧ '\\' ∉ label) ∧ RefersTo env esp data path hash (caFile esp label h) h

/-- Every boot entry refers to a kernel and an initrd in `EFI/nixos` that are there and match the
hashes in the entry. -/
def Consistent (env : Env) (esp : Path) (fs : Fs) : Prop :=
  ∀ p, IsEntry esp p → ∀ data, fs.fileAt p = some data → ∃ kl kh il ih,
    RefersToCa env esp data (lit ".linux") (lit ".linuxh") kl kh ∧
    RefersToCa env esp data (lit ".initrd") (lit ".initrdh") il ih ∧
    Present env fs (caFile esp kl kh) kh ∧ Present env fs (caFile esp il ih) ih

/-- Every boot entry refers to files in `EFI/nixos` that are named by the hashes in the entry, and every
file in `EFI/nixos` that is named by a hash has that hash. The files an entry refers to may be missing. -/
structure Sound (env : Env) (esp : Path) (fs : Fs) : Prop where
  entries : ∀ p, IsEntry esp p → ∀ data, fs.fileAt p = some data → ∃ kl kh il ih,
    RefersToCa env esp data (lit ".linux") (lit ".linuxh") kl kh ∧
    RefersToCa env esp data (lit ".initrd") (lit ".initrdh") il ih ∧
    kh.length = 32 ∧ ih.length = 32
  files : ∀ l h node, h.length = 32 → fs.get (caFile esp l h) = some node →
    ∃ d, node = .file d ∧ env.sha.hash d = h

/-- A run in the surroundings `env` with the configuration `cfg` is part of the world `world`: the same
hash function and PE files, and of the generations it considers the same kernels and initrds, the secrets
scripts of `world` having at least the outputs of those of `env`. Runs at different times have different
environments in the same world; other files, such as the keys, may have different contents. -/
structure InWorld (world env : Env) (cfg : Config) : Prop where
  sha : env.sha = world.sha
  parse : env.parse = world.parse
  uni : env.uni = world.uni
  kernel : ∀ g d, Considers env cfg g → env.store g.spec.kernel = some d →
    world.store g.spec.kernel = some d
  initrd : ∀ g d, Considers env cfg g → InitrdOf env g.spec d → InitrdOf world g.spec d

/-- The bootspecs boot the same system. -/
structure SameBoot (b b' : BootSpec) : Prop where
  kernel : b.kernel = b'.kernel
  kernelParams : b.kernelParams = b'.kernelParams
  init : b.init = b'.init
  initrd : b.initrd = b'.initrd
  initrdSecrets : b.initrdSecrets = b'.initrdSecrets

/-- The generations and keys in `known` are told apart by their version, specialisation, toplevel and
key: the toplevel is a store path, whose content never changes. And SHA-256 tells them apart. -/
structure Unambiguous (env : Env) (known : Gen → Bytes → Prop) : Prop where
  same : ∀ g k g' k', known g k → known g' k' → StubName.SameEntry g g' k k' → SameBoot g.spec g'.spec
  apart : ∀ g k g' k', known g k → known g' k' →
    ¬ StubName.Collision env.sha (StubName.hashed g k) (StubName.hashed g' k')

/-- What is named like a boot entry of a generation in `known` is one. -/
def Coherent (env : Env) (esp : Path) (known : Gen → Bytes → Prop) (fs : Fs) : Prop :=
  ∀ g key n data, known g key → StubName.IsNameOf env.uni env.sha g key n →
    fs.fileAt (entryFile esp n) = some data → ∃ kernel initrd v, EntryFor env esp g data kernel initrd v

/-- The two generations do not share a boot entry: version, specialisation or toplevel differ, and
SHA-256 tells the toplevels apart. -/
def Apart (sha : StubName.Sha) (key : Bytes) (g g' : Gen) : Prop :=
  ¬ StubName.SameEntry g g' key key ∧
    ¬ StubName.Collision sha (StubName.hashed g key) (StubName.hashed g' key)

/-- No two of the generations share a boot entry. -/
def Distinct (env : Env) (cfg : Config) (gens : List Gen) : Prop :=
  ∀ key, KeyOf env cfg.signer key → gens.Pairwise (Apart env.sha key)

/-- The generations have different names. -/
def TagsDiffer (gens : List Gen) : Prop := gens.Pairwise fun g g' => g.versionTag ≠ g'.versionTag

/-- With measured boot, a considered generation with a boot entry has a measurement. -/
def AllMeasured (env : Env) (cfg : Config) (fs : Fs) : Prop :=
  ∀ p, cfg.pcrlockDirectory = some p → ∀ g key n, Considers env cfg g → KeyOf env cfg.signer key →
    StubName.IsNameOf env.uni env.sha g key n →
    (fs.fileAt (entryFile cfg.esp n)).isSome → (fs.fileAt (measurementFile p g)).isSome

/-! ### Assumptions on the programs that are run -/

/-- objcopy adds the sections it is told to add, and signing changes no section. -/
structure FaithfulTools (env : Env) : Prop where
  objcopy : ∀ t stub added image, env.objcopy t stub added = some image →
    (added.map (·.name)).Nodup → ∀ s ∈ added, FileSection env image s.name s.content
  sbsign : ∀ t priv pub data out, env.sbsign t priv pub data = some out →
    ∀ name b, FileSection env data name b → FileSection env out name b

/-- sbverify accepts what sbsign has signed with the same certificate. -/
def SignaturesVerify (env : Env) : Prop := ∀ t priv pub d out, env.sbsign t priv pub d = some out →
  env.sbverify pub out = true

/-- The inputs of the installer are the same in both: the sources, the hash function and how PE files and
signatures are read. What the operating system and the other programs do may differ. -/
structure SameInputs (env env' : Env) : Prop where
  sha : env'.sha = env.sha
  uni : env'.uni = env.uni
  store : env'.store = env.store
  times : env'.times = env.times
  bootJson : env'.bootJson = env.bootJson
  parse : env'.parse = env.parse
  sbverify : env'.sbverify = env.sbverify

/-- The generations are named by proper file names: no directory separators in the name of a
specialisation, in the kernel's path components, and no backslash in the latter. -/
structure SafeGen (g : Gen) : Prop where
  kernel : ∀ c ∈ g.spec.kernel, '/' ∉ c ∧ '\\' ∉ c
  name : ∀ n, g.specialisationName = some n → '/' ∉ n

/-- All considered generations are named by proper file names. -/
def SafeInput (env : Env) (cfg : Config) : Prop := ∀ g, Considers env cfg g → SafeGen g

/-! ### What is installed -/

/-- The sections, with their contents, that make the stub an entry for `g` with this kernel and this
initrd. -/
def entrySections (env : Env) (g : Gen) (v : Str) (kernel initrd : Bytes) : List (Str × Bytes) :=
  [(lit ".osrel", utf8 (OsRelease.display (osRelease g))),
   (lit ".cmdline", utf8 (joinWith [' ']
     ((lit "init=/" ++ joinWith ['/'] g.spec.init) :: g.spec.kernelParams))),
   (lit ".initrd", utf8 (uefiText (caFile [] (lit "initrd-" ++ v) (env.sha.hash initrd)))),
   (lit ".linux", utf8 (uefiText (caFile [] (lit "kernel-" ++ v) (env.sha.hash kernel)))),
   (lit ".initrdh", env.sha.hash initrd),
   (lit ".linuxh", env.sha.hash kernel)]

/-- `image` is made by objcopy from the stub by adding the sections for `g`. -/
def StubImage (env : Env) (cfg : Config) (g : Gen) (v : Str) (kernel initrd image : Bytes) : Prop :=
  ∃ stub t added, env.store cfg.lanzabooteStub = some stub ∧
    added.map (fun s => (s.name, s.content)) = entrySections env g v kernel initrd ∧
    env.objcopy t stub added = some image

/-- `image` is a stub with the sections for `g`, its kernel and its initrd. -/
def EntryImage (env : Env) (cfg : Config) (g : Gen) (image : Bytes) : Prop :=
  ∃ v kernel initrd, KernelVersion g.spec.kernel v ∧ env.store g.spec.kernel = some kernel ∧
    InitrdOf env g.spec initrd ∧ StubImage env cfg g v kernel initrd image

/-- `d` is the complete content the installer has for the file `p`. -/
inductive Wanted (env : Env) (cfg : Config) (p : Path) (d : Bytes) : Prop
  /-- the kernel of a considered generation -/
  | kernel {g : Gen} {v : Str} (hg : Considers env cfg g) (hv : KernelVersion g.spec.kernel v)
      (hd : env.store g.spec.kernel = some d)
      (e : p = caFile cfg.esp (lit "kernel-" ++ v) (env.sha.hash d))
  /-- its initrd -/
  | initrd {g : Gen} {v : Str} (hg : Considers env cfg g) (hv : KernelVersion g.spec.kernel v)
      (hd : InitrdOf env g.spec d)
      (e : p = caFile cfg.esp (lit "initrd-" ++ v) (env.sha.hash d))
  /-- its boot entry, signed -/
  | entry {g : Gen} {key kernel initrd image : Bytes} {v : Str} (hg : Considers env cfg g)
      (hk : KeyOf env cfg.signer key) (hv : KernelVersion g.spec.kernel v)
      (hkd : env.store g.spec.kernel = some kernel)
      (hid : InitrdOf env g.spec initrd) (him : StubImage env cfg g v kernel initrd image)
      (hs : SignedBy env cfg.signer image d)
      (e : p = entryFile cfg.esp (StubName.stubName env.sha g key cfg.tries))
  /-- the boot loader, signed -/
  | loader {d₀ : Bytes} (hd : env.store (loaderSource cfg) = some d₀)
      (hs : SignedBy env cfg.signer d₀ d) (e : p = fallbackFile cfg ∨ p = systemdFile cfg)
  /-- the configuration of the boot loader -/
  | conf (hd : env.store cfg.loaderConfig = some d) (e : p = confFile cfg)

/-- `d` is a complete content of the durable kind: a kernel, an initrd or `loader.conf`. -/
inductive WantedData (env : Env) (cfg : Config) (p : Path) (d : Bytes) : Prop
  | kernel {g : Gen} {v : Str} (hg : Considers env cfg g) (hv : KernelVersion g.spec.kernel v)
      (hd : env.store g.spec.kernel = some d)
      (e : p = caFile cfg.esp (lit "kernel-" ++ v) (env.sha.hash d))
  | initrd {g : Gen} {v : Str} (hg : Considers env cfg g) (hv : KernelVersion g.spec.kernel v)
      (hd : InitrdOf env g.spec d)
      (e : p = caFile cfg.esp (lit "initrd-" ++ v) (env.sha.hash d))
  | conf (hd : env.store cfg.loaderConfig = some d) (e : p = confFile cfg)

/-- The name of a temporary file: the installer writes `name..tmp` before it renames it to
`name.ext`. -/
def IsTmpName (n : Str) : Prop := ∃ x, n = x ++ lit "..tmp"

/-- A temporary file. -/
def IsTmp (p : Path) : Prop := ∃ q n, p = q ++ [n] ∧ IsTmpName n

/-- A file written by systemd-pcrlock. -/
def IsMeasurement (cfg : Config) (q : Path) : Prop :=
  ∃ p, cfg.pcrlockDirectory = some p ∧
    ((∃ g, q = measurementFile p g) ∨ q = nextFile p ∨ q = currentFile p)

/-- `EFI/nixos`. -/
def nixosDir (esp : Path) : Path := esp ++ [lit "EFI", lit "nixos"]
/-- `EFI/Linux`. -/
def linuxDir (esp : Path) : Path := esp ++ [lit "EFI", lit "Linux"]
/-- The directory of the measurements of generations. -/
def lockDir (pcrlock : Path) : Path := pcrlock ++ [lit "635-lanzaboote.pcrlock.d"]

/-- The files the installer may create, change or delete. -/
inductive Owned (cfg : Config) : Path → Prop
  /-- everything in `EFI/nixos` -/
  | nixos {p : Path} (h : nixosDir cfg.esp <+: p) (hne : p ≠ nixosDir cfg.esp) : Owned cfg p
  /-- what is called `nixos-…` in `EFI/Linux`, and everything below -/
  | entry {p q : Path} {n : Str} (h : linuxDir cfg.esp <+: q) (hn : lit "nixos-" <+: n)
      (hp : q ++ [n] <+: p) : Owned cfg p
  | fallback : Owned cfg (fallbackFile cfg)
  | systemd : Owned cfg (systemdFile cfg)
  | conf : Owned cfg (confFile cfg)
  /-- temporary files beside these three -/
  | tmp {p q : Path} (h : q = fallbackFile cfg ∨ q = systemdFile cfg ∨ q = confFile cfg)
      (hd : p.dropLast = q.dropLast) (ht : IsTmp p) : Owned cfg p
  /-- measurements of generations -/
  | lock {p q : Path} (hp : cfg.pcrlockDirectory = some p) (h : lockDir p <+: q)
      (hne : q ≠ lockDir p) : Owned cfg q
  /-- measurements of the boot loader -/
  | bootloader {p q : Path} (hp : cfg.pcrlockDirectory = some p)
      (h : q = nextFile p ∨ q = currentFile p) : Owned cfg q

/-- The directory for measurements and the ESP are apart from each other. -/
def Separate (cfg : Config) : Prop := ∀ p, cfg.pcrlockDirectory = some p →
  ¬ lockDir p <+: cfg.esp ∧ ¬ nixosDir cfg.esp <+: p ∧ ¬ linuxDir cfg.esp <+: p

/-- The measurement of a boot loader that is going to be renamed. -/
def IsNext (cfg : Config) (q : Path) : Prop := ∃ p, cfg.pcrlockDirectory = some p ∧ q = nextFile p

/-! ### Well-behaved surroundings -/

/-- No operation fails. -/
def Faultless (env : Env) : Prop := ∀ t, env.os.fault t = false

/-- A file system is a tree: no path is listed twice, and what exists is in a directory. -/
structure Fs.Tree (fs : Fs) : Prop where
  ne : ∀ e ∈ fs.nodes, e.1 ≠ []
  nodup : (fs.nodes.map (·.1)).Nodup
  parent : ∀ p, p ≠ [] → (fs.get p).isSome → fs.get p.dropLast = some .dir

/-- The operating system lists every directory completely, in whatever order, and no operation fails. -/
structure Reliable (os : Os) : Prop where
  fault : ∀ t, os.fault t = false
  list : ∀ t l, (os.list t l).Perm l

/-- A run to the end: it succeeded and could read all bootspecs. -/
structure Succeeded (env : Env) (cfg : Config) (fs : Fs) : Prop where
  ok : (run env cfg (start cfg fs)).1 = .ok ()
  read : (run env cfg (start cfg fs)).2.broken = []

/-! ### Interruptions -/

/-- The changes up to which the run may have come when it is killed. -/
def KilledAfter (env : Env) (cfg : Config) (fs : Fs) (done : List Change) : Prop :=
  done <+: (run env cfg (start cfg fs)).2.log

/-- What may be on the disk after the power failed when the changes `done` had been made to `fs`. At
every path, the changes since the last sync of the file system it is on may be lost from some point on;
what is there at that point may be a file with data that was not synced, and then its content may be
anything. The paths are independent of each other: changes may reach the disk in any order. -/
def AfterPowerLoss (fs : Fs) (done : List Change) (fs' : Fs) : Prop :=
  ∀ p, ∃ kept lost, done = kept ++ lost ∧ (∀ top, .syncfs top ∈ lost → ¬ top <+: p) ∧
    (fs'.get p = (fs.replay kept).get p ∨ (p ∈ (fs.replay kept).dirty ∧ ∃ d d',
      (fs.replay kept).get p = some (.file d) ∧ fs'.get p = some (.file d')))

/-- In particular, nothing may be lost. -/
theorem afterPowerLoss_refl (fs : Fs) (done : List Change) : AfterPowerLoss fs done (fs.replay done) :=
  fun _ => ⟨done, [], by simp, by simp, Or.inl rfl⟩

end Verif.Tool
