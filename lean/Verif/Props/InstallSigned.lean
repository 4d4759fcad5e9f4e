import Verif.Lemmas.LoaderFiles
import Verif.Props.InstallFiles
import Verif.Lemmas.SampleInstall
/-!
# C49: everything executable that is installed is signed
-/
namespace Verif.Tool
open Verif StubName Generation

variable {env : Env} {cfg : Config} {ld : Scope} {fs : Fs} {done : List Change}

/-- The change gives `p` the content `d`. -/
def Puts (p : Path) (d : Bytes) : Change → Prop
  | .create q => q = p ∧ d = []
  | .write q x => q = p ∧ d = x
  | .rename _ q x => q = p ∧ d = x
  | _ => False

/-- `d` is the signer's output for a stub with the sections of a considered generation, or for the
available boot loader, at its place. -/
inductive SignedBinary (env : Env) (cfg : Config) (p : Path) (d : Bytes) : Prop
  | entry {g : Gen} {key kernel initrd image : Bytes} {v : Str} (hg : Considers env cfg g)
      (hk : KeyOf env cfg.signer key) (hv : KernelVersion g.spec.kernel v)
      (hkd : env.store g.spec.kernel = some kernel)
      (hid : InitrdOf env g.spec initrd) (him : StubImage env cfg g v kernel initrd image)
      (hs : SignedBy env cfg.signer image d)
      (e : p = entryFile cfg.esp (StubName.stubName env.sha g key cfg.tries))
  | loader {source : Bytes} (hl : IsLoader cfg p) (hd : env.store (loaderSource cfg) = some source)
      (hs : SignedBy env cfg.signer source d)

/-- What firmware or boot loader run: boot entries and the boot loader. -/
def Executable (cfg : Config) (p : Path) : Prop := IsEntry cfg.esp p ∨ IsLoader cfg p

theorem Executable.not_tmp {p : Path} (h : Executable cfg p) : ¬ IsTmp p := by
  rcases h with h | h
  · exact isEntry_not_tmp h
  · exact (LoaderPath.binary h).not_tmp

theorem Executable.not_measurement {p : Path} (h : Executable cfg p) : ¬ IsMeasurement cfg p := by
  rcases h with h | rfl | rfl
  · exact isEntry_not_measurement h
  · exact fallbackFile_not_isMeasurement
  · exact systemdFile_not_isMeasurement

theorem Executable.lastTwo {p : Path} (h : Executable cfg p) : ∃ d n, lastTwo p = some (d, n) ∧
    d ∈ [lit "Linux", lit "BOOT", lit "systemd"] := by
  rcases h with ⟨n, rfl, -⟩ | rfl | rfl
  · exact ⟨_, _, entryFile_lastTwo _ _, by simp⟩
  · exact ⟨_, _, fallbackFile_lastTwo cfg, by simp⟩
  · exact ⟨_, _, systemdFile_lastTwo cfg, by simp⟩

theorem Wanted.signed {p : Path} {d : Bytes} (hp : Executable cfg p) (h : Wanted env cfg p d) :
    SignedBinary env cfg p d := by
  obtain ⟨x, n, e, hx⟩ := hp.lastTwo
  have h1 : x ≠ lit "nixos" := by rintro rfl; exact absurd hx (by decide)
  have h2 : x ≠ lit "loader" := by rintro rfl; exact absurd hx (by decide)
  cases h with
  | kernel _ _ _ e' => exact absurd e' (lastTwo_ne e (caFile_lastTwo _ _ _) h1)
  | initrd _ _ _ e' => exact absurd e' (lastTwo_ne e (caFile_lastTwo _ _ _) h1)
  | entry hg hk hv hkd hid him hs e' => exact .entry hg hk hv hkd hid him hs e'
  | loader hd hs e' => exact .loader e' hd hs
  | conf _ e' => exact absurd e' (lastTwo_ne e (confFile_lastTwo _) h2)

theorem Outputs.puts {m : Path} {f : Fs} {c : Change} (h : Outputs m f c) {p : Path} {d : Bytes}
    (hp : Puts p d c) : p = m := by
  cases h with
  | mkdir => exact hp.elim
  | create => exact hp.1.symm
  | write => exact hp.1.symm
  | chmod => exact hp.elim

theorem InstallStep.puts (hs : SafeInput env cfg) {f : Fs} {c : Change}
    (h : InstallStep env cfg ld f c) {p : Path} {d : Bytes} (ht : ¬ IsTmp p)
    (hm : ¬ IsMeasurement cfg p) (hp : Puts p d c) : Wanted env cfg p d := by
  cases h with
  | @replace to dur t r =>
    have hn : ∀ {x : Path}, x = tmpOf to → x = p → False := by
      rintro x rfl rfl; exact ht (t.tmp hs).1
    cases r with
    | mkdir => exact hp.elim
    | create => exact (hn rfl hp.1).elim
    | write => exact (hn rfl hp.1).elim
    | fsync => exact hp.elim
    | rename a b =>
      obtain ⟨rfl, rfl⟩ := hp
      exact b.wanted
    | chmod => exact hp.elim
    | bits => exact hp.elim
  | @measured g p' hg ho hp' o => exact absurd ⟨p', hp', Or.inl ⟨g, o.puts hp⟩⟩ hm
  | @next p' hl hp' o => exact absurd ⟨p', hp', Or.inr (Or.inl (o.puts hp))⟩ hm
  | @current p' _ _ _ _ _ _ hp' _ _ _ _ _ _ _ _ e =>
    subst e
    exact absurd ⟨p', hp', Or.inr (Or.inr hp.1.symm)⟩ hm
  | sync _ e => subst e; exact hp.elim

theorem GcAny.puts {R : List Path} {f : Fs} {c : Change} (h : GcAny cfg R f c) {p : Path} {d : Bytes} :
    ¬ Puts p d c := by
  cases h with
  | nixos h => cases h <;> exact id
  | linux h => cases h <;> exact id
  | lock _ h => cases h <;> exact id

/-- From any state in which the bootspecs were not yet read. -/
theorem run_puts (hs : SafeInput env cfg) (s : State) (hb : s.broken = []) :
    ∃ l, (run env cfg s).2.log = s.log ++ l ∧ ∀ c ∈ l, ∀ p d, ¬ IsTmp p → ¬ IsMeasurement cfg p →
      Puts p d c → Wanted env cfg p d := by
  obtain ⟨installed, collected, gens, final, sh⟩ := run_shape hs (J := fun _ => True)
    (S := fun _ _ _ => True) (CarriedAll.inv fun _ _ _ _ => trivial) s trivial trivial hb
  refine ⟨installed ++ collected, sh.log, ?_⟩
  intro c hc p d ht hm hp
  rcases List.mem_append.1 hc with hc | hc
  · exact (sh.steps.forall (B := fun c => Puts p d c → Wanted env cfg p d)
      fun f c st hp => st.puts hs ht hm hp) c hc hp
  · have hne : collected ≠ [] := List.ne_nil_of_mem hc
    obtain ⟨l, hl, hch, -⟩ := sh.gc hne
    rw [hl] at hc
    rcases List.mem_cons.1 hc with rfl | hc
    · exact hp.elim
    · exact absurd hp ((hch.forall (B := fun c => ¬ Puts p d c) fun f c st => st.puts) c hc)

/-- **C49** (a run). Every boot entry and boot loader binary that a run writes is the signer's output
for the stub of a considered generation or for the available boot loader. -/
theorem C49_signed (hs : SafeInput env cfg) {p : Path} (hp : Executable cfg p) {d : Bytes} {c : Change}
    (hc : c ∈ (run env cfg (start cfg fs)).2.log) (hd : Puts p d c) : SignedBinary env cfg p d := by
  obtain ⟨l, e, h⟩ := run_puts hs (start cfg fs) rfl
  rw [e] at hc
  exact (h c (by simpa [start] using hc) p d hp.not_tmp hp.not_measurement hd).signed hp

/-- **C49** (interrupted). Whenever a run is killed, what is at the place of a boot entry or boot loader
binary was there before or is signed. -/
theorem C49_signed_interrupted (hs : SafeInput env cfg) {p : Path} (hp : Executable cfg p)
    (hk : KilledAfter env cfg fs done) {d : Bytes} (hd : (fs.replay done).fileAt p = some d) :
    fs.fileAt p = some d ∨ SignedBinary env cfg p d := by
  rcases C35_atomic hs hk hp.not_tmp hp.not_measurement with h | ⟨x, hw, h⟩ | ⟨h, -⟩
  · rw [h] at hd; exact Or.inl hd
  · rw [h] at hd; cases hd; exact Or.inr (hw.signed hp)
  · rw [Fs.fileAt_eq_some, h] at hd; cases hd

/-- What is known of the signer that is chosen. -/
def SignerFor (env : Env) (allowUnsigned : Bool) (pub priv : Path) : Signer → Prop
  | .empty => allowUnsigned = true ∧ (Faultless env → env.store pub = none ∧ env.store priv = none)
  | .local a b => a = pub ∧ b = priv

theorem chooseSigner_spec (allow : Bool) (pub priv : Path) (s : State) :
    ∃ t signer, chooseSigner env allow pub priv s = (.ok signer, { s with tick := t }) ∧
      SignerFor env allow pub priv signer := by
  cases allow with
  | false => exact ⟨s.tick, .local pub priv, rfl, rfl, rfl⟩
  | true =>
    by_cases h1 : (env.os.fault s.tick || (env.store pub).isNone) = true
    · by_cases h2 : (env.os.fault (s.tick + 1) || (env.store priv).isNone) = true
      · refine ⟨s.tick + 2, .empty, ?_, rfl, fun hf => ?_⟩
        · simp [chooseSigner, andM, keyMissing, faulty, next, h1, h2]
        · simp [hf s.tick, hf (s.tick + 1)] at h1 h2
          exact ⟨h1, h2⟩
      · refine ⟨s.tick + 2, .local pub priv, ?_, rfl, rfl⟩
        simp [chooseSigner, andM, keyMissing, faulty, next, h1, h2]
    · refine ⟨s.tick + 1, .local pub priv, ?_, rfl, rfl⟩
      simp [chooseSigner, andM, keyMissing, faulty, next, h1]

/-- Is the binary `d` signed as the command line demands? -/
inductive SignedAsTold (env : Env) (c : Cli) (image d : Bytes) : Prop
  /-- with the given keys -/
  | signed {pub priv : Path} {t : Nat} (hpub : c.publicKey = some pub) (hpriv : c.privateKey = some priv)
      (h : env.sbsign t priv pub image = some d)
  /-- not at all: allowed, and there are no keys (unless the file system failed to answer) -/
  | unsigned {pub priv : Path} (hpub : c.publicKey = some pub) (hpriv : c.privateKey = some priv)
      (h : d = image) (ha : c.allowUnsigned = true)
      (hn : Faultless env → env.store pub = none ∧ env.store priv = none)

/-- The paths of boot entries and boot loaders for a command line. -/
def CliExecutable (c : Cli) (p : Path) : Prop := IsEntry c.esp p ∨ ∃ arch,
  Architecture.fromNixosSystem c.system = some arch ∧
    IsLoader (c.config [] arch .empty) p

/-- **C49** (the program). Whatever the command line: every boot entry and boot loader binary the
program writes is signed with the given keys, unless unsigned binaries are explicitly allowed and
neither key exists. -/
theorem C49_program_signed {c : Cli} (hs : ∀ stub arch signer, SafeInput env (c.config stub arch signer))
    {p : Path} (hp : CliExecutable c p) {d : Bytes} {ch : Change}
    (hc : ch ∈ (cliInstall env c (fresh fs)).2.log) (hd : Puts p d ch) :
    ∃ image stub arch, c.lanzabooteStub = some stub ∧
      Architecture.fromNixosSystem c.system = some arch ∧
      (env.store (loaderSource (c.config stub arch .empty)) = some image ∨
        ∃ g v kernel initrd, Considers env (c.config stub arch .empty) g ∧
          StubImage env (c.config stub arch .empty) g v kernel initrd image) ∧
      SignedAsTold env c image d := by
  unfold cliInstall at hc
  cases h1 : c.lanzabooteStub with
  | none => simp [h1, ofOption, RM.throw, fresh] at hc
  | some stub =>
  cases h2 : c.publicKey with
  | none => simp [h1, h2, ofOption, expectSome, RM.panic, fresh] at hc
  | some pub =>
  cases h3 : c.privateKey with
  | none => simp [h1, h2, h3, ofOption, expectSome, RM.panic, fresh] at hc
  | some priv =>
  cases h4 : Architecture.fromNixosSystem c.system with
  | none => simp [h1, h2, h3, h4, ofOption, expectSome, RM.throw, fresh] at hc
  | some arch =>
    obtain ⟨t, signer, e, hsg⟩ := chooseSigner_spec (env := env) c.allowUnsigned pub priv (fresh fs)
    simp only [h1, h2, h3, h4, ofOption, expectSome, RM.bind_run, RM.pure_run, e] at hc
    unfold buildAndRun extendRoots at hc
    simp only [RM.bind_run, RM.modify_run] at hc
    have hp' : Executable (c.config stub arch signer) p := by
      rcases hp with hp | ⟨a, ha, hp⟩
      · exact Or.inl hp
      · rw [h4] at ha; cases ha; exact Or.inr hp
    obtain ⟨l, el, h⟩ := run_puts (hs stub arch signer) ⟨fs, [], t, [] ++
      (start (c.config stub arch signer) { nodes := [], dirty := [] }).roots, []⟩ rfl
    simp only [fresh] at hc
    rw [el] at hc
    have hw := (h ch (by simpa using hc) p d hp'.not_tmp hp'.not_measurement hd).signed hp'
    have fin : ∀ image, SignedBy env signer image d → SignedAsTold env c image d := by
      intro image hsd
      cases signer with
      | empty => exact .unsigned h2 h3 hsd hsg.1 hsg.2
      | «local» a b =>
        obtain ⟨rfl, rfl⟩ := hsg
        obtain ⟨t, ht⟩ := hsd
        exact .signed h2 h3 ht
    cases hw with
    | entry hg _ _ _ _ him hsd _ =>
      exact ⟨_, stub, arch, rfl, rfl, Or.inr ⟨_, _, _, _, ⟨hg.ex⟩, him⟩, fin _ hsd⟩
    | loader _ hd hsd => exact ⟨_, stub, arch, rfl, rfl, Or.inl hd, fin _ hsd⟩

end Verif.Tool

namespace Verif.Tool.Sample
open Verif

/-- The command line of the sample. -/
def cli (allow : Bool) : Cli where
  lanzabooteStub := some (storePath "stub.efi")
  system := lit "x86_64-linux"
  systemd := storePath "systemd"
  loaderConfig := storePath "loader.conf"
  allowUnsigned := allow
  publicKey := some [lit "keys", lit "db.pem"]
  privateKey := some [lit "keys", lit "db.key"]
  configurationLimit := 0
  tries := 3
  pcrlockDirectory := none
  esp := [lit "boot"]
  generations := [link1]

/-- The sample world without keys. -/
def keyless : Env :=
  { good with
    store := fun p => if p = [lit "keys", lit "db.pem"] ∨ p = [lit "keys", lit "db.key"] then none
      else good.store p
    sbsign := fun _ _ _ _ => none }

/-- The boot loader binary is written. -/
theorem cli_writes : .rename (tmpOf (fallbackFile cfg)) (fallbackFile cfg) (loader ++ [83]) ∈
    (cliInstall good (cli true) (fresh disk)).2.log := by decide +kernel

theorem cli_safe (stub : Path) (arch : Architecture) (signer : Signer) :
    SafeInput good ((cli true).config stub arch signer) := fun g hg =>
  (safeInput_of (e := good) (c := (cli true).config [] .x86 .empty) (by decide +kernel)) g ⟨hg.ex⟩

/-- So it is signed with the keys, as there are keys. -/
example : ∃ image t, good.sbsign t [lit "keys", lit "db.key"] [lit "keys", lit "db.pem"] image =
    some (loader ++ [83]) := by
  obtain ⟨image, -, -, -, -, -, h⟩ := C49_program_signed (env := good) (fs := disk) (c := cli true) cli_safe
    (p := fallbackFile cfg) (Or.inr ⟨.x86, rfl, Or.inl rfl⟩) (d := loader ++ [83]) cli_writes ⟨rfl, rfl⟩
  cases h with
  | @signed pub priv t h1 h2 h => cases h1; cases h2; exact ⟨image, t, h⟩
  | unsigned h1 h2 _ _ hn =>
    cases h1
    exact absurd (hn fun _ => rfl).1 (by decide +kernel)

/-- Without keys the installation fails, unless unsigned binaries are allowed. -/
example : (cliInstall keyless (cli false) (fresh disk)).1 ≠ .ok () ∧
    (cliInstall keyless (cli true) (fresh disk)).1 = .ok () ∧
    (cliInstall keyless (cli true) (fresh disk)).2.fs.fileAt (fallbackFile cfg) = some loader := by
  decide +kernel

/-- An interrupted run of the sample has written signed binaries. -/
example : ∃ d, Puts (fallbackFile cfg) d (.rename (tmpOf (fallbackFile cfg)) (fallbackFile cfg) d) ∧
    Change.rename (tmpOf (fallbackFile cfg)) (fallbackFile cfg) d ∈
      (run good cfg (start cfg disk)).2.log :=
  ⟨loader ++ [83], ⟨rfl, rfl⟩, by decide +kernel⟩

end Verif.Tool.Sample
