import Verif.Spec.Unsigned
import Verif.Props.InstallSigned
import Verif.Lemmas.SampleSound
/-!
# C96: nothing unsigned is installed if there are keys
-/
namespace Verif.Tool
open Verif Generation

variable {env : Env} {c : Cli} {fs : Fs}

theorem chooseSigner_exact {pub priv : Path} (h1 : c.publicKey = some pub) (h2 : c.privateKey = some priv) (fs : Fs) :
    ∃ t signer, chooseSigner env c.allowUnsigned pub priv (fresh fs) = (.ok signer, { fresh fs with tick := t }) ∧
      ((c.allowUnsigned = false ∨ FindsKey env c) → signer = .local pub priv) ∧
      (c.allowUnsigned = true → ¬ FindsKey env c → signer = .empty) := by
  cases ha : c.allowUnsigned with
  | false => exact ⟨0, .local pub priv, rfl, fun _ => rfl, fun h => by cases h⟩
  | true =>
    by_cases e1 : (env.os.fault 0 || (env.store pub).isNone) = true
    · by_cases e2 : (env.os.fault 1 || (env.store priv).isNone) = true
      · refine ⟨2, .empty, ?_, ?_, fun _ _ => rfl⟩
        · simp [chooseSigner, andM, keyMissing, faulty, next, fresh, e1, e2]
        · rintro (h | ⟨h, he, hf⟩ | ⟨h, he, hf⟩)
          · cases h
          · rw [h1] at h; cases h; simp [hf] at e1; simp [e1] at he
          · rw [h2] at h; cases h; simp [hf] at e2; simp [e2] at he
      · refine ⟨2, .local pub priv, ?_, fun _ => rfl, fun _ hn => absurd ?_ hn⟩
        · simp [chooseSigner, andM, keyMissing, faulty, next, fresh, e1, e2]
        · simp only [Bool.or_eq_true, not_or, Bool.not_eq_true] at e2
          exact .privateKey h2 (by cases hx : env.store priv <;> simp_all) e2.1
    · refine ⟨1, .local pub priv, ?_, fun _ => rfl, fun _ hn => absurd ?_ hn⟩
      · simp [chooseSigner, andM, keyMissing, faulty, next, fresh, e1]
      · simp only [Bool.or_eq_true, not_or, Bool.not_eq_true] at e1
        exact .publicKey h1 (by cases hx : env.store pub <;> simp_all) e1.1

/-- What a run of the program writes is signed as the chosen signer does it. -/
theorem program_puts (hs : ∀ stub arch signer, SafeInput env (c.config stub arch signer))
    {p : Path} (hp : CliExecutable c p) {d : Bytes} {ch : Change}
    (hc : ch ∈ (program env c fs).2.log) (hd : Puts p d ch) :
    ∃ pub priv signer image, c.publicKey = some pub ∧ c.privateKey = some priv ∧
      ((c.allowUnsigned = false ∨ FindsKey env c) → signer = .local pub priv) ∧
      (c.allowUnsigned = true → ¬ FindsKey env c → signer = .empty) ∧ SignedBy env signer image d ∧
      ∃ stub arch, c.lanzabooteStub = some stub ∧ Architecture.fromNixosSystem c.system = some arch ∧
      (env.store (loaderSource (c.config stub arch .empty)) = some image ∨
        ∃ g v kernel initrd, Considers env (c.config stub arch .empty) g ∧
          StubImage env (c.config stub arch .empty) g v kernel initrd image) := by
  unfold program cliInstall at hc
  cases h1 : c.lanzabooteStub with
  | none => simp [h1, ofOption, RM.throw, fresh] at hc
  | some stub =>
  cases h2 : c.publicKey with
  | none => simp [h1, h2, ofOption, expectSome, RM.panic, fresh] at hc
  | some pub =>
  cases h3 : c.privateKey with
  | none => simp [h1, h2, h3, ofOption, expectSome, RM.panic, fresh] at hc
  | some priv =>
  cases h4 : Architecture.fromNixosSystem c.system with
  | none => simp [h1, h2, h3, h4, ofOption, expectSome, RM.throw, fresh] at hc
  | some arch =>
    obtain ⟨t, signer, e, hsg⟩ := chooseSigner_exact (env := env) h2 h3 fs
    simp only [h1, h2, h3, h4, ofOption, expectSome, RM.bind_run, RM.pure_run, e] at hc
    unfold buildAndRun extendRoots at hc
    simp only [RM.bind_run, RM.modify_run] at hc
    have hp' : Executable (c.config stub arch signer) p := by
      rcases hp with hp | ⟨a, ha, hp⟩
      · exact Or.inl hp
      · rw [h4] at ha; cases ha; exact Or.inr hp
    obtain ⟨l, el, h⟩ := run_puts (hs stub arch signer) ⟨fs, [], t, [] ++
      (start (c.config stub arch signer) { nodes := [], dirty := [] }).roots, []⟩ rfl
    simp only [fresh] at hc
    rw [el] at hc
    have hw := (h ch (by simpa using hc) p d hp'.not_tmp hp'.not_measurement hd).signed hp'
    cases hw with
    | entry hg _ _ _ _ him hsd _ =>
      exact ⟨pub, priv, signer, _, rfl, rfl, hsg.1, hsg.2, hsd, stub, arch, rfl, rfl,
        Or.inr ⟨_, _, _, _, ⟨hg.ex⟩, him⟩⟩
    | loader _ hd hsd =>
      exact ⟨pub, priv, signer, _, rfl, rfl, hsg.1, hsg.2, hsd, stub, arch, rfl, rfl, Or.inl hd⟩

/-- **C96** (partial: the file system must answer when it is asked for one of the key files). If unsigned binaries are
not allowed, or if the program finds one of the keys, every boot entry and boot loader binary it writes is signed with
the keys. -/
theorem C96_signed_partial (hs : ∀ stub arch signer, SafeInput env (c.config stub arch signer))
    (hk : c.allowUnsigned = false ∨ FindsKey env c) {p : Path} (hp : CliExecutable c p) {d : Bytes} {ch : Change}
    (hc : ch ∈ (program env c fs).2.log) (hd : Puts p d ch) : SignedWithKeys env c d := by
  obtain ⟨pub, priv, signer, image, h1, h2, h3, -, h, -⟩ := program_puts hs hp hc hd
  obtain rfl := h3 hk
  obtain ⟨t, ht⟩ := h
  exact ⟨pub, priv, t, image, h1, h2, ht⟩

/-- **C96** (otherwise). If unsigned binaries are allowed and the program finds neither key, for whatever reason,
nothing it writes is signed: each boot loader binary is systemd's as it is in the Nix store, each boot entry the image
made for a considered generation. -/
theorem C96_unsigned (hs : ∀ stub arch signer, SafeInput env (c.config stub arch signer))
    (ha : c.allowUnsigned = true) (hk : ¬ FindsKey env c) {p : Path} (hp : CliExecutable c p) {d : Bytes} {ch : Change}
    (hc : ch ∈ (program env c fs).2.log) (hd : Puts p d ch) :
    ∃ stub arch, c.lanzabooteStub = some stub ∧ Architecture.fromNixosSystem c.system = some arch ∧
      (env.store (loaderSource (c.config stub arch .empty)) = some d ∨
        ∃ g v kernel initrd, Considers env (c.config stub arch .empty) g ∧
          StubImage env (c.config stub arch .empty) g v kernel initrd d) := by
  obtain ⟨pub, priv, signer, image, -, -, -, h3, h, h4⟩ := program_puts hs hp hc hd
  obtain rfl := h3 ha hk
  obtain rfl : d = image := h
  exact h4

end Verif.Tool

namespace Verif.Tool.Sample
open Verif

/-- The sample world; the disk with the keys does not answer at first. -/
def lateKeys : Env := { good with os := { good.os with fault := fun t => decide (t < 2) } }

/-- The boot partition after a run of the program. -/
def signedDisk : Fs := (program good (cli true) disk).2.fs

/-- The boot partition after another run, in which the file system fails to say whether the keys exist. -/
def unsignedDisk : Fs := (program lateKeys (cli true) signedDisk).2.fs

/-- Does sbverify accept the file at `p`? -/
def Verifies (f : Fs) (p : Path) : Prop :=
  ∃ d, f.fileAt p = some d ∧ good.sbverify [lit "keys", lit "db.pem"] d = true

/-- Is `p` a boot entry, in a list of files? -/
def listedEntry (p : Path) : Bool :=
  (linuxDir [lit "boot"]).isPrefixOf p && (lit "nixos-").isPrefixOf (p.getLast?.getD [])

theorem listedEntry_of {n : Str} (hn : lit "nixos-" <+: n) : listedEntry (linuxDir [lit "boot"] ++ [n]) = true := by
  unfold listedEntry
  rw [Bool.and_eq_true]
  refine ⟨List.isPrefixOf_iff_prefix.2 (List.prefix_append _ _), ?_⟩
  rw [List.getLast?_append]
  exact List.isPrefixOf_iff_prefix.2 hn

/-- **C96** is false of the code. The keys exist, and everything on the boot partition is signed. As the file system
fails to say whether the keys exist, the program replaces all boot entries by unsigned ones, and reports success: with
Secure Boot no generation can be booted any more. -/
theorem C96_witness : KeysExist lateKeys (cli true) ∧
    (program good (cli true) disk).1 = 0 ∧
    (∃ n, lit "nixos-" <+: n ∧ Verifies signedDisk (linuxDir [lit "boot"] ++ [n])) ∧
    (program lateKeys (cli true) signedDisk).1 = 0 ∧
    ∀ n, lit "nixos-" <+: n → ¬ Verifies unsignedDisk (linuxDir [lit "boot"] ++ [n]) := by
  refine ⟨⟨_, _, rfl, rfl, by decide +kernel, by decide +kernel⟩, by decide +kernel, ?_, by decide +kernel, ?_⟩
  · refine ⟨lit "nixos-generation-1-s4cz7yogvz3dqj3qurbiuf3vyaaaaaaaaaaaaaaaaaaaaaaaaaaa+3.efi", by decide +kernel, ?_⟩
    have : ((signedDisk.fileAt (linuxDir [lit "boot"] ++
        [lit "nixos-generation-1-s4cz7yogvz3dqj3qurbiuf3vyaaaaaaaaaaaaaaaaaaaaaaaaaaa+3.efi"])).any
        (good.sbverify [lit "keys", lit "db.pem"])) = true := by decide +kernel
    obtain ⟨d, hd, h⟩ := (Option.any_eq_true _ _).1 this
    exact ⟨d, hd, h⟩
  · rintro n hn ⟨d, hd, h⟩
    have key : (unsignedDisk.nodes.all fun e => match e.2 with
        | .dir => true
        | .file d => !listedEntry e.1 || !good.sbverify [lit "keys", lit "db.pem"] d) = true := by decide +kernel
    have := List.all_eq_true.1 key _ (mem_of_fileAt hd (by simp))
    simp [listedEntry_of hn, h] at this

/-- In this case the program does not find the keys. -/
example : ¬ FindsKey lateKeys (cli true) := by
  rintro (⟨_, _, h⟩ | ⟨_, _, h⟩) <;> exact absurd h (by decide)

/-- Usually it does. -/
theorem finds_key : FindsKey good (cli true) := .publicKey rfl (by decide +kernel) rfl

/-- So the boot loader binary that the sample run writes is signed. -/
example : SignedWithKeys good (cli true) (loader ++ [83]) :=
  C96_signed_partial (fs := disk) cli_safe (Or.inr finds_key) (p := fallbackFile cfg)
    (Or.inr ⟨.x86, rfl, Or.inl rfl⟩) cli_writes ⟨rfl, rfl⟩

/-- The hypotheses of `C96_unsigned` hold for the boot loader binary that a run writes on a new boot partition when
the file system fails to say whether the keys exist. -/
theorem late_writes : .rename (tmpOf (fallbackFile cfg)) (fallbackFile cfg) loader ∈
    (program lateKeys (cli true) disk).2.log := by decide +kernel

theorem late_safe (stub : Path) (arch : Architecture) (signer : Signer) :
    SafeInput lateKeys ((cli true).config stub arch signer) := fun g hg =>
  (safeInput_of (e := lateKeys) (c := (cli true).config [] .x86 .empty) (by decide +kernel)) g ⟨hg.ex⟩

example : ∃ stub arch, (cli true).lanzabooteStub = some stub ∧
    Architecture.fromNixosSystem (cli true).system = some arch ∧
      (lateKeys.store (loaderSource ((cli true).config stub arch .empty)) = some loader ∨
        ∃ g v kernel initrd, Considers lateKeys ((cli true).config stub arch .empty) g ∧
          StubImage lateKeys ((cli true).config stub arch .empty) g v kernel initrd loader) :=
  C96_unsigned (fs := disk) late_safe rfl
    (by rintro (⟨_, _, h⟩ | ⟨_, _, h⟩) <;> exact absurd h (by decide))
    (p := fallbackFile cfg) (Or.inr ⟨.x86, rfl, Or.inl rfl⟩) late_writes ⟨rfl, rfl⟩

/-- The next run, if it finds the keys, makes everything signed again. -/
example : (program good (cli true) unsignedDisk).1 = 0 ∧
    (program good (cli true) unsignedDisk).2.fs.nodes.all (fun e => match e.2 with
      | .dir => true
      | .file d => !listedEntry e.1 || good.sbverify [lit "keys", lit "db.pem"] d) = true := by
  decide +kernel

end Verif.Tool.Sample
