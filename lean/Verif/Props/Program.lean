import Verif.Lemmas.Later
import Verif.Props.InstallSigned
import Verif.Props.InstallLive
import Verif.Props.Considered
/-!
# C78: the program does what its command line says
-/
namespace Verif.Tool
open Verif Generation

variable {env : Env} {c : Cli} {cfg : Config} {fs : Fs}

theorem supported_iff {s : Str} : (∃ fb ld, Supported s fb ld) ↔ ∃ a, Architecture.fromNixosSystem s = some a := by
  constructor
  · rintro ⟨_, _, h⟩
    cases h
    · exact ⟨.x86, by decide +kernel⟩
    · exact ⟨.aarch64, by decide +kernel⟩
  · rintro ⟨a, h⟩
    unfold Architecture.fromNixosSystem at h
    split at h
    · rename_i e; rw [e]; exact ⟨_, _, .x86_64⟩
    · split at h
      · rename_i e; rw [e]; exact ⟨_, _, .aarch64⟩
      · cases h

theorem config_asTold {stub : Path} {arch : Architecture} {signer : Signer}
    (h1 : c.lanzabooteStub = some stub) (h2 : Architecture.fromNixosSystem c.system = some arch)
    (h3 : SignerAsTold env c signer) : AsTold env c (c.config stub arch signer) where
  stub := h1
  system := by
    unfold Architecture.fromNixosSystem at h2
    split at h2
    · rename_i e
      cases h2
      rw [e]
      exact ⟨_, _, .x86_64, rfl, rfl, rfl⟩
    · split at h2
      · rename_i e
        cases h2
        rw [e]
        exact ⟨_, _, .aarch64, rfl, rfl, rfl⟩
      · cases h2
  loaderConfig := rfl
  limit := rfl
  tries := rfl
  pcrlock := rfl
  esp := rfl
  links := rfl
  signer := h3

/-- The signer that is chosen, and how many operations the choice takes. -/
theorem chooseSigner_told {pub priv : Path} (h1 : c.publicKey = some pub) (h2 : c.privateKey = some priv) (s : State) :
    ∃ t signer, t ≤ 2 ∧ chooseSigner env c.allowUnsigned pub priv s = (.ok signer, { s with tick := s.tick + t }) ∧
      SignerAsTold env c signer := by
  cases ha : c.allowUnsigned with
  | false => exact ⟨0, .local pub priv, by omega, rfl, .keys h1 h2 fun h => by rw [ha] at h; cases h.1⟩
  | true =>
    by_cases e1 : (env.os.fault s.tick || (env.store pub).isNone) = true
    · by_cases e2 : (env.os.fault (s.tick + 1) || (env.store priv).isNone) = true
      · refine ⟨2, .empty, by omega, ?_, .none h1 h2 ha fun hf => ?_⟩
        · simp [chooseSigner, andM, keyMissing, faulty, next, e1, e2]
        · simp [hf s.tick, hf (s.tick + 1)] at e1 e2
          exact ⟨e1, e2⟩
      · refine ⟨2, .local pub priv, by omega, ?_, .keys h1 h2 fun h => e2 ?_⟩
        · simp [chooseSigner, andM, keyMissing, faulty, next, e1, e2]
        · simp [h.2.2.2]
    · refine ⟨1, .local pub priv, by omega, ?_, .keys h1 h2 fun h => e1 ?_⟩
      · simp [chooseSigner, andM, keyMissing, faulty, next, e1]
      · simp [h.2.2.1]

/-- **C78** (refusal). If the variable `LANZABOOTE_STUB`, a key option or a supported system is missing the program
fails, and has changed nothing. -/
theorem C78_refused (h : ¬ AllGiven c) (fs : Fs) :
    (program env c fs).1 ≠ 0 ∧ (program env c fs).2.log = [] ∧ (program env c fs).2.fs = fs := by
  unfold program cliInstall
  cases h1 : c.lanzabooteStub with
  | none => simp [ofOption, RM.throw, fresh, exitStatus]
  | some stub =>
  cases h2 : c.publicKey with
  | none => simp [ofOption, expectSome, RM.panic, fresh, exitStatus]
  | some pub =>
  cases h3 : c.privateKey with
  | none => simp [ofOption, expectSome, RM.panic, fresh, exitStatus]
  | some priv =>
  cases h4 : Architecture.fromNixosSystem c.system with
  | none => simp [ofOption, expectSome, RM.throw, fresh, exitStatus]
  | some arch =>
    exact absurd ⟨by simp [h1], supported_iff.2 ⟨arch, h4⟩, by simp [h2], by simp [h3]⟩ h

/-- **C78** (arguments). Otherwise the program installs as told, in the outside world of the time when it has looked
for the keys: the exit status says whether that succeeded, and it makes these changes and no others. -/
theorem C78_as_told (h : AllGiven c) (fs : Fs) : ∃ cfg t, AsTold env c cfg ∧ t ≤ 2 ∧
    ((program env c fs).1 = 0 ↔ (run (env.later t) cfg (start cfg fs)).1 = .ok ()) ∧
    (program env c fs).2.log = (run (env.later t) cfg (start cfg fs)).2.log ∧
    (program env c fs).2.fs = (run (env.later t) cfg (start cfg fs)).2.fs ∧
    (program env c fs).2.broken = (run (env.later t) cfg (start cfg fs)).2.broken := by
  obtain ⟨stub, h1⟩ := Option.isSome_iff_exists.1 h.stub
  obtain ⟨pub, h2⟩ := Option.isSome_iff_exists.1 h.publicKey
  obtain ⟨priv, h3⟩ := Option.isSome_iff_exists.1 h.privateKey
  obtain ⟨arch, h4⟩ := supported_iff.1 h.system
  obtain ⟨t, signer, ht, e, hs⟩ := chooseSigner_told (env := env) h2 h3 (fresh fs)
  have key : cliInstall env c (fresh fs) = run env (c.config stub arch signer)
      ((start (c.config stub arch signer) fs).later t) := by
    unfold cliInstall buildAndRun
    simp only [h1, h2, h3, h4, ofOption, expectSome, RM.bind_run, RM.pure_run, e]
    rfl
  refine ⟨_, t, config_asTold h1 h4 hs, ht, ?_⟩
  unfold program
  rw [key, Delays.run (k := t) (start (c.config stub arch signer) fs)]
  refine ⟨?_, rfl, rfl, rfl⟩
  dsimp only
  cases (run (env.later t) (c.config stub arch signer) (start (c.config stub arch signer) fs)).1 <;>
    simp [exitStatus]

/-- **C78** (arguments, uniqueness). If the file system answers, the command line settles everything. -/
theorem C78_settled {cfg' : Config} (hf : Faultless env) (h : AsTold env c cfg) (h' : AsTold env c cfg') :
    cfg = cfg' := by
  obtain ⟨fb, ld, hs, e1, -, e3⟩ := h.system
  obtain ⟨fb', ld', hs', e1', -, e3'⟩ := h'.system
  have hb : fb = fb' ∧ ld = ld' := by
    generalize hx : c.system = x at hs hs'
    cases hs <;> cases hs' <;> first | exact ⟨rfl, rfl⟩ | (exfalso; revert hx; decide)
  obtain ⟨rfl, rfl⟩ := hb
  have harch : cfg.arch = cfg'.arch := by
    have := e1.trans e1'.symm
    unfold fallbackFile at this
    rw [h.esp, h'.esp] at this
    have := List.append_cancel_left this
    revert this
    cases cfg.arch <;> cases cfg'.arch <;> first | exact fun _ => rfl | (intro hh; exact absurd hh (by decide))
  have hsys : cfg.systemd = cfg'.systemd := by
    have := e3.trans e3'.symm
    unfold loaderSource at this
    exact (List.append_inj' this rfl).1
  have hsig : cfg.signer = cfg'.signer := by
    have a := h.signer
    have b := h'.signer
    revert a b
    generalize cfg.signer = x
    generalize cfg'.signer = y
    intro a b
    cases a with
    | keys p q n =>
      cases b with
      | keys p' q' _ => rw [p] at p'; rw [q] at q'; cases p'; cases q'; rfl
      | none p' q' ha hn =>
        rw [p] at p'; rw [q] at q'; cases p'; cases q'
        exact absurd ⟨ha, hf, hn hf⟩ n
    | none p q ha hn =>
      cases b with
      | keys p' q' n =>
        rw [p] at p'; rw [q] at q'; cases p'; cases q'
        exact absurd ⟨ha, hf, hn hf⟩ n
      | none => rfl
  have hstub : cfg.lanzabooteStub = cfg'.lanzabooteStub := Option.some.inj (h.stub.symm.trans h'.stub)
  have h1 := h.loaderConfig.trans h'.loaderConfig.symm
  have h2 := h.limit.trans h'.limit.symm
  have h3 := h.tries.trans h'.tries.symm
  have h4 := h.pcrlock.trans h'.pcrlock.symm
  have h5 := h.esp.trans h'.esp.symm
  have h6 := h.links.trans h'.links.symm
  cases cfg
  cases cfg'
  simp_all

/-! ### The surroundings later -/

variable {t : Nat}

theorem Considers.later_iff {g : Gen} : Considers (env.later t) cfg g ↔ Considers env cfg g := by
  constructor <;> rintro ⟨links, link, j, h1, h2, h3, h4⟩
  · exact ⟨links, link, j, by rw [← h1]; exact Delays.considered_later.symm, h2, h3, h4⟩
  · exact ⟨links, link, j, by rw [← h1]; exact Delays.considered_later, h2, h3, h4⟩

theorem SafeInput.later (h : SafeInput env cfg) : SafeInput (env.later t) cfg := fun g hg => h g (Considers.later_iff.1 hg)

theorem FaithfulTools.later (h : FaithfulTools env) : FaithfulTools (env.later t) where
  objcopy := fun x s a i e n sec hs => (h.objcopy (x + t) s a i e n sec hs)
  sbsign := fun x a b d o e n s hs => h.sbsign (x + t) a b d o e n s hs

theorem InitrdOf.of_later {b : BootSpec} {d : Bytes} (h : InitrdOf (env.later t) b d) : InitrdOf env b d := by
  obtain ⟨p, d₀, h1, h2, h3⟩ := h
  refine ⟨p, d₀, h1, h2, ?_⟩
  revert h3
  cases b.initrdSecrets with
  | none => exact id
  | some s => rintro ⟨x, hx⟩; exact ⟨x + t, hx⟩

theorem InWorld.later {world : Env} (h : InWorld world env cfg) : InWorld world (env.later t) cfg where
  sha := h.sha
  parse := h.parse
  uni := h.uni
  kernel := fun g d hg => h.kernel g d (Considers.later_iff.1 hg)
  initrd := fun g d hg hd => h.initrd g d (Considers.later_iff.1 hg) hd.of_later

theorem SignedBy.of_later {s : Signer} {d o : Bytes} (h : SignedBy (env.later t) s d o) : SignedBy env s d o := by
  cases s with
  | empty => exact h
  | «local» => obtain ⟨x, hx⟩ := h; exact ⟨x + t, hx⟩

theorem HasRelease.later_iff {d : Bytes} {r : Version.Spec.Release} : HasRelease (env.later t) d r ↔ HasRelease env d r :=
  ⟨fun h => ⟨h.fits, h.ex⟩, fun h => ⟨h.fits, h.ex⟩⟩

theorem MadeHere.of_later {d : Bytes} (h : MadeHere (env.later t) cfg d) : MadeHere env cfg d := by
  rcases h with ⟨g, v, k, i, h1, h2, h3, h4, h5⟩ | h
  · obtain ⟨stub, x, added, h6, h7, h8⟩ := h5
    exact Or.inl ⟨g, v, k, i, Considers.later_iff.1 h1, h2, h3, h4.of_later, stub, x + t, added, h6, h7, h8⟩
  · exact Or.inr h

theorem Ready.later (h : Ready env cfg fs) : Ready (env.later t) cfg fs where
  os := ⟨fun x => h.os.fault (x + t), fun x => h.os.list (x + t)⟩
  sources :=
    { links := by
        obtain ⟨l, h1, h2⟩ := h.sources.links
        exact ⟨l, Delays.considered_later.trans h1, h2⟩
      kernel := fun g hg => h.sources.kernel g (Considers.later_iff.1 hg)
      initrd := fun g hg => h.sources.initrd g (Considers.later_iff.1 hg)
      stub := h.sources.stub
      key := by
        obtain ⟨key, hk⟩ := h.sources.key
        refine ⟨key, ?_⟩
        revert hk
        cases cfg.signer <;> exact id
      loader := by
        obtain ⟨d, r, h1, h2⟩ := h.sources.loader
        exact ⟨d, r, h1, HasRelease.later_iff.2 h2⟩
      conf := h.sources.conf }
  succeed :=
    { secrets := fun g s p d hg h1 h2 h3 x => h.succeed.secrets g s p d (Considers.later_iff.1 hg) h1 h2 h3 (x + t)
      objcopy := fun g v k i s a hg h1 h2 h3 h4 h5 x =>
        h.succeed.objcopy g v k i s a (Considers.later_iff.1 hg) h1 h2 h3.of_later h4 h5 (x + t)
      sbsign := fun pub priv d hs hm x => h.succeed.sbsign pub priv d hs hm.of_later (x + t)
      pcrlock := fun p d hp hm x => h.succeed.pcrlock p d hp hm.of_later (x + t) }
  faithful := h.faithful.later
  safe := h.safe.later
  disjoint := h.disjoint
  room := ⟨h.room.tree, h.room.esp, h.room.room, h.room.legible⟩

/-! ### What a user sees -/

/-- **C78** (success). If nothing stands in the way of the installation that the command line asks for, the exit
status is 0. -/
theorem C78_succeeds (h : AllGiven c) (hr : ∀ cfg, AsTold env c cfg → Ready env cfg fs) : (program env c fs).1 = 0 := by
  obtain ⟨cfg, t, ht, -, e, -⟩ := C78_as_told (env := env) h fs
  exact e.2 (C64_succeeds (hr cfg ht).later)

/-- **C78** (boot loader). After exit status 0 both boot loaders are where the firmware of the given system looks for
them, from the given systemd: each is the signer's output for the available one or validly signed, and not older. -/
theorem C78_boot_loader {fallback loader : Str} (hsys : Supported c.system fallback loader)
    (hs : ∀ cfg, AsTold env c cfg → SafeInput env cfg ∧ Separate cfg) (hf : FaithfulTools env)
    (hok : (program env c fs).1 = 0) {q : Path}
    (hq : q = c.esp ++ [lit "EFI", lit "BOOT", fallback] ∨ q = c.esp ++ [lit "EFI", lit "systemd", loader]) :
    ∃ source data signer, SignerAsTold env c signer ∧
      env.store (c.systemd ++ [lit "lib", lit "systemd", lit "boot", lit "efi", loader]) = some source ∧
      (program env c fs).2.fs.fileAt q = some data ∧
      (SignedBy env signer source data ∨ ValidSignature env signer data) ∧
      ∀ r r', HasRelease env source r → HasRelease env data r' → ¬ Version.Spec.Older r' r := by
  by_cases h : AllGiven c
  · obtain ⟨cfg, t, ht, -, e, -, e', -⟩ := C78_as_told (env := env) h fs
    obtain ⟨fb, ld, hs', e1, e2, e3⟩ := ht.system
    have hb : fb = fallback ∧ ld = loader := by
      generalize hx : c.system = x at hsys hs'
      cases hs' <;> cases hsys <;> first | exact ⟨rfl, rfl⟩ | (exfalso; revert hx; decide)
    obtain ⟨rfl, rfl⟩ := hb
    have hq' : IsLoader cfg q := hq.imp (·.trans e1.symm) (·.trans e2.symm)
    obtain ⟨source, data, h1, h2, h3, h4⟩ := C42_loader_current (hs cfg ht).1.later (hs cfg ht).2 hf.later
      (e.1 hok) hq'
    refine ⟨source, data, cfg.signer, ht.signer, e3 ▸ h1, e' ▸ h2, h3.imp .of_later fun h => ?_, fun r r' a b =>
      h4 r r' (HasRelease.later_iff.2 a) (HasRelease.later_iff.2 b)⟩
    revert h
    cases cfg.signer <;> exact id
  · exact absurd hok (C78_refused h fs).1

/-- **C78** (boot entries). After exit status 0, if all bootspecs could be read or no operation failed, every
generation that the command line asks for has a boot entry on the given ESP that boots it. -/
theorem C78_boots {world : Env} (hs : ∀ cfg, AsTold env c cfg → SafeInput env cfg ∧ Separate cfg)
    (hf : FaithfulTools env) (hw : ∀ cfg, AsTold env c cfg → InWorld world env cfg)
    {known : Gen → Bytes → Prop} (hu : Unambiguous world known)
    (hkn : ∀ cfg g key, AsTold env c cfg → Considers env cfg g → KeyOf env cfg.signer key → known g key)
    (hc : Sound env c.esp fs) (hj : Coherent world c.esp known fs) (hok : (program env c fs).1 = 0)
    (hb : (program env c fs).2.broken = [] ∨ Faultless env) :
    ∃ cfg, AsTold env c cfg ∧ ∀ g, Considers env cfg g →
      ∃ p, IsEntry c.esp p ∧ Boots world c.esp (program env c fs).2.fs g p := by
  by_cases h : AllGiven c
  · obtain ⟨cfg, t, ht, -, e, -, e', e''⟩ := C78_as_told (env := env) h fs
    refine ⟨cfg, ht, fun g hg => ?_⟩
    rw [e']
    rw [e''] at hb
    rw [← ht.esp] at hc hj ⊢
    refine C38_considered_generations_boot (env := env.later t) (hs cfg ht).1.later hf.later (hs cfg ht).2
      (hw cfg ht).later hu
      (fun g key hg hk => hkn cfg g key ht (Considers.later_iff.1 hg) ?_) ⟨hc.entries, hc.files⟩ hj (e.1 hok)
      (hb.imp id fun h x => h (x + t)) (Considers.later_iff.2 hg)
    revert hk
    cases cfg.signer <;> exact id
  · exact absurd hok (C78_refused h fs).1

/-- **C78** (defaults). Without the options for them, only the newest of the given generations is installed (with its
specialisations), and there is no boot counting. -/
theorem C78_defaults (h : AsTold env (c.withOptions none none) cfg) : cfg.tries = 0 ∧
    ∀ num : Path → Nat, (∀ p ∈ c.generations, LinkNumber p (num p)) → ∀ g, Considers env cfg g →
      (∃ p ∈ c.generations, num p = g.version) ∧ ∀ p ∈ c.generations, num p ≤ g.version := by
  refine ⟨h.tries, fun num hnum g hg => ?_⟩
  have hl : cfg.links = c.generations := h.links
  obtain ⟨p, j, hp, -, hs, hlim⟩ := C61_considered_said hg num (by rw [hl]; exact hnum)
  have hv : g.version = num p := by cases hs <;> assumption
  rw [hl] at hp hlim
  have h1 : cfg.configurationLimit = 1 := h.limit
  rw [h1] at hlim
  refine ⟨⟨p, hp, hv.symm⟩, fun q hq => ?_⟩
  rw [hv]
  rcases hlim with h0 | h0
  · cases h0
  · have : (c.generations.map num).countP (num p < ·) = 0 := by omega
    rw [List.countP_eq_zero] at this
    have := this (num q) (List.mem_map.2 ⟨q, hq, rfl⟩)
    simpa using this

end Verif.Tool

namespace Verif.Tool.Sample
open Verif Generation

/-- The command line that asks for the sample installation. -/
def cliFull : Cli :=
  { cli true with
    pcrlockDirectory := some [lit "var", lit "pcrlock.d"]
    generations := [link2, link1] }

theorem cliFull_given : AllGiven cliFull := ⟨rfl, ⟨_, _, .x86_64⟩, rfl, rfl⟩

theorem cliFull_told : AsTold released cliFull cfg :=
  config_asTold (c := cliFull) (stub := storePath "stub.efi") (arch := .x86)
    (signer := .local [lit "keys", lit "db.pem"] [lit "keys", lit "db.key"]) rfl (by decide +kernel)
    (.keys rfl rfl fun h => absurd h.2.2.1 (by decide +kernel))

theorem cliFull_cfg {c : Config} (h : AsTold released cliFull c) : c = cfg :=
  C78_settled released_reliable.fault h cliFull_told

/-- Nothing stands in the way, so the program exits with status 0. -/
theorem cliFull_status : (program released cliFull disk0).1 = 0 :=
  C78_succeeds cliFull_given fun _ h => cliFull_cfg h ▸ ready0

/-- Then the default boot loader is there. -/
example : ∃ data, (program released cliFull disk0).2.fs.fileAt
    [lit "boot", lit "EFI", lit "BOOT", lit "BOOTX64.EFI"] = some data := by
  obtain ⟨_, data, _, -, -, h, -⟩ := C78_boot_loader (env := released) (c := cliFull) .x86_64
    (fun c h => cliFull_cfg h ▸ ⟨released_safe, disjoint.separate⟩) (faithfulWith _ _) cliFull_status (Or.inl rfl)
  exact ⟨data, h⟩

/-- And the generations boot. -/
example {g : Gen} (hg : Considers released cfg g) : ∃ p, IsEntry cliFull.esp p ∧
    Boots released cliFull.esp (program released cliFull disk0).2.fs g p := by
  obtain ⟨c, hc, h⟩ := C78_boots (env := released) (world := released) (c := cliFull)
    (fun c h => cliFull_cfg h ▸ ⟨released_safe, disjoint.separate⟩) (faithfulWith _ _)
    (fun _ _ => ⟨rfl, rfl, rfl, fun _ _ _ h => h, fun _ _ _ h => h⟩) released_unambiguous
    (fun c g key h hg hk => by
      rw [cliFull_cfg h] at hg hk
      exact known_considered (fun _ => false) g key (released_considers.1 hg) hk)
    (Sound.congr (env := good) rfl rfl sound0)
    (fun _ _ _ data _ hm hd => absurd hd (no_entry (isMatch_isEntry hm.isMatch) data))
    cliFull_status (Or.inr released_reliable.fault)
  rw [cliFull_cfg hc] at h
  exact h g hg

/-- On another system, the loaders have other names, and the boot loader is missing in the given systemd. -/
example : ¬ AllGiven { cliFull with system := lit "riscv64-linux" } ∧
    AllGiven { cliFull with system := lit "aarch64-linux" } ∧
    (program released { cliFull with system := lit "aarch64-linux" } disk0).1 = 1 := by
  refine ⟨fun h => ?_, ⟨rfl, ⟨_, _, .aarch64⟩, rfl, rfl⟩, by decide +kernel⟩
  obtain ⟨a, ha⟩ := supported_iff.1 h.system
  exact absurd ha (by cases a <;> decide +kernel)

/-- An unknown system is refused; so is a missing key. -/
example : (program released { cliFull with system := lit "riscv64-linux" } disk0).1 = 1 ∧
    (program released { cliFull with publicKey := none } disk0).1 = 101 := by decide +kernel

/-- By default only the second generation is installed. -/
example : (Config.considered released (({ cli true with generations := [link2, link1] }.withOptions none none).config
    [] .x86 .empty)).map (·.map (·.version)) = some [2] := by decide +kernel

end Verif.Tool.Sample
