import Verif.Spec.Hook
import Verif.Props.Program
import Verif.Props.Partitions
import Verif.Props.Bounded
/-!
# What the NixOS module makes of the installer

C106, C107.
-/
namespace Verif.Tool
open Verif StubName Generation BootCounting

variable {env world : Env} {cfg : Config} {fs : Fs} {known : Gen → Bytes → Prop} {c : Cli} {esp : Path}
  {calls before after : List (Env × Cli)}

/-! ### C106 -/

/-- **C106** (what holds). If no generation has specialisations there are no more measurements than the configuration
limit allows generations. -/
theorem C106_without_specialisations_partial (hs : SafeInput env cfg) (hf : FaithfulTools env) (hsep : Separate cfg)
    (hr : Reliable env.os) (ht : fs.Tree) (hc : Sound env cfg.esp fs) (hok : Succeeded env cfg fs)
    (hD : ∀ links, cfg.considered env = some links → Distinct env cfg (allOf env links))
    (hM : AllMeasured env cfg fs) (h0 : 0 < cfg.configurationLimit)
    (hn : ∀ links, cfg.considered env = some links → ∀ link ∈ links, ∀ j, env.bootJson link.path = some j →
      j.specialisations = [])
    {dir : Path} (hd : cfg.pcrlockDirectory = some dir) :
    AtMost (Below (run env cfg (start cfg fs)).2.fs (lockDir dir)) cfg.configurationLimit := by
  cases hl : cfg.considered env with
  | none =>
    have := hok.ok
    unfold run at this
    rw [hl] at this
    cases this
  | some links =>
    have hb := (C99_bounded hs hf hsep hr ht hc hok hD hM hl).measurements dir hd
    have hg := C99_generations hl h0 (k := 0) fun link hm j hj => by rw [hn links hl link hm j hj]; exact Nat.le_refl _
    exact fun ps h1 h2 => Nat.le_trans (hb ps h1 h2) (by omega)

/-- **C106** (how many there are). Each specialisation counts as a generation does. -/
theorem C106_as_many (hs : SafeInput env cfg) (hsep : Separate cfg) (hok : Succeeded env cfg fs)
    {links : List Link} (hl : cfg.considered env = some links) (hT : TagsDiffer (allOf env links))
    {dir : Path} (hd : cfg.pcrlockDirectory = some dir) :
    ∃ ps : List Path, ps.Nodup ∧ ps.length = (allOf env links).length ∧
      ∀ p ∈ ps, Below (run env cfg (start cfg fs)).2.fs (lockDir dir) p := by
  refine ⟨(allOf env links).map (measurementFile dir), ?_, List.length_map .., ?_⟩
  · refine List.pairwise_map.2 (hT.imp fun {a b} h e => h ?_)
    have e := List.append_cancel_left e
    simp only [List.cons.injEq, and_true, true_and] at e
    exact List.append_cancel_right e
  · intro p hp
    obtain ⟨g, hg, rfl⟩ := List.mem_map.1 hp
    have hcon : Considers env cfg g := by
      obtain ⟨link, hlk, hg⟩ := List.mem_flatMap.1 hg
      cases hj : env.bootJson link.path with
      | none => rw [hj] at hg; cases hg
      | some j => rw [hj] at hg; exact ⟨links, link, j, hl, hlk, hj, hg⟩
    refine ⟨⟨[g.versionTag ++ lit ".pcrlock"], by simp [lockDir, measurementFile]⟩, ?_,
      C51_measurement_present hs hsep hok.ok (Or.inl hok.read) hcon hd⟩
    intro e
    have := congrArg List.length e
    simp [lockDir, measurementFile] at this

/-! ### C107 -/

theorem installEach_append (a b : List (Env × Cli)) (s : Nat × Fs) :
    installEach (a ++ b) s = installEach b (installEach a s) := by
  induction a generalizing s with
  | nil => rfl
  | cons r rs ih => exact ih _

theorem installEach_disk (s : Nat × Fs) : (installEach calls s).2 = diskAfter calls s.2 := by
  induction calls generalizing s with
  | nil => rfl
  | cons r rs ih => exact ih _

theorem hook_disk (policy : Option (Fs → Nat)) : (hook policy calls fs).2 = diskAfter calls fs := by
  cases policy <;> exact installEach_disk _

/-- **C107** (the exit status, what holds). Without measured boot the hook's exit status is that of the installer's run
for the last partition. So it says whether the installation has worked if there is only one partition. -/
theorem C107_status_partial {last : Env × Cli} :
    (hook none (before ++ [last]) fs).1 = (program last.1 last.2 (diskAfter before fs)).1 := by
  show (installEach (before ++ [last]) (0, fs)).1 = _
  rw [installEach_append, ← installEach_disk (calls := before) (0, fs)]
  rfl

/-- **C107** (the exit status with measured boot). It is that of `systemd-pcrlock make-policy`, whatever has become of
the installation. -/
theorem C107_status_measured (makePolicy : Fs → Nat) :
    (hook (some makePolicy) calls fs).1 = makePolicy (diskAfter calls fs) := by
  show makePolicy (installEach calls (0, fs)).2 = _
  rw [installEach_disk]

/-- A call for another partition does nothing to this one. -/
theorem program_elsewhere (hs : ∀ cfg, AsTold env c cfg → SafeInput env cfg) (he : NotAt esp c) {p : Path}
    (hp : esp <+: p) : (program env c fs).2.fs.get p = fs.get p := by
  by_cases h : AllGiven c
  · obtain ⟨cfg, t, ht, -, -, -, e, -⟩ := C78_as_told (env := env) h fs
    rw [e]
    refine run_elsewhere (cfg := { cfg with esp := esp }) (hs cfg ht).later ⟨?_, ?_⟩ hp
    · rw [ht.esp]; exact he.mounted
    · rw [ht.pcrlock]; exact he.lock
  · rw [(C78_refused h fs).2.2]

theorem diskAfter_elsewhere (hp : ∀ call ∈ calls, ProperCall world known call)
    (he : ∀ call ∈ calls, NotAt esp call.2) {p : Path} (hpp : esp <+: p) : (diskAfter calls fs).get p = fs.get p := by
  induction calls generalizing fs with
  | nil => rfl
  | cons r rs ih =>
    refine (ih (fun x hx => hp x (List.mem_cons_of_mem _ hx)) (fun x hx => he x (List.mem_cons_of_mem _ hx))).trans ?_
    exact program_elsewhere (fun cfg h => (hp r List.mem_cons_self cfg h).safe) (he r List.mem_cons_self) hpp

theorem ProperRun.later {t : Nat} (h : ProperRun world esp known env cfg) : ProperRun world esp known (env.later t) cfg where
  esp := h.esp
  inWorld := h.inWorld.later
  safe := h.safe.later
  tools := h.tools.later
  separate := h.separate
  known := fun g key hg hk => h.known g key (Considers.later_iff.1 hg) (by
    revert hk
    cases cfg.signer <;> exact id)

/-- **C107** (the partitions do not depend on each other). If the installation on a partition works, every generation
that it is asked for can be booted from it when the hook has ended, whether or not it has worked on the partitions before
and after. -/
theorem C107_goes_on (hu : Unambiguous world known) {call : Env × Cli} (policy : Option (Fs → Nat))
    (hp : ∀ x ∈ before ++ call :: after, ProperCall world known x)
    (hd : ∀ x ∈ before ++ after, NotAt call.2.esp x.2)
    (h0 : Sound world call.2.esp fs) (hj : Coherent world call.2.esp known fs)
    (hok : (program call.1 call.2 (diskAfter before fs)).1 = 0)
    (hb : (program call.1 call.2 (diskAfter before fs)).2.broken = [] ∨ Faultless call.1) :
    ∃ cfg, AsTold call.1 call.2 cfg ∧ ∀ g, Considers call.1 cfg g →
      ∃ p, IsEntry call.2.esp p ∧ Boots world call.2.esp (hook policy (before ++ call :: after) fs).2 g p := by
  have near : ∀ {p : Path}, IsEntry call.2.esp p ∨ nixosDir call.2.esp <+: p → call.2.esp <+: p := by
    rintro p (⟨n, rfl, -⟩ | h)
    · exact List.prefix_append _ _
    · exact (List.prefix_append _ _).trans h
  by_cases h : AllGiven call.2
  · obtain ⟨cfg, t, ht, -, e0, -, e1, e2⟩ := C78_as_told (env := call.1) h (diskAfter before fs)
    refine ⟨cfg, ht, fun g hg => ?_⟩
    have hpr := (hp call (by simp) cfg ht).later (t := t)
    have hist : History world call.2.esp known (fun _ _ => True) fs (diskAfter before fs) :=
      .snoc .nil (.other fun p hpp => diskAfter_elsewhere (fun x hx => hp x (List.mem_append_left _ hx))
        (fun x hx => hd x (List.mem_append_left _ hx)) (near hpp))
    rw [hook_disk]
    have hsplit : diskAfter (before ++ call :: after) fs =
        diskAfter after (run (call.1.later t) cfg (start cfg (diskAfter before fs))).2.fs := by
      rw [← e1]
      exact List.foldl_append ..
    rw [hsplit]
    rw [e2] at hb
    refine C39_installed_stays_bootable hu h0 hj hist hpr (e0.1 hok) (hb.imp id fun h x => h (x + t))
      (Considers.later_iff.2 hg) (.snoc .nil (.other fun p hpp => ?_))
    exact diskAfter_elsewhere (fun x hx => hp x (List.mem_append_right _ (List.mem_cons_of_mem _ hx)))
      (fun x hx => hd x (List.mem_append_right _ hx)) (near hpp)
  · exact absurd hok (C78_refused h _).1

end Verif.Tool

namespace Verif.Tool.Sample
open Verif Verif.Tool Generation StubName BootCounting

/-! ### C106 -/

/-- Only the newest generation, which has a specialisation. -/
def cfgLimit : Config := { cfg with configurationLimit := 1, links := [link1] }

theorem limit_succeeds : Succeeded good cfgLimit disk0 := by
  have : (run good cfgLimit (start cfgLimit disk0)).1 = .ok () ∧
    (run good cfgLimit (start cfgLimit disk0)).2.broken = [] := by decide +kernel
  exact ⟨this.1, this.2⟩

theorem safe_limit : SafeInput good cfgLimit := safeInput_of (by decide +kernel)

theorem considered_limit : cfgLimit.considered good = some ((cfgLimit.considered good).getD []) := by decide +kernel

/-- **C106** is false: with the limit 1, two measurements. -/
theorem C106_too_many : Succeeded good cfgLimit disk0 ∧ cfgLimit.configurationLimit = 1 ∧
    ¬ AtMost (Below (run good cfgLimit (start cfgLimit disk0)).2.fs (Verif.Tool.lockDir [lit "var", lit "pcrlock.d"])) 1 := by
  refine ⟨limit_succeeds, rfl, fun h => ?_⟩
  obtain ⟨ps, h1, h2, h3⟩ := C106_as_many (env := good) (cfg := cfgLimit) (fs := disk0)
    safe_limit separate limit_succeeds considered_limit (by unfold TagsDiffer; decide +kernel) (dir := [lit "var", lit "pcrlock.d"]) rfl
  have := h ps h1 h3
  rw [h2] at this
  revert this
  decide +kernel

/-- Two generations are given, of which the newest one has no specialisation. -/
def cfgNewest : Config := { cfg with configurationLimit := 1 }

theorem newest_succeeds : Succeeded good cfgNewest disk0 := by
  have : (run good cfgNewest (start cfgNewest disk0)).1 = .ok () ∧
    (run good cfgNewest (start cfgNewest disk0)).2.broken = [] := by decide +kernel
  exact ⟨this.1, this.2⟩

theorem considered_newest : cfgNewest.considered good = some ((cfgNewest.considered good).getD []) := by decide +kernel

theorem newest_plain : ((cfgNewest.considered good).getD []).length = 1 ∧
    ∀ link ∈ (cfgNewest.considered good).getD [],
      ((good.bootJson link.path).map fun j => j.specialisations.length) = some 0 := by decide +kernel

theorem measured_newest : AllMeasured good cfgNewest disk0 := by
  intro p _ g key n _ _ hm hx
  obtain ⟨d, hd⟩ := Option.isSome_iff_exists.1 hx
  exact absurd hd (no_entry (isMatch_isEntry hm.isMatch) d)

/-- There is one measurement then. -/
example : AtMost (Below (run good cfgNewest (start cfgNewest disk0)).2.fs
    (Verif.Tool.lockDir [lit "var", lit "pcrlock.d"])) 1 := by
  have one : ∀ links, cfgNewest.considered good = some links →
      links.length = 1 ∧ ∀ link ∈ links, ∀ j, good.bootJson link.path = some j → j.specialisations = [] := by
    intro links hl
    rw [considered_newest] at hl
    cases hl
    refine ⟨newest_plain.1, fun link hm j hj => ?_⟩
    have := newest_plain.2 link hm
    rw [hj] at this
    exact List.length_eq_zero_iff.1 (Option.some.inj this)
  refine C106_without_specialisations_partial (env := good) (cfg := cfgNewest) (safeInput_of (by decide +kernel))
    (faithful _) separate reliable_good tree0 sound0 newest_succeeds ?_ measured_newest (by decide)
    (fun links hl => (one links hl).2) rfl
  intro links hl key _
  have hlen : (Tool.allOf good links).length ≤ 1 := by
    have := C99_generations (cfg := cfgNewest) hl (by decide) (k := 0)
      fun link hm j hj => by rw [(one links hl).2 link hm j hj]; exact Nat.le_refl _
    exact this
  generalize Tool.allOf good links = gs at hlen
  cases gs with
  | nil => exact .nil
  | cons g gs =>
    cases gs with
    | nil => exact List.pairwise_singleton ..
    | cons _ _ => simp at hlen

/-! ### C107 -/

/-- As `cliFull`, but keys must be there. -/
def cliStrict : Cli := { cliFull with allowUnsigned := false }

/-- The same for another partition. -/
def cliB : Cli := { cliStrict with esp := [lit "boot2"] }

/-- The first partition is full. -/
def fullDisk : Env := env fun t => t == 12

def twoCalls : List (Env × Cli) := [(fullDisk, cliStrict), (good, cliB)]

theorem strict_cfg {e : Env} {c : Config} (h : AsTold e cliStrict c) : c = cfg := by
  have t : AsTold good cliStrict cfg := config_asTold (c := cliStrict) (stub := storePath "stub.efi") (arch := .x86)
    (signer := .local [lit "keys", lit "db.pem"] [lit "keys", lit "db.key"]) rfl (by decide +kernel)
    (.keys rfl rfl fun h => by cases h.1)
  refine C78_settled (env := good) faultless_good ⟨h.stub, h.system, h.loaderConfig, h.limit, h.tries, h.pcrlock, h.esp,
    h.links, ?_⟩ t
  have hs := h.signer
  generalize c.signer = s at hs
  cases hs with
  | keys h1 h2 _ => exact .keys h1 h2 fun h => by cases h.1
  | none _ _ ha _ => cases ha

theorem strictB_cfg {e : Env} {c : Config} (h : AsTold e cliB c) : c = cfgB := by
  have t : AsTold good cliB cfgB := config_asTold (c := cliB) (stub := storePath "stub.efi") (arch := .x86)
    (signer := .local [lit "keys", lit "db.pem"] [lit "keys", lit "db.key"]) rfl (by decide +kernel)
    (.keys rfl rfl fun h => by cases h.1)
  refine C78_settled (env := good) faultless_good ⟨h.stub, h.system, h.loaderConfig, h.limit, h.tries, h.pcrlock, h.esp,
    h.links, ?_⟩ t
  have hs := h.signer
  generalize c.signer = s at hs
  cases hs with
  | keys h1 h2 _ => exact .keys h1 h2 fun h => by cases h.1
  | none _ _ ha _ => cases ha

theorem twoCalls_ok : (program fullDisk cliStrict disk0).1 = 1 ∧ (hook none twoCalls disk0).1 = 0 ∧
    (program good cliB (program fullDisk cliStrict disk0).2.fs).1 = 0 ∧
    (hook none twoCalls disk0).2.nodes.all (fun e => !(([lit "boot", lit "EFI", lit "Linux"] : Path).isPrefixOf e.1 &&
      (lit "nixos-").isPrefixOf (e.1.getLast?.getD []))) = true := by decide +kernel

/-- **C107** is false: the installation on the first partition fails and the hook reports success. There is no boot
entry of NixOS on that partition. -/
theorem C107_failure_unnoticed : (hook none twoCalls disk0).1 = 0 ∧ (program fullDisk cliStrict disk0).1 ≠ 0 ∧
    ∀ n, lit "nixos-" <+: n → (hook none twoCalls disk0).2.get (cliStrict.esp ++ [lit "EFI", lit "Linux", n]) = none := by
  obtain ⟨h1, h2, -, h3⟩ := twoCalls_ok
  refine ⟨h2, by rw [h1]; decide, fun n hn => ?_⟩
  generalize (hook none twoCalls disk0).2 = f at h3
  unfold Fs.get
  rw [if_neg (by simp)]
  split
  · next e he =>
    have m := List.mem_of_find?_eq_some he
    have q := List.find?_some he
    simp only [beq_iff_eq] at q
    have := List.all_eq_true.1 h3 e m
    rw [q] at this
    exfalso
    have e1 : (lit "nixos-").isPrefixOf n = true := List.isPrefixOf_iff_prefix.2 hn
    have e2 : (cliStrict.esp ++ [lit "EFI", lit "Linux", n]).getLast?.getD [] = n := rfl
    have e3 : ([lit "boot", lit "EFI", lit "Linux"] : Path).isPrefixOf (cliStrict.esp ++ [lit "EFI", lit "Linux", n])
      = true := List.isPrefixOf_iff_prefix.2 ⟨[n], rfl⟩
    rw [e2, e3, e1] at this
    cases this
  · rfl

theorem proper_calls : ∀ x ∈ [(fullDisk, cliStrict)] ++ (good, cliB) :: [], ProperCall good known x := by
  intro x hx
  rcases List.mem_cons.1 hx with rfl | hx
  · intro c h
    rw [strict_cfg h]
    exact properRun _
  · rw [List.mem_singleton.1 hx]
    intro c h
    rw [strictB_cfg h]
    exact properB

theorem not_there : ∀ x ∈ [(fullDisk, cliStrict)] ++ ([] : List (Env × Cli)), NotAt cliB.esp x.2 := by
  intro x hx
  rw [List.append_nil] at hx
  rw [List.mem_singleton.1 hx]
  have e : cliStrict.pcrlockDirectory = some [lit "var", lit "pcrlock.d"] := rfl
  refine ⟨by decide, fun p hp => ?_⟩
  have hp : cliStrict.pcrlockDirectory = some p := hp
  rw [e] at hp
  rw [← Option.some.inj hp]
  decide

theorem fine_B : Sound good cfgB.esp disk0 ∧ Coherent good cfgB.esp known disk0 :=
  sound_both (good, cfgB) (by simp [both])

theorem diskAfter_one (e : Env) (c : Cli) (f : Fs) : diskAfter [(e, c)] f = (program e c f).2.fs := rfl

theorem secondOk : (program good cliB (diskAfter [(fullDisk, cliStrict)] disk0)).1 = 0 := by
  rw [diskAfter_one]
  exact twoCalls_ok.2.2.1

/-- The other partition is installed all the same. -/
example {g : Gen} (hg : Considers good cfgB g) (policy : Option (Fs → Nat)) :
    ∃ p, IsEntry cliB.esp p ∧ Boots good cliB.esp (hook policy twoCalls disk0).2 g p := by
  obtain ⟨c, h1, h2⟩ := C107_goes_on (world := good) (known := known) (before := [(fullDisk, cliStrict)]) (after := [])
    (call := (good, cliB)) (fs := disk0) unambiguous policy proper_calls not_there fine_B.1 fine_B.2 secondOk
    (Or.inr faultless_good)
  rw [strictB_cfg h1] at h2
  exact h2 g hg

end Verif.Tool.Sample
