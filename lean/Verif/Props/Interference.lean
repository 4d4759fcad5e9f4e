import Verif.Props.Busy
import Verif.Lemmas.Acts
import Verif.Lemmas.SampleLoader
/-!
# C87: two installers at the same time; C88: what the installer does whatever other processes do
-/
namespace Verif.Tool
open Verif Generation StubName

variable {env world : Env} {cfg cfg' : Config} {o : Others} {f : Fs}

/-! ### C88 -/

/-- **C88**. Whatever other processes do to the disk during the run, the installer writes to, moves and removes nothing
but its own files; at most it makes directories for them. -/
theorem C88_own_places (hs : SafeInput env cfg) :
    ∀ c ∈ (Busy.run o env cfg (start cfg f)).2.log, InPlaces cfg c := by
  obtain ⟨l, l', roots, h1, h2, h3, h4⟩ := Busy.run_acts (o := o) hs f
  rw [h1]
  intro c hc q hq
  rcases List.mem_append.1 hc with hc | hc
  · have := h3 c hc
    cases c with
    | mkdir p => cases (show p = q from hq); exact .inr ⟨rfl, this.1, this.2⟩
    | create p => cases (show p = q from hq); exact .inl this
    | write p d => cases (show p = q from hq); exact .inl this
    | chmod p m => cases (show p = q from hq); exact .inl this
    | rename a b d =>
      rcases hq with rfl | rfl
      · exact .inl this.1
      · exact .inl this.2.1
    | fsync p => exact hq.elim
    | syncfs _ => exact hq.elim
    | unlink p => exact this.elim
    | rmdir p => exact this.elim
    | collecting => exact hq.elim
  · rcases h4 with rfl | ⟨-, l2, rfl, h4⟩
    · cases hc
    · rcases List.mem_cons.1 hc with rfl | hc
      · exact hq.elim
      · have := h4 c hc
        cases c with
        | unlink p =>
          cases (show p = q from hq)
          obtain ⟨x, h5, h6⟩ := this
          exact .inl (h5.owned f h2 h6)
        | rmdir p =>
          cases (show p = q from hq)
          obtain ⟨x, h5, h6⟩ := this
          exact .inl (h5.owned f h2 h6)
        | _ => exact this.elim

theorem Installs.not_removal {roots : List Path} {c : Change} (h : Installs cfg roots c) : ¬ Removal c := by
  cases c <;> first | exact id | exact fun _ => h

/-- **C88**. Whatever other processes do, everything is installed before anything is removed, and nothing is removed
if a generation could not be read. -/
theorem C88_removes_last (hs : SafeInput env cfg) :
    ∃ l l', (Busy.run o env cfg (start cfg f)).2.log = l ++ l' ∧ (∀ c ∈ l, ¬ Removal c) ∧
      (∀ c ∈ l', c = .collecting ∨ Removal c) ∧
      ((Busy.run o env cfg (start cfg f)).2.broken ≠ [] → l' = []) := by
  obtain ⟨l, l', roots, h1, h2, h3, h4⟩ := Busy.run_acts (o := o) hs f
  refine ⟨l, l', h1, fun c hc => (h3 c hc).not_removal, ?_, fun hb => ?_⟩
  · rcases h4 with rfl | ⟨-, l2, rfl, h4⟩
    · nofun
    · intro c hc
      rcases List.mem_cons.1 hc with rfl | hc
      · exact .inl rfl
      · have := h4 c hc
        cases c <;> first | exact .inr trivial | exact this.elim
  · rcases h4 with rfl | ⟨h, -⟩
    · rfl
    · exact absurd h hb

/-- **C88**. Whatever other processes do, the installer does not remove what it has put in place in the same run, nor a
directory this is in. -/
theorem C88_keeps_own (hs : SafeInput env cfg) (hsep : Separate cfg) {a b : Path} {d : Bytes}
    (h : .rename a b d ∈ (Busy.run o env cfg (start cfg f)).2.log) {p : Path} (hp : p <+: b) :
    .unlink p ∉ (Busy.run o env cfg (start cfg f)).2.log ∧ .rmdir p ∉ (Busy.run o env cfg (start cfg f)).2.log := by
  obtain ⟨l, l', roots, h1, h2, h3, h4⟩ := Busy.run_acts (o := o) hs f
  rw [h1] at h ⊢
  have hb : Home cfg b ∧ b ∈ roots ∨ ∃ d, cfg.pcrlockDirectory = some d ∧ b = currentFile d := by
    rcases List.mem_append.1 h with h | h
    · exact (h3 _ h).2.2
    · rcases h4 with rfl | ⟨-, l2, rfl, h4⟩
      · cases h
      · rcases List.mem_cons.1 h with h | h
        · cases h
        · exact (h4 _ h).elim
  have key : ∀ c ∈ l ++ l', Removal c → Collects cfg roots c := fun c hc hr => by
    rcases List.mem_append.1 hc with hc | hc
    · exact absurd hr (h3 c hc).not_removal
    · rcases h4 with rfl | ⟨-, l2, rfl, h4⟩
      · cases hc
      · rcases List.mem_cons.1 hc with rfl | hc
        · exact hr.elim
        · exact h4 c hc
  constructor
  all_goals
    intro hc
    obtain ⟨x, h5, h6⟩ := key _ hc trivial
    exact home_not_doomed hsep h2 hb (h6.trans hp) h5

/-! ### C87 -/

theorem view_markDirty (f : Fs) (p : Path) : (f.markDirty p).view cfg = f.view cfg := rfl
theorem view_markClean (f : Fs) (p : Path) : (f.markClean p).view cfg = f.view cfg := rfl

theorem view_apply_foreign {c : Change} (h : ∀ q, Touches c q → ¬ Matters cfg q ∧ ¬ linuxDir cfg.esp <+: q) :
    (f.apply c).view cfg = f.view cfg := by
  have put : ∀ (f : Fs) (p : Path) (n : Node), ¬ Matters cfg p ∧ ¬ linuxDir cfg.esp <+: p →
      (f.put p n).view cfg = f.view cfg := fun f p n h => view_put_foreign n h.1 h.2
  have del : ∀ (f : Fs) (p : Path), ¬ Matters cfg p ∧ ¬ linuxDir cfg.esp <+: p →
      (f.del p).view cfg = f.view cfg := fun f p h => view_del_foreign h.1 h.2
  cases c with
  | mkdir p => exact put _ _ _ (h p rfl)
  | create p => exact put _ _ _ (h p rfl)
  | write p d => exact put _ _ _ (h p rfl)
  | fsync p => rfl
  | rename a b d =>
    have : ((f.del a).put b (.file d)).view cfg = f.view cfg := (put _ _ _ (h b (.inr rfl))).trans (del _ _ (h a (.inl rfl)))
    unfold Fs.apply
    dsimp only
    split
    · exact this
    · exact this
  | chmod p m => rfl
  | syncfs _ => rfl
  | unlink p => exact del _ _ (h p rfl)
  | rmdir p => exact del _ _ (h p rfl)
  | collecting => rfl

theorem view_replay_foreign {l : List Change}
    (h : ∀ c ∈ l, ∀ q, Touches c q → ¬ Matters cfg q ∧ ¬ linuxDir cfg.esp <+: q) :
    (f.replay l).view cfg = f.view cfg := by
  induction l generalizing f with
  | nil => rfl
  | cons c l ih =>
    show ((f.apply c).replay l).view cfg = _
    rw [ih fun c hc => h c (by simp [hc]), view_apply_foreign (h c (by simp))]

/-- The installer's files are below the boot partition or the directory for measurements. -/
theorem Owned.below {p : Path} (h : Owned cfg p) :
    p ≠ [] ∧ (cfg.esp <+: p ∨ ∃ d, cfg.pcrlockDirectory = some d ∧ d <+: p) := by
  cases h with
  | nixos h => exact ⟨by rintro rfl; simp [nixosDir] at h, .inl ((List.prefix_append _ _).trans h)⟩
  | entry h hn hp =>
    exact ⟨by rintro rfl; simp at hp,
      .inl ((List.prefix_append _ _).trans (h.trans ((List.prefix_append _ _).trans hp)))⟩
  | fallback => exact ⟨by simp [fallbackFile], .inl (List.prefix_append _ _)⟩
  | systemd => exact ⟨by simp [systemdFile], .inl (List.prefix_append _ _)⟩
  | conf => exact ⟨by simp [confFile], .inl (List.prefix_append _ _)⟩
  | tmp h hd ht =>
    refine ⟨by rintro rfl; obtain ⟨q, n, e, -⟩ := ht; simp at e, .inl (List.IsPrefix.trans ?_ (List.dropLast_prefix p))⟩
    rw [hd]
    rcases h with rfl | rfl | rfl
    · rw [fallbackFile_snoc]; simp
    · rw [systemdFile_snoc]; simp
    · rw [confFile_snoc]; simp
  | lock hp h => exact ⟨by rintro rfl; simp [lockDir] at h, .inr ⟨_, hp, (List.prefix_append _ _).trans h⟩⟩
  | bootloader hp h =>
    rcases h with rfl | rfl
    · exact ⟨by simp [nextFile], .inr ⟨_, hp, List.prefix_append _ _⟩⟩
    · exact ⟨by simp [currentFile], .inr ⟨_, hp, List.prefix_append _ _⟩⟩

/-- What matters is below or above these two. -/
theorem Matters.near {p : Path} (h : Matters cfg p) : (cfg.esp <+: p ∨ p <+: cfg.esp) ∨
    ∃ d, cfg.pcrlockDirectory = some d ∧ (d <+: p ∨ p <+: d) := by
  cases h with
  | owned h => exact h.below.2.imp .inl fun ⟨d, h1, h2⟩ => ⟨d, h1, .inl h2⟩
  | nixos h => exact .inl (List.prefix_or_prefix_of_prefix (List.prefix_append _ _) h)
  | linux h => exact .inl (List.prefix_or_prefix_of_prefix (List.prefix_append _ _) h)
  | boot h hp =>
    refine .inl (List.prefix_or_prefix_of_prefix ?_ hp)
    rcases h with rfl | rfl | rfl
    · rw [fallbackFile_snoc]; simp
    · rw [systemdFile_snoc]; simp
    · rw [confFile_snoc]; simp
  | lock hd hp => exact .inr ⟨_, hd, List.prefix_or_prefix_of_prefix (List.prefix_append _ _) hp⟩
  | bootloader hd hp =>
    exact .inr ⟨_, hd, List.prefix_or_prefix_of_prefix (List.prefix_append _ _) (hp.trans (List.dropLast_prefix _))⟩

/-- **C87** (partial). An installer is not disturbed by others that run at the same time, step by step in any order, if
these install to other places. By `C88_own_places` such changes are all that any installer makes, whatever happens to
it. Missing: installers for the same boot partition, for which the claim is false (`C87_same_partition`). -/
theorem C87_other_places_partial (hs : SafeInput env cfg) (hf : FaithfulTools env) (hsep : Separate cfg)
    (hso : Sound env cfg.esp f) (ho : o.InstallFor cfg') (ha : NothingInCommon cfg cfg') : AsIfAlone o env cfg f := by
  refine C86_undisturbed hs hf hsep hso ⟨fun t n f => ?_, fun _ _ _ _ h => h.elim, fun t q h => ?_⟩
  · obtain ⟨l, e, h⟩ := ho.act t n f
    rw [e]
    refine view_replay_foreign fun c hc q hq => ?_
    rcases h c hc q hq with h | ⟨-, hn, h⟩
    · exact ha q h.below.1 ⟨q, h, List.prefix_refl _⟩
    · exact ha q hn h
  · have := ho.late t q h
    exact ha q this.below.1 ⟨q, this, List.prefix_refl _⟩

end Verif.Tool

namespace Verif.Tool.Sample
open Verif Generation StubName

/-- Another run of the installer, of a system with the first generation only, at a certain moment. -/
def another : Others where
  act := fun t n f => if t = 143 ∧ n = 39 ∧ (run good cfg1 (start cfg1 f)).1 = .ok () then
    (run good cfg1 (start cfg1 f)).2.fs else f
  late := fun _ => []

theorem another_oneRun : another.OneRun good cfg1 :=
  ⟨fun _ => rfl, 143, 39, fun _ _ _ => ⟨fun h => if_pos h, fun h => if_neg h⟩⟩

/-- The run succeeded with all generations read, moved files, and no file is the second generation's kernel. -/
def lost (r : Res Unit Unit × State) : Bool :=
  match r with
  | (.ok (), s) => s.broken.isEmpty && s.log.any (fun c => match c with | .rename _ _ _ => true | _ => false) &&
    s.fs.nodes.all fun e => match e.2 with
      | .file d => decide (sha.hash d ≠ sha.hash kernel2)
      | _ => true
  | _ => false

theorem another_lost : lost (Busy.run another good cfg (start cfg disk0)) = true := by decide +kernel

theorem lost_iff {r : Res Unit Unit × State} (h : lost r = true) : r.1 = .ok () ∧ r.2.broken = [] ∧
    (∃ a b d, .rename a b d ∈ r.2.log) ∧ ∀ p d, r.2.fs.fileAt p = some d → p ≠ [] → sha.hash d ≠ sha.hash kernel2 := by
  unfold lost at h
  split at h
  · next s =>
    simp only [Bool.and_eq_true, List.isEmpty_iff, List.any_eq_true, List.all_eq_true] at h
    obtain ⟨⟨h1, c, hc, h2⟩, h3⟩ := h
    refine ⟨rfl, h1, ?_, fun p d hd hp => ?_⟩
    · split at h2
      · next a b d => exact ⟨a, b, d, hc⟩
      · cases h2
    · have := h3 _ (mem_of_fileAt hd hp)
      simpa using this
  · cases h

/-- The second generation. -/
theorem second_considered : ∃ g, Considers good cfg g ∧ good.store g.spec.kernel = some kernel2 := by
  have : (allOf good cfg).any (fun g => good.store g.spec.kernel == some kernel2) = true := by decide +kernel
  obtain ⟨g, hg, h⟩ := List.any_eq_true.1 this
  exact ⟨g, considers_iff.2 hg, by simpa using h⟩

end Verif.Tool.Sample

namespace Verif.Tool
open Verif Generation StubName Sample

/-- **C87** (the full claim is false). The installer takes no lock. Two runs for the same boot partition at the same time
can both succeed and yet leave a considered generation without a boot entry that boots it, although nothing fails,
the tools work and the disk was in order: the other run removes as garbage what this one is about to refer to. -/
theorem C87_same_partition : ∃ (env : Env) (cfg cfg' : Config) (o : Others) (f : Fs) (known : Gen → Bytes → Prop) (g : Gen),
    SafeInput env cfg ∧ SafeInput env cfg' ∧ FaithfulTools env ∧ Faultless env ∧ Separate cfg ∧ cfg'.esp = cfg.esp ∧
    Unambiguous env known ∧ (∀ g key, Considers env cfg g → KeyOf env cfg.signer key → known g key) ∧
    Sound env cfg.esp f ∧ Coherent env cfg.esp known f ∧ o.OneRun env cfg' ∧
    (Busy.run o env cfg (start cfg f)).1 = .ok () ∧ (Busy.run o env cfg (start cfg f)).2.broken = [] ∧
    Considers env cfg g ∧ ∀ p, ¬ Boots env cfg.esp (Busy.run o env cfg (start cfg f)).2.fs g p := by
  obtain ⟨g, hg, hk⟩ := second_considered
  refine ⟨good, cfg, cfg1, another, disk0, known, g, safe_good, safeInput_of (by decide +kernel), faithful _,
    fun _ => rfl, separate, rfl, unambiguous, known_considered _, sound0, coherent0, another_oneRun,
    (lost_iff another_lost).1, (lost_iff another_lost).2.1, hg, ?_⟩
  rintro p ⟨data, kernel, initrd, v, h1, h2, ⟨d, h3, h4⟩, -⟩
  have e := h2.kernel_is
  rw [hk] at e
  cases e
  exact (lost_iff another_lost).2.2.2 _ _ h3 (by simp [caFile]) h4

end Verif.Tool

namespace Verif.Tool.Sample
open Verif Generation StubName

/-- C87: the next run on its own puts things right. -/
example : (run good cfg (start cfg (Busy.run another good cfg (start cfg disk0)).2.fs)).2.fs.nodes.any (fun e => match e.2 with
      | .file d => decide (d = kernel2)
      | _ => false) = true := by decide +kernel

/-- Another boot partition. -/
def cfgEfi : Config := { cfg with esp := [lit "efi"], pcrlockDirectory := none }

theorem apart_efi : NothingInCommon cfg cfgEfi := by
  rintro p hn ⟨q, hq, hp⟩
  cases p with
  | nil => exact absurd rfl hn
  | cons a p =>
    obtain rfl : a = lit "efi" := by
      rcases hq.below.2 with ⟨r, rfl⟩ | ⟨d, h, -⟩
      · exact (List.cons_prefix_cons.1 hp).1
      · cases h
    refine ⟨fun hm => ?_, fun hl => absurd (List.cons_prefix_cons.1 hl).1 (by decide)⟩
    rcases hm.near with (h | h) | ⟨d, hd, h⟩
    · exact absurd (List.cons_prefix_cons.1 h).1 (by decide)
    · exact absurd (List.cons_prefix_cons.1 h).1 (by decide)
    · cases hd
      rcases h with h | h
      · exact absurd (List.cons_prefix_cons.1 h).1 (by decide)
      · exact absurd (List.cons_prefix_cons.1 h).1 (by decide)

/-- C87: an installer for the other boot partition. -/
def elsewhere : Others where
  act := fun t _ f => if t = 50 ∨ t = 100 then f.replay ((run good cfgEfi (start cfgEfi f)).2.log.take (t - 20)) else f
  late := fun _ => []

theorem elsewhere_installFor : elsewhere.InstallFor cfgEfi where
  act := fun t n f => by
    unfold elsewhere
    dsimp only
    split
    · refine ⟨_, rfl, fun c hc => ?_⟩
      have := C88_own_places (o := .none) (f := f) (safeInput_of (e := good) (c := cfgEfi) (by decide +kernel)) c
      rw [C86_alone] at this
      exact this (List.mem_of_mem_take hc)
    · exact ⟨[], rfl, nofun⟩
  late := fun _ _ h => by cases h

example : AsIfAlone elsewhere good cfg disk0 ∧
    ((Busy.run elsewhere good cfg (start cfg disk0)).2.fs.fileAt (confFile cfgEfi)).isSome :=
  ⟨C87_other_places_partial safe_good (faithful _) separate sound0 elsewhere_installFor apart_efi, by decide +kernel⟩

/-- C88: a process that deletes everything now and then; the installer goes on with its own files. -/
def vandal : Others where
  act := fun t _ f => if t % 5 = 0 then { nodes := [], dirty := [] } else f
  late := fun t => if t % 2 = 0 then [[lit "boot", lit "EFI", lit "nixos", lit "strange"]] else []

example : SafeInput good cfg ∧ Separate cfg ∧ 3 < (Busy.run vandal good cfg (start cfg disk0)).2.log.length ∧
    ∃ a b d, .rename a b d ∈ (Busy.run another good cfg (start cfg disk0)).2.log :=
  ⟨safe_good, separate, by decide +kernel, (lost_iff another_lost).2.2.1⟩

end Verif.Tool.Sample
