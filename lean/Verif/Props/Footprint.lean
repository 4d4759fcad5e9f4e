import Verif.Lemmas.Twin
import Verif.Lemmas.SampleSound
import Verif.Props.InstallFiles
/-!
# C81: what the installer does depends on its own files only
-/
namespace Verif.Tool
open Verif Generation StubName

variable {env : Env} {cfg : Config}

/-- The same is done on both disks: the same result, the same changes in the same order, the same complaints,
and the disks agree again in the end. -/
theorem doesTheSame_of {E : Path → Prop} {f f' : Fs} (hv : f.view cfg = f'.view cfg)
    (he : ∀ q, E q → (f.get q).isSome = (f'.get q).isSome) (hs : SafeInput env cfg) {J : Fs → Prop}
    (hJ : ∀ f, J f → RefsIn env cfg E f)
    (hstep : ∀ g f c, J f → InstallStep env cfg (.one g) f c → J (f.apply c)) (hj : J f) :
    DoesTheSame env cfg f f' := by
  haveI : Off .none cfg E := ⟨⟨fun _ _ _ => rfl, fun _ _ _ _ _ => rfl, fun _ _ h => by cases h⟩⟩
  obtain ⟨h1, h2, -⟩ := run_twin (o := .none) hs hJ hstep (start cfg f) (start cfg f') ⟨hv, he, rfl, rfl, rfl, rfl⟩ hj
  rw [Busy.run_none] at h1 h2
  exact ⟨h1, h2.log, h2.broken, h2.view⟩

/-- C81: contents of other files do not matter. If two disks have the same files and directories and agree on
the contents of what the installer owns, it does the same on both. -/
theorem C81_contents (hs : SafeInput env cfg) {f f' : Fs} (hv : f.view cfg = f'.view cfg)
    (he : ∀ q, (f.get q).isSome = (f'.get q).isSome) : DoesTheSame env cfg f f' :=
  doesTheSame_of (E := fun _ => True) (J := fun _ => True) hv (fun q _ => he q) hs
    (fun _ _ _ _ _ _ _ _ _ _ _ _ => .inr trivial) (fun _ _ _ _ _ => trivial) trivial

/-- Entries refer to what matters. -/
theorem Sound.refsIn {f : Fs} (h : Sound env cfg.esp f) {E : Path → Prop} : RefsIn env cfg E f := by
  intro p data sec b x hp hd hsec hb hx
  obtain ⟨kl, kh, il, ih, h1, h2, -⟩ := h.entries p hp data hd
  left
  rcases hsec with rfl | rfl
  · rw [h1.resolve hb hx, caFile_nixosDir]
    exact .owned (owned_nixos _)
  · rw [h2.resolve hb hx, caFile_nixosDir]
    exact .owned (owned_nixos _)

/-- C81: if the boot entries refer to files in `EFI/nixos` only, as those do that the installer writes, then
other files do not matter at all, except for names in `EFI/Linux`. -/
theorem C81_own_places (hs : SafeInput env cfg) (hf : FaithfulTools env) (hsep : Separate cfg) {f f' : Fs}
    (hso : Sound env cfg.esp f) (hv : f.view cfg = f'.view cfg) : DoesTheSame env cfg f f' :=
  doesTheSame_of (E := fun _ => False) (J := Sound env cfg.esp) hv (fun _ h => h.elim) hs (fun _ h => h.refsIn)
    (fun _ _ _ h st => h.step hs hf hsep st) hso

theorem view_del_foreign {f : Fs} {p : Path} (hp : ¬ Matters cfg p) (hl : ¬ linuxDir cfg.esp <+: p) :
    (f.del p).view cfg = f.view cfg := by
  rw [view_del, List.filter_eq_self]
  intro e he
  unfold Fs.view at he
  obtain ⟨x, -, hx⟩ := List.mem_filterMap.1 he
  rw [decide_eq_true_eq]
  rintro rfl
  split at hx
  · next h => cases hx; exact hp h
  · split at hx
    · next h => cases hx; exact hl h
    · cases hx

theorem view_put_foreign {f : Fs} {p : Path} (n : Node) (hp : ¬ Matters cfg p) (hl : ¬ linuxDir cfg.esp <+: p) :
    (f.put p n).view cfg = f.view cfg := by
  rw [← view_del_foreign (f := f) hp hl]
  unfold Fs.view Fs.put Fs.del
  dsimp only
  rw [List.filterMap_cons]
  simp only [hp, hl, if_false]

/-- C81: so a file elsewhere can be written, replaced or deleted without any effect on a later run. -/
theorem C81_elsewhere (hs : SafeInput env cfg) (hf : FaithfulTools env) (hsep : Separate cfg) {f : Fs}
    (hso : Sound env cfg.esp f) {p : Path} (hp : ¬ Matters cfg p) (hl : ¬ linuxDir cfg.esp <+: p) (n : Node) :
    DoesTheSame env cfg f (f.put p n) ∧ DoesTheSame env cfg f (f.del p) :=
  ⟨C81_own_places hs hf hsep hso (view_put_foreign n hp hl).symm,
    C81_own_places hs hf hsep hso (view_del_foreign hp hl).symm⟩

/-- Another file gets another content, at the same place in the listing of its directory. -/
theorem view_inPlace {f f' : Fs} {p : Path} {n : Node} (hp : ¬ Matters cfg p)
    (h : f'.nodes = f.nodes.map fun e => if e.1 = p then (p, n) else e) : f'.view cfg = f.view cfg := by
  unfold Fs.view
  rw [h, List.filterMap_map]
  congr 1
  funext e
  rw [Function.comp_apply]
  by_cases e1 : e.1 = p
  · rw [if_pos e1, e1]
    simp only [hp, if_false]
  · rw [if_neg e1]

end Verif.Tool

namespace Verif.Tool.Sample
open Verif Generation StubName

/-- A file of the user's. -/
def mine : Path := [lit "boot", lit "mine"]

theorem not_matters_mine : ¬ Matters cfg mine := by
  intro h
  generalize hp : mine = p at h
  cases h with
  | owned h =>
    cases h with
    | nixos h => subst hp; revert h; decide
    | @entry _ q n h hn hp' =>
      subst hp
      have hl := (h.trans (List.prefix_append _ [n])).trans hp'
      revert hl; decide
    | fallback => revert hp; decide
    | systemd => revert hp; decide
    | conf => revert hp; decide
    | tmp h hd ht => subst hp; rcases h with rfl | rfl | rfl <;> revert hd <;> decide
    | @lock p' _ hl h =>
      subst hp
      have : p' = [lit "var", lit "pcrlock.d"] := (Option.some.inj hl).symm
      subst this; revert h; decide
    | @bootloader p' _ hl h =>
      subst hp
      have : p' = [lit "var", lit "pcrlock.d"] := (Option.some.inj hl).symm
      subst this; revert h; decide
  | nixos h => subst hp; revert h; decide
  | linux h => subst hp; revert h; decide
  | boot h hd => subst hp; rcases h with rfl | rfl | rfl <;> revert hd <;> decide
  | @lock p' hl h =>
    subst hp
    have : p' = [lit "var", lit "pcrlock.d"] := (Option.some.inj hl).symm
    subst this; revert h; decide
  | @bootloader p' hl h =>
    subst hp
    have : p' = [lit "var", lit "pcrlock.d"] := (Option.some.inj hl).symm
    subst this; revert h; decide

/-- C81: a run that succeeds, and the same with a file of the user's on the ESP. -/
example : (run good cfg (start cfg disk0)).1 = .ok () ∧ DoesTheSame good cfg disk0 (disk0.put mine (.file [7])) :=
  ⟨by decide +kernel, (C81_elsewhere safe_good (faithful _) separate sound0 not_matters_mine (by decide) _).1⟩

/-- The same machine, with another entry of the other system. -/
def disk0' : Fs where
  nodes := disk0.nodes.map fun e => if e.1 = [lit "boot", lit "EFI", lit "Linux", lit "arch.efi"] then
    ([lit "boot", lit "EFI", lit "Linux", lit "arch.efi"], .file [9]) else e
  dirty := []

theorem not_matters_arch : ¬ Matters cfg [lit "boot", lit "EFI", lit "Linux", lit "arch.efi"] := by
  intro h
  generalize hp : [lit "boot", lit "EFI", lit "Linux", lit "arch.efi"] = p at h
  cases h with
  | owned h => subst hp; exact arch_not_owned h
  | nixos h => subst hp; revert h; decide
  | linux h => subst hp; revert h; decide
  | boot h hd => subst hp; rcases h with rfl | rfl | rfl <;> revert hd <;> decide
  | @lock p' hl h =>
    subst hp
    have : p' = [lit "var", lit "pcrlock.d"] := (Option.some.inj hl).symm
    subst this; revert h; decide
  | @bootloader p' hl h =>
    subst hp
    have : p' = [lit "var", lit "pcrlock.d"] := (Option.some.inj hl).symm
    subst this; revert h; decide

example : disk0.fileAt [lit "boot", lit "EFI", lit "Linux", lit "arch.efi"] ≠
      disk0'.fileAt [lit "boot", lit "EFI", lit "Linux", lit "arch.efi"] ∧
    DoesTheSame good cfg disk0 disk0' :=
  ⟨by decide, C81_own_places safe_good (faithful _) separate sound0 (view_inPlace not_matters_arch rfl).symm⟩

/-- Generation 2, measured, its entry referring to the file of the user's. -/
def diskRefers : Fs where
  nodes := (entryFile cfg.esp (stubName sha ⟨2, none, none, spec2⟩ [80, 75] 3),
      .file (build [(lit ".linux", utf8 (lit "\\mine")), (lit ".initrd", utf8 (lit "\\mine"))])) ::
    (lockDir [lit "var", lit "pcrlock.d"], .dir) ::
    (measurementFile [lit "var", lit "pcrlock.d"] ⟨2, none, none, spec2⟩, .file [1]) :: disk0.nodes
  dirty := []

end Verif.Tool.Sample

namespace Verif.Tool

/-- C81, the other direction: an entry that refers to a file elsewhere makes this file matter. Whether it
exists decides whether the generation counts as installed. -/
theorem C81_finding_references : ∃ env cfg f p n, SafeInput env cfg ∧ FaithfulTools env ∧ Separate cfg ∧
    ¬ Matters cfg p ∧ ¬ linuxDir cfg.esp <+: p ∧ f.view cfg = (f.put p n).view cfg ∧
    (run env cfg (start cfg f)).2.log ≠ (run env cfg (start cfg (f.put p n))).2.log :=
  ⟨Sample.good, Sample.cfg, Sample.diskRefers, Sample.mine, .file [7], Sample.safe_good, Sample.faithful _,
    Sample.separate, Sample.not_matters_mine, by decide, (view_put_foreign _ Sample.not_matters_mine (by decide)).symm,
    by decide +kernel⟩

end Verif.Tool
