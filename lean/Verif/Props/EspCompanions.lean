import Verif.Spec.EspCompanions
import Verif.Props.InstallState
import Verif.Props.Discovery
import Verif.Props.EndToEnd
/-!
# C94: companion files and the installer's garbage collection
-/
namespace Verif.Tool
open Verif StubName Generation

variable {env : Env} {cfg : Config} {fs : Fs} {done : List Change}

/-- **C94** (finding). A successful run removes the credentials and system extensions of every boot entry, also
of those that it keeps. -/
theorem C94_own_companions_removed (hs : SafeInput env cfg) (hf : FaithfulTools env) (hsep : Separate cfg)
    (hr : Reliable env.os) (ht : fs.Tree) (hc : Sound env cfg.esp fs) (hok : Succeeded env cfg fs)
    {name : Str} (he : IsEntry cfg.esp (entryFile cfg.esp name)) {q : Path} (hq : ownDir cfg.esp name <+: q) :
    (run env cfg (start cfg fs)).2.fs.get q = none := by
  obtain ⟨gens, mid, final, h⟩ := cleaned hs hf hsep hr ht hc hok
  obtain ⟨n, e, hn, -⟩ := he
  obtain rfl := entryFile_inj e
  cases hx : (run env cfg (start cfg fs)).2.fs.get q with
  | none => rfl
  | some node =>
    exfalso
    have hd := h.tree_after.exists_above hq (by rw [hx]; rfl)
    rw [show ownDir cfg.esp name = linuxDir cfg.esp ++ [name ++ lit ".extra"] by simp [ownDir, linuxDir]] at hd
    obtain ⟨-, -, g, key, -, -, hm⟩ := h.entry_named hsep (List.prefix_refl _)
      (hn.trans (List.prefix_append _ _)) hd
    obtain ⟨n', e', -, hs'⟩ := isMatch_isEntry (esp := cfg.esp) hm.isMatch
    obtain rfl := entryFile_inj e'
    obtain ⟨x, hx⟩ := hs'
    have := congrArg List.getLast? hx
    simp [lit] at this

theorem entryText_extra (name : Str) :
    entryText name ++ Companion.lit16 ".extra" =
      text16 (uefiText [lit "EFI", lit "Linux", name ++ lit ".extra"]) := by
  simp [entryText, text16, uefiText, joinWith, Companion.lit16, lit]

/-- **C94** (what that means). If the machine boots any boot entry after that, the kernel gets the verified initrd
and the credentials for all images, and none of the credentials and system extensions of the entry. -/
theorem C94_boots_without (hs : SafeInput env cfg) (hf : FaithfulTools env) (hsep : Separate cfg)
    (hr : Reliable env.os) (ht : fs.Tree) (hc : Sound env cfg.esp fs) (hok : Succeeded env cfg fs)
    {name : Str} (he : IsEntry cfg.esp (entryFile cfg.esp name))
    {m : Stub.Env} (hpath : m.imagePath = some (some (entryText name)))
    (hshow : ∀ t fw, m.fs t = some fw → ShowsDirs fw cfg.esp (run env cfg (start cfg fs)).2.fs)
    (hnames : ∀ t fw, m.fs t = some fw → Companion.Spec.ProperNames fw)
    {w : Stub.World} {s : Stub.Started} (hst : Stub.Starts m w s) :
    ∃ pe kernel initrd, ∃ cs : List Companion.Companion, ∃ joined,
      m.parseOwn m.ownImage = some pe ∧ Stub.Spec.Verified m.sha pe m.ownImage kernel initrd ∧
      s.initrd = some joined ∧ Stub.Spec.Joined (initrd :: cs.map fun c => c.cpio.buffer) joined ∧
      ∀ c ∈ cs, c.kind = .globalCredentials := by
  obtain ⟨pe, kernel, initrd, cs, joined, pre, h1, h2, h3, h4, -, -, ⟨g, c, x, rfl, hg, hc', hx⟩, -⟩ :=
    Stub.C58_companions_exact m w s hst hnames
  have none' : ∀ fw image, (∃ t, m.fs t = some fw) → ¬ Companion.Spec.HasOwn fw m.imagePath image := by
    rintro fw image ⟨t, hfw⟩ ⟨e, hd⟩
    rw [hpath] at e
    cases e
    rw [entryText_extra] at hd
    have := hshow t fw hfw _ hd
    have gone := C94_own_companions_removed hs hf hsep hr ht hc hok he (List.prefix_refl _)
    unfold ownDir at gone
    rw [gone] at this
    cases this
  have ec : c = [] := by
    rcases hc' with h | ⟨fw, fw', image, h, h', -⟩
    · exact h
    · exact absurd h' (none' fw image h)
  have ex : x = [] := by
    rcases hx with h | ⟨fw, fw', image, h, h', -⟩
    · exact h
    · exact absurd h' (none' fw image h)
  subst ec ex
  refine ⟨pe, kernel, initrd, _, joined, h1, h2, h3, h4, fun c hcm => ?_⟩
  rw [List.append_nil, List.append_nil] at hcm
  rcases hg with rfl | ⟨fw, -, -, hg⟩
  · cases hcm
  · cases hg with
    | nothing => cases hcm
    | archive _ _ hk _ => rw [List.mem_singleton] at hcm; rw [hcm]; exact hk

/-- What is in the directory with the credentials for all images does not belong to the installer. -/
theorem not_owned (hsep : Separate cfg) (hout : ∀ d, cfg.pcrlockDirectory = some d → ¬ cfg.esp <+: d)
    {q : Path} (hq : credentialsDir cfg.esp <+: q) : ¬ Owned cfg q := by
  obtain ⟨t, rfl⟩ := hq
  have efi : ∀ {x : Path}, cfg.esp ++ lit "EFI" :: x <+: credentialsDir cfg.esp ++ t → False := by
    intro x h
    unfold credentialsDir at h
    rw [List.append_assoc, List.prefix_append_right_inj, List.cons_append, List.cons_prefix_cons] at h
    exact absurd h.1 (by decide)
  have below : ∀ {d : Path}, cfg.pcrlockDirectory = some d → ∀ {a : Str},
      d ++ [a] <+: credentialsDir cfg.esp ++ t → d ++ [a] <+: cfg.esp := by
    intro d hd a h1
    have hesp : cfg.esp <+: credentialsDir cfg.esp ++ t := by
      unfold credentialsDir; rw [List.append_assoc]; exact List.prefix_append _ _
    rcases List.prefix_or_prefix_of_prefix h1 hesp with h | h
    · exact h
    · rcases List.prefix_concat_iff.1 h with h | h
      · rw [h]; exact List.prefix_refl _
      · exact absurd h (hout d hd)
  have whole : ∀ {x : Path}, credentialsDir cfg.esp ++ t = x → x <+: credentialsDir cfg.esp ++ t :=
    fun e => by rw [e]; exact List.prefix_refl _
  intro ho
  generalize hp : credentialsDir cfg.esp ++ t = p at ho
  cases ho with
  | nixos h _ => exact efi (by rw [hp]; exact h)
  | entry h _ h' =>
    exact efi (x := [lit "Linux"]) (by rw [hp]; exact h.trans ((List.prefix_append _ _).trans h'))
  | fallback => exact efi (whole hp)
  | systemd => exact efi (whole hp)
  | conf =>
    unfold credentialsDir confFile at hp
    rw [List.append_assoc, List.append_cancel_left_eq] at hp
    simp only [List.cons_append, List.nil_append, List.cons.injEq] at hp
    exact absurd hp.2.1 (by decide)
  | @tmp _ q h hd htmp =>
    rcases List.eq_nil_or_concat t with rfl | ⟨t', x, rfl⟩
    · obtain ⟨q', n, e, y, hy⟩ := htmp
      rw [← hp, List.append_nil] at e
      have := congrArg List.getLast? e
      simp [credentialsDir] at this
      have := congrArg List.getLast? (this.trans hy)
      simp [lit] at this
    · have e : credentialsDir cfg.esp ++ t' = q.dropLast := by
        rw [← hd, ← hp, List.concat_eq_append, ← List.append_assoc, List.dropLast_concat]
      have hdl : ∀ {a b : Str}, (cfg.esp ++ [lit "EFI", a, b]).dropLast = cfg.esp ++ [lit "EFI", a] := by
        intro a b; rw [List.dropLast_append_of_ne_nil (by simp)]; rfl
      have efi' : ∀ {a : Str}, credentialsDir cfg.esp ++ t' = cfg.esp ++ [lit "EFI", a] → False := by
        intro a h
        unfold credentialsDir at h
        rw [List.append_assoc, List.append_cancel_left_eq] at h
        simp only [List.cons_append, List.cons.injEq] at h
        exact absurd h.1 (by decide)
      rcases h with rfl | rfl | rfl
      · unfold fallbackFile at e; rw [hdl] at e; exact efi' e
      · unfold systemdFile at e; rw [hdl] at e; exact efi' e
      · unfold confFile credentialsDir at e
        rw [List.dropLast_append_of_ne_nil (by simp), List.append_assoc, List.append_cancel_left_eq] at e
        simp at e
  | lock hd h _ => exact (hsep _ hd).1 (below hd (by rw [hp]; exact h))
  | @bootloader d _ hd h =>
    have h1 : d ++ [lit "630-bootloader.pcrlock.d"] <+: credentialsDir cfg.esp ++ t := by
      rw [hp]
      rcases h with rfl | rfl
      · exact ⟨[lit "next.pcrlock"], by simp [nextFile]⟩
      · exact ⟨[lit "current.pcrlock"], by simp [currentFile]⟩
    have h2 := (below hd h1).length_le
    have h3 := congrArg List.length hp
    rcases h with rfl | rfl <;> simp [credentialsDir, nextFile, currentFile] at h2 h3 <;> omega

/-- **C94**, the part that holds: whatever happens in a run, the credentials for all images are left alone.
Missing: the credentials and system extensions of single boot entries are removed
(`C94_own_companions_removed`). -/
theorem C94_companions_kept_partial (hs : SafeInput env cfg) (hsep : Separate cfg)
    (hout : ∀ d, cfg.pcrlockDirectory = some d → ¬ cfg.esp <+: d)
    (hk : KilledAfter env cfg fs done) {p : Path} (hp : credentialsDir cfg.esp <+: p) :
    (fs.replay done).get p = fs.get p := by
  have free : ∀ q, credentialsDir cfg.esp <+: q → ¬ Owned cfg q := fun q => not_owned hsep hout
  rcases C31_foreign_files hs hk (free p hp) with h | ⟨-, -, q, ho, hq⟩
  · exact h
  · exact absurd ho (free q (hp.trans hq))

end Verif.Tool

namespace Verif.Tool.Sample
open Verif StubName Generation

/-! ### A case -/

/-- The disk after a run; then somebody puts a credential and a system extension beside the first boot entry, and
a credential for all images. -/
def withCompanions : Fs :=
  let f := (run good cfg (start cfg disk0)).2.fs
  let own := ownDir cfg.esp (stubPrefix sha first [80, 75] ++ lit "+3.efi")
  { f with nodes := f.nodes ++ [
      (own, .dir), (own ++ [lit "pass.cred"], .file [1]), (own ++ [lit "tools.raw"], .file [2]),
      (credentialsDir cfg.esp, .dir), (credentialsDir cfg.esp ++ [lit "all.cred"], .file [3])] }

/-- Another run with the same generations: the first boot entry is kept, what was put beside it is gone, and
the credential for all images is still there. -/
theorem C94_witness : Succeeded good cfg withCompanions ∧ withCompanions.Tree ∧
    withCompanions.fileAt (ownDir cfg.esp (stubPrefix sha first [80, 75] ++ lit "+3.efi") ++ [lit "pass.cred"]) =
      some [1] ∧
    (run good cfg (start cfg withCompanions)).2.fs.fileAt
      (entryFile cfg.esp (stubPrefix sha first [80, 75] ++ lit "+3.efi")) =
      withCompanions.fileAt (entryFile cfg.esp (stubPrefix sha first [80, 75] ++ lit "+3.efi")) ∧
    (run good cfg (start cfg withCompanions)).2.fs.get
      (ownDir cfg.esp (stubPrefix sha first [80, 75] ++ lit "+3.efi")) = none ∧
    (run good cfg (start cfg withCompanions)).2.fs.fileAt (credentialsDir cfg.esp ++ [lit "all.cred"]) =
      some [3] := by
  have : (run good cfg (start cfg withCompanions)).1 = .ok () ∧
      (run good cfg (start cfg withCompanions)).2.broken = [] ∧
      withCompanions.fileAt (ownDir cfg.esp (stubPrefix sha first [80, 75] ++ lit "+3.efi") ++ [lit "pass.cred"]) =
      some [1] ∧
      (run good cfg (start cfg withCompanions)).2.fs.fileAt
        (entryFile cfg.esp (stubPrefix sha first [80, 75] ++ lit "+3.efi")) =
        withCompanions.fileAt (entryFile cfg.esp (stubPrefix sha first [80, 75] ++ lit "+3.efi")) ∧
      (run good cfg (start cfg withCompanions)).2.fs.get
        (ownDir cfg.esp (stubPrefix sha first [80, 75] ++ lit "+3.efi")) = none ∧
      (run good cfg (start cfg withCompanions)).2.fs.fileAt (credentialsDir cfg.esp ++ [lit "all.cred"]) =
        some [3] := by decide +kernel
  obtain ⟨h1, h2, h3, h4, h5, h6⟩ := this
  exact ⟨⟨h1, h2⟩, Verif.Tool.SampleGc.tree_of (by decide +kernel), h3, h4, h5, h6⟩

/-- The hypotheses of `C94_boots_without` can be met: after the first run a machine boots the first generation. -/
example : ∃ name m w s, IsEntry cfg.esp (entryFile cfg.esp name) ∧ m.imagePath = some (some (entryText name)) ∧
    Stub.Starts m w s ∧ ∃ pe kernel initrd, ∃ cs : List Companion.Companion, ∃ joined,
      m.parseOwn m.ownImage = some pe ∧ Stub.Spec.Verified m.sha pe m.ownImage kernel initrd ∧
      s.initrd = some joined ∧ Stub.Spec.Joined (initrd :: cs.map fun c => c.cpio.buffer) joined ∧
      ∀ c ∈ cs, c.kind = .globalCredentials := by
  have hg : first ∈ allOf good cfg := by unfold first; exact List.getElem_mem _
  obtain ⟨p, hp, hd, h⟩ := C41_install_then_boot safe_good (faithful _) separate (inWorld _) unambiguous
    (known_considered _) sound0 coherent0 ⟨good0_ok, good0_broken⟩ (fs' := installed) rfl
    (considers_iff.2 hg) (firmwareGen first hg) (noAccident first hg)
  obtain ⟨data, hd⟩ := Option.isSome_iff_exists.1 hd
  obtain ⟨pe, hpe, hl⟩ := loadedAs hp hd
  obtain ⟨name, rfl, -⟩ := id hp
  have hserve : ∀ t fw, (machine data).fs t = some fw → fw = serve installed := fun t fw h => (Option.some.inj h).symm
  let m : Stub.Env := { machine data with imagePath := some (some (entryText name)) }
  have hm : Booting good cfg.esp installed (entryFile cfg.esp name) m pe :=
    ⟨rfl, ⟨data, hd, hl⟩, hpe, fun _ => ⟨_, rfl, serves⟩⟩
  obtain ⟨h1, -⟩ := h _ _ (Stub.Sample.start (some [1]) none) hm
  obtain ⟨s, hs⟩ := h1 ⟨fun _ => rfl, fun _ _ => ⟨_, rfl⟩, fun _ => rfl,
      ⟨fun _ _ _ _ => ⟨_, rfl⟩, fun t fw h => ⟨false, by rw [hserve t fw h]; rfl⟩,
        fun t fw h => (by rw [hserve t fw h]; intro h; cases h),
        fun p _ t fw h => (by rw [hserve t fw h]; intro h; cases h)⟩, fun o h => by cases h⟩ (by
    intro kernel hk
    have hk' : good.store first.spec.kernel = some kernel1 := by decide +kernel
    rw [hk'] at hk
    cases hk
    refine ⟨kernelHeader, rfl, by decide, fun s hs => ?_, rfl, by decide⟩
    simp only [kernelHeader, List.mem_singleton] at hs
    subst hs
    decide)
  refine ⟨name, m, _, s, hp, rfl, hs, C94_boots_without safe_good (faithful _) separate reliable_good tree0 sound0
    succeeded0 hp rfl (fun t fw h => ?_) (fun t fw h => ?_) hs⟩
  · rw [hserve t fw h]; intro rel hx; cases hx
  · rw [hserve t fw h]; intro d es e hx; cases hx

/-- The hypotheses of `C94_companions_kept_partial` can be met. -/
example (fault : Nat → Bool) (done : List Change) (h : KilledAfter (env fault) cfg withCompanions done) :
    (withCompanions.replay done).fileAt (credentialsDir cfg.esp ++ [lit "all.cred"]) = some [3] := by
  rw [Fs.fileAt_eq_some, C94_companions_kept_partial (safe fault) separate (fun d hd => by cases hd; decide) h
    (List.prefix_append _ _)]
  decide +kernel

end Verif.Tool.Sample
