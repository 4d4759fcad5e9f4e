import Verif.Lemmas.Synced
import Verif.Props.InstallBoot
/-!
# C92: after the file system has been synced, a power failure does no harm to the generations
-/
namespace Verif.Tool
open Verif StubName Generation

variable {env world : Env} {cfg : Config} {fs : Fs} {done : List Change}

/-- **C92**. Once a run has synced the ESP, a power failure at any later moment - while the boot loader is
installed, during garbage collection, or after the run - leaves every considered generation with a boot
entry that boots it. -/
theorem C92_synced_boots (hs : SafeInput env cfg) (hf : FaithfulTools env) (hsep : Separate cfg)
    (hw : InWorld world env cfg) {known : Gen → Bytes → Prop} (hu : Unambiguous world known)
    (hkn : ∀ g key, Considers env cfg g → KeyOf env cfg.signer key → known g key)
    (hc : Sound env cfg.esp fs) (hj : Coherent world cfg.esp known fs)
    (hk : KilledAfter env cfg fs done) (hsync : .syncfs cfg.esp ∈ done)
    (hb : (run env cfg (start cfg fs)).2.broken = [] ∨ Faultless env)
    {fs' : Fs} (hl : AfterPowerLoss fs done fs') {g : Gen} (hg : Considers env cfg g) :
    ∃ p, IsEntry cfg.esp p ∧ Boots world cfg.esp fs' g p := by
  obtain ⟨a, b, c, gens, r, final, sh⟩ := run_synced hs ((inUse_carried hs hf hsep).and
    (J' := Coherent world cfg.esp known) fun f c j st => j.step hs hf hw hu hkn st).all
    fs ⟨hc, hj⟩ (by simp)
  -- what has been done up to a moment after the sync
  have later : ∀ d, KilledAfter env cfg fs d → .syncfs cfg.esp ∈ d → ∀ p ∈ r, IsBootFile cfg.esp p →
      (fs.replay d).fileAt p = (fs.replay a).fileAt p ∧ p ∉ (fs.replay d).dirty := by
    intro d hd hm p hp hbf
    have sync : ∀ f : Fs, p ∉ (f.apply (.syncfs cfg.esp)).dirty := by
      intro f hq
      have := (List.mem_filter.1 hq).2
      rw [List.isPrefixOf_iff_prefix.2 hbf.below] at this
      cases this
    have ofLoader : ∀ {f l}, Fs.Chain (InstallStep env cfg .ofLoader) f l → p ∉ f.dirty →
        (f.replay l).fileAt p = f.fileAt p ∧ p ∉ (f.replay l).dirty := by
      intro f l h hd
      exact h.inv (J := fun f' => f'.fileAt p = f.fileAt p ∧ p ∉ f'.dirty) ⟨rfl, hd⟩ fun f' c j st =>
        ⟨(st.ofLoader_keeps hs hbf).1.trans j.1, (st.ofLoader_keeps hs hbf).2 j.2⟩
    have hd' : d <+: a ++ (b ++ c) := by rw [← sh.log]; exact hd
    rcases prefix_append_split hd' with h | ⟨e, rfl, he⟩
    · exact absurd (h.subset hm) (sh.early _)
    have hme : .syncfs cfg.esp ∈ e := by
      rcases List.mem_append.1 hm with h | h
      · exact absurd h (sh.early _)
      · exact h
    have hne : b ++ c ≠ [] := by
      intro h
      have := he.subset hme
      rw [h] at this; cases this
    obtain ⟨b', rfl⟩ := sh.sync hne
    obtain ⟨x, e', rfl⟩ : ∃ x e', e = x :: e' := by
      cases e with
      | nil => cases hme
      | cons x e' => exact ⟨x, e', rfl⟩
    rw [List.cons_append, List.cons_prefix_cons] at he
    obtain ⟨rfl, he⟩ := he
    rw [Fs.replay_append]
    have e0 : (fs.replay a).fileAt p = ((fs.replay a).apply (.syncfs cfg.esp)).fileAt p := rfl
    rw [e0]
    show (((fs.replay a).apply (.syncfs cfg.esp)).replay e').fileAt p = _ ∧
      p ∉ (((fs.replay a).apply (.syncfs cfg.esp)).replay e').dirty
    have hch := sh.loader.2
    rcases prefix_append_split he with he | ⟨e2, rfl, he2⟩
    · exact ofLoader (hch.prefix he) (sync _)
    rw [Fs.replay_append]
    obtain ⟨k1, k2⟩ := ofLoader hch (sync _)
    rcases sh.gc with rfl | ⟨l, rfl, hgc⟩
    · rw [List.prefix_nil] at he2
      subst he2
      exact ⟨k1, k2⟩
    · cases e2 with
      | nil => exact ⟨k1, k2⟩
      | cons x e2 =>
        rw [List.cons_prefix_cons] at he2
        obtain ⟨rfl, he2⟩ := he2
        have hgc' := hgc.prefix he2
        constructor
        · rw [← k1]
          show ((((fs.replay a).apply (.syncfs cfg.esp)).replay b').replay e2).fileAt p = _
          rcases hbf with ⟨n, rfl, -⟩ | ⟨l, h, rfl⟩
          · exact kept_entry hsep sh.first (sh.kept _ hp) hgc'
          · exact kept_ca hsep sh.first (sh.kept _ hp) hgc'
        · exact hgc'.inv (J := fun f => p ∉ f.dirty) k2 fun f c j st => by rw [st.dirty]; exact j
  have hne : b ++ c ≠ [] := by
    intro e
    have : .syncfs cfg.esp ∈ a := by
      have := hk.subset hsync
      rw [sh.log, e] at this
      simpa using this
    exact sh.early _ this
  obtain ⟨⟨-, hJ⟩, hS⟩ := sh.done hne
  refine (hS g (sh.all hb g hg)).boots hw hJ (fun key h => hkn g key hg h) fun p hp hbf => ?_
  obtain ⟨kept, lost, ek, hlost, hd⟩ := hl p
  have hm : .syncfs cfg.esp ∈ kept := by
    rw [ek] at hsync
    rcases List.mem_append.1 hsync with h | h
    · exact h
    · exact absurd (IsBootFile.below hbf) (hlost _ h)
  obtain ⟨e1, e2⟩ := later kept (List.IsPrefix.trans ⟨lost, ek.symm⟩ hk) hm p hp hbf
  rw [← e1]
  rcases hd with e | ⟨h, -⟩
  · unfold Fs.fileAt; rw [e]
  · exact absurd h e2

/-- **C92** (after the run). In particular, a power failure after a successful run does no harm to the
generations. -/
theorem C92_after_the_run (hs : SafeInput env cfg) (hf : FaithfulTools env) (hsep : Separate cfg)
    (hw : InWorld world env cfg) {known : Gen → Bytes → Prop} (hu : Unambiguous world known)
    (hkn : ∀ g key, Considers env cfg g → KeyOf env cfg.signer key → known g key)
    (hc : Sound env cfg.esp fs) (hj : Coherent world cfg.esp known fs) (hok : Succeeded env cfg fs)
    {fs' : Fs} (hl : AfterPowerLoss fs (run env cfg (start cfg fs)).2.log fs') {g : Gen}
    (hg : Considers env cfg g) : ∃ p, IsEntry cfg.esp p ∧ Boots world cfg.esp fs' g p := by
  refine C92_synced_boots hs hf hsep hw hu hkn hc hj (killed_at_end env cfg fs) ?_ (Or.inl hok.read) hl hg
  obtain ⟨a, b, c, gens, r, final, sh⟩ := run_synced hs (Carried.trivial env cfg).all fs trivial
    (by simp)
  have hb := sh.ok hok.ok
  obtain ⟨l, e⟩ := sh.sync (by simp [hb])
  rw [sh.log, e]
  simp

end Verif.Tool

namespace Verif.Tool.Sample
open Verif StubName Generation

/-! ### Examples: C92 -/

/-- Where the first run on a new machine syncs the ESP. -/
def syncedAt : Nat := (run good cfg (start cfg disk0)).2.log.idxOf (.syncfs cfg.esp) + 1

/-- Everything since the sync is lost. -/
def rolledBack : Fs := disk0.replay ((run good cfg (start cfg disk0)).2.log.take syncedAt)

theorem rolledBack_loss : AfterPowerLoss disk0 (run good cfg (start cfg disk0)).2.log rolledBack := by
  refine fun _ => ⟨_, _, (List.take_append_drop syncedAt _).symm, fun d hd => ?_, Or.inl rfl⟩
  have : ((run good cfg (start cfg disk0)).2.log.drop syncedAt).all
      (fun c => match c with | .syncfs _ => false | _ => true) = true := by decide +kernel
  have := List.all_eq_true.1 this _ hd
  cases this

theorem good0_succeeded : Succeeded good cfg disk0 := ⟨good0_ok, good0_broken⟩

/-- The hypotheses can be met: the power fails after the run, and all that was done since the sync is
lost, among it the boot loader; the three generations have their boot entries. -/
example (g : Gen) (hg : g ∈ allOf good cfg) : ∃ p, IsEntry cfg.esp p ∧ Boots good cfg.esp rolledBack g p :=
  C92_after_the_run safe_good (faithful _) separate (inWorld _) unambiguous (known_considered _)
    sound0 coherent0 good0_succeeded rolledBack_loss (considers_iff.2 hg)

example : rolledBack.fileAt (fallbackFile cfg) = none ∧
    ((run good cfg (start cfg disk0)).2.fs.fileAt (fallbackFile cfg)).isSome = true := by decide +kernel

/-- The hypotheses can be met while the boot loader is being installed. -/
example (g : Gen) (hg : g ∈ allOf good cfg) (fs' : Fs)
    (hl : AfterPowerLoss disk0 ((run good cfg (start cfg disk0)).2.log.take (syncedAt + 2)) fs') :
    ∃ p, IsEntry cfg.esp p ∧ Boots good cfg.esp fs' g p :=
  C92_synced_boots safe_good (faithful _) separate (inWorld _) unambiguous (known_considered _)
    sound0 coherent0 (List.take_prefix _ _) (by decide +kernel) (Or.inl good0_broken) hl (considers_iff.2 hg)

example : .collecting ∉ (run good cfg (start cfg disk0)).2.log.take (syncedAt + 2) := by decide +kernel

/-- Before the sync all boot entries may be lost, so the sync is needed. -/
example : .syncfs cfg.esp ∉ (run good cfg (start cfg disk0)).2.log.take (syncedAt - 1) ∧
    ((run good cfg (start cfg disk0)).2.log.take (syncedAt - 1)).length > 20 := by decide +kernel

/-! ### What is installed after the sync -/

/-- The state after the first run, but of the boot loader nothing has reached the disk but its name. -/
def tornLoader : Fs :=
  ((run good cfg (start cfg disk0)).2.fs.put (fallbackFile cfg) (.file [])).put (systemdFile cfg) (.file [])

/-- **C92**, finding. The boot loader is installed after the ESP has been synced, and it is not synced
itself: after a run that succeeded, a power failure can leave it empty in both of its places, although
the run had installed it there. -/
theorem C92_loader_can_be_torn : Succeeded good cfg disk0 ∧
    (run good cfg (start cfg disk0)).2.fs.fileAt (fallbackFile cfg) = some (loader ++ [83]) ∧
    ∃ fs', AfterPowerLoss disk0 (run good cfg (start cfg disk0)).2.log fs' ∧
      fs'.fileAt (fallbackFile cfg) = some [] ∧ fs'.fileAt (systemdFile cfg) = some [] := by
  have h1 : (run good cfg (start cfg disk0)).2.fs.fileAt (fallbackFile cfg) = some (loader ++ [83]) := by
    decide +kernel
  have h2 : (run good cfg (start cfg disk0)).2.fs.fileAt (systemdFile cfg) = some (loader ++ [83]) := by
    decide +kernel
  have d1 : fallbackFile cfg ∈ (run good cfg (start cfg disk0)).2.fs.dirty := by decide +kernel
  have d2 : systemdFile cfg ∈ (run good cfg (start cfg disk0)).2.fs.dirty := by decide +kernel
  refine ⟨good0_succeeded, h1, tornLoader, fun p => ⟨_, [], (List.append_nil _).symm, by simp, ?_⟩, ?_, ?_⟩
  · rw [← run_disk safe_good]
    unfold tornLoader
    rw [Fs.get_put _ _ _ _ (by decide), Fs.get_put _ _ _ _ (by decide)]
    by_cases e2 : p = systemdFile cfg
    · subst e2
      exact Or.inr ⟨d2, _, [], Fs.fileAt_eq_some.1 h2, by simp⟩
    · by_cases e1 : p = fallbackFile cfg
      · subst e1
        exact Or.inr ⟨d1, _, [], Fs.fileAt_eq_some.1 h1, by rw [if_neg e2]; simp⟩
      · exact Or.inl (by rw [if_neg e2, if_neg e1])
  · rw [Fs.fileAt_eq_some, tornLoader, Fs.get_put _ _ _ _ (by decide), Fs.get_put _ _ _ _ (by decide)]
    decide
  · rw [Fs.fileAt_eq_some, tornLoader, Fs.get_put _ _ _ _ (by decide)]
    simp

end Verif.Tool.Sample
