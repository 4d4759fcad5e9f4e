import Verif.Spec.StubUpdate
import Verif.Props.InstallAgain
import Verif.Props.InstallSigned
import Verif.Props.Secrets
/-!
# C110: updates of the stub
-/
namespace Verif.Tool
open Verif Generation

variable {env world : Env} {cfg : Config} {fs : Fs} {done : List Change}

/-- **C110** (what is written). At every moment of a run, each boot entry is as it was before the run or made from the stub
that the run is given. -/
theorem C110_written (hs : SafeInput env cfg) (hk : KilledAfter env cfg fs done) {p : Path} (hp : IsEntry cfg.esp p)
    {data : Bytes} (hd : (fs.replay done).fileAt p = some data) :
    fs.fileAt p = some data ∨ MadeToday env cfg data := by
  rcases C49_signed_interrupted hs (.inl hp) hk hd with h | h
  · exact .inl h
  · right
    cases h with
    | entry hg _ _ _ _ him hsig _ => exact ⟨_, _, _, _, _, hg, him, hsig⟩
    | loader hl _ _ =>
      obtain ⟨n, rfl, -⟩ := hp
      rcases hl with e | e
      · exact absurd e (lastTwo_ne (entryFile_lastTwo _ _) (fallbackFile_lastTwo cfg) (by decide))
      · exact absurd e (lastTwo_ne (entryFile_lastTwo _ _) (systemdFile_lastTwo cfg) (by decide))

/-- **C110** (what holds). After a successful run, each considered generation that had no boot entry for the signing key in
use, because it is new or the key has been changed, has one that is made from the stub that the run is given. Missing: the
generations that had one (`C110_not_updated`). -/
theorem C110_new_generations_partial {known : Gen → Bytes → Prop} (hp : ProperRun world cfg.esp known env cfg)
    (hu : Unambiguous world known) (hc : Sound world cfg.esp fs) (hj : Coherent world cfg.esp known fs)
    (hok : (run env cfg (start cfg fs)).1 = .ok ())
    (hb : (run env cfg (start cfg fs)).2.broken = [] ∨ Faultless env) {g : Gen} (hg : Considers env cfg g)
    (hnew : ∀ key n, KeyOf env cfg.signer key → StubName.IsNameOf world.uni world.sha g key n →
      fs.fileAt (entryFile cfg.esp n) = none) :
    ∃ p data, IsEntry cfg.esp p ∧ (run env cfg (start cfg fs)).2.fs.fileAt p = some data ∧
      Boots world cfg.esp (run env cfg (start cfg fs)).2.fs g p ∧ MadeToday env cfg data := by
  have hcf : Coherent world cfg.esp known (run env cfg (start cfg fs)).2.fs := by
    rw [run_disk hp.safe]
    exact hp.coherent hu (killed_at_end env cfg fs) hj
  have hp' : ProperRun world cfg.esp (fun g key => known g key ∧ KeyOf env cfg.signer key) env cfg :=
    { hp with known := fun g key hg hk => ⟨hp.known g key hg hk, hk⟩ }
  obtain ⟨key, n, data, kl, kh, il, ih, ⟨hk, hkey⟩, hm, hd, h1, h2, h3, h4⟩ := (hasEntry_of_run hp' hc hok hb hg).ex
  obtain ⟨kernel, initrd, v, he⟩ := hcf g key n data hk (StubName.isNameOf hm) hd
  obtain ⟨a1, a2⟩ := h1.agree he.kernel_ref
  obtain ⟨b1, b2⟩ := h2.agree he.initrd_ref
  refine ⟨_, data, isMatch_isEntry hm, hd,
    ⟨data, kernel, initrd, v, hd, he, by rw [← a1, ← a2]; exact h3, by rw [← b1, ← b2]; exact h4⟩, ?_⟩
  rw [run_disk hp.safe] at hd
  rcases C110_written hp.safe (killed_at_end env cfg fs) (isMatch_isEntry hm) hd with h | h
  · rw [hnew key n hkey (StubName.isNameOf hm)] at h
    cases h
  · exact h

theorem Settled.withStub (h : Settled env cfg fs) (stub : Path) (tries : Nat) :
    Settled env (cfg.withStub stub tries) fs where
  esp := h.esp
  linux := h.linux
  links := h.links
  entries g hg := by
    obtain ⟨key, n, data, kl, kh, il, ih, h1, h2, h3, h4, h5, h6, h7, h8, h9⟩ := h.entries g ⟨hg.ex⟩
    exact ⟨key, n, data, kl, kh, il, ih, h1, h2, h3, h4, h5, h6, h7, h8, h9⟩
  loader := by
    obtain ⟨h1, h2, h3, h4, h5⟩ := h.loader
    exact ⟨h1, h2, h3, h4, h5⟩
  conf := h.conf
  nixos p h1 h2 h3 := by
    obtain ⟨g, key, n, data, l, k, a1, a⟩ := h.nixos p h1 h2 h3
    exact ⟨g, key, n, data, l, k, ⟨a1.ex⟩, a⟩
  named q n h1 h2 h3 := by
    obtain ⟨a1, g, key, a2, a⟩ := h.named q n h1 h2 h3
    exact ⟨a1, g, key, ⟨a2.ex⟩, a⟩
  lock p q h1 h2 h3 h4 := by
    obtain ⟨g, a1, a2⟩ := h.lock p q h1 h2 h3 h4
    exact ⟨g, ⟨a1.ex⟩, a2⟩

/-- **C110** is false of the code. After a successful run and any number of boots, a run that is given another stub, and
another number of tries, succeeds and changes no file: all generations keep the old stub. -/
theorem C110_not_updated (hs : SafeInput env cfg) (hf : FaithfulTools env) (hv : SignaturesVerify env)
    (hsep : Separate cfg) (hr : Reliable env.os) (ht : fs.Tree) (hc : Sound env cfg.esp fs)
    (hok : Succeeded env cfg fs)
    (hD : ∀ links, cfg.considered env = some links → Distinct env cfg (allOf env links))
    (hM : AllMeasured env cfg fs)
    (hrel : ∃ d r, env.store (loaderSource cfg) = some d ∧ HasRelease env d r)
    {f : Fs} (hu : Undisturbed env cfg (run env cfg (start cfg fs)).2.fs f) (stub : Path) (tries : Nat) :
    (run env (cfg.withStub stub tries) (start (cfg.withStub stub tries) f)).1 = .ok () ∧
      ∀ p, (run env (cfg.withStub stub tries) (start (cfg.withStub stub tries) f)).2.fs.get p = f.get p := by
  have h := (hu.settled hs (settled_after hs hf hv hsep hr ht hc hok hD hM hrel)).withStub stub tries
  have hs' : SafeInput env (cfg.withStub stub tries) := fun g hg => hs g ⟨hg.ex⟩
  exact ⟨(run_settled hs' hr h).1, settled_run hs' hr h⟩

end Verif.Tool

namespace Verif.Tool.Sample
open Verif StubName Generation

/-- The sample world with a new version of the stub beside the old one. -/
def twoStubs : Env :=
  { good with store := fun p => if p = storePath "newstub.efi" then some stub2 else good.store p }

/-- The installer is given the new one. -/
def cfgNewStub : Config := cfg.withStub (storePath "newstub.efi") 3

/-- **C110** (witness). The installer is given a new stub. On a boot partition without boot entries, generation 2 gets an
entry with the new stub; where it is installed already, it keeps the old one. Both runs succeed. -/
theorem C110_old_stub : Succeeded twoStubs cfgNewStub disk0 ∧ Succeeded twoStubs cfgNewStub InMenu.installed ∧
    (run twoStubs cfgNewStub (start cfgNewStub InMenu.installed)).2.fs.fileAt (InMenu.newFile (.left 3)) =
      InMenu.installed.fileAt (InMenu.newFile (.left 3)) ∧
    (run twoStubs cfgNewStub (start cfgNewStub disk0)).2.fs.fileAt (InMenu.newFile (.left 3)) ≠
      InMenu.installed.fileAt (InMenu.newFile (.left 3)) ∧
    (InMenu.installed.fileAt (InMenu.newFile (.left 3))).isSome ∧
    ((run twoStubs cfgNewStub (start cfgNewStub disk0)).2.fs.fileAt (InMenu.newFile (.left 3))).isSome := by
  have : (run twoStubs cfgNewStub (start cfgNewStub disk0)).1 = .ok () ∧
    (run twoStubs cfgNewStub (start cfgNewStub disk0)).2.broken = [] ∧
    (run twoStubs cfgNewStub (start cfgNewStub InMenu.installed)).1 = .ok () ∧
    (run twoStubs cfgNewStub (start cfgNewStub InMenu.installed)).2.broken = [] ∧
    (run twoStubs cfgNewStub (start cfgNewStub InMenu.installed)).2.fs.fileAt (InMenu.newFile (.left 3)) =
      InMenu.installed.fileAt (InMenu.newFile (.left 3)) ∧
    (run twoStubs cfgNewStub (start cfgNewStub disk0)).2.fs.fileAt (InMenu.newFile (.left 3)) ≠
      InMenu.installed.fileAt (InMenu.newFile (.left 3)) ∧
    (InMenu.installed.fileAt (InMenu.newFile (.left 3))).isSome ∧
    ((run twoStubs cfgNewStub (start cfgNewStub disk0)).2.fs.fileAt (InMenu.newFile (.left 3))).isSome := by
    decide +kernel
  exact ⟨⟨this.1, this.2.1⟩, ⟨this.2.2.1, this.2.2.2.1⟩, this.2.2.2.2⟩

/-- After the first run every generation has an entry that is made from the stub. -/
example : ∃ p data, IsEntry cfg.esp p ∧ (run good cfg (start cfg disk0)).2.fs.fileAt p = some data ∧
    Boots good cfg.esp (run good cfg (start cfg disk0)).2.fs InMenu.newGen p ∧ MadeToday good cfg data :=
  C110_new_generations_partial (env := good) (cfg := cfg) (properRun fun _ => false) unambiguous sound0 coherent0
    succeeded0.ok (.inl succeeded0.read) (considers_iff.2 (by decide +kernel))
    fun _ n _ hn => by
      cases h : disk0.fileAt (entryFile cfg.esp n) with
      | none => rfl
      | some data => exact absurd h (no_entry (isMatch_isEntry hn.isMatch) data)

/-- The hypotheses of `C110_not_updated` can be met, also after a boot. -/
example (p : Path) : (run released cfgNewStub (start cfgNewStub settled2)).2.fs.get p = settled2.get p := by
  have h := C110_not_updated (env := released) (cfg := cfg) (fs := disk0) released_safe (faithfulWith _ _) released_verify
    separate released_reliable tree0 (Sound.congr (env := good) rfl rfl sound0) ⟨released_ok, released_broken⟩
    released_distinct released_measured released_release settled2_undisturbed (storePath "newstub.efi") 3
  unfold cfgNewStub
  exact h.2 p

end Verif.Tool.Sample
