import Verif.Props.Exact
import Verif.Props.InstallAgain
import Verif.Props.EndToEnd
/-!
# Secrets in the initrd

C105.
-/
namespace Verif.Tool
open Verif StubName Generation

variable {env env' : Env} {cfg : Config} {fs f : Fs} {done : List Change}

/-- **C105** (new boot entries). Whenever the run is killed: a boot entry that was not there before belongs to a
considered generation, and the initrd it refers to is the generation's with the secrets that its script gave in this
run. -/
theorem C105_new_entry (hs : SafeInput env cfg) (hf : FaithfulTools env) (hk : KilledAfter env cfg fs done) {p : Path}
    (hp : IsEntry cfg.esp p) {data : Bytes} (hd : (fs.replay done).fileAt p = some data)
    (hnew : fs.fileAt p ≠ some data) :
    ∃ g key kernel initrd v, Considers env cfg g ∧ KeyOf env cfg.signer key ∧
      p = entryFile cfg.esp (stubName env.sha g key cfg.tries) ∧ EntryFor env cfg.esp g data kernel initrd v := by
  have hp' : Executable cfg p := Or.inl hp
  obtain ⟨n, rfl, hn, hx⟩ := hp
  have e2 : lastTwo (entryFile cfg.esp n) = some (lit "Linux", n) := entryFile_lastTwo _ _
  rcases C35_atomic hs hk hp'.not_tmp hp'.not_measurement with h | ⟨x, hw, h⟩ | ⟨h, -⟩
  · rw [h] at hd; exact absurd hd hnew
  · rw [h] at hd
    cases hd
    cases hw with
    | @entry g key kernel initrd image v hg hk hv hkd hid him hsg e =>
      have hsec := StubImage.sections hf him hsg
      refine ⟨g, key, kernel, initrd, v, hg, hk, e, hkd, hid, hv, ⟨_, caFile_rel _ _ _, ?_, ?_⟩,
        ⟨_, caFile_rel _ _ _, ?_, ?_⟩, ?_⟩
      · exact hsec _ (.tail _ (.tail _ (.tail _ (.head _))))
      · exact hsec _ (.tail _ (.tail _ (.tail _ (.tail _ (.tail _ (.head _))))))
      · exact hsec _ (.tail _ (.tail _ (.head _)))
      · exact hsec _ (.tail _ (.tail _ (.tail _ (.tail _ (.head _)))))
      · exact hsec _ (.tail _ (.head _))
    | kernel _ _ _ e' => exact absurd e' (lastTwo_ne e2 (caFile_lastTwo _ _ _) (by decide))
    | initrd _ _ _ e' => exact absurd e' (lastTwo_ne e2 (caFile_lastTwo _ _ _) (by decide))
    | loader hd hs e' =>
      rcases e' with e' | e'
      · exact absurd e' (lastTwo_ne e2 (fallbackFile_lastTwo _) (by decide))
      · exact absurd e' (lastTwo_ne e2 (systemdFile_lastTwo _) (by decide))
    | conf _ e' => exact absurd e' (lastTwo_ne e2 (confFile_lastTwo _) (by decide))
  · rw [Fs.fileAt_eq_some, h] at hd; cases hd

/-- **C105** (new boot entries after success). And then the initrd with these secrets is there. -/
theorem C105_new_secrets (hs : SafeInput env cfg) (hf : FaithfulTools env) (hsep : Separate cfg) (hr : Reliable env.os)
    (ht : fs.Tree) (hc : Sound env cfg.esp fs) (hok : Succeeded env cfg fs) {p : Path} (hp : IsEntry cfg.esp p)
    {data : Bytes} (hd : (run env cfg (start cfg fs)).2.fs.fileAt p = some data) (hnew : fs.fileAt p ≠ some data) :
    ∃ g initrd v d, Considers env cfg g ∧ InitrdOf env g.spec initrd ∧
      RefersTo env cfg.esp data (lit ".initrd") (lit ".initrdh")
        (caFile cfg.esp (lit "initrd-" ++ v) (env.sha.hash initrd)) (env.sha.hash initrd) ∧
      (run env cfg (start cfg fs)).2.fs.fileAt (caFile cfg.esp (lit "initrd-" ++ v) (env.sha.hash initrd)) = some d ∧
      (d = initrd ∨ Collision env.sha d initrd) := by
  have hcon := C39_all_entries_boot hs hf hsep hr ht hc hok p hp data hd
  obtain ⟨g, key, kernel, initrd, v, hg, hk, e, he⟩ :=
    C105_new_entry hs hf (killed_at_end env cfg fs) hp (by rw [← run_disk hs]; exact hd) hnew
  obtain ⟨kl, kh, il, ih, r1, r2, p1, d, p2, p2'⟩ := hcon
  obtain ⟨e, rfl⟩ := r2.agree he.initrd_ref
  refine ⟨g, initrd, v, d, hg, he.initrd_is, he.initrd_ref, by rw [← e]; exact p2, ?_⟩
  by_cases hx : d = initrd
  · exact Or.inl hx
  · exact Or.inr ⟨hx, p2'⟩

/-- **C105** (the others, meanwhile). Until garbage collection the initrds of the boot entries that there were are
not touched, whatever secrets the scripts give now. -/
theorem C105_kept_meanwhile (hs : SafeInput env cfg) (hk : KilledAfter env cfg fs done) (hn : .collecting ∉ done)
    {l : Str} {d : Bytes} (hd : fs.fileAt (caFile cfg.esp l (env.sha.hash d)) = some d) :
    ∃ d', (fs.replay done).fileAt (caFile cfg.esp l (env.sha.hash d)) = some d' ∧ (d' = d ∨ Collision env.sha d d') := by
  rcases C28_not_overwritten hs hk (env.sha.len d) hd rfl with h | ⟨-, h⟩
  · exact h
  · exact absurd h hn

/-- **C105** (the others, after success). A boot entry that stays keeps its initrd, with the secrets it had. -/
theorem C105_kept (hs : SafeInput env cfg) (hf : FaithfulTools env) (hsep : Separate cfg) (hr : Reliable env.os)
    (ht : fs.Tree) (hc : Sound env cfg.esp fs) (hok : Succeeded env cfg fs) {p : Path} (hp : IsEntry cfg.esp p)
    {data : Bytes} (hd : (run env cfg (start cfg fs)).2.fs.fileAt p = some data) {l : Str} {d : Bytes}
    (href : RefersTo env cfg.esp data (lit ".initrd") (lit ".initrdh") (caFile cfg.esp l (env.sha.hash d))
      (env.sha.hash d)) (hfile : fs.fileAt (caFile cfg.esp l (env.sha.hash d)) = some d) :
    ∃ d', (run env cfg (start cfg fs)).2.fs.fileAt (caFile cfg.esp l (env.sha.hash d)) = some d' ∧
      (d' = d ∨ Collision env.sha d d') := by
  obtain ⟨kl, kh, il, ih, r1, r2, p1, d', p2, -⟩ := C39_all_entries_boot hs hf hsep hr ht hc hok p hp data hd
  obtain ⟨e, -⟩ := r2.agree href
  rw [e, run_disk hs] at p2
  rw [run_disk hs]
  rcases C28_not_overwritten hs (killed_at_end env cfg fs) (env.sha.len d) hfile rfl with h | ⟨h, -⟩
  · exact h
  · rw [Fs.fileAt_eq_some, h] at p2; cases p2

/-- The same surroundings, but for what the scripts for secrets give. -/
def Env.withSecrets (env : Env) (secrets : Nat → Path → Bytes → Option Bytes) : Env := { env with secrets := secrets }

/-- **C105** (limits). New secrets do not reach generations that are installed: after a successful run, the same
run with whatever scripts for secrets changes no file. -/
theorem C105_not_refreshed (hs : SafeInput env cfg) (hf : FaithfulTools env) (hv : SignaturesVerify env)
    (hsep : Separate cfg) (hr : Reliable env.os) (ht : fs.Tree) (hc : Sound env cfg.esp fs)
    (hok : Succeeded env cfg fs)
    (hD : ∀ links, cfg.considered env = some links → Distinct env cfg (allOf env links))
    (hM : AllMeasured env cfg fs)
    (hrel : ∃ d r, env.store (loaderSource cfg) = some d ∧ HasRelease env d r)
    (secrets : Nat → Path → Bytes → Option Bytes) (p : Path) :
    (run (env.withSecrets secrets) cfg (start cfg (run env cfg (start cfg fs)).2.fs)).2.fs.get p =
      (run env cfg (start cfg fs)).2.fs.get p :=
  (C40_idempotent hs hf hv hsep hr ht hc hok hD hM hrel .nil (env' := env.withSecrets secrets)
    ⟨rfl, rfl, rfl, rfl, rfl, rfl, rfl⟩ ⟨hr.fault, hr.list⟩).2.2 p

end Verif.Tool

namespace Verif.Tool.Sample
open Verif StubName Generation

/-- The initrd of generation 2 with the secrets of the first run. -/
def oldInitrd : Bytes := initrd2 ++ [115]

def oldInitrdFile : Path := caFile cfg.esp (lit "initrd-6.2") (sha.hash oldInitrd)

/-- The script for secrets gives something else now. -/
def newSecrets : Nat → Path → Bytes → Option Bytes := fun _ _ d => some (d ++ [116])

/-- The disk after the first run: the initrd of generation 2 has its secrets. -/
example {data : Bytes} (hd : (run good cfg (start cfg disk0)).2.fs.fileAt (InMenu.newFile (.left 3)) = some data) :
    ∃ g initrd v d, Considers good cfg g ∧ InitrdOf good g.spec initrd ∧
      RefersTo good cfg.esp data (lit ".initrd") (lit ".initrdh")
        (caFile cfg.esp (lit "initrd-" ++ v) (good.sha.hash initrd)) (good.sha.hash initrd) ∧
      (run good cfg (start cfg disk0)).2.fs.fileAt (caFile cfg.esp (lit "initrd-" ++ v) (good.sha.hash initrd)) = some d ∧
      (d = initrd ∨ Collision good.sha d initrd) :=
  C105_new_secrets (env := good) (cfg := cfg) safe_good (faithful _) separate reliable_good tree0 sound0 succeeded0
    (InMenu.newFile_isEntry _) hd (no_entry (InMenu.newFile_isEntry _) data)
example : InMenu.installed.fileAt (InMenu.newFile (.left 3)) = some InMenu.newImage ∧
    InMenu.installed.fileAt oldInitrdFile = some oldInitrd := by decide +kernel

/-- The same world, with the new secrets. -/
def resecreted : Env := good.withSecrets newSecrets

theorem installed_facts : Succeeded resecreted cfg InMenu.installed ∧
    (run resecreted cfg (start cfg InMenu.installed)).2.fs.fileAt (InMenu.newFile (.left 3)) = some InMenu.newImage ∧
    InMenu.installed.fileAt oldInitrdFile = some oldInitrd ∧
    readSectionData good InMenu.newImage (lit ".initrd") =
      .ok (some (utf8 (uefiText (caFile [] (lit "initrd-6.2") (sha.hash oldInitrd))))) ∧
    readSectionData good InMenu.newImage (lit ".initrdh") = .ok (some (sha.hash oldInitrd)) := by
  have : (run resecreted cfg (start cfg InMenu.installed)).1 = .ok () ∧
    (run resecreted cfg (start cfg InMenu.installed)).2.broken = [] ∧
    (run resecreted cfg (start cfg InMenu.installed)).2.fs.fileAt (InMenu.newFile (.left 3)) = some InMenu.newImage ∧
    InMenu.installed.fileAt oldInitrdFile = some oldInitrd ∧
    readSectionData good InMenu.newImage (lit ".initrd") =
      .ok (some (utf8 (uefiText (caFile [] (lit "initrd-6.2") (sha.hash oldInitrd))))) ∧
    readSectionData good InMenu.newImage (lit ".initrdh") = .ok (some (sha.hash oldInitrd)) := by decide +kernel
  exact ⟨⟨this.1, this.2.1⟩, this.2.2⟩

theorem installed_orderly : Orderly good cfg.esp lockDir known shown InMenu.installed ∧ Sound good cfg.esp InMenu.installed :=
  C98_entries_measured unambiguous tagsStand orderly0 sound0 (.run .nil measuringGood succeeded0)

theorem refers_resecreted {data h : Bytes} {l : Str}
    (h4 : readSectionData good data (lit ".initrd") = .ok (some (utf8 (uefiText (caFile [] l h)))))
    (h5 : readSectionData good data (lit ".initrdh") = .ok (some h)) :
    RefersTo resecreted cfg.esp data (lit ".initrd") (lit ".initrdh") (caFile cfg.esp l h) h :=
  RefersTo.congr (env := good) (env' := resecreted) rfl
    ⟨_, caFile_rel _ _ _, (readSectionData_iff _ _ _ _).1 h4, (readSectionData_iff _ _ _ _).1 h5⟩

/-- An installed generation keeps its initrd, although the script would give other secrets now. -/
theorem C105_stale_secrets : Succeeded resecreted cfg InMenu.installed ∧
    (∃ d, (run resecreted cfg (start cfg InMenu.installed)).2.fs.fileAt oldInitrdFile = some d ∧
      (d = oldInitrd ∨ Collision sha oldInitrd d)) ∧
    InitrdOf good InMenu.newGen.spec oldInitrd ∧ ∀ d, InitrdOf resecreted InMenu.newGen.spec d → d ≠ oldInitrd := by
  obtain ⟨h1, h2, h3, h4, h5⟩ := installed_facts
  refine ⟨h1, ?_, ?_, ?_⟩
  · refine C105_kept (env := resecreted) (cfg := cfg) (fun g hg => safe_good g ⟨hg.ex⟩) ?_ separate ?_
      installed_orderly.1.tree (Sound.congr (env := good) rfl rfl installed_orderly.2) h1 (InMenu.newFile_isEntry _) h2
      (l := lit "initrd-6.2") (d := oldInitrd) ?_ h3
    · exact ⟨(faithful fun _ => false).objcopy, (faithful fun _ => false).sbsign⟩
    · exact ⟨fun _ => rfl, fun _ l => List.Perm.refl l⟩
    · exact refers_resecreted h4 h5
  · exact ⟨storePath "bbb-initrd", initrd2, rfl, by decide +kernel, 0, rfl⟩
  · rintro d ⟨p, d₀, h6, h7, t, h8⟩ rfl
    have h8 : some (d₀ ++ [116]) = some (initrd2 ++ [115]) := h8
    have := congrArg List.getLast? (Option.some.inj h8)
    simp at this

/-- The same in general. -/
example (p : Path) : (run (released.withSecrets newSecrets) cfg (start cfg (run released cfg (start cfg disk0)).2.fs)).2.fs.get p =
    (run released cfg (start cfg disk0)).2.fs.get p := by
  have hc : Sound released cfg.esp disk0 := Sound.congr (env := good) rfl rfl sound0
  have hf : FaithfulTools released := faithfulWith _ _
  have hok : Succeeded released cfg disk0 := ⟨released_ok, released_broken⟩
  exact C105_not_refreshed (env := released) (cfg := cfg) (fs := disk0) released_safe hf released_verify separate
    released_reliable tree0 hc hok released_distinct released_measured released_release newSecrets p

end Verif.Tool.Sample
