import Verif.Spec.Repair
import Verif.Props.InstallLive
import Verif.Props.InstallLoader
import Verif.Props.PowerLossNext
import Verif.Props.Interference
import Verif.Props.HistoryBoot
/-!
# C112: a run of the installer repairs the boot partition
-/
namespace Verif.Tool
open Verif StubName Generation

variable {env world : Env} {cfg : Config} {esp : Path} {known : Gen → Bytes → Prop} {fs fs' : Fs}

theorem Lost.fileAt (h : Lost esp fs fs') {p : Path} (hp : IsEntry esp p ∨ nixosDir esp <+: p) {d : Bytes}
    (hd : fs'.fileAt p = some d) : fs.fileAt p = some d := by
  rw [Fs.fileAt_eq_some] at hd ⊢
  rcases h p hp with e | e
  · rw [← e]; exact hd
  · rw [e] at hd; cases hd

theorem Lost.sound (h : Lost esp fs fs') (hs : Sound env esp fs) : Sound env esp fs' where
  entries := fun p hp data hd => hs.entries p hp data (h.fileAt (.inl hp) hd)
  files := fun l k node hk hn => by
    rcases h (caFile esp l k) (.inr ⟨_, by simp [caFile, nixosDir]; rfl⟩) with e | e
    · exact hs.files l k node hk (e ▸ hn)
    · rw [e] at hn; cases hn

theorem Lost.coherent (h : Lost esp fs fs') (hj : Coherent env esp known fs) : Coherent env esp known fs' :=
  fun g key n data hk hn hd => hj g key n data hk hn (h.fileAt (.inl (isMatch_isEntry hn.isMatch)) hd)

/-- **C112** (what holds). Whatever boot entries, kernels and initrds have disappeared, and whatever has happened to the
boot loader: after a successful run the machine can be booted. -/
theorem C112_lost_partial (hu : Unambiguous world known) (hp : ProperRun world esp known env cfg)
    (h0 : Sound world esp fs) (hj : Coherent world esp known fs) (hl : Lost esp fs fs')
    (hok : (run env cfg (start cfg fs')).1 = .ok ())
    (hb : (run env cfg (start cfg fs')).2.broken = [] ∨ Faultless env) :
    Working world env cfg (run env cfg (start cfg fs')).2.fs := by
  obtain rfl := hp.esp
  have hw := hp.inWorld
  refine ⟨fun q hq => ?_, fun g hg => ?_, fun g hg dir hd => ?_⟩
  · obtain ⟨source, data, h1, h2, h3, -⟩ := C42_loader_current hp.safe hp.separate hp.tools hok hq
    exact ⟨source, data, h1, h2, h3⟩
  · exact C38_considered_generations_boot hp.safe hp.tools hp.separate hw hu hp.known
      ((hl.sound h0).congr hw.parse.symm hw.sha.symm) (hl.coherent hj) hok hb hg
  · exact C51_measurement_present hp.safe hp.separate hok hb hg hd

/-- What has disappeared does not stand in the way. -/
theorem Ready.gone (hr : Ready env cfg fs) (hg : Gone fs fs') (he : fs'.get cfg.esp = some .dir) : Ready env cfg fs' :=
  { hr with
    room := by
      have hx : ∀ {p : Path} {n : Node}, fs'.get p = some n → fs.get p = some n := fun {p n} h => by
        rcases hg.kept p with e | e
        · rw [← e]; exact h
        · rw [e] at h; cases h
      refine ⟨hg.tree, he, fun p hp => ⟨fun h => (hr.room.room p hp).not_dir (hx h),
        fun q h1 h2 d h => (hr.room.room p hp).above q h1 h2 d (hx h)⟩, fun p name hp data hd => ?_⟩
      rw [Fs.fileAt_eq_some] at hd
      exact hr.room.legible p name hp data (Fs.fileAt_eq_some.2 (hx hd)) }

/-- **C112** (a run puts things right). Whatever has disappeared from the disk, boot entries, kernels, initrds, boot loaders,
measurements or whole directories: if nothing else stands in the way the next run succeeds, and then the machine can be booted. -/
theorem C112_restored_partial (hu : Unambiguous world known) (hp : ProperRun world esp known env cfg)
    (hr : Ready env cfg fs) (h0 : Sound world esp fs) (hj : Coherent world esp known fs) (hg : Gone fs fs')
    (he : fs'.get esp = some .dir) :
    (run env cfg (start cfg fs')).1 = .ok () ∧ Working world env cfg (run env cfg (start cfg fs')).2.fs := by
  have hok := C64_succeeds (hr.gone hg (by rw [hp.esp]; exact he))
  exact ⟨hok, C112_lost_partial hu hp h0 hj (fun p _ => hg.kept p) hok (.inr hr.os.fault)⟩

/-- If nothing is left to do, damage to kernels and initrds does not change that. -/
theorem Settled.garbled (hs : Settled env cfg fs) (h : Garbled cfg.esp fs fs') : Settled env cfg fs' := by
  have hsome : ∀ p, (fs'.get p).isSome = (fs.get p).isSome := fun p => by
    rcases h p with e | ⟨-, d, d', e1, e2⟩
    · rw [e]
    · rw [e1, e2]; rfl
  have hget : ∀ p, ¬ nixosDir cfg.esp <+: p → fs'.get p = fs.get p := fun p hp => by
    rcases h p with e | ⟨hx, -⟩
    · exact e
    · exact absurd hx hp
  have hsub : ∀ r : Path, ¬ [lit "EFI", lit "nixos"] <+: r → ¬ nixosDir cfg.esp <+: cfg.esp ++ r := fun r hr hx =>
    hr ((List.prefix_append_right_inj _).1 hx)
  have hen : ∀ n, fs'.fileAt (entryFile cfg.esp n) = fs.fileAt (entryFile cfg.esp n) := fun n =>
    fileAt_congr (hget _ (hsub _ fun hx => absurd ((List.cons_prefix_cons.1 (List.cons_prefix_cons.1 hx).2).1) (by decide)))
  have hbin : ∀ q, IsLoader cfg q → fs'.fileAt q = fs.fileAt q := by
    rintro q (rfl | rfl) <;>
    exact fileAt_congr (hget _ (hsub _ fun hx => absurd ((List.cons_prefix_cons.1 (List.cons_prefix_cons.1 hx).2).1) (by decide)))
  constructor
  · rw [hsome]; exact hs.esp
  · rw [hget (linuxDir cfg.esp) (hsub _ fun hx => absurd ((List.cons_prefix_cons.1 (List.cons_prefix_cons.1 hx).2).1)
      (by decide))]
    exact hs.linux
  · exact hs.links
  · intro g hg
    obtain ⟨key, n, data, kl, kh, il, ih, h1, h2, h3, h4, h5, h6, h7, h8, h9⟩ := hs.entries g hg
    exact ⟨key, n, data, kl, kh, il, ih, h1, h2, by rw [hen]; exact h3, h4, h5, by rw [hsome]; exact h6,
      by rw [hsome]; exact h7, fun n' => by rw [hsome]; exact h8 n', fun p hp => by rw [hsome]; exact h9 p hp⟩
  · have hup : ∀ q, IsLoader cfg q → UpToDate env cfg fs q → UpToDate env cfg fs' q := fun q hq h => by
      unfold UpToDate at h ⊢
      rw [hbin q hq]; exact h
    have hver : ∀ q, IsLoader cfg q → VerifiedAt env fs q cfg.signer → VerifiedAt env fs' q cfg.signer := fun q hq => by
      cases cfg.signer with
      | empty => exact id
      | «local» pub priv => rintro ⟨o, ho, hv⟩; exact ⟨o, by rw [hbin q hq]; exact ho, hv⟩
    exact ⟨hup _ (.inl rfl) hs.loader.fallback, hup _ (.inr rfl) hs.loader.systemd,
      hver _ (.inl rfl) hs.loader.fallbackSigned, hver _ (.inr rfl) hs.loader.systemdSigned,
      fun p hp => by rw [hsome]; exact hs.loader.measured p hp⟩
  · rw [fileAt_congr (hget (confFile cfg) (hsub _ fun hx => absurd (List.cons_prefix_cons.1 hx).1 (by decide)))]
    exact hs.conf
  · intro p h1 h2 h3
    rw [hsome] at h3
    obtain ⟨g, key, n, data, l, k, a1, a2, a3, a4, a5⟩ := hs.nixos p h1 h2 h3
    exact ⟨g, key, n, data, l, k, a1, a2, a3, by rw [hen]; exact a4, a5⟩
  · intro q n h1 h2 h3
    rw [hsome] at h3
    exact hs.named q n h1 h2 h3
  · intro p q h1 h2 h3 h4
    rw [hsome] at h4
    exact hs.lock p q h1 h2 h3 h4

/-- **C112** (damage is not noticed, in general). When the installer has succeeded, and kernels and initrds are damaged
afterwards, whichever and however, then further runs succeed without changing anything, and a generation whose kernel is
damaged cannot be booted. -/
theorem C112_damage_stays (hs : SafeInput env cfg) (hf : FaithfulTools env) (hv : SignaturesVerify env)
    (hsep : Separate cfg) (hr : Reliable env.os) (ht : fs.Tree) (hc : Sound env cfg.esp fs)
    (hok : Succeeded env cfg fs)
    (hD : ∀ links, cfg.considered env = some links → Distinct env cfg (allOf env links))
    (hM : AllMeasured env cfg fs)
    (hrel : ∃ d r, env.store (loaderSource cfg) = some d ∧ HasRelease env d r)
    {f : Fs} (hu : Undisturbed env cfg (run env cfg (start cfg fs)).2.fs f) (hg : Garbled cfg.esp f fs') :
    (run env cfg (start cfg fs')).1 = .ok () ∧
      (∀ p, (run env cfg (start cfg fs')).2.fs.get p = fs'.get p) ∧
      ∀ g kernel, env.store g.spec.kernel = some kernel →
        (∀ v d, fs'.fileAt (caFile cfg.esp (lit "kernel-" ++ v) (env.sha.hash kernel)) = some d →
          env.sha.hash d ≠ env.sha.hash kernel) →
        ∀ p, ¬ Boots env cfg.esp (run env cfg (start cfg fs')).2.fs g p := by
  have h := (hu.settled hs (settled_after hs hf hv hsep hr ht hc hok hD hM hrel)).garbled hg
  refine ⟨(run_settled hs hr h).1, settled_run hs hr h, ?_⟩
  rintro g kernel hk hx p ⟨data, kernel', initrd, v, -, he, ⟨d, hd, hh⟩, -⟩
  cases hk.symm.trans he.kernel_is
  rw [fileAt_congr (settled_run hs hr h _)] at hd
  exact hx v d hd hh

/-! ### A generation whose own files are in order -/

/-- What each boot entry of `g` there is refers to is missing or intact. -/
def OwnInOrder (env : Env) (cfg : Config) (g : Gen) (f : Fs) : Prop :=
  ∀ key n data, KeyOf env cfg.signer key → isMatch env.uni (stubPrefix env.sha g key) n = true →
    f.fileAt (entryFile cfg.esp n) = some data → ∃ kl kh il ih,
      RefersToCa env cfg.esp data (lit ".linux") (lit ".linuxh") kl kh ∧
      RefersToCa env cfg.esp data (lit ".initrd") (lit ".initrdh") il ih ∧
      kh.length = 32 ∧ ih.length = 32 ∧
      Undamaged env f (caFile cfg.esp kl kh) kh ∧ Undamaged env f (caFile cfg.esp il ih) ih

theorem Undamaged.step (hs : SafeInput env cfg) (hsep : Separate cfg) {ld : Scope} {f : Fs} {c : Change} {l : Str}
    {k : Bytes} (hk : k.length = 32) (st : InstallStep env cfg ld f c) (h : Undamaged env f (caFile cfg.esp l k) k) :
    Undamaged env (f.apply c) (caFile cfg.esp l k) k := by
  rcases h with h | h
  · rcases st.get hs (caFile_not_isTmp cfg.esp l k) (caFile_not_isMeasurement cfg.esp l k) with
      e | ⟨e1, e2⟩ | ⟨d', hn, -, -, e, -⟩
    · exact .inl (e.trans h)
    · exact absurd e2 (st.no_dir hs hsep (Or.inl rfl) (caName_last l k) e1)
    · exact .inr ⟨d', Fs.fileAt_eq_some.2 e, hn.ca hk⟩
  · exact .inr (st.present hs hk h)

theorem Undamaged.present {f : Fs} {p : Path} {h : Bytes} (hu : Undamaged env f p h) (hx : (f.get p).isSome) :
    Present env f p h := by
  rcases hu with e | e
  · rw [e] at hx; cases hx
  · exact e

theorem OwnInOrder.step (hs : SafeInput env cfg) (hf : FaithfulTools env) (hsep : Separate cfg) {ld : Scope} {g : Gen} {f : Fs} {c : Change}
    (hj : OwnInOrder env cfg g f) (st : InstallStep env cfg ld f c) : OwnInOrder env cfg g (f.apply c) := by
  intro key n data hk hm hd
  rcases st.entry hs (isMatch_isEntry hm) hd with h | h
  · obtain ⟨kl, kh, il, ih, h1, h2, l1, l2, h3, h4⟩ := hj key n data hk hm h
    exact ⟨kl, kh, il, ih, h1, h2, l1, l2, h3.step hs hsep l1 st, h4.step hs hsep l2 st⟩
  · obtain ⟨g, key, kd, id, image, v, hg, -, -, hv, -, -, him, hsg, pk, pi, -⟩ := h.isEntry
    have r := him.refs hf (hs g hg) hv hsg
    exact ⟨_, _, _, _, r.kernel, r.initrd, env.sha.len _, env.sha.len _, .inr (st.present hs (env.sha.len _) pk),
      .inr (st.present hs (env.sha.len _) pi)⟩

theorem own_carried (hs : SafeInput env cfg) (hf : FaithfulTools env) (hsep : Separate cfg) (g₀ : Gen) :
    Carried env cfg (OwnInOrder env cfg g₀) (fun g f r => g = g₀ → InUse env cfg g f r) where
  step f c hj st := hj.step hs hf hsep st
  post g s hg hj h e := by
    subst e
    rcases h with h | h
    · obtain ⟨key, stub, kernel, initrd, hkey, hfound, ⟨r1, r2, r3⟩, -⟩ := h.ex
      obtain ⟨n, data, kb, ib, rfl, hm, hd, hkb, hkr, hib, hir, x1, x2⟩ := hfound.ex
      obtain ⟨kl, kh, il, ih, h1, h2, -, -, h3, h4⟩ := hj key n data hkey hm hd
      have e1 := h1.resolve hkb hkr
      have e2 := h2.resolve hib hir
      rw [e1] at r2 x1
      rw [e2] at r3 x2
      exact ⟨n, key, data, kl, kh, il, ih, hkey, hm, hd, h1, h2, ⟨h3.present x1, h4.present x2⟩, r1, r2, r3⟩
    · exact inUse_fresh hs hf hg h
  other g g' f r l s' hg hg' hj hr hch hfs hrs hj' hres e := by
    obtain ⟨n, key, data, kl, kh, il, ih, hkey, hm, hd, h1, h2, ⟨h3, h4⟩, r1, r2, r3⟩ := (hr e).ex
    have h3' := chain_present hs hch h3.length h3
    have h4' := chain_present hs hch h4.length h4
    rw [← hfs] at h3' h4'
    rcases chain_entry hs hch (isMatch_isEntry hm) hd with h | ⟨_, key', rfl, hkey', hn⟩
    · rw [← hfs] at h
      exact ⟨n, key, data, kl, kh, il, ih, hkey, hm, h, h1, h2, ⟨h3', h4'⟩, hrs _ r1, hrs _ r2, hrs _ r3⟩
    · rcases hres with rfl | hfr
      · rw [Fs.replay_nil] at hfs
        rw [hfs]
        exact ⟨n, key, data, kl, kh, il, ih, hkey, hm, hd, h1, h2, ⟨h3, h4⟩, hrs _ r1, hrs _ r2, hrs _ r3⟩
      · obtain ⟨key'', kd, id, image, out, v, hkey'', hv, -, -, him, hsg, ho, pk, pi, -, q1, q2, q3⟩ :=
          hfr.ex
        cases hkey'.unique hkey''
        have r := him.refs hf (hs _ hg') hv hsg
        refine ⟨n, key, out, _, _, _, _, hkey, hm, by rw [hn]; exact ho, r.kernel, r.initrd, ⟨pk, pi⟩,
          by rw [hn]; exact q1, q2, q3⟩
  loader g f r l r' hg hj hr hch hrs e := by
    obtain ⟨n, key, data, kl, kh, il, ih, hkey, hm, hd, h1, h2, ⟨h3, h4⟩, r1, r2, r3⟩ := (hr e).ex
    rcases chain_entry hs hch (isMatch_isEntry hm) hd with h | ⟨_, key', h, -⟩
    · exact ⟨n, key, data, kl, kh, il, ih, hkey, hm, h, h1, h2, ⟨chain_present hs hch h3.length h3,
        chain_present hs hch h4.length h4⟩, hrs _ r1, hrs _ r2, hrs _ r3⟩
    · exact absurd h id

/-- **C112** (part: damage elsewhere). Whatever has happened to the kernels and initrds: if those that the boot entries of a
generation need, if it has entries, are intact or missing, then it can be booted after a successful run. So a generation that is
installed for the first time can be booted even if it shares damaged files with others, and to repair a damaged kernel it is
enough to delete it. Missing: a generation with a boot entry whose kernel or initrd is there and damaged, see
`C112_damage_stays`. -/
theorem C112_own_files_partial (hp : ProperRun world esp known env cfg) (hu : Unambiguous world known)
    (hcoh : Coherent world esp known fs) (hok : Succeeded env cfg fs) {g : Gen} (hg : Considers env cfg g)
    (hown : ∀ key n data kernel initrd v, KeyOf env cfg.signer key → IsNameOf world.uni world.sha g key n →
      fs.fileAt (entryFile esp n) = some data → EntryFor world esp g data kernel initrd v →
      Undamaged world fs (caFile esp (lit "kernel-" ++ v) (world.sha.hash kernel)) (world.sha.hash kernel) ∧
      Undamaged world fs (caFile esp (lit "initrd-" ++ v) (world.sha.hash initrd)) (world.sha.hash initrd)) :
    ∃ p, IsEntry esp p ∧ Boots world esp (run env cfg (start cfg fs)).2.fs g p := by
  obtain rfl := hp.esp
  have hw := hp.inWorld
  have hs := hp.safe
  have hj : OwnInOrder env cfg g fs := by
    intro key n data hk hm hd
    have hm' : IsNameOf world.uni world.sha g key n := by rw [← hw.uni, ← hw.sha]; exact isNameOf hm
    obtain ⟨kernel, initrd, v, he⟩ := hcoh g key n data (hp.known g key hg hk) hm' hd
    obtain ⟨p1, p2⟩ := hown key n data kernel initrd v hk hm' hd he
    have hv := kernelVersion_spec.2 he.version_is
    exact ⟨_, _, _, _, ⟨kernelVersion_plain (hs g hg) hv _ (by decide), he.kernel_ref.congr hw.parse.symm⟩,
      ⟨kernelVersion_plain (hs g hg) hv _ (by decide), he.initrd_ref.congr hw.parse.symm⟩,
      world.sha.len _, world.sha.len _, p1.imp_right fun h => h.congr hw.sha.symm,
      p2.imp_right fun h => h.congr hw.sha.symm⟩
  obtain ⟨a, b, gens, final, sh⟩ := run_shape hs ((own_carried hs hp.tools hp.separate g).and
    (J' := Coherent world cfg.esp known) fun f c j st => j.step hs hp.tools hw hu hp.known st).all
    (start cfg fs) ⟨hj, hcoh⟩ (by simp) rfl
  have hne := sh.okCollects hok.ok hok.read
  have hcol : .collecting ∈ (run env cfg (start cfg fs)).2.log := by
    obtain ⟨l, hl, -⟩ := sh.gc hne
    rw [sh.log, hl]; simp
  rw [run_disk hs]
  rcases sh.phases (killed_at_end env cfg fs) with ⟨-, hn, -⟩ | ⟨-, -, l, -, hgc, e, hall, hC⟩
  · exact absurd hcol hn
  · rw [e]
    refine (hC.gens g (hall g hg) rfl).boots hw hC.inv.2 (fun key h => hp.known g key hg h) ?_
    rintro p hr (⟨n, rfl, -⟩ | ⟨l, h, rfl⟩)
    · exact kept_entry hp.separate sh.roots hr hgc
    · exact kept_ca hp.separate sh.roots hr hgc

theorem ProperRun.history (hp : ProperRun world esp known env cfg) :
    History world esp known (fun _ _ => True) fs (run env cfg (start cfg fs)).2.fs := by
  rw [run_disk hp.safe]
  exact .snoc .nil (.run hp trivial (killed_at_end env cfg fs))

theorem Ready.run (hr : Ready env cfg fs) (ha : Attempt env cfg env cfg) :
    Ready env cfg (Tool.run env cfg (start cfg fs)).2.fs := by
  rw [run_disk hr.safe]
  exact hr.after (.run .nil ha (killed_at_end env cfg fs))

end Verif.Tool

namespace Verif.Tool.Sample
open Verif StubName Generation

/-- The kernel of the first generation on the boot partition. -/
def firstKernelFile : Path := caFile cfg.esp (lit "kernel-6.1") (sha.hash kernel1)

/-- A boot partition on which the kernel has been damaged. -/
def rotten : Fs := oneGen.put firstKernelFile (.file [0])

/-- The outcome of a run that has worked, on a disk without this kernel. -/
def unnoticed (r : Res Unit Unit × State) : Bool :=
  match r with
  | (.ok (), s) => s.broken.isEmpty && s.fs.nodes.all fun e => match e.2 with
    | .file d => decide (sha.hash d ≠ sha.hash kernel1)
    | .dir => true
  | _ => false

theorem unnoticed_iff {r : Res Unit Unit × State} (h : unnoticed r = true) : r.1 = .ok () ∧ r.2.broken = [] ∧
    ∀ p d, r.2.fs.fileAt p = some d → p ≠ [] → sha.hash d ≠ sha.hash kernel1 := by
  unfold unnoticed at h
  split at h
  · next s =>
    simp only [Bool.and_eq_true, List.isEmpty_iff, List.all_eq_true] at h
    refine ⟨rfl, h.1, fun p d hd hp => ?_⟩
    have := h.2 _ (mem_of_fileAt hd hp)
    simpa using this
  · cases h

theorem rotten_unnoticed : unnoticed (run good cfg1 (start cfg1 rotten)) = true ∧
    oneGen.fileAt firstKernelFile = some [77, 90, 1] := by decide +kernel

/-- **C112** is false: a kernel whose content has been damaged is not noticed. The installer has succeeded on this
partition, succeeds again, and the generation cannot be booted. -/
theorem C112_damage_unnoticed : Succeeded good cfg1 disk0 ∧ DamagedAt firstKernelFile oneGen rotten ∧
    Succeeded good cfg1 rotten ∧ Considers good cfg1 first ∧
    ∀ p, ¬ Boots good cfg1.esp (run good cfg1 (start cfg1 rotten)).2.fs first p := by
  obtain ⟨h1, h2⟩ := rotten_unnoticed
  have h3 : firstKernelFile ≠ [] := by simp [firstKernelFile, caFile]
  obtain ⟨u1, u2, u3⟩ := unnoticed_iff h1
  refine ⟨oneGen_steps.1, ⟨⟨_, [0], h2, ?_, by decide⟩, fun q hq => ?_⟩, ⟨u1, u2⟩, first_considered1, ?_⟩
  · rw [Fs.fileAt_eq_some, rotten, Fs.get_put _ _ _ _ h3, if_pos rfl]
  · rw [rotten, Fs.get_put _ _ _ _ h3, if_neg hq]
  · rintro p ⟨data, kernel, initrd, v, -, h, ⟨d, hd, hh⟩, -⟩
    have e := h.kernel_is
    rw [first_spec.1] at e
    cases e
    exact u3 _ d hd (by simp [caFile]) hh

theorem properReleased : ProperRun released cfg.esp known released cfg where
  esp := rfl
  inWorld := ⟨rfl, rfl, rfl, fun _ _ _ h => h, fun _ _ _ h => h⟩
  safe := released_safe
  tools := faithfulWith _ _
  separate := separate
  known := fun g key hg hk => known_considered (fun _ => false) g key (released_considers.1 hg) hk

theorem historyReleased : History released cfg.esp known (fun _ _ => True) disk0
    (run released cfg (start cfg disk0)).2.fs := ProperRun.history properReleased

theorem ready1 : Ready released cfg (run released cfg (start cfg disk0)).2.fs :=
  Ready.run ready0 ⟨rfl, rfl, rfl, rfl, released_safe, faithfulWith _ _, (attempt0 fun _ => false).loader⟩

/-- From the boot partition on which the installer has succeeded any file may disappear: the next run succeeds, and the machine
can be booted. -/
example {f : Fs} (hf : f = (run released cfg (start cfg disk0)).2.fs) {p : Path} {d : Bytes} (hd : f.fileAt p = some d) :
    (run released cfg (start cfg (f.del p))).1 = .ok () ∧
      Working released released cfg (run released cfg (start cfg (f.del p))).2.fs := by
  have r := ready1
  have hist := historyReleased
  rw [← hf] at r hist
  have hne := Fs.fileAt_ne_nil hd
  have hg : Gone f (f.del p) := by
    refine ⟨fun q => ?_, r.room.tree.del hne (r.room.tree.no_child hd)⟩
    rw [Fs.get_del _ _ _ hne]
    split
    · exact .inr rfl
    · exact .inl rfl
  refine C112_restored_partial released_unambiguous properReleased r
    (C39_history_sound hist (Sound.congr (env := good) rfl rfl sound0))
    (hist.coherent released_unambiguous
      fun _ _ _ data _ hm hd => absurd hd (no_entry (isMatch_isEntry hm.isMatch) data)) hg ?_
  rw [Fs.get_del _ _ _ hne, if_neg, r.room.esp]
  rintro rfl
  rw [Fs.fileAt_eq_some, r.room.esp] at hd
  cases hd

/-- Whatever is written over a kernel there stays. -/
example {f : Fs} (hf : f = (run released cfg (start cfg disk0)).2.fs) {p : Path} {d d' : Bytes} (hn : nixosDir cfg.esp <+: p)
    (hd : f.fileAt p = some d) :
    (run released cfg (start cfg (f.put p (.file d')))).2.fs.fileAt p = some d' := by
  have hne := Fs.fileAt_ne_nil hd
  have hg : Garbled cfg.esp f (f.put p (.file d')) := fun q => by
    rw [Fs.get_put _ _ _ _ hne]
    split
    · next e => exact .inr ⟨e ▸ hn, d, d', by rw [e]; exact Fs.fileAt_eq_some.1 hd, rfl⟩
    · exact .inl rfl
  have hu : Undisturbed released cfg (run released cfg (start cfg disk0)).2.fs f := hf ▸ .nil
  have h := (C112_damage_stays released_safe (faithfulWith _ _) released_verify separate released_reliable tree0
    (Sound.congr (env := good) rfl rfl sound0) ⟨released_ok, released_broken⟩ released_distinct released_measured
    released_release hu hg).2.1 p
  rw [Fs.fileAt_eq_some, h, Fs.get_put _ _ _ _ hne, if_pos rfl]

/-- A boot partition without boot entries, on which a damaged kernel has been left behind. -/
def leftBehind : Fs := disk0.put firstKernelFile (.file [0])

theorem no_entry_leftBehind {p : Path} (h : IsEntry cfg.esp p) (d : Bytes) : leftBehind.fileAt p ≠ some d := by
  intro hd
  rw [Fs.fileAt_eq_some, leftBehind, Fs.get_put _ _ _ _ (by simp [firstKernelFile, caFile])] at hd
  split at hd
  · next e =>
    obtain ⟨n, rfl, -⟩ := h
    simp only [entryFile, firstKernelFile, caFile] at e
    injection e with _ e
    injection e with _ e
    injection e with e _
    exact absurd e (by decide)
  · exact no_entry h d (Fs.fileAt_eq_some.2 hd)

theorem leftBehind_works : (match run good cfg1 (start cfg1 leftBehind) with
    | (.ok (), s) => s.broken.isEmpty
    | _ => false) = true := by decide +kernel

/-- Where the kernel of a generation has to go lies a damaged one: the installer replaces it, and the generation can be
booted. -/
example : ∃ p, IsEntry cfg.esp p ∧ Boots good cfg.esp (run good cfg1 (start cfg1 leftBehind)).2.fs first p := by
  refine C112_own_files_partial properRun1 unambiguous
    (fun _ _ _ data _ hm hd => absurd hd (no_entry_leftBehind (isMatch_isEntry hm.isMatch) data)) ?_ first_considered1
    (fun _ _ d _ _ _ _ hm h _ => absurd h (no_entry_leftBehind (isMatch_isEntry hm.isMatch) d))
  have h := leftBehind_works
  split at h
  · next s e => exact ⟨by rw [e], by rw [e]; exact List.isEmpty_iff.1 h⟩
  · cases h

/-- If a kernel is damaged, the generations that need neither it nor, as initrd, this file can be booted after the next
run. -/
example {f : Fs} (hf : f = (run released cfg (start cfg disk0)).2.fs) {p : Path} {d d' : Bytes} (hn : nixosDir cfg.esp <+: p)
    (hd : f.fileAt p = some d) {g : Gen} (hg : Considers released cfg g)
    (h1 : ∀ kernel v, released.store g.spec.kernel = some kernel →
      p ≠ caFile cfg.esp (lit "kernel-" ++ v) (released.sha.hash kernel))
    (h2 : ∀ initrd v, InitrdOf released g.spec initrd →
      p ≠ caFile cfg.esp (lit "initrd-" ++ v) (released.sha.hash initrd)) :
    ∃ q, IsEntry cfg.esp q ∧
      Boots released cfg.esp (run released cfg (start cfg (f.put p (.file d')))).2.fs g q := by
  have hne := Fs.fileAt_ne_nil hd
  have hgar : Garbled cfg.esp f (f.put p (.file d')) := fun q => by
    rw [Fs.get_put _ _ _ _ hne]
    split
    · next e => exact .inr ⟨e ▸ hn, d, d', by rw [e]; exact Fs.fileAt_eq_some.1 hd, rfl⟩
    · exact .inl rfl
  have hu : Undisturbed released cfg (run released cfg (start cfg disk0)).2.fs f := hf ▸ .nil
  have hist := historyReleased
  rw [← hf] at hist
  have hsound : Sound released cfg.esp f := C39_history_sound hist (Sound.congr (env := good) rfl rfl sound0)
  have hun : ∀ l k, k.length = 32 → p ≠ caFile cfg.esp l k →
      Undamaged released (f.put p (.file d')) (caFile cfg.esp l k) k := fun l k hk hx => by
    have e : (f.put p (.file d')).get (caFile cfg.esp l k) = f.get (caFile cfg.esp l k) := by
      rw [Fs.get_put _ _ _ _ hne, if_neg (Ne.symm hx)]
    rcases h : f.get (caFile cfg.esp l k) with _ | node
    · exact .inl (e.trans h)
    · obtain ⟨x, rfl, hx⟩ := hsound.files l k node hk h
      exact .inr ⟨x, Fs.fileAt_eq_some.2 (e.trans h), hx⟩
  have hs := run_settled released_safe released_reliable ((hu.settled released_safe (settled_after released_safe
    (faithfulWith _ _) released_verify separate released_reliable tree0 (Sound.congr (env := good) rfl rfl sound0)
    ⟨released_ok, released_broken⟩ released_distinct released_measured released_release)).garbled hgar)
  refine C112_own_files_partial properReleased released_unambiguous (fun g key n data hk hm hdat => ?_) ⟨hs.1, hs.2.1⟩ hg
    fun key n data kernel initrd v _ _ _ he =>
      ⟨hun _ _ (released.sha.len _) (h1 _ _ he.kernel_is), hun _ _ (released.sha.len _) (h2 _ _ he.initrd_is)⟩
  refine hist.coherent released_unambiguous
    (fun _ _ _ data _ hm hd => absurd hd (no_entry (isMatch_isEntry hm.isMatch) data)) g key n data hk hm ?_
  rw [Fs.fileAt_eq_some, Fs.get_put _ _ _ _ hne] at hdat
  split at hdat
  · next e =>
    rw [← e] at hn
    obtain ⟨t, ht⟩ := hn
    simp only [nixosDir, entryFile, List.append_assoc] at ht
    have ht := List.append_cancel_left ht
    injection ht with _ ht
    injection ht with ht _
    exact absurd ht (by decide)
  · exact Fs.fileAt_eq_some.2 hdat

end Verif.Tool.Sample
