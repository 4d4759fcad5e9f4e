import Verif.Spec.Panics
import Verif.Lemmas.Panics
import Verif.Props.InstallLive
import Verif.Props.InstallSigned
/-!
# C67: the installer does not panic unless something is malformed
-/
namespace Verif.Tool
open Verif Generation StubName

variable {env : Env} {cfg : Config} {fs : Fs} {C : Fs → Prop}

theorem sectionPath_panic {data : Bytes} {name : Str} {s s' : State}
    (h : sectionPath env cfg data name s = (.panic, s')) : s' = s ∧ ¬ Legible env data name := by
  refine ⟨?_, fun hl => ?_⟩
  · unfold sectionPath at h
    simp only [RM.bind_run] at h
    cases hr : readSectionData env data name with
    | panic => rw [hr] at h; simp [ofRes] at h; exact h.symm
    | err e => rw [hr] at h; simp [ofRes] at h
    | ok o =>
      rw [hr] at h
      cases o with
      | none => simp [ofRes, ofOption] at h
      | some b =>
        simp only [ofRes, ofOption, RM.pure_run] at h
        cases hv : resolveEfiPath cfg.esp b with
        | panic => rw [hv] at h; simp at h; exact h.symm
        | err e => rw [hv] at h; simp at h
        | ok q => rw [hv] at h; simp at h
  · have := (mild_sectionPath (cfg := cfg) (f := s.fs) hl s rfl).2
    rw [h] at this
    exact this rfl

theorem Legible.version {data : Bytes} (h : Legible env data (lit ".osrel")) : versionOf env data ≠ .panic := by
  obtain ⟨o, ho, hne⟩ := h.read
  unfold versionOf
  rw [ho]
  cases o with
  | none => nofun
  | some sec =>
    have := hne sec rfl
    have ht : osrelText sec ≠ .panic := by
      unfold osrelText
      cases hl : sec.getLast? with
      | none => exact absurd (List.getLast?_eq_none_iff.1 hl) this
      | some x =>
        split
        · rename_i h0; cases h0
        · split
          · nofun
          · split <;> nofun
        · split <;> nofun
        · nofun
    dsimp only
    cases ht' : osrelText sec with
    | panic => exact absurd ht' ht
    | err e => nofun
    | ok t =>
      dsimp only
      split
      · nofun
      · split <;> nofun

/-- The directory entries that are listed are in the directory. -/
theorem readDir_run {p : Path} {l : List Path} {s s' : State} (h : readDir env.os p s = (.ok l, s')) :
    s'.fs = s.fs ∧ ∀ q ∈ l, ∃ n, q = p ++ [n] := by
  unfold readDir guarded faulty require at h
  simp only [RM.bind_run, next, RM.pure_run, getFs] at h
  split at h
  · rename_i h1
    split at h1
    · simp only [RM.pure_run] at h1
      cases h1
      dsimp only at h
      split at h
      · rename_i h2
        split at h2
        · simp only [RM.pure_run] at h2
          cases h2
          cases h
          refine ⟨rfl, fun q hq => ?_⟩
          have := env.os.list_sub _ _ _ hq
          obtain ⟨n, -, rfl⟩ := List.mem_map.1 this
          exact ⟨n, rfl⟩
        · simp at h2
      · cases h
      · cases h
    · simp at h1
  · cases h
  · cases h

theorem readFs_run {p : Path} {d : Bytes} {s s' : State} (h : readFs env.os p s = (.ok d, s')) :
    s'.fs = s.fs ∧ s'.fs.fileAt p = some d := by
  unfold readFs guarded faulty require at h
  simp only [RM.bind_run, next, RM.pure_run, getFs] at h
  split at h
  · rename_i h1
    split at h1
    · simp only [RM.pure_run] at h1
      cases h1
      dsimp only at h
      cases hd : s.fs.fileAt p with
      | none => rw [hd] at h; cases h
      | some d' => rw [hd] at h; cases h; exact ⟨rfl, hd⟩
    · simp at h1
  · cases h
  · cases h

/-- Only results that `m` can have are passed on. -/
theorem PanicsOnly.bind_of {α β : Type} {m : M α} {k : α → M β} (h : PanicsOnly C m)
    (hk : ∀ s a s', m s = (.ok a, s') → ∀ t, k a s' = (.panic, t) → C t.fs) : PanicsOnly C (m >>= k) :=
    fun s s' e => by
  rw [RM.bind_run] at e
  cases hm : m s with
  | mk r t =>
    rw [hm] at e
    cases r with
    | ok a => exact hk s a t hm s' e
    | err x => cases e
    | panic =>
      obtain rfl : t = s' := congrArg Prod.snd e
      exact h s t hm

theorem sectionPath_ok {data : Bytes} {name : Str} {s s' : State} {p : Path}
    (h : sectionPath env cfg data name s = (.ok p, s')) : s' = s := by
  unfold sectionPath at h
  simp only [RM.bind_run] at h
  cases hr : readSectionData env data name with
  | panic => rw [hr] at h; simp [ofRes] at h
  | err e => rw [hr] at h; simp [ofRes] at h
  | ok o =>
    rw [hr] at h
    cases o with
    | none => simp [ofRes, ofOption] at h
    | some b =>
      simp only [ofRes, ofOption, RM.pure_run] at h
      cases hv : resolveEfiPath cfg.esp b with
      | panic => rw [hv] at h; simp at h
      | err e => rw [hv] at h; simp at h
      | ok q => rw [hv] at h; simp at h; exact h.2.symm

/-- Looking up a path in a file that is there. -/
theorem sectionPath_bind {β : Type} {p : Path} {data : Bytes} {name : Str} {k : Path → M β} {s s' : State}
    (hl : LookedUp cfg p name) (hd : s.fs.fileAt p = some data)
    (hk : ∀ q, k q s = (.panic, s') → PanicCause env cfg s'.fs)
    (h : (sectionPath env cfg data name >>= k) s = (.panic, s')) : PanicCause env cfg s'.fs := by
  rw [RM.bind_run] at h
  cases hm : sectionPath env cfg data name s with
  | mk r t =>
    rw [hm] at h
    cases r with
    | ok a => rw [sectionPath_ok hm] at h; exact hk a h
    | err x => cases h
    | panic =>
      obtain rfl : t = s' := congrArg Prod.snd h
      obtain ⟨rfl, hn⟩ := sectionPath_panic hm
      exact .damaged hl hd hn

theorem panics_readInstalled (g : Gen) (key : Bytes) :
    PanicsOnly (PanicCause env cfg) (readInstalledGeneration env cfg (stubPrefix env.sha g key)) := by
  unfold readInstalledGeneration
  rw [paths_linux']
  refine .bind_of (.readDir _ _) fun s l s1 h1 => ?_
  obtain ⟨-, hl⟩ := readDir_run h1
  refine fun t => ?_
  revert s1
  intro s1 _
  refine (PanicsOnly.bind_ofOption fun q hq => ?_) s1 t
  have hq := List.mem_filter.1 (List.mem_of_mem_head? hq)
  obtain ⟨n, rfl⟩ := hl q hq.1
  have hm : isMatch env.uni (stubPrefix env.sha g key) n = true := by simpa using hq.2
  have he : IsEntry cfg.esp (linuxDir cfg.esp ++ [n]) := entryFile_linuxDir cfg.esp n ▸ isMatch_isEntry hm
  refine .bind_of (.readFs _ _) fun s d s2 h2 t h => ?_
  obtain ⟨-, hd⟩ := readFs_run h2
  refine sectionPath_bind (.kernel he) hd (fun kp h => ?_) h
  refine sectionPath_bind (.initrd he) hd (fun ip h => ?_) h
  refine (PanicsOnly.bind (.pathExists _ _) fun b => ?_) _ _ h
  split
  · exact .throw
  · refine .bind (.pathExists _ _) fun b => ?_
    split
    · exact .throw
    · exact .pure _

theorem panics_register (g : Gen) : PanicsOnly (PanicCause env cfg) (registerInstalledGeneration env cfg g) := by
  unfold registerInstalledGeneration
  refine .bind (.getPublicKey _) fun key => .bind (panics_readInstalled g key).attempt fun o => ?_
  split
  · exact .pure _
  · refine .bind (.extendRoots _) fun _ => ?_
    unfold registerMeasurement
    split
    · exact .pure _
    · refine .bind (.pathExists _ _) fun b => ?_
      split
      · exact .bind (.extendRoots _) fun _ => .pure _
      · exact .pure _

theorem panics_stubOffset {data : Bytes} (hd : env.store cfg.lanzabooteStub = some data) :
    PanicsOnly (PanicCause env cfg) (ofRes (stubOffset env data)) := by
  unfold stubOffset
  cases hp : env.parse data with
  | none => exact .throw
  | some pe =>
    cases hb : env.imageBase data with
    | none => exact fun s s' h => .stub hd hp (Or.inr hb)
    | some base =>
      dsimp only
      cases hl : pe.sections.getLast? with
      | none => exact fun s s' h => .stub hd hp (Or.inl (List.getLast?_eq_none_iff.1 hl))
      | some x => exact .pure _

theorem panics_image {q : StubParameters} (hq : q.lanzabooteStorePath = cfg.lanzabooteStub) :
    PanicsOnly (PanicCause env cfg) (lanzabooteImage env q) := by
  unfold lanzabooteImage
  refine .bind (.writeSecureFile _) fun _ => .bind (.writeSecureFile _) fun _ => .bind (.hashSrc _) fun _ =>
    .bind (.writeSecureFile _) fun _ => .bind (.writeSecureFile _) fun _ => .bind (.hashSrc _) fun _ =>
    .bind (.writeSecureFile _) fun _ => .bind (.writeSecureFile _) fun _ => .bind_readSrc fun d hd => ?_
  rw [hq] at hd
  exact .bind (panics_stubOffset hd) fun _ => .bind (.fileSize _) fun _ => .bind (.fileSize _) fun _ =>
    .bind (.fileSize _) fun _ => .bind (.fileSize _) fun _ => .bind (.fileSize _) fun _ => .bind (.readSrc _) fun _ =>
    .wrapInPe _ _

theorem panics_initrd {g : Gen} (hg : Considers env cfg g) :
    PanicsOnly (PanicCause env cfg) (initrdLocation env g.spec) := by
  unfold initrdLocation
  split
  · exact .bind (.ofOption _) fun _ => .bind (.readSrc _) fun _ => .bind (.writeSecureFile _) fun _ =>
      .bind (.appendInitrdSecrets _ _) fun _ => .pure _
  · rename_i hs
    cases hi : g.spec.initrd with
    | none => exact fun s s' h => .initrd hg hi hs
    | some p => exact .bind (.pure _) fun _ => .pure _

theorem panics_installNew {g : Gen} (hg : Considers env cfg g) :
    PanicsOnly (PanicCause env cfg) (installNewGeneration env cfg g) := by
  unfold installNewGeneration
  refine .bind (.guarded _) fun _ => .bind (.ofOption _) fun v => .bind (.installNixosCa _ _) fun kt =>
    .bind (panics_initrd hg) fun i => .bind (.installNixosCa _ _) fun it => ?_
  refine .bind_of (.bind (.ofOption _) fun k => .bind (.ofOption _) fun i' => .pure _) fun s q s1 h t => ?_
  have hq : q.lanzabooteStorePath = cfg.lanzabooteStub := by
    unfold stubParameters at h
    simp only [RM.bind_run] at h
    cases h1 : espRelativeUefiPath cfg.esp kt with
    | none => rw [h1] at h; simp [ofOption] at h
    | some k =>
      cases h2 : espRelativeUefiPath cfg.esp it with
      | none => rw [h1, h2] at h; simp [ofOption] at h
      | some k' => rw [h1, h2] at h; simp [ofOption] at h; rw [← h.1]
  refine PanicsOnly.elim (.bind (panics_image hq) fun image => .bind ?_ fun _ =>
    .bind (.getPublicKey _) fun _ => .bind (.extendRoots _) fun _ => .installSigned _ _ _) _ t
  unfold measureImage
  split
  · exact .pure _
  · exact .bind (.lockPe _ _) fun _ => .extendRoots _

theorem panics_installAll (gs : List Gen) (h : ∀ g ∈ gs, Considers env cfg g) :
    PanicsOnly (PanicCause env cfg) (installAll env cfg gs) := by
  induction gs with
  | nil => exact .pure _
  | cons g gs ih =>
    unfold installAll
    refine .bind ?_ fun _ => ih fun x hx => h x (by simp [hx])
    unfold installGeneration
    refine .bind (panics_register g) fun b => ?_
    split
    · exact .pure _
    · exact panics_installNew (h g (by simp))

theorem panics_newer {p : Path} (hp : IsLoader cfg p) :
    PanicsOnly (PanicCause env cfg) (newerSystemdBoot env cfg.systemdBootSource p) := by
  unfold newerSystemdBoot
  rw [source_target]
  refine .bind (.pathExists _ _) fun b => ?_
  split
  · exact .pure _
  · refine .bind_readSrc fun d hd => .bind ?_ fun v => .bind (.attempt ?_) fun w => ?_
    · cases hv : versionOf env d with
      | ok v => exact .pure _
      | err e => exact .throw
      | panic => exact fun s s' h => .loader hd fun hl => hl.version hv
    · unfold installedVersion
      refine .bind_of (.readFs _ _) fun s d s' h t ht => ?_
      obtain ⟨-, hd⟩ := readFs_run h
      cases hv : versionOf env d with
      | ok v => rw [hv] at ht; simp [ofRes] at ht
      | err e => rw [hv] at ht; simp [ofRes] at ht
      | panic =>
        rw [hv] at ht
        obtain rfl : s' = t := congrArg Prod.snd ht
        exact .damaged (.release hp) hd fun hl => hl.version hv
    · split <;> exact .pure _

theorem panics_systemdBoot : PanicsOnly (PanicCause env cfg) (installSystemdBoot env cfg) := by
  unfold installSystemdBoot orM andM
  refine .bind (.bind (panics_newer (Or.inl (fallback_target cfg))) fun x => ?_) fun newer => .bind (.bind (.verifyPath _ _) fun x => ?_)
    fun signed => .bind ?_ fun measured => ?_
  · split
    · exact .pure _
    · exact panics_newer (Or.inr (systemd_target cfg))
  · split
    · exact .verifyPath _ _
    · exact .pure _
  · unfold measurementExists
    split
    · exact .pure _
    · exact .pathExists _ _
  · split
    · refine .bind ?_ fun _ => .install _ _
      unfold replaceSystemdBoot
      refine .bind ?_ fun _ => .bind (.installSigned _ _ _) fun _ => .bind (.installSigned _ _ _) fun _ => ?_
      · unfold measureNext
        split
        · exact .pure _
        · exact .lockPe _ _
      · unfold measurementDone
        split
        · exact .pure _
        · exact .rename _ _ _
    · exact .install _ _

theorem panics_run : PanicsOnly (PanicCause env cfg) (run env cfg) := by
  unfold run
  refine .bind_ofOption fun links hl => .bind ?_ fun _ => .bind panics_systemdBoot fun _ => .collect
  unfold installGenerationsFromLinks
  refine .bind_of (.readGenerations _) fun s gens s' h t => ?_
  obtain ⟨gens', _, _, he, hg, -⟩ := readGenerations_spec env links s
  rw [he] at h
  cases h
  revert t
  refine fun t => PanicsOnly.elim ?_ _ t
  split
  · exact .throw
  · refine .bind (panics_installAll _ fun g hm => ?_) fun _ => .syncFs _ _
    obtain ⟨x, hx, hm⟩ := List.mem_flatMap.1 hm
    obtain ⟨link, hlink, j, hj, rfl⟩ := hg x hx
    exact ⟨links, link, j, hl, hlink, hj, hm⟩

/-- **C67**. If the installer panics, then something is there that it does not expect: a generation without
initrd, a malformed stub or boot loader among its inputs, or a damaged boot entry or boot loader on the ESP. -/
theorem C67_panic_causes {s s' : State} (h : run env cfg s = (.panic, s')) : PanicCause env cfg s'.fs :=
  panics_run s s' h

/-- **C67**. The command line interface adds one cause: a missing argument. -/
theorem C67_panic_causes_cli {c : Cli} {s s' : State} (h : cliInstall env c s = (.panic, s')) :
    c.publicKey = none ∨ c.privateKey = none ∨ ∃ stub arch signer, c.lanzabooteStub = some stub ∧
      PanicCause env (c.config stub arch signer) s'.fs := by
  revert h
  refine PanicsOnly.elim (C := fun f => c.publicKey = none ∨ c.privateKey = none ∨
    ∃ stub arch signer, c.lanzabooteStub = some stub ∧ PanicCause env (c.config stub arch signer) f) ?_ s s'
  unfold cliInstall
  refine .bind_ofOption fun stub hs => .bind ?_ fun pub => .bind ?_ fun priv => .bind (.ofOption _) fun arch =>
    .bind ?_ fun signer => ?_
  · cases hp : c.publicKey with
    | none => exact fun s s' _ => Or.inl rfl
    | some x => exact .pure _
  · cases hp : c.privateKey with
    | none => exact fun s s' _ => Or.inr (Or.inl rfl)
    | some x => exact .pure _
  · unfold chooseSigner andM keyMissing
    refine .bind (.bind (.pure _) fun x => ?_) fun _ => .pure _
    split
    · refine .bind (.bind (.faulty _) fun _ => .pure _) fun x => ?_
      split
      · exact .bind (.faulty _) fun _ => .pure _
      · exact .pure _
    · exact .pure _
  · exact .bind (.extendRoots _) fun _ s s' h =>
      Or.inr (Or.inr ⟨stub, arch, signer, hs, C67_panic_causes h⟩)

/-- **C67**. With proper inputs, on file systems that are in order, the installer does not panic, whatever fails:
reads, writes, the programs it runs, missing files. -/
theorem C67_never_panics (hs : SafeInput env cfg) (hf : FaithfulTools env) (hd : NotNested cfg)
    (hp : ProperSources env cfg) (hr : Room env cfg fs) : (run env cfg (start cfg fs)).1 ≠ .panic := by
  intro h
  have hr' : Room env cfg (run env cfg (start cfg fs)).2.fs := by
    have := hr.killed hd hs hf hp.loader (done := (run env cfg (start cfg fs)).2.log) (List.prefix_refl _)
    rwa [← run_disk hs] at this
  cases C67_panic_causes (env := env) (cfg := cfg) (s := start cfg fs) (s' := (run env cfg (start cfg fs)).2)
    (by rw [← h]) with
  | initrd hg h1 h2 => exact hp.initrd _ hg h1 h2
  | stub h1 h2 h3 =>
    obtain ⟨a, b⟩ := hp.stub _ _ h1 h2
    rcases h3 with h3 | h3
    · exact a h3
    · rw [h3] at b; cases b
  | damaged hl h1 h2 => exact h2 (hr'.legible _ _ hl _ h1)
  | loader h1 h2 =>
    obtain ⟨r, h⟩ := hp.loader _ h1
    obtain ⟨b, hb, hne⟩ := h.legible
    exact h2 (.of_section hb hne)

end Verif.Tool

/-! ## Every cause does occur -/
namespace Verif.Tool.Sample
open Verif Generation

/-- The second generation has no initrd. -/
def noInitrd : Env := { released with
  bootJson := fun p => if p = link2 then some ⟨{ spec2 with initrd := none, initrdSecrets := none }, []⟩ else none }

/-- The stub has no optional header. -/
def noHeader : Env := { released with imageBase := fun _ => none }

/-- There is no public key on the command line. -/
def noKey : Cli := { cli true with publicKey := none }

theorem noInitrd_panics : (run noInitrd cfg (start cfg disk0)).1 = .panic := by decide +kernel
theorem noHeader_panics : (run noHeader cfg (start cfg disk0)).1 = .panic := by decide +kernel
theorem malformed_panics : (run malformed cfg (start cfg (run malformed cfg (start cfg disk0)).2.fs)).1 = .panic := by
  decide +kernel
theorem noKey_panics : (cliInstall good noKey (fresh disk)).1 = .panic := by decide +kernel

theorem panics_eq {α : Type} {m : M α} {s : State} (h : (m s).1 = .panic) : m s = (.panic, (m s).2) := by rw [← h]

example : PanicCause noInitrd cfg (run noInitrd cfg (start cfg disk0)).2.fs :=
  C67_panic_causes (panics_eq noInitrd_panics)
example : PanicCause noHeader cfg (run noHeader cfg (start cfg disk0)).2.fs :=
  C67_panic_causes (panics_eq noHeader_panics)
example : ∃ fs, PanicCause malformed cfg fs := ⟨_, C67_panic_causes (panics_eq malformed_panics)⟩
/-- A boot entry that was damaged by a power failure. -/
example : ∃ fs, PanicCause released cfg fs := by
  obtain ⟨done, fs', -, -, h, -⟩ := C64_power_loss_can_block
  exact ⟨_, C67_panic_causes (panics_eq h)⟩
example : noKey.publicKey = none ∨ noKey.privateKey = none ∨ ∃ stub arch signer, noKey.lanzabooteStub = some stub ∧
    PanicCause good (noKey.config stub arch signer) (cliInstall good noKey (fresh disk)).2.fs :=
  C67_panic_causes_cli (panics_eq noKey_panics)

theorem proper (fault : Nat → Bool) : ProperSources (env256 fault) cfg where
  initrd g hg h _ := by
    obtain ⟨p, hp, -⟩ := released_sources.initrd g ⟨hg.ex⟩
    rw [h] at hp
    cases hp
  stub data pe h hp := by
    have e : (env256 fault).store cfg.lanzabooteStub = some stub := rfl
    rw [e] at h
    cases h
    have e : (env256 fault).parse stub = some _ := rfl
    rw [e] at hp
    cases hp
    exact ⟨by decide, rfl⟩
  loader d h := by
    obtain ⟨d', r, h1, h2, lines, sec, h3, h4, h5, h6⟩ := released_release
    have : d' = d := Option.some.inj (h1.symm.trans h)
    subst this
    exact ⟨r, h2, lines, sec, h3, h4, h5, h6⟩

/-- The sample does not panic, whatever operations fail. -/
example (fault : Nat → Bool) : (run (env256 fault) cfg (start cfg disk0)).1 ≠ .panic :=
  C67_never_panics (fun g hg => released_safe g ⟨hg.ex⟩) (faithfulWith _ _) disjoint (proper fault)
    (Room.congr (env := released) (cfg := cfg) rfl rfl rfl rfl room0)

end Verif.Tool.Sample
