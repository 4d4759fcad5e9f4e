import Verif.Lemmas.InstallRun
/-!
# Installing the boot loader and its configuration
-/
namespace Verif.Tool
open Verif StubName Generation

variable {env : Env} {cfg : Config} {ld : Scope}

theorem Replaces.keeps {to : Path} {S : Bytes → Prop} {dur : Bool} {f : Fs} {c : Change}
    (h : Replaces to S dur f c) {q : Path} (h1 : q ≠ tmpOf to) (h2 : q ≠ to) {d : Bytes}
    (hd : f.fileAt q = some d) : (f.apply c).fileAt q = some d := by
  rw [Fs.fileAt_eq_some] at hd ⊢
  rcases h.get q h1 with e | ⟨e, -⟩ | ⟨rfl, -⟩
  · rw [e, hd]
  · rw [e] at hd; simp at hd
  · exact absurd rfl h2

theorem fallback_ne_systemd (cfg : Config) : fallbackFile cfg ≠ systemdFile cfg := by
  intro e
  have := congrArg lastTwo e
  rw [fallbackFile_lastTwo, systemdFile_lastTwo] at this
  simp at this
  exact absurd this.1 (by decide)

theorem fallback_not_tmp (cfg : Config) : ¬ IsTmp (fallbackFile cfg) := by
  rw [fallbackFile_snoc]; exact not_isTmp_snoc (efiFallback_not_tmp _)

theorem systemd_not_tmp (cfg : Config) : ¬ IsTmp (systemdFile cfg) := by
  rw [systemdFile_snoc]; exact not_isTmp_snoc (systemdFilename_not_tmp _)

theorem conf_not_tmp (cfg : Config) : ¬ IsTmp (confFile cfg) := by
  rw [confFile_snoc]; exact not_isTmp_snoc loaderConf_not_tmp

/-- The next boot loader is measured. -/
def NextMeasured (env : Env) (cfg : Config) (d : Bytes) (f : Fs) : Prop :=
  ∀ p, cfg.pcrlockDirectory = some p → ∃ t m, env.lockPe t d = some m ∧
    f.fileAt (nextFile p) = some m

/-- Both boot loader binaries are signed copies of `d`, and measured. -/
structure LoaderNew (env : Env) (cfg : Config) (d : Bytes) (f : Fs) : Prop where
  source : env.store (loaderSource cfg) = some d
  fallback : ∃ out, f.fileAt (fallbackFile cfg) = some out ∧ SignedBy env cfg.signer d out
  systemd : ∃ out, f.fileAt (systemdFile cfg) = some out ∧ SignedBy env cfg.signer d out
  measured : ∀ p, cfg.pcrlockDirectory = some p → ∃ t m, env.lockPe t d = some m ∧
    f.fileAt (currentFile p) = some m

theorem measureNext_triple (hl : ld.loader) :
    Triple (fun _ => True) (measureNext env cfg) (InstallStep env cfg ld)
      (fun _ s => ∀ d, env.store (loaderSource cfg) = some d → NextMeasured env cfg d s.fs) := by
  unfold measureNext Config.pcrlock
  cases hp : cfg.pcrlockDirectory with
  | none => exact Triple.pure fun s _ d _ p h => by rw [hp] at h; cases h
  | some p =>
    dsimp only [Option.map_some]
    rw [next_target, source_target]
    refine (lockPe_triple env (.store (loaderSource cfg)) (nextFile p)).weaken (fun _ h => h)
      (fun f c h => .next hl hp h) ?_
    rintro _ s ⟨t, d, m, h1, h2, h3⟩ d' hd' p' hp'
    rw [hp] at hp'
    cases hp'
    have : d = d' := by
      have h1 : env.store (loaderSource cfg) = some d := h1
      rw [h1] at hd'; exact Option.some.inj hd'
    subst this
    exact ⟨t, m, h2, h3⟩

theorem replaceSystemdBoot_triple (hs : SafeInput env cfg) (hl : ld.loader) :
    Triple (fun _ => True) (replaceSystemdBoot env cfg) (InstallStep env cfg ld)
      (fun _ s => ∃ d, LoaderNew env cfg d s.fs) := by
  unfold replaceSystemdBoot
  rw [fallback_target, systemd_target, source_target]
  have hT1 : Target env cfg ld false (fallbackFile cfg) := .loader hl (Or.inl rfl)
  have hT2 : Target env cfg ld false (systemdFile cfg) := .loader hl (Or.inr rfl)
  refine Triple.bind (measureNext_triple hl) fun _ => ?_
  -- the first binary
  refine Triple.bind (Q := fun _ s => ∃ d out, env.store (loaderSource cfg) = some d ∧
      SignedBy env cfg.signer d out ∧ s.fs.fileAt (fallbackFile cfg) = some out ∧
      NextMeasured env cfg d s.fs) ?_ fun _ => ?_
  · refine ((Triple.carry (J := fun f => ∀ d, env.store (loaderSource cfg) = some d →
      NextMeasured env cfg d f) (A' := InstallStep env cfg ld)
      (installSigned_triple env cfg.signer (.store (loaderSource cfg)) _ (hT1.tmp hs).2.2) ?_).pre
      fun s h => ⟨trivial, h⟩).post ?_
    · intro f c j r
      refine ⟨?_, .replace hT1 (r.imp fun x hx => ?_)⟩
      · intro d hd p hp
        obtain ⟨t, m, h1, h2⟩ := j d hd p hp
        exact ⟨t, m, h1, r.get_measurement hs hT1 ⟨p, hp, Or.inr (Or.inl rfl)⟩ h2⟩
      · obtain ⟨d, hd, hsg⟩ := hx
        exact .loader hl hd hsg (j d hd) (Or.inl rfl)
    · rintro _ s ⟨⟨d, out, hd, hsg, hf⟩, j⟩
      exact ⟨d, out, hd, hsg, hf, j d hd⟩
  refine fun s h0 => ?_
  obtain ⟨d, out, hd, hsg, hf, hm⟩ := h0
  have hP := And.intro hf hm
  clear hf hm
  revert s
  suffices Triple (fun s => s.fs.fileAt (fallbackFile cfg) = some out ∧ NextMeasured env cfg d s.fs)
    _ _ _ from fun s h => this s h
  -- the second binary
  refine Triple.bind (Q := fun _ s => ∃ out', SignedBy env cfg.signer d out' ∧
      s.fs.fileAt (systemdFile cfg) = some out' ∧
      s.fs.fileAt (fallbackFile cfg) = some out ∧ NextMeasured env cfg d s.fs) ?_ fun _ => ?_
  · refine ((Triple.carry (J := fun f => f.fileAt (fallbackFile cfg) = some out ∧
      NextMeasured env cfg d f) (A' := InstallStep env cfg ld)
      (installSigned_triple env cfg.signer (.store (loaderSource cfg)) _ (hT2.tmp hs).2.2) ?_).pre
      fun s h => ⟨trivial, h⟩).post ?_
    · rintro f c ⟨j1, j2⟩ r
      refine ⟨⟨?_, ?_⟩, .replace hT2 (r.imp fun x hx => ?_)⟩
      · exact r.keeps (fun e => fallback_not_tmp cfg (by rw [e]; exact (hT2.tmp hs).1)) (fallback_ne_systemd cfg) j1
      · intro p hp
        obtain ⟨t, m, h1, h2⟩ := j2 p hp
        exact ⟨t, m, h1, r.get_measurement hs hT2 ⟨p, hp, Or.inr (Or.inl rfl)⟩ h2⟩
      · obtain ⟨d', hd', hsg'⟩ := hx
        have hd' : env.store (loaderSource cfg) = some d' := hd'
        rw [hd] at hd'
        cases hd'
        exact .loader hl hd hsg' j2 (Or.inr rfl)
    · rintro _ s ⟨⟨d', out', hd', hsg', hf'⟩, j1, j2⟩
      have hd' : env.store (loaderSource cfg) = some d' := hd'
      rw [hd] at hd'
      cases hd'
      exact ⟨out', hsg', hf', j1, j2⟩
  refine fun s h0 => ?_
  obtain ⟨out', hsg', hf', hf, hm⟩ := h0
  have hP := And.intro hf' (And.intro hf hm)
  clear hf' hf hm
  revert s
  suffices Triple (fun s => s.fs.fileAt (systemdFile cfg) = some out' ∧
    s.fs.fileAt (fallbackFile cfg) = some out ∧ NextMeasured env cfg d s.fs)
    _ _ _ from fun s h => this s h
  -- the measurement becomes the current one
  unfold measurementDone Config.pcrlock
  cases hp : cfg.pcrlockDirectory with
  | none =>
    refine Triple.pure ?_
    rintro s ⟨h1, h2, h3⟩
    exact ⟨d, hd, ⟨out, h2, hsg⟩, ⟨out', h1, hsg'⟩, fun p h => by rw [hp] at h; cases h⟩
  | some p =>
    dsimp only [Option.map_some]
    rw [next_target, current_target]
    rintro s ⟨h1, h2, h3⟩
    obtain ⟨t, m, hlm, hfm⟩ := h3 p hp
    have hne : nextFile p ≠ currentFile p := by
      intro e
      have := congrArg lastTwo e
      rw [nextFile_lastTwo, currentFile_lastTwo] at this
      simp at this
      exact absurd this (by decide)
    refine (((rename_triple env.os (nextFile p) (currentFile p) (J := fun f =>
      f.fileAt (systemdFile cfg) = some out' ∧ f.fileAt (fallbackFile cfg) = some out ∧
      f.fileAt (nextFile p) = some m) m hne fun f h => h.2.2).carry (J := fun f =>
      f.fileAt (systemdFile cfg) = some out' ∧ f.fileAt (fallbackFile cfg) = some out)
      (A' := InstallStep env cfg ld) ?_).weaken (P' := fun s =>
      s.fs.fileAt (systemdFile cfg) = some out' ∧ s.fs.fileAt (fallbackFile cfg) = some out ∧
      s.fs.fileAt (nextFile p) = some m) (fun s h => ⟨h, h.1, h.2.1⟩) (fun _ _ h => h) ?_) s
      ⟨h1, h2, hfm⟩
    · rintro f c ⟨j1, j2⟩ ⟨⟨a1, a2, a3⟩, a4, a5, rfl⟩
      have hc : (currentFile p : Path) ≠ [] := by simp [currentFile]
      have m1 : IsMeasurement cfg (currentFile p) := ⟨p, hp, Or.inr (Or.inr rfl)⟩
      have m2 : IsMeasurement cfg (nextFile p) := ⟨p, hp, Or.inr (Or.inl rfl)⟩
      have n1 : systemdFile cfg ≠ currentFile p := fun e => systemdFile_not_isMeasurement (e ▸ m1)
      have n2 : systemdFile cfg ≠ nextFile p := fun e => systemdFile_not_isMeasurement (e ▸ m2)
      have n3 : fallbackFile cfg ≠ currentFile p := fun e => fallbackFile_not_isMeasurement (e ▸ m1)
      have n4 : fallbackFile cfg ≠ nextFile p := fun e => fallbackFile_not_isMeasurement (e ▸ m2)
      refine ⟨⟨?_, ?_⟩, .current hl hp hd hlm a3 a2 hsg a1 hsg' a4 rfl⟩
      · rw [Fs.fileAt_eq_some, Fs.get_rename (Fs.fileAt_ne_nil a3) hc]
        simp [n1, n2, Fs.fileAt_eq_some.1 j1]
      · rw [Fs.fileAt_eq_some, Fs.get_rename (Fs.fileAt_ne_nil a3) hc]
        simp [n3, n4, Fs.fileAt_eq_some.1 j2]
    · rintro _ s ⟨h, h1, h2⟩
      refine ⟨d, hd, ⟨out, h2, hsg⟩, ⟨out', h1, hsg'⟩, ?_⟩
      intro p' hp'
      rw [hp] at hp'
      cases hp'
      exact ⟨t, m, hlm, h⟩

/-! ### The decision -/

/-- What is known of a boot loader binary that is not replaced. -/
def UpToDate (env : Env) (cfg : Config) (f : Fs) (q : Path) : Prop :=
  ∃ data d v w, f.fileAt q = some data ∧ env.store (loaderSource cfg) = some d ∧
    versionOf env d = .ok v ∧ versionOf env data = .ok w ∧ Version.gt v w = false

/-- The signature of the installed file verifies. -/
def VerifiedAt (env : Env) (f : Fs) (q : Path) : Signer → Prop
  | .empty => True
  | .local pub _ => ∃ data, f.fileAt q = some data ∧ env.sbverify pub data = true

theorem newerSystemdBoot_triple (q : Path) {A : Fs → Change → Prop} {P : State → Prop}
    (hP : Ticks P) :
    Triple P (newerSystemdBoot env cfg.systemdBootSource q) A
      (fun b s => P s ∧ (b = false → UpToDate env cfg s.fs q)) := by
  unfold newerSystemdBoot
  rw [source_target]
  refine Triple.bind (pathExists_triple hP env.os q) fun b => ?_
  refine Triple.ite (fun _ => Triple.pure fun s h => ⟨h.1, fun e => by cases e⟩) fun _ => ?_
  refine (Triple.bind (readSrc_triple hP env _) fun d => ?_).pre fun s h => h.1
  refine Triple.bind (ofRes_triple _) fun v => ?_
  refine Triple.bind (Q := fun (o : Option Version.SystemdVersion) s => (P s ∧
      env.store (loaderSource cfg) = some d ∧ versionOf env d = .ok v) ∧
      ∀ w, o = some w → ∃ data, s.fs.fileAt q = some data ∧ versionOf env data = .ok w) ?_ fun o => ?_
  · have h : Triple (fun s => (P s ∧ env.content (.store (loaderSource cfg)) = some d) ∧
        versionOf env d = .ok v) (RM.attempt (installedVersion env q)) A (fun o s =>
        ∀ w, o = some w → (P s ∧ env.content (.store (loaderSource cfg)) = some d ∧
          versionOf env d = .ok v) ∧ ∃ data, s.fs.fileAt q = some data ∧ versionOf env data = .ok w) := by
      refine Triple.attempt ?_
      unfold installedVersion
      refine Triple.bind (readFs_triple (fun _ _ h => ⟨⟨hP _ _ h.1.1, h.1.2⟩, h.2⟩) env.os q)
        fun data => ?_
      refine (ofRes_triple _).post ?_
      rintro w s ⟨⟨⟨⟨h0, h1⟩, h2⟩, h3⟩, h4⟩
      exact ⟨⟨h0, h1, h2⟩, data, h3, h4⟩
    -- `P` also holds if reading failed
    intro s hs
    have hd := h s hs
    refine ⟨hd.changes, hd.roots, hd.broken, ?_⟩
    intro o ho
    refine ⟨⟨?_, hs.1.2, hs.2⟩, fun w hw => (hd.post o ho w hw).2⟩
    -- reading moves nothing but the tick
    have key : ∃ t, (RM.attempt (installedVersion env q) s).2 = { s with tick := t } := by
      unfold installedVersion readFs guarded faulty
      simp only [RM.attempt]
      by_cases hf : env.os.fault s.tick = true
      · exact ⟨s.tick + 1, by simp [hf, next, require, RM.throw, RM.attempt]⟩
      · simp only [Bool.not_eq_true] at hf
        cases hfile : s.fs.fileAt q with
        | none => exact ⟨s.tick + 1, by simp [hf, next, require, RM.throw, RM.attempt, getFs, hfile]⟩
        | some data =>
          refine ⟨s.tick + 1, ?_⟩
          cases hv : versionOf env data with
          | ok w => simp [hf, next, require, RM.attempt, getFs, hfile, ofRes, hv]
          | err e => simp [hf, next, require, RM.attempt, getFs, hfile, ofRes, hv, RM.throw]
          | panic => simp [hf, next, require, RM.attempt, getFs, hfile, ofRes, hv, RM.panic]
    obtain ⟨t, ht⟩ := key
    rw [ht]
    exact hP _ _ hs.1.1
  · cases o with
    | none => exact Triple.pure fun s h => ⟨h.1.1, fun e => by cases e⟩
    | some w =>
      refine Triple.pure ?_
      rintro s ⟨⟨h0, h1, h2⟩, h3⟩
      refine ⟨h0, fun e => ?_⟩
      obtain ⟨data, h4, h5⟩ := h3 w rfl
      exact ⟨data, d, v, w, h4, h1, h2, h5, e⟩

theorem verifyPath_triple (signer : Signer) (q : Path) {A : Fs → Change → Prop} {P : State → Prop}
    (hP : Ticks P) :
    Triple P (signer.verifyPath env q) A
      (fun b s => P s ∧ (b = true → VerifiedAt env s.fs q signer)) := by
  cases signer with
  | empty => exact Triple.pure fun s h => ⟨h, fun _ => trivial⟩
  | «local» pub priv =>
    unfold Signer.verifyPath
    refine Triple.bind (Triple.guarded env.os hP) fun _ => ?_
    refine Triple.bind (Triple.faulty env.os hP) fun f => ?_
    refine Triple.bind (Triple.getFs (Q := fun fs s => P s ∧ fs = s.fs) fun s h => ⟨h, rfl⟩)
      fun fs => ?_
    split
    · next data hd =>
      refine Triple.pure ?_
      rintro s ⟨h, rfl⟩
      refine ⟨h, fun e => ⟨data, hd, ?_⟩⟩
      simp at e
      exact e.2
    · exact Triple.pure fun s h => ⟨h.1, fun e => by cases e⟩

/-- Everything the installer requires of the installed boot loader to leave it alone. -/
structure LoaderKept (env : Env) (cfg : Config) (f : Fs) : Prop where
  fallback : UpToDate env cfg f (fallbackFile cfg)
  systemd : UpToDate env cfg f (systemdFile cfg)
  fallbackSigned : VerifiedAt env f (fallbackFile cfg) cfg.signer
  systemdSigned : VerifiedAt env f (systemdFile cfg) cfg.signer
  measured : ∀ p, cfg.pcrlockDirectory = some p → (f.get (currentFile p)).isSome

theorem orM_triple {a b : M Bool} {A : Fs → Change → Prop} {P : State → Prop}
    {X Y : Fs → Prop} (ha : Triple P a A fun r s => P s ∧ (r = false → X s.fs))
    (hb : Triple (fun s => P s ∧ X s.fs) b A fun r s => (P s ∧ X s.fs) ∧ (r = false → Y s.fs))
    : Triple P (orM a b) A fun r s => P s ∧ (r = false → X s.fs ∧ Y s.fs) := by
  unfold orM
  refine Triple.bind ha fun x => ?_
  refine Triple.ite (fun _ => Triple.pure fun s h => ⟨h.1, fun e => by cases e⟩) fun hx => ?_
  refine hb.weaken (fun s h => ⟨h.1, h.2 (by simpa using hx)⟩) (fun _ _ h => h) ?_
  rintro r s ⟨⟨h1, h2⟩, h3⟩
  exact ⟨h1, fun e => ⟨h2, h3 e⟩⟩

theorem andM_triple {a b : M Bool} {A : Fs → Change → Prop} {P : State → Prop}
    {X Y : Fs → Prop} (ha : Triple P a A fun r s => P s ∧ (r = true → X s.fs))
    (hb : Triple (fun s => P s ∧ X s.fs) b A fun r s => (P s ∧ X s.fs) ∧ (r = true → Y s.fs))
    : Triple P (andM a b) A fun r s => P s ∧ (r = true → X s.fs ∧ Y s.fs) := by
  unfold andM
  refine Triple.bind ha fun x => ?_
  refine Triple.ite (fun hx => ?_) fun _ => Triple.pure fun s h => ⟨h.1, fun e => by cases e⟩
  refine hb.weaken (fun s h => ⟨h.1, h.2 (by simpa using hx)⟩) (fun _ _ h => h) ?_
  rintro r s ⟨⟨h1, h2⟩, h3⟩
  exact ⟨h1, fun e => ⟨h2, h3 e⟩⟩

theorem measurementExists_triple {A : Fs → Change → Prop} {P : State → Prop} (hP : Ticks P) :
    Triple P (measurementExists env cfg) A
      (fun b s => P s ∧ (b = true → ∀ p, cfg.pcrlockDirectory = some p →
        (s.fs.get (currentFile p)).isSome)) := by
  unfold measurementExists Config.pcrlock
  cases hp : cfg.pcrlockDirectory with
  | none => exact Triple.pure fun s h => ⟨h, fun _ p hp' => by cases hp'⟩
  | some p =>
    dsimp only [Option.map_some]
    rw [current_target]
    refine (pathExists_triple hP env.os _).post ?_
    rintro b s ⟨h, h'⟩
    refine ⟨h, fun e p' hp' => ?_⟩
    cases hp'
    exact h' e

theorem installConf_triple (hs : SafeInput env cfg) :
    Triple (fun _ => True) (install env (.store cfg.loaderConfig) (confFile cfg))
      (InstallStep env cfg ld) (fun _ s => ∃ d d', env.store cfg.loaderConfig = some d ∧
        s.fs.fileAt (confFile cfg) = some d' ∧ env.sha.hash d' = env.sha.hash d) := by
  have hT : Target env cfg ld true (confFile cfg) := .conf rfl
  exact (install_triple env (.store cfg.loaderConfig) _ (hT.tmp hs).2.2).steps fun f c h =>
    .replace hT (h.imp fun x hx => .conf hx rfl)

/-- Facts about the boot loader are not touched when `loader.conf` is installed. -/
theorem conf_step_get {f : Fs} {c : Change} {S : Bytes → Prop} (hs : SafeInput env cfg)
    (r : Replaces (confFile cfg) S true f c) {q : Path} (h1 : ¬ IsTmp q) (h2 : q ≠ confFile cfg)
    {d : Bytes} (hd : f.fileAt q = some d) : (f.apply c).fileAt q = some d := by
  have hT : Target env cfg .all true (confFile cfg) := .conf rfl
  exact r.keeps (fun e => h1 (by rw [e]; exact (hT.tmp hs).1)) h2 hd

/-- The state of the boot loader after `install_systemd_boot`. -/
def LoaderDone (env : Env) (cfg : Config) (f : Fs) : Prop :=
  LoaderKept env cfg f ∨ ∃ d, LoaderNew env cfg d f

theorem fallback_ne_conf (cfg : Config) : fallbackFile cfg ≠ confFile cfg := by
  intro e
  have := congrArg lastTwo e
  rw [fallbackFile_lastTwo, confFile_lastTwo] at this
  simp at this
  exact absurd this.1 (by decide)

theorem systemd_ne_conf (cfg : Config) : systemdFile cfg ≠ confFile cfg := by
  intro e
  have := congrArg lastTwo e
  rw [systemdFile_lastTwo, confFile_lastTwo] at this
  simp at this
  exact absurd this.1 (by decide)

theorem LoaderDone.conf_step (hs : SafeInput env cfg) {f : Fs} {c : Change} {S : Bytes → Prop}
    (h : LoaderDone env cfg f) (r : Replaces (confFile cfg) S true f c) :
    LoaderDone env cfg (f.apply c) := by
  have hT : Target env cfg .all true (confFile cfg) := .conf rfl
  have k1 : ∀ d, f.fileAt (fallbackFile cfg) = some d → (f.apply c).fileAt (fallbackFile cfg) = some d :=
    fun d hd => conf_step_get hs r (fallback_not_tmp cfg) (fallback_ne_conf cfg) hd
  have k2 : ∀ d, f.fileAt (systemdFile cfg) = some d → (f.apply c).fileAt (systemdFile cfg) = some d :=
    fun d hd => conf_step_get hs r (systemd_not_tmp cfg) (systemd_ne_conf cfg) hd
  rcases h with ⟨⟨d1, a1, a2, a3, b1, b2⟩, ⟨d2, c1, c2, c3, e1, e2⟩, s1, s2, m⟩ |
    ⟨d, hd, ⟨o1, f1, g1⟩, ⟨o2, f2, g2⟩, m⟩
  · refine Or.inl ⟨⟨d1, a1, a2, a3, k1 _ b1, b2⟩, ⟨d2, c1, c2, c3, k2 _ e1, e2⟩, ?_, ?_, ?_⟩
    · revert s1
      cases cfg.signer with
      | empty => exact id
      | «local» pub priv => rintro ⟨data, x, y⟩; exact ⟨data, k1 _ x, y⟩
    · revert s2
      cases cfg.signer with
      | empty => exact id
      | «local» pub priv => rintro ⟨data, x, y⟩; exact ⟨data, k2 _ x, y⟩
    · intro p hp
      have m' := m p hp
      have hq : IsMeasurement cfg (currentFile p) := ⟨p, hp, Or.inr (Or.inr rfl)⟩
      rcases r.get (currentFile p) (fun e => isMeasurement_not_isTmp hq (e ▸ (hT.tmp hs).1)) with
        e | ⟨e, -⟩ | ⟨e, -⟩
      · rw [e]; exact m'
      · rw [e] at m'; simp at m'
      · exact absurd hq (e ▸ confFile_not_isMeasurement)
  · refine Or.inr ⟨d, hd, ⟨o1, k1 _ f1, g1⟩, ⟨o2, k2 _ f2, g2⟩, ?_⟩
    intro p hp
    obtain ⟨t, x, h1, h2⟩ := m p hp
    exact ⟨t, x, h1, r.get_measurement hs hT ⟨p, hp, Or.inr (Or.inr rfl)⟩ h2⟩

theorem installConf_after (hs : SafeInput env cfg) :
    Triple (fun s => LoaderDone env cfg s.fs)
      (install env (.store cfg.loaderConfig) cfg.paths.systemdBootLoaderConfig)
      (InstallStep env cfg ld) (fun _ s => LoaderDone env cfg s.fs ∧
        ∃ d d', env.store cfg.loaderConfig = some d ∧ s.fs.fileAt (confFile cfg) = some d' ∧
          env.sha.hash d' = env.sha.hash d) := by
  rw [conf_target]
  have hT : Target env cfg ld true (confFile cfg) := .conf rfl
  refine (((install_triple env (.store cfg.loaderConfig) _ (hT.tmp hs).2.2).carry
    (J := LoaderDone env cfg) (A' := InstallStep env cfg ld) ?_).pre fun s h => ⟨trivial, h⟩).post
    fun _ s h => ⟨h.2, h.1⟩
  intro f c j r
  exact ⟨j.conf_step hs r, .replace hT (r.imp fun x hx => .conf hx rfl)⟩

/-- `install_systemd_boot`. -/
theorem installSystemdBoot_triple (hs : SafeInput env cfg) (hl : ld.loader) :
    Triple (fun _ => True) (installSystemdBoot env cfg) (InstallStep env cfg ld)
      (fun _ s => LoaderDone env cfg s.fs ∧
        ∃ d d', env.store cfg.loaderConfig = some d ∧ s.fs.fileAt (confFile cfg) = some d' ∧
          env.sha.hash d' = env.sha.hash d) := by
  unfold installSystemdBoot
  refine Triple.bind (orM_triple (X := fun f => UpToDate env cfg f cfg.paths.efiFallback)
    (Y := fun f => UpToDate env cfg f cfg.paths.systemdBoot)
    (newerSystemdBoot_triple _ fun _ _ h => h)
    (newerSystemdBoot_triple _ fun _ _ h => h)) fun newer => ?_
  refine Triple.bind (andM_triple (X := fun f => VerifiedAt env f cfg.paths.efiFallback cfg.signer)
    (Y := fun f => VerifiedAt env f cfg.paths.systemdBoot cfg.signer)
    (verifyPath_triple _ _ fun _ _ h => h)
    (verifyPath_triple _ _ fun _ _ h => h)) fun signed => ?_
  refine Triple.bind (measurementExists_triple fun _ _ h => h) fun measured => ?_
  refine Triple.ite (fun _ => ?_) fun hc => ?_
  · refine (Triple.bind ((replaceSystemdBoot_triple hs hl).post fun _ s h => Or.inr h) fun _ =>
      installConf_after hs).pre fun _ _ => trivial
  · refine (installConf_after hs).pre ?_
    rintro s ⟨⟨⟨-, h1⟩, h2⟩, h3⟩
    simp at hc
    obtain ⟨⟨rfl, rfl⟩, rfl⟩ := hc
    rw [fallback_target, systemd_target] at h1 h2
    exact Or.inl ⟨(h1 rfl).1, (h1 rfl).2, (h2 rfl).1, (h2 rfl).2, h3 rfl⟩

end Verif.Tool
