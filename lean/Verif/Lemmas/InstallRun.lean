import Verif.Lemmas.InstallSteps
import Verif.Lemmas.Roots
/-!
# The functions of the installer make no other changes than `InstallStep`
-/
namespace Verif.Tool
open Verif StubName Generation

variable {env : Env} {cfg : Config} {ld : Scope}

theorem replaceChar_slash {l : List Str} (h : ∀ x ∈ l, '/' ∉ x) :
    replaceChar '/' '\\' (joinWith ['/'] l) = joinWith ['\\'] l := replaceChar_joinWith _ _ _ h

theorem espRelative_caFile (esp : Path) {l : Str} (hl : '/' ∉ l) (h : Bytes) :
    espRelativeUefiPath esp (caFile esp l h) =
      some (uefiText [lit "EFI", lit "nixos", caName l h]) := by
  have e : caFile esp l h = esp ++ [lit "EFI", lit "nixos", caName l h] := by simp [caFile, caName]
  have hp : (esp : List Str).isPrefixOf (esp ++ [lit "EFI", lit "nixos", caName l h]) = true := by
    simp [List.isPrefixOf_iff_prefix]
  rw [e]
  simp only [espRelativeUefiPath, Path.stripPrefix, hp, if_true, List.drop_left, uefiPath, uefiText]
  rw [replaceChar_slash]
  intro x hx
  simp only [List.mem_cons, List.not_mem_nil, or_false] at hx
  rcases hx with rfl | rfl | rfl
  · decide
  · decide
  · exact (caName_plain hl h).no_slash

theorem joinWith_pathText (p : Path) : (lit "init=" ++ pathText p) = lit "init=/" ++ joinWith ['/'] p := by
  have : (lit "init=/" : Str) = lit "init=" ++ ['/'] := by decide
  rw [this, pathText]; simp

theorem cmdline_eq (g : Gen) :
    joinWith [' '] (assembleKernelCmdline g.spec.init g.spec.kernelParams) = cmdlineOf g := by
  rw [assembleKernelCmdline, joinWith_pathText]; rfl

/-! ### Content-addressed files -/

theorem installNixosCa_triple (env : Env) (cfg : Config) (src : Src) {label : Str}
    (hl : '/' ∉ label) :
    Triple (fun _ => True) (installNixosCa env cfg src label)
      (fun f c => ∃ d, env.content src = some d ∧
        Replaces (caFile cfg.esp label (env.sha.hash d)) (· = d) true f c)
      (fun to s => ∃ d, env.content src = some d ∧ to = caFile cfg.esp label (env.sha.hash d) ∧
        to ∈ s.roots ∧ Present env s.fs to (env.sha.hash d)) := by
  unfold installNixosCa
  refine Triple.bind (hashSrc_triple (fun _ _ h => h) env src) fun h => ?_
  intro s hs
  obtain ⟨-, d, hd, rfl⟩ := hs
  have e := kernel_target cfg hl (env.sha.hash d)
  rw [e]
  have hne := caFile_tmp_ne cfg.esp hl (env.sha.hash d)
  revert s
  suffices Triple (fun _ => True) _ _ _ from fun s => this s trivial
  refine Triple.bind (Q := fun _ s => caFile cfg.esp label (env.sha.hash d) ∈ s.roots)
    (extendRoots_triple _ fun s _ => by simp) fun _ => ?_
  refine Triple.bind (Q := fun _ s => (∃ d₁ d', env.content src = some d₁ ∧
      s.fs.fileAt (caFile cfg.esp label (env.sha.hash d)) = some d' ∧
      env.sha.hash d' = env.sha.hash d₁) ∧
      ∀ p ∈ [caFile cfg.esp label (env.sha.hash d)], p ∈ s.roots) ?_ fun _ => ?_
  · refine (Triple.carryRoots (R := [caFile cfg.esp label (env.sha.hash d)])
      ((install_triple env src _ hne).steps ?_)).pre fun s hs => ⟨trivial, by simpa using hs⟩
    intro f c h
    exact ⟨d, hd, h.imp fun x hx => by rw [hd] at hx; exact (Option.some.inj hx).symm⟩
  · refine Triple.pure ?_
    rintro s ⟨⟨d₁, d', h1, h2, h3⟩, hr⟩
    rw [hd] at h1
    cases h1
    exact ⟨d, hd, rfl, hr _ (by simp), d', h2, h3⟩

/-- The initrd that is going to be installed. -/
theorem initrdLocation_triple (env : Env) (b : BootSpec) {A : Fs → Change → Prop}
    {P : State → Prop} (hP : Ticks P) :
    Triple P (initrdLocation env b) A
      (fun src s => P s ∧ ∀ d, env.content src = some d → InitrdOf env b d) := by
  unfold initrdLocation
  split
  · next script hsc =>
    refine Triple.bind (ofOption_triple (P := P) b.initrd) fun p => ?_
    refine Triple.bind (readSrc_triple (P := fun s => P s ∧ b.initrd = some p)
      (fun _ _ h => ⟨hP _ _ h.1, h.2⟩) env (.store p)) fun d => ?_
    refine Triple.bind (writeSecureFile_triple
      (P := fun s => (P s ∧ b.initrd = some p) ∧ env.content (.store p) = some d)
      (fun _ _ h => ⟨⟨hP _ _ h.1.1, h.1.2⟩, h.2⟩) env d) fun d' => ?_
    refine Triple.bind (Q := fun x s => P s ∧ ∃ t, b.initrd = some p ∧ env.store p = some d ∧
      env.secrets t script d = some x) ?_ fun x => ?_
    · unfold appendInitrdSecrets
      refine Triple.bind (Triple.guarded env.os fun _ _ h => ⟨⟨⟨hP _ _ h.1.1.1, h.1.1.2⟩, h.1.2⟩, h.2⟩)
        fun _ => ?_
      refine Triple.bind (Triple.next fun _ _ h => ⟨⟨⟨hP _ _ h.1.1.1, h.1.1.2⟩, h.1.2⟩, h.2⟩)
        fun t => ?_
      refine (ofOption_triple _).post ?_
      rintro x s ⟨⟨⟨⟨h0, h1⟩, h2⟩, rfl⟩, h3⟩
      exact ⟨h0, t, h1, h2, h3⟩
    · refine Triple.pure ?_
      rintro s ⟨h0, t, h1, h2, h3⟩
      refine ⟨h0, fun y hy => ?_⟩
      cases hy
      refine ⟨p, d, h1, h2, ?_⟩
      rw [hsc]
      exact ⟨t, h3⟩
  · next hsc =>
    refine Triple.bind (expectSome_triple (P := P) b.initrd) fun p => ?_
    refine Triple.pure ?_
    rintro s ⟨h0, h1⟩
    refine ⟨h0, fun y hy => ⟨p, y, h1, hy, ?_⟩⟩
    rw [hsc]

/-! ### The stub image -/

theorem stubParameters_triple (cfg : Config) (g : Gen) (initrd : Src) (kt it : Path)
    {A : Fs → Change → Prop} {P : State → Prop} :
    Triple P (stubParameters cfg g initrd kt it) A
      (fun ps s => P s ∧ ∃ k i, espRelativeUefiPath cfg.esp kt = some k ∧
        espRelativeUefiPath cfg.esp it = some i ∧
        ps = { lanzabooteStorePath := cfg.lanzabooteStub
               kernelCmdline := assembleKernelCmdline g.spec.init g.spec.kernelParams
               osReleaseContents := utf8 (OsRelease.display (osRelease g))
               kernelStorePath := g.spec.kernel
               initrdStorePath := initrd
               kernelPathAtEsp := k
               initrdPathAtEsp := i }) := by
  unfold stubParameters
  refine Triple.bind (ofOption_triple (P := P) _) fun k => ?_
  refine Triple.bind (ofOption_triple _) fun i => ?_
  refine Triple.pure ?_
  rintro s ⟨⟨h0, h1⟩, h2⟩
  exact ⟨h0, k, i, h1, h2, rfl⟩

theorem fileSize_triple (env : Env) (d : Bytes) {A : Fs → Change → Prop} {P : State → Prop}
    (hP : Ticks P) :
    Triple P (fileSize env d) A (fun n s => P s ∧ n = UInt64.ofNat d.length) := by
  unfold fileSize
  exact Triple.bind (Triple.guarded env.os hP) fun _ => Triple.pure fun s h => ⟨h, rfl⟩

/-- `lanzaboote_image` builds the stub from exactly the sections computed from its parameters. -/
theorem lanzabooteImage_triple (env : Env) (p : StubParameters) {A : Fs → Change → Prop}
    {P : State → Prop} (hP : Ticks P) :
    Triple P (lanzabooteImage env p) A
      (fun image s => P s ∧ ∃ kd id stub offset t, env.store p.kernelStorePath = some kd ∧
        env.content p.initrdStorePath = some id ∧ env.store p.lanzabooteStorePath = some stub ∧
        stubOffset env stub = .ok offset ∧
        env.objcopy t stub (stubSections offset p.osReleaseContents
          (utf8 (joinWith [' '] p.kernelCmdline)) (utf8 p.initrdPathAtEsp) (utf8 p.kernelPathAtEsp)
          (env.sha.hash id) (env.sha.hash kd)
          [UInt64.ofNat p.osReleaseContents.length,
           UInt64.ofNat (utf8 (joinWith [' '] p.kernelCmdline)).length,
           UInt64.ofNat (utf8 p.initrdPathAtEsp).length,
           UInt64.ofNat (utf8 p.kernelPathAtEsp).length,
           UInt64.ofNat (env.sha.hash id).length]) = some image) := by
  unfold lanzabooteImage
  refine Triple.bind (writeSecureFile_triple hP env _) fun cmdline => ?_
  refine fun s hs => ?_
  obtain ⟨hs, rfl⟩ := hs
  revert s
  refine Triple.bind (writeSecureFile_triple hP env _) fun kernelPath => ?_
  refine fun s hs => ?_
  obtain ⟨hs, rfl⟩ := hs
  revert s
  refine Triple.bind (hashSrc_triple hP env _) fun kh => ?_
  refine fun s hs => ?_
  obtain ⟨hs, kd, hkd, rfl⟩ := hs
  revert s
  refine Triple.bind (writeSecureFile_triple hP env _) fun kh => ?_
  refine fun s hs => ?_
  obtain ⟨hs, rfl⟩ := hs
  revert s
  refine Triple.bind (writeSecureFile_triple hP env _) fun initrdPath => ?_
  refine fun s hs => ?_
  obtain ⟨hs, rfl⟩ := hs
  revert s
  refine Triple.bind (hashSrc_triple hP env _) fun kh => ?_
  refine fun s hs => ?_
  obtain ⟨hs, id, hid, rfl⟩ := hs
  revert s
  refine Triple.bind (writeSecureFile_triple hP env _) fun ih => ?_
  refine fun s hs => ?_
  obtain ⟨hs, rfl⟩ := hs
  revert s
  refine Triple.bind (writeSecureFile_triple hP env _) fun osr => ?_
  refine fun s hs => ?_
  obtain ⟨hs, rfl⟩ := hs
  revert s
  refine Triple.bind (readSrc_triple hP env _) fun stub => ?_
  refine fun s hs => ?_
  obtain ⟨hs, hstub⟩ := hs
  revert s
  refine Triple.bind (ofRes_triple _) fun offset => ?_
  refine fun s hs => ?_
  obtain ⟨hs, hoff⟩ := hs
  revert s
  refine Triple.bind (fileSize_triple env _ hP) fun n => ?_
  refine fun s hs => ?_
  obtain ⟨hs, rfl⟩ := hs
  revert s
  refine Triple.bind (fileSize_triple env _ hP) fun n => ?_
  refine fun s hs => ?_
  obtain ⟨hs, rfl⟩ := hs
  revert s
  refine Triple.bind (fileSize_triple env _ hP) fun n => ?_
  refine fun s hs => ?_
  obtain ⟨hs, rfl⟩ := hs
  revert s
  refine Triple.bind (fileSize_triple env _ hP) fun n => ?_
  refine fun s hs => ?_
  obtain ⟨hs, rfl⟩ := hs
  revert s
  refine Triple.bind (fileSize_triple env _ hP) fun n => ?_
  refine fun s hs => ?_
  obtain ⟨hs, rfl⟩ := hs
  revert s
  refine Triple.bind (readSrc_triple hP env _) fun stub' => ?_
  refine fun s hs => ?_
  obtain ⟨hs, hstub'⟩ := hs
  rw [hstub] at hstub'
  cases hstub'
  revert s
  unfold wrapInPe
  refine Triple.bind (Triple.guarded env.os hP) fun _ => ?_
  refine Triple.bind (Triple.next hP) fun t => ?_
  refine (ofOption_triple _).post ?_
  rintro image s ⟨hs, him⟩
  exact ⟨hs, kd, id, stub, offset, t, hkd, hid, hstub, hoff, him⟩

theorem getPublicKey_triple (env : Env) (signer : Signer) {A : Fs → Change → Prop}
    {P : State → Prop} (hP : Ticks P) :
    Triple P (signer.getPublicKey env) A (fun key s => P s ∧ KeyOf env signer key) := by
  cases signer with
  | empty => exact Triple.pure fun s h => ⟨h, rfl⟩
  | «local» pub priv => exact readSrc_triple hP env _

/-! ### Installing a generation -/

/-- The state after `g` was installed anew. -/
structure Fresh (env : Env) (cfg : Config) (g : Gen) (s : State) : Prop where
  ex : ∃ key kd id image out v, KeyOf env cfg.signer key ∧ kernelVersion g.spec.kernel = some v ∧
    env.store g.spec.kernel = some kd ∧ InitrdOf env g.spec id ∧
    ImageOf env cfg g v kd id image ∧ SignedBy env cfg.signer image out ∧
    s.fs.fileAt (entryFile cfg.esp (stubName env.sha g key cfg.tries)) = some out ∧
    Present env s.fs (kernelFile env cfg v kd) (env.sha.hash kd) ∧
    Present env s.fs (initrdFile env cfg v id) (env.sha.hash id) ∧
    (∀ p, cfg.pcrlockDirectory = some p → ∃ t m, env.lockPe t image = some m ∧
      s.fs.fileAt (measurementFile p g) = some m ∧ measurementFile p g ∈ s.roots) ∧
    entryFile cfg.esp (stubName env.sha g key cfg.tries) ∈ s.roots ∧
    kernelFile env cfg v kd ∈ s.roots ∧ initrdFile env cfg v id ∈ s.roots

/-- The state after `g` was installed anew, when `R` were the paths in use before. -/
structure FreshFrom (env : Env) (cfg : Config) (g : Gen) (R : List Path) (s : State) : Prop where
  ex : ∃ key kd id image out v, KeyOf env cfg.signer key ∧ kernelVersion g.spec.kernel = some v ∧
    env.store g.spec.kernel = some kd ∧ InitrdOf env g.spec id ∧
    ImageOf env cfg g v kd id image ∧ SignedBy env cfg.signer image out ∧
    s.fs.fileAt (entryFile cfg.esp (stubName env.sha g key cfg.tries)) = some out ∧
    Present env s.fs (kernelFile env cfg v kd) (env.sha.hash kd) ∧
    Present env s.fs (initrdFile env cfg v id) (env.sha.hash id) ∧
    (∀ p, cfg.pcrlockDirectory = some p → ∃ t m, env.lockPe t image = some m ∧
      s.fs.fileAt (measurementFile p g) = some m) ∧
    s.roots = R ++ [kernelFile env cfg v kd, initrdFile env cfg v id] ++ measurements cfg g ++
      [entryFile cfg.esp (stubName env.sha g key cfg.tries)]

theorem FreshFrom.fresh {g : Gen} {R : List Path} {s : State} (h : FreshFrom env cfg g R s) :
    Fresh env cfg g s := by
  obtain ⟨key, kd, id, image, out, v, hkey, hv, hkd, hid, hi, hsg, hf, jk, ji, jm, hr⟩ := h.ex
  refine ⟨key, kd, id, image, out, v, hkey, hv, hkd, hid, hi, hsg, hf, jk, ji, ?_,
    by simp [hr], by simp [hr], by simp [hr]⟩
  intro p hp
  obtain ⟨t, m, h1, h2⟩ := jm p hp
  exact ⟨t, m, h1, h2, by simp [hr, measurements, hp]⟩

theorem measureImage_triple (hs : SafeInput env cfg) {g : Gen} (hg : Considers env cfg g) (ho : ld.gens g)
    (image : Bytes) :
    Triple (fun _ => True) (measureImage env cfg g image) (InstallStep env cfg ld)
      (fun _ s => ∀ p, cfg.pcrlockDirectory = some p → ∃ t m, env.lockPe t image = some m ∧
        s.fs.fileAt (measurementFile p g) = some m ∧ measurementFile p g ∈ s.roots) := by
  unfold measureImage Config.pcrlock
  cases hp : cfg.pcrlockDirectory with
  | none => exact Triple.pure fun s _ p h => by cases h
  | some p =>
    dsimp only [Option.map_some]
    rw [measurement_target p (hs g hg)]
    refine Triple.bind (Q := fun _ s => ∃ t m, env.lockPe t image = some m ∧
      s.fs.fileAt (measurementFile p g) = some m) ?_ fun _ => ?_
    · refine (lockPe_triple env (.temp image) _).weaken (fun _ h => h)
        (fun f c h => .measured hg ho hp h) ?_
      rintro _ s ⟨t, d, m, h1, h2, h3⟩
      cases h1
      exact ⟨t, m, h2, h3⟩
    · refine extendRoots_triple _ ?_
      rintro s ⟨t, m, h1, h2⟩ p' hp'
      cases hp'
      exact ⟨t, m, h1, h2, by simp⟩

theorem installNewGeneration_exact (hs : SafeInput env cfg) {g : Gen} (hg : Considers env cfg g)
    (ho : ld.gens g) (R : List Path) :
    Triple (fun s => s.roots = R) (installNewGeneration env cfg g) (InstallStep env cfg ld)
      (fun _ s => FreshFrom env cfg g R s) := by
  have hsafe := hs g hg
  unfold installNewGeneration
  refine Triple.bind (Triple.guarded env.os fun _ _ h => h) fun _ => ?_
  refine Triple.bind (ofOption_triple _) fun v => ?_
  refine fun s h0 => ?_
  obtain ⟨hR, hv⟩ := h0
  revert s
  suffices Triple (fun s => s.roots = R) _ _ _ from fun s => this s
  -- the kernel
  refine Triple.bind (Q := fun kt s => ∃ kd, env.store g.spec.kernel = some kd ∧
    kt = kernelFile env cfg v kd ∧ Present env s.fs kt (env.sha.hash kd) ∧ s.roots = R ++ [kt]) ?_
    fun kt => ?_
  · refine (((installNixosCa_triple env cfg _ (kernelVersion_label hsafe hv _ (by decide))).adds
      (installNixosCa_adds env cfg _ (kernelVersion_label hsafe hv _ (by decide)))).weaken
      (fun s h => ⟨trivial, h⟩) ?_ ?_)
    · rintro f c ⟨d, hd, h⟩
      exact .replace (.kernel hg ho hv hd rfl) (h.imp fun x hx => by subst hx; exact .kernel hg ho hv hd rfl)
    · rintro kt s ⟨⟨kd, h1, h2, -, h3⟩, l, h4, d, -, -, rfl⟩
      exact ⟨kd, h1, h2, h3, h4⟩
  refine fun s h0 => ?_
  obtain ⟨kd, hkd, rfl, hkp, hkr⟩ := h0
  have hP1 : Present env s.fs (kernelFile env cfg v kd) (env.sha.hash kd) ∧
      s.roots = R ++ [kernelFile env cfg v kd] := ⟨hkp, hkr⟩
  clear hkr hkp
  revert s
  suffices Triple (fun s => Present env s.fs (kernelFile env cfg v kd) (env.sha.hash kd) ∧
      s.roots = R ++ [kernelFile env cfg v kd]) _ _ _ from fun s h => this s h
  -- the initrd
  refine Triple.bind (initrdLocation_triple env g.spec fun _ _ h => h) fun src => ?_
  refine fun s h0 => ?_
  obtain ⟨h0, hsrc⟩ := h0
  revert s
  suffices Triple (fun s => Present env s.fs (kernelFile env cfg v kd) (env.sha.hash kd) ∧
      s.roots = R ++ [kernelFile env cfg v kd]) _ _ _ from fun s h => this s h
  refine Triple.bind (Q := fun it s => ∃ id, env.content src = some id ∧
    it = initrdFile env cfg v id ∧ (Present env s.fs it (env.sha.hash id) ∧
    Present env s.fs (kernelFile env cfg v kd) (env.sha.hash kd)) ∧
    s.roots = R ++ [kernelFile env cfg v kd, it]) ?_ fun it => ?_
  · refine ((Triple.carry
      (J := fun f => Present env f (kernelFile env cfg v kd) (env.sha.hash kd))
      (A' := InstallStep env cfg ld)
      (installNixosCa_triple env cfg src (kernelVersion_label hsafe hv (lit "initrd-") (by decide)))
      ?_).adds (installNixosCa_adds env cfg _ (kernelVersion_label hsafe hv (lit "initrd-") (by decide)))).weaken
      (fun s h => ⟨⟨trivial, h.1⟩, h.2⟩) (fun _ _ h => h) ?_
    · rintro f c hj ⟨d, hd, h⟩
      have st : InstallStep env cfg ld f c := .replace (.initrd hg ho hv (hsrc d hd) rfl)
        (h.imp fun x hx => by subst hx; exact .initrd hg ho hv (hsrc _ hd) rfl)
      exact ⟨st.present hs (env.sha.len _) hj, st⟩
    · rintro it s ⟨⟨⟨id, h1, h2, -, h3⟩, h4⟩, l, h5, d, -, -, rfl⟩
      exact ⟨id, h1, h2, ⟨h3, h4⟩, by simpa using h5⟩
  refine fun s h0 => ?_
  obtain ⟨id, hid, rfl, ⟨hip, hkp⟩, hr⟩ := h0
  have hP1 : (Present env s.fs (kernelFile env cfg v kd) (env.sha.hash kd) ∧
      Present env s.fs (initrdFile env cfg v id) (env.sha.hash id)) ∧
      s.roots = R ++ [kernelFile env cfg v kd, initrdFile env cfg v id] := ⟨⟨hkp, hip⟩, hr⟩
  clear hkp hr hip
  have hidof := hsrc id hid
  revert s
  suffices Triple (fun s => (Present env s.fs (kernelFile env cfg v kd) (env.sha.hash kd) ∧
      Present env s.fs (initrdFile env cfg v id) (env.sha.hash id)) ∧
      s.roots = R ++ [kernelFile env cfg v kd, initrdFile env cfg v id]) _ _ _ from
    fun s h => this s h
  -- the image
  refine Triple.bind (stubParameters_triple cfg g src _ _) fun ps => ?_
  refine fun s h0 => ?_
  obtain ⟨h0, k, i, hk, hi, rfl⟩ := h0
  rw [espRelative_caFile _ (kernelVersion_label hsafe hv _ (by decide))] at hk
  rw [espRelative_caFile _ (kernelVersion_label hsafe hv _ (by decide))] at hi
  cases hk
  cases hi
  revert s
  refine Triple.bind (lanzabooteImage_triple env _ fun _ _ h => h) fun image => ?_
  refine fun s h0 => ?_
  obtain ⟨h0, kd', id', stub, offset, t, e1, e2, e3, e4, e5⟩ := h0
  dsimp only at e1 e2 e3 e5
  rw [hkd] at e1
  cases e1
  rw [hid] at e2
  cases e2
  rw [cmdline_eq] at e5
  have himage : ImageOf env cfg g v kd id image := ⟨stub, offset, t, e3, e4, e5⟩
  clear e3 e4 e5
  revert s
  -- the measurement
  refine Triple.bind (Q := fun _ s => ((∀ p, cfg.pcrlockDirectory = some p → ∃ t m,
      env.lockPe t image = some m ∧ s.fs.fileAt (measurementFile p g) = some m) ∧
      Present env s.fs (kernelFile env cfg v kd) (env.sha.hash kd) ∧
      Present env s.fs (initrdFile env cfg v id) (env.sha.hash id)) ∧
      s.roots = R ++ [kernelFile env cfg v kd, initrdFile env cfg v id] ++ measurements cfg g)
      ?_ fun _ => ?_
  · refine ((Triple.carry (J := fun f => Present env f (kernelFile env cfg v kd) (env.sha.hash kd) ∧
        Present env f (initrdFile env cfg v id) (env.sha.hash id))
        (measureImage_triple (ld := ld) hs hg ho image) ?_).adds (measureImage_adds hsafe image)).weaken
        (fun s h => ⟨⟨trivial, h.1⟩, h.2⟩) (fun _ _ h => h) ?_
    · rintro f c ⟨j1, j2⟩ st
      exact ⟨⟨st.present hs (env.sha.len _) j1, st.present hs (env.sha.len _) j2⟩, st⟩
    · rintro _ s ⟨⟨h1, h2⟩, l, h3, rfl⟩
      refine ⟨⟨fun p hp => ?_, h2⟩, h3⟩
      obtain ⟨t, m, a, b, -⟩ := h1 p hp
      exact ⟨t, m, a, b⟩
  -- the stub
  refine Triple.bind (getPublicKey_triple env cfg.signer fun _ _ h => h) fun key => ?_
  rw [stub_target hsafe]
  refine fun s h0 => ?_
  obtain ⟨hP, hkey⟩ := h0
  revert s
  suffices Triple (fun s => ((∀ p, cfg.pcrlockDirectory = some p → ∃ t m,
      env.lockPe t image = some m ∧ s.fs.fileAt (measurementFile p g) = some m) ∧
      Present env s.fs (kernelFile env cfg v kd) (env.sha.hash kd) ∧
      Present env s.fs (initrdFile env cfg v id) (env.sha.hash id)) ∧
      s.roots = R ++ [kernelFile env cfg v kd, initrdFile env cfg v id] ++ measurements cfg g)
      _ _ _ from fun s h => this s h
  refine Triple.bind (Q := fun _ s => ((∀ p, cfg.pcrlockDirectory = some p → ∃ t m,
      env.lockPe t image = some m ∧ s.fs.fileAt (measurementFile p g) = some m) ∧
      Present env s.fs (kernelFile env cfg v kd) (env.sha.hash kd) ∧
      Present env s.fs (initrdFile env cfg v id) (env.sha.hash id)) ∧
      s.roots = R ++ [kernelFile env cfg v kd, initrdFile env cfg v id] ++ measurements cfg g ++
        [entryFile cfg.esp (stubName env.sha g key cfg.tries)])
    (extendRoots_triple _ ?_) fun _ => ?_
  · rintro s ⟨h1, h2⟩
    exact ⟨h1, by simp [h2]⟩
  have hT : Target env cfg ld false (entryFile cfg.esp (stubName env.sha g key cfg.tries)) :=
    .entry hg ho hkey rfl
  refine ((Triple.keepRoots (Triple.carry (J := fun f => (∀ p, cfg.pcrlockDirectory = some p → ∃ t m,
      env.lockPe t image = some m ∧ f.fileAt (measurementFile p g) = some m) ∧
      Present env f (kernelFile env cfg v kd) (env.sha.hash kd) ∧
      Present env f (initrdFile env cfg v id) (env.sha.hash id)) (A' := InstallStep env cfg ld)
    (installSigned_triple env cfg.signer (.temp image) _ (hT.tmp hs).2.2) ?_)
    (.installSigned _ _ _ _)).pre fun s h => ⟨⟨trivial, h.1⟩, h.2⟩).post ?_
  · rintro f c ⟨jm, jk, ji⟩ r
    have st : InstallStep env cfg ld f c := .replace hT (r.imp fun x hx => by
      obtain ⟨d, hd, hsg⟩ := hx
      cases hd
      exact .entry hg ho hkey hv hkd hidof himage hsg jk ji rfl)
    refine ⟨⟨?_, st.present hs (env.sha.len _) jk, st.present hs (env.sha.len _) ji⟩, st⟩
    intro p hp
    obtain ⟨t, m, h1, h2⟩ := jm p hp
    exact ⟨t, m, h1, r.get_measurement hs hT ⟨p, hp, Or.inl ⟨g, rfl⟩⟩ h2⟩
  · rintro _ s ⟨⟨⟨d, out, hd, hsg, hf⟩, jm, jk, ji⟩, hr⟩
    cases hd
    exact ⟨key, kd, id, image, out, v, hkey, hv, hkd, hidof, himage, hsg, hf, jk, ji, jm, hr⟩

theorem installNewGeneration_triple (hs : SafeInput env cfg) {g : Gen} (hg : Considers env cfg g)
    (ho : ld.gens g) :
    Triple (fun _ => True) (installNewGeneration env cfg g) (InstallStep env cfg ld)
      (fun _ s => Fresh env cfg g s) := fun s _ =>
  ((installNewGeneration_exact hs hg ho s.roots).post fun _ _ h => h.fresh) s rfl

/-! ### Generations that are installed already -/

theorem readDir_triple (os : Os) (p : Path) {A : Fs → Change → Prop} {P : State → Prop}
    (hP : Ticks P) :
    Triple P (readDir os p) A (fun l s => P s ∧ ∀ q ∈ l, ∃ n, q = p ++ [n]) := by
  unfold readDir
  refine Triple.bind (Triple.guarded os hP) fun _ => ?_
  refine Triple.bind (Triple.next hP) fun t => ?_
  refine Triple.bind (Triple.getFs (Q := fun _ s => P s) fun s h => h) fun fs => ?_
  refine Triple.bind (Triple.require (Q := fun _ s => P s) fun s h _ => h) fun _ => ?_
  refine Triple.pure fun s h => ⟨h, fun q hq => ?_⟩
  obtain ⟨n, -, rfl⟩ := List.mem_map.1 (os.list_sub t _ q hq)
  exact ⟨n, rfl⟩

theorem sectionPath_triple (env : Env) (cfg : Config) (stub : Bytes) (name : Str)
    {A : Fs → Change → Prop} {P : State → Prop} :
    Triple P (sectionPath env cfg stub name) A (fun p s => P s ∧ ∃ b,
      FileSection env stub name b ∧ resolveEfiPath cfg.esp b = .ok p) := by
  unfold sectionPath
  refine Triple.bind (ofRes_triple _) fun o => ?_
  refine Triple.bind (ofOption_triple _) fun b => ?_
  refine (ofRes_triple _).post ?_
  rintro p s ⟨⟨⟨h0, h1⟩, h2⟩, h3⟩
  subst h2
  exact ⟨h0, b, (readSectionData_iff env stub name b).1 h1, h3⟩

/-- `read_installed_generation` found an entry `stub` of the right name that refers to existing
`kernel` and `initrd`. -/
structure Found (env : Env) (cfg : Config) (pfx : Str) (fs : Fs) (stub kernel initrd : Path) :
    Prop where
  ex : ∃ n data kb ib, stub = entryFile cfg.esp n ∧ isMatch env.uni pfx n = true ∧
    fs.fileAt stub = some data ∧ FileSection env data (lit ".linux") kb ∧
    resolveEfiPath cfg.esp kb = .ok kernel ∧ FileSection env data (lit ".initrd") ib ∧
    resolveEfiPath cfg.esp ib = .ok initrd ∧ (fs.get kernel).isSome ∧ (fs.get initrd).isSome

theorem readInstalledGeneration_triple (env : Env) (cfg : Config) (pfx : Str)
    {A : Fs → Change → Prop} :
    Triple (fun _ => True) (readInstalledGeneration env cfg pfx) A
      (fun r s => Found env cfg pfx s.fs r.1 r.2.1 r.2.2) := by
  unfold readInstalledGeneration
  refine Triple.bind (readDir_triple env.os _ fun _ _ h => h) fun entries => ?_
  refine Triple.bind (ofOption_triple _) fun stub => ?_
  refine fun s h0 => ?_
  obtain ⟨⟨-, he⟩, hm⟩ := h0
  have hmem : stub ∈ matchingEntries env pfx entries := List.mem_of_head? hm
  unfold matchingEntries at hmem
  rw [List.mem_filter] at hmem
  obtain ⟨n, rfl⟩ := he _ hmem.1
  have hmatch : isMatch env.uni pfx n = true := by simpa using hmem.2
  have hstub : cfg.paths.linux ++ [n] = entryFile cfg.esp n := by rw [paths_linux]; simp [entryFile]
  rw [hstub]
  clear he hm hmem
  revert s
  suffices Triple (fun _ => True) _ _ _ from fun s => this s trivial
  refine Triple.bind (readFs_triple (fun _ _ h => h) env.os _) fun data => ?_
  refine Triple.bind (sectionPath_triple env cfg data _) fun kernel => ?_
  refine Triple.bind (sectionPath_triple env cfg data _) fun initrd => ?_
  refine Triple.bind (pathExists_triple (fun _ _ h => h) env.os kernel) fun k => ?_
  refine Triple.ite (fun _ => Triple.throw) fun hk => ?_
  refine Triple.bind (pathExists_triple (fun _ _ h => h) env.os initrd) fun i => ?_
  refine Triple.ite (fun _ => Triple.throw) fun hi => ?_
  refine Triple.pure ?_
  rintro s ⟨⟨⟨⟨⟨-, h1⟩, kb, h2, h3⟩, ib, h4, h5⟩, h6⟩, h7⟩
  exact ⟨n, data, kb, ib, rfl, hmatch, h1, h2, h3, h4, h5, h6 (by simpa using hk),
    h7 (by simpa using hi)⟩

/-- The state after `g` was found installed. -/
structure Kept (env : Env) (cfg : Config) (g : Gen) (s : State) : Prop where
  ex : ∃ key stub kernel initrd, KeyOf env cfg.signer key ∧
    Found env cfg (stubPrefix env.sha g key) s.fs stub kernel initrd ∧
    (stub ∈ s.roots ∧ kernel ∈ s.roots ∧ initrd ∈ s.roots) ∧
    ∀ p, cfg.pcrlockDirectory = some p →
      (s.fs.get (measurementFile p g)).isSome ∧ measurementFile p g ∈ s.roots

theorem registerInstalledGeneration_triple {g : Gen} (hg : SafeGen g) {A : Fs → Change → Prop} :
    Triple (fun _ => True) (registerInstalledGeneration env cfg g) A
      (fun b s => b = true → Kept env cfg g s) := by
  unfold registerInstalledGeneration
  refine Triple.bind (getPublicKey_triple env cfg.signer fun _ _ h => h) fun key => ?_
  refine fun s h0 => ?_
  obtain ⟨-, hkey⟩ := h0
  revert s
  suffices Triple (fun _ => True) _ _ _ from fun s => this s trivial
  refine Triple.bind (Triple.attempt (readInstalledGeneration_triple env cfg _)) fun o => ?_
  cases o with
  | none => exact Triple.pure fun _ _ h => by cases h
  | some r =>
    obtain ⟨stub, kernel, initrd⟩ := r
    refine Triple.bind (Q := fun _ s => Found env cfg (stubPrefix env.sha g key) s.fs stub kernel
      initrd ∧ stub ∈ s.roots ∧ kernel ∈ s.roots ∧ initrd ∈ s.roots)
      (extendRoots_triple _ fun s h => ⟨h _ rfl, by simp⟩) fun _ => ?_
    unfold registerMeasurement Config.pcrlock
    cases hp : cfg.pcrlockDirectory with
    | none =>
      refine Triple.pure ?_
      rintro s ⟨h1, h2⟩ -
      exact ⟨key, stub, kernel, initrd, hkey, h1, h2, fun p hp' => by rw [hp] at hp'; cases hp'⟩
    | some p =>
      dsimp only [Option.map_some]
      rw [measurement_target p hg]
      refine Triple.bind (pathExists_triple (fun _ _ h => h) env.os _) fun b => ?_
      refine Triple.ite (fun hb => ?_) fun hb => Triple.pure fun _ _ h => by cases h
      refine Triple.bind (Q := fun _ s => Kept env cfg g s) (extendRoots_triple _ ?_) fun _ =>
        Triple.pure fun _ h _ => h
      rintro s ⟨⟨h1, h2, h3, h4⟩, h5⟩
      refine ⟨key, stub, kernel, initrd, hkey, h1, ⟨?_, ?_, ?_⟩, ?_⟩
      · exact List.mem_append_left _ h2
      · exact List.mem_append_left _ h3
      · exact List.mem_append_left _ h4
      · intro p' hp'
        rw [hp] at hp'
        cases hp'
        exact ⟨h5 hb, by simp⟩

/-- `install_generation`. -/
theorem installGeneration_triple (hs : SafeInput env cfg) {g : Gen} (hg : Considers env cfg g) (ho : ld.gens g) :
    Triple (fun _ => True) (installGeneration env cfg g) (InstallStep env cfg ld)
      (fun _ s => Kept env cfg g s ∨ Fresh env cfg g s) := by
  unfold installGeneration
  refine Triple.bind (registerInstalledGeneration_triple (hs g hg)) fun b => ?_
  refine Triple.ite (fun hb => Triple.pure fun s h => Or.inl (h hb)) fun hb => ?_
  exact (installNewGeneration_triple hs hg ho).weaken (fun _ _ => trivial) (fun _ _ h => h)
    fun _ _ h => Or.inr h

theorem Scope.InstallStep_mono {ld ld' : Scope} (h1 : ∀ g, ld.gens g → ld'.gens g)
    (h2 : ld.loader → ld'.loader) (h3 : ld.sync → ld'.sync) {f : Fs} {c : Change} (h : InstallStep env cfg ld f c) :
    InstallStep env cfg ld' f c := by
  have hT : ∀ {dur q}, Target env cfg ld dur q → Target env cfg ld' dur q := by
    intro dur q t
    cases t with
    | kernel a b c d e => exact .kernel a (h1 _ b) c d e
    | initrd a b c d e => exact .initrd a (h1 _ b) c d e
    | entry a b c e => exact .entry a (h1 _ b) c e
    | loader a e => exact .loader (h2 a) e
    | conf e => exact .conf e
  have hN : ∀ {f q d}, NewContent env cfg ld f q d → NewContent env cfg ld' f q d := by
    intro f q d t
    cases t with
    | kernel a b c d e => exact .kernel a (h1 _ b) c d e
    | initrd a b c d e => exact .initrd a (h1 _ b) c d e
    | entry a b c d e f g h i j k => exact .entry a (h1 _ b) c d e f g h i j k
    | loader a b c d e => exact .loader (h2 a) b c d e
    | conf a e => exact .conf a e
  cases h with
  | replace t r => exact .replace (hT t) (r.imp fun d => hN)
  | measured a b c d => exact .measured a (h1 _ b) c d
  | next a b c => exact .next (h2 a) b c
  | current a b c d e f g h i j k => exact .current (h2 a) b c d e f g h i j k
  | sync h e => exact .sync (h3 h) e

theorem InstallStep.all {f : Fs} {c : Change} (h : InstallStep env cfg ld f c) :
    InstallStep env cfg .all f c := Scope.InstallStep_mono (fun _ _ => trivial) (fun _ => trivial)
      (fun _ => trivial) h

end Verif.Tool
