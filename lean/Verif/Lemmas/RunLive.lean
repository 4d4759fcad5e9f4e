import Verif.Lemmas.RoomKept
import Verif.Lemmas.Sound
import Verif.Lemmas.Run
import Verif.Lemmas.LoaderFiles
/-!
# Nothing stops the installer when nothing stands in its way
-/
namespace Verif.Tool
open Verif StubName Generation

variable {env : Env} {cfg : Config} {α β : Type}

/-! ### Places -/

theorem caFile_pair (cfg : Config) {l : Str} (hl : '/' ∉ l) (h : Bytes) : PlacePair cfg (caFile cfg.esp l h) := by
  refine ⟨caFile_tmp_ne _ hl _, .nixos _, ?_⟩
  rw [caFile_nixosDir, tmpOf_snoc _ (caName_plain hl _).ne_dots]
  simp only [nixosDir, List.append_assoc, List.cons_append, List.nil_append]
  exact .nixos _

theorem entry_pair (cfg : Config) {g : Gen} (hg : SafeGen g) (key : Bytes) :
    PlacePair cfg (entryFile cfg.esp (stubName env.sha g key cfg.tries)) := by
  have hn := stubName_nixos env.sha g key cfg.tries
  refine ⟨entryFile_tmp_ne _ hg _ _, .linux _ hn.1, ?_⟩
  rw [entryFile_linuxDir, tmpOf_snoc _ (stubName_plain hg _ _).ne_dots]
  simp only [linuxDir, List.append_assoc, List.cons_append, List.nil_append]
  exact .linux _ (hn.2.trans (List.prefix_append _ _))

theorem fallback_pair (cfg : Config) : PlacePair cfg (fallbackFile cfg) := by
  refine ⟨fallbackFile_tmp_ne _, .loader (Or.inl rfl), ?_⟩
  rw [fallbackFile_snoc, tmpOf_snoc _ (efiFallbackFilename_plain _).ne_dots]
  simp only [List.append_assoc, List.cons_append, List.nil_append]
  exact .loaderTmp _ _ (Or.inl rfl) ⟨_, rfl⟩

theorem systemd_pair (cfg : Config) : PlacePair cfg (systemdFile cfg) := by
  refine ⟨systemdFile_tmp_ne _, .loader (Or.inr rfl), ?_⟩
  rw [systemdFile_snoc, tmpOf_snoc _ (systemdFilename_plain _).ne_dots]
  simp only [List.append_assoc, List.cons_append, List.nil_append]
  exact .loaderTmp _ _ (Or.inr rfl) ⟨_, rfl⟩

theorem conf_pair (cfg : Config) : PlacePair cfg (confFile cfg) := by
  refine ⟨confFile_tmp_ne _, .conf _ (Or.inl rfl), ?_⟩
  rw [confFile_snoc, tmpOf_snoc _ loaderConf_plain.ne_dots]
  simp only [List.append_assoc, List.cons_append, List.nil_append]
  exact .conf _ (Or.inr ⟨_, rfl⟩)

theorem measurement_place {p : Path} (hp : cfg.pcrlockDirectory = some p) (g : Gen) :
    Place cfg (measurementFile p g) := by
  have : measurementFile p g = lockDir p ++ [g.versionTag ++ lit ".pcrlock"] := by
    simp [measurementFile, lockDir]
  rw [this]
  exact .lock hp _

/-! ### What is looked up is a boot entry or the boot loader -/

theorem LookedUp.shape {p : Path} {name : Str} (h : LookedUp cfg p name) :
    ∃ d n, p = cfg.esp ++ [lit "EFI", d, n] ∧ d ∈ [lit "Linux", lit "BOOT", lit "systemd"] := by
  cases h with
  | kernel h => obtain ⟨n, rfl, -⟩ := h; exact ⟨_, _, rfl, by simp⟩
  | initrd h => obtain ⟨n, rfl, -⟩ := h; exact ⟨_, _, rfl, by simp⟩
  | release h =>
    rcases h with rfl | rfl
    · exact ⟨_, _, rfl, by simp⟩
    · exact ⟨_, _, rfl, by simp⟩

theorem not_lookedUp_ca {l : Str} {h : Bytes} {name : Str} : ¬ LookedUp cfg (caFile cfg.esp l h) name := by
  intro hl
  obtain ⟨d, n, e, hd⟩ := hl.shape
  unfold caFile at e
  have := List.append_cancel_left e
  simp only [List.cons.injEq, true_and] at this
  rw [← this.1] at hd
  revert hd
  decide

theorem not_lookedUp_conf {name : Str} : ¬ LookedUp cfg (confFile cfg) name := by
  intro hl
  obtain ⟨d, n, e, -⟩ := hl.shape
  have := congrArg List.length e
  simp [confFile] at this

theorem not_lookedUp_lock (hd : NotNested cfg) {p q : Path} (hp : cfg.pcrlockDirectory = some p) {name : Str}
    (h : p <+: q) : ¬ LookedUp cfg q name := by
  intro hl
  obtain ⟨d, n, rfl, -⟩ := hl.shape
  rcases List.prefix_or_prefix_of_prefix h (List.prefix_append cfg.esp _) with h | h
  · exact (hd p hp).2 h
  · exact (hd p hp).1 h

/-! ### Installing a generation -/

theorem Room.live_install (hf : Faultless env) (hd : NotNested cfg) {f : Fs} (h : Room env cfg f) {to : Path}
    (hp : PlacePair cfg to) {src : Src} {d : Bytes} (hs : env.content src = some d)
    (hl : ∀ name, ¬ LookedUp cfg to name) :
    Live (install env src to) f fun _ f' => Room env cfg f' := by
  refine (Tool.live_install hf (h.canReplace hp) hs).mono ?_
  rintro _ f' (rfl | hr)
  · exact h
  · exact h.replaced hd hp (fun name hn => absurd hn (hl name)) hr

theorem live_installNixosCa (hf : Faultless env) (hd : NotNested cfg) {f : Fs} (h : Room env cfg f) {src : Src}
    {d : Bytes} (hs : env.content src = some d) {label : Str} (hl : '/' ∉ label) :
    Live (installNixosCa env cfg src label) f fun to f' =>
      to = caFile cfg.esp label (env.sha.hash d) ∧ Room env cfg f' := by
  unfold installNixosCa
  refine .hashSrc hf hs ?_
  dsimp only
  rw [kernel_target cfg hl]
  refine .extendRoots _ ?_
  refine (h.live_install hf hd (caFile_pair cfg hl _) hs fun _ => not_lookedUp_ca).bind fun _ f' h' => ?_
  exact .pure ⟨rfl, h'⟩

theorem live_initrdLocation (hf : Faultless env) (hsrc : Sources env cfg) (ht : ToolsSucceed env cfg) {g : Gen}
    (hg : Considers env cfg g) (f : Fs) :
    Live (initrdLocation env g.spec) f fun src f' => f' = f ∧ ∃ d, env.content src = some d ∧ InitrdOf env g.spec d := by
  obtain ⟨p, hp, hd⟩ := hsrc.initrd g hg
  obtain ⟨d, hd⟩ := Option.isSome_iff_exists.1 hd
  unfold initrdLocation
  split
  · next script hsc =>
    refine .ofOption hp (.readSrc (src := .store p) hf hd (.writeSecureFile hf d ?_))
    refine Live.bind (Q := fun x f' => f' = f ∧ ∃ t, env.secrets t script d = some x) ?_ ?_
    · unfold appendInitrdSecrets
      refine .guarded hf (.next fun t => ?_)
      obtain ⟨x, hx⟩ := Option.isSome_iff_exists.1 (ht.secrets g script p d hg hsc hp hd t)
      rw [hx]
      exact .pure ⟨rfl, t, hx⟩
    · rintro x _ ⟨rfl, t, hx⟩
      refine .pure ⟨rfl, x, rfl, p, d, hp, hd, ?_⟩
      rw [hsc]
      exact ⟨t, hx⟩
  · next hsc =>
    rw [hp]
    refine Live.after (a := p) (fun s _ => .pure _ s) (.pure ⟨rfl, d, hd, p, d, hp, hd, ?_⟩)
    rw [hsc]

theorem stubSections_names (o : UInt64) (a b c d e f : Bytes) (l : List UInt64) :
    (stubSections o a b c d e f l).map (fun s => (s.name, s.content)) =
      [(lit ".osrel", a), (lit ".cmdline", b), (lit ".initrd", c), (lit ".linux", d), (lit ".initrdh", e),
       (lit ".linuxh", f)] := rfl

theorem live_lanzabooteImage (hf : Faultless env) (hsrc : Sources env cfg) {p : StubParameters} {kd id : Bytes}
    (hp : p.lanzabooteStorePath = cfg.lanzabooteStub) (hk : env.store p.kernelStorePath = some kd)
    (hi : env.content p.initrdStorePath = some id)
    (ho : ∀ stub added, env.store cfg.lanzabooteStub = some stub →
      added.map (fun s => (s.name, s.content)) =
        [(lit ".osrel", p.osReleaseContents), (lit ".cmdline", utf8 (joinWith [' '] p.kernelCmdline)),
         (lit ".initrd", utf8 p.initrdPathAtEsp), (lit ".linux", utf8 p.kernelPathAtEsp),
         (lit ".initrdh", env.sha.hash id), (lit ".linuxh", env.sha.hash kd)] →
      ∀ t, (env.objcopy t stub added).isSome) (f : Fs) :
    Live (lanzabooteImage env p) f fun image f' => f' = f ∧ ∃ stub offset t,
      env.store cfg.lanzabooteStub = some stub ∧ stubOffset env stub = .ok offset ∧
      env.objcopy t stub (stubSections offset p.osReleaseContents
          (utf8 (joinWith [' '] p.kernelCmdline)) (utf8 p.initrdPathAtEsp) (utf8 p.kernelPathAtEsp)
          (env.sha.hash id) (env.sha.hash kd)
          [UInt64.ofNat p.osReleaseContents.length,
           UInt64.ofNat (utf8 (joinWith [' '] p.kernelCmdline)).length,
           UInt64.ofNat (utf8 p.initrdPathAtEsp).length,
           UInt64.ofNat (utf8 p.kernelPathAtEsp).length,
           UInt64.ofNat (env.sha.hash id).length]) = some image := by
  obtain ⟨stub, pe, hs, hpe, hne, hb⟩ := hsrc.stub
  obtain ⟨base, hb⟩ := Option.isSome_iff_exists.1 hb
  obtain ⟨last, hlast⟩ : ∃ l, pe.sections.getLast? = some l := by
    cases h : pe.sections.getLast? with
    | none => exact absurd (List.getLast?_eq_none_iff.1 h) hne
    | some l => exact ⟨l, rfl⟩
  have hoff : stubOffset env stub = .ok ((last.virtualSize + last.virtualAddress).toUInt64 + base) := by
    simp [stubOffset, hpe, hb, hlast]
  unfold lanzabooteImage
  rw [hp]
  refine .writeSecureFile hf _ (.writeSecureFile hf _ (.hashSrc (src := .store _) hf hk (.writeSecureFile hf _
    (.writeSecureFile hf _ (.hashSrc hf hi (.writeSecureFile hf _ (.writeSecureFile hf _
    (.readSrc (src := .store _) hf hs ?_))))))))
  refine Live.after (a := _) (fun s _ => ⟨s.tick, by rw [hoff]; rfl⟩) ?_
  refine .fileSize hf _ (.fileSize hf _ (.fileSize hf _ (.fileSize hf _ (.fileSize hf _
    (.readSrc (src := .store _) hf hs ?_)))))
  unfold wrapInPe
  refine .guarded hf (.next fun t => ?_)
  obtain ⟨x, hx⟩ := Option.isSome_iff_exists.1 (ho stub _ hs (stubSections_names _ _ _ _ _ _ _ _) t)
  rw [hx]
  exact .pure ⟨rfl, stub, _, t, hs, hoff, hx⟩

theorem live_measureImage (hf : Faultless env) (hd : NotNested cfg) (ht : ToolsSucceed env cfg) {f : Fs}
    (h : Room env cfg f) {g : Gen} (hg : SafeGen g) {image : Bytes} (hm : MadeHere env cfg image) :
    Live (measureImage env cfg g image) f fun _ f' => Room env cfg f' := by
  unfold measureImage Config.pcrlock
  cases hp : cfg.pcrlockDirectory with
  | none => exact .pure h
  | some p =>
    dsimp only [Option.map_some]
    rw [measurement_target p hg]
    have hpl := measurement_place hp g
    refine (live_lockPe hf h.tree (h.room _ hpl) (src := .temp image) rfl (ht.pcrlock p image hp hm)).bind ?_
    rintro _ f' ⟨t, m, f1, -, h1, h2⟩
    refine .extendRoots _ (k := fun _ => Pure.pure ()) (.pure ?_)
    exact (h.dirsMade hd hpl h1).rewritten hd hpl (fun name hn => absurd hn
      (not_lookedUp_lock hd hp (List.prefix_append _ _))) h2

theorem SignedBy.legible (hf : FaithfulTools env) {signer : Signer} {d out : Bytes} {name : Str} {b : Bytes}
    (hs : SignedBy env signer d out) (h : FileSection env d name b) (hb : b ≠ []) : Legible env out name :=
  .of_section (hs.section hf h) hb

theorem uefiText_ne (rel : Path) : utf8 (uefiText rel) ≠ [] := by
  intro h
  have := congrArg utf8Decode h
  rw [utf8Decode_utf8] at this
  simp [uefiText, utf8Decode] at this

theorem live_stubParameters (cfg : Config) (g : Gen) (initrd : Src) {kl il : Str} (hk : '/' ∉ kl) (hi : '/' ∉ il)
    (kh ih : Bytes) (f : Fs) :
    Live (stubParameters cfg g initrd (caFile cfg.esp kl kh) (caFile cfg.esp il ih)) f fun ps f' => f' = f ∧
      ps = { lanzabooteStorePath := cfg.lanzabooteStub
             kernelCmdline := assembleKernelCmdline g.spec.init g.spec.kernelParams
             osReleaseContents := utf8 (OsRelease.display (osRelease g))
             kernelStorePath := g.spec.kernel
             initrdStorePath := initrd
             kernelPathAtEsp := uefiText [lit "EFI", lit "nixos", caName kl kh]
             initrdPathAtEsp := uefiText [lit "EFI", lit "nixos", caName il ih] } := by
  unfold stubParameters
  exact .ofOption (espRelative_caFile _ hk _) (.ofOption (espRelative_caFile _ hi _) (.pure ⟨rfl, rfl⟩))

theorem live_installNewGeneration {f₀ : Fs} (hr : Ready env cfg f₀) {f : Fs} (h : Room env cfg f) {g : Gen}
    (hg : Considers env cfg g) :
    Live (installNewGeneration env cfg g) f fun _ f' => Room env cfg f' := by
  have hf : Faultless env := hr.os.fault
  have hsafe := hr.safe g hg
  obtain ⟨⟨v0, hv0⟩, hk⟩ := hr.sources.kernel g hg
  obtain ⟨v, hv, hkv⟩ := hv0.model
  obtain ⟨kd, hk⟩ := Option.isSome_iff_exists.1 hk
  obtain ⟨key, hkey⟩ := hr.sources.key
  have hl := fun l hl => kernelVersion_label hsafe hv l hl
  unfold installNewGeneration
  refine .guarded hf (.ofOption hv ?_)
  refine (live_installNixosCa hf hr.disjoint h (src := .store g.spec.kernel) hk
    (hl (lit "kernel-") (by decide))).bind ?_
  rintro _ f1 ⟨rfl, h1⟩
  refine (live_initrdLocation hf hr.sources hr.succeed hg f1).bind ?_
  rintro src _ ⟨rfl, id, hid, hio⟩
  refine (live_installNixosCa hf hr.disjoint h1 hid (hl (lit "initrd-") (by decide))).bind ?_
  rintro _ f2 ⟨rfl, h2⟩
  refine (live_stubParameters cfg g src (hl (lit "kernel-") (by decide)) (hl (lit "initrd-") (by decide))
    _ _ f2).bind ?_
  rintro _ _ ⟨rfl, rfl⟩
  refine (live_lanzabooteImage hf hr.sources (kd := kd) (id := id) rfl hk hid ?_ _).bind ?_
  · intro stub added hs ha t
    refine hr.succeed.objcopy g v kd id stub added hg hkv hk hio hs (ha.trans ?_) t
    dsimp only
    rw [cmdline_eq]
    rfl
  rintro image _ ⟨rfl, stub, offset, t, hs, hoff, him⟩
  dsimp only at him
  rw [cmdline_eq] at him
  have him' : ImageOf env cfg g v kd id image := ⟨stub, offset, t, hs, hoff, him⟩
  have hm : MadeHere env cfg image := Or.inl ⟨g, v, kd, id, hg, hkv, hk, hio, him'.stubImage⟩
  refine (live_measureImage hf hr.disjoint hr.succeed h2 hsafe hm).bind fun _ f3 h3 => ?_
  refine .key hf hkey ?_
  dsimp only
  rw [stub_target hsafe]
  refine .extendRoots _ ?_
  have hpair := entry_pair (env := env) cfg hsafe key
  refine (live_installSigned hf (h3.canReplace hpair) (src := .temp image) rfl fun pub priv e =>
    hr.succeed.sbsign pub priv image e hm).mono ?_
  rintro _ f' ⟨out, hout, hrep⟩
  refine h3.replaced hr.disjoint hpair (fun name hn => ?_) hrep
  have refs := him'.refs hr.faithful hsafe hv hout
  cases hn with
  | kernel _ =>
    obtain ⟨-, rel, -, hsec, -⟩ := refs.kernel
    exact .of_section hsec (uefiText_ne _)
  | initrd _ =>
    obtain ⟨-, rel, -, hsec, -⟩ := refs.initrd
    exact .of_section hsec (uefiText_ne _)
  | release hl =>
    exfalso
    rcases hl with e | e
    · unfold entryFile fallbackFile at e
      have := List.append_cancel_left e
      simp only [List.cons.injEq, true_and] at this
      exact absurd this.1 (by decide)
    · unfold entryFile systemdFile at e
      have := List.append_cancel_left e
      simp only [List.cons.injEq, true_and] at this
      exact absurd this.1 (by decide)

/-! ### Looking for an installed generation -/

/-- `m` changes nothing on the file system and does not panic. -/
def Mild (m : M α) (f : Fs) : Prop := ∀ s : State, s.fs = f → (m s).2.fs = f ∧ (m s).1 ≠ .panic

namespace Mild

theorem pure (a : α) (f : Fs) : Mild (Pure.pure a : M α) f := fun _ e => ⟨e, nofun⟩

theorem throw (f : Fs) : Mild (RM.throw () : M α) f := fun _ e => ⟨e, nofun⟩

theorem bind {m : M α} {k : α → M β} {f : Fs} (h : Mild m f) (h' : ∀ a, Mild (k a) f) : Mild (m >>= k) f := by
  intro s e
  obtain ⟨h1, h2⟩ := h s e
  rw [RM.bind_run]
  cases hm : m s with
  | mk r s' =>
    rw [hm] at h1 h2
    cases r with
    | ok a => exact h' a s' h1
    | err x => exact ⟨h1, nofun⟩
    | panic => exact absurd rfl h2

theorem of_live {m : M α} {f : Fs} (h : Live m f fun _ f' => f' = f) : Mild m f := fun s e => by
  obtain ⟨a, s', h1, h2⟩ := h s e
  rw [h1]
  exact ⟨h2, nofun⟩

/-- Continue after a function that only takes time. -/
theorem after {m : M α} {k : α → M β} {f : Fs} {a : α}
    (h : ∀ s : State, s.fs = f → Answers m s a) (h' : Mild (k a) f) : Mild (m >>= k) f := by
  intro s e
  obtain ⟨t, h1⟩ := h s e
  rw [RM.bind_run, h1]
  exact h' _ e

theorem next {k : Nat → M β} {f : Fs} (h : ∀ t, Mild (k t) f) : Mild (Tool.next >>= k) f := fun s e => by
  rw [RM.bind_run]
  exact h s.tick { s with tick := s.tick + 1 } e

theorem getFs {k : Fs → M β} {f : Fs} (h : Mild (k f) f) : Mild (Tool.getFs >>= k) f := fun s e => by
  rw [RM.bind_run]
  show (k s.fs s).2.fs = f ∧ (k s.fs s).1 ≠ .panic
  rw [e]
  exact h s e

theorem ofOption {o : Option α} {k : α → M β} {f : Fs} (h : ∀ a, o = some a → Mild (k a) f) :
    Mild (Tool.ofOption o >>= k) f := by
  cases o with
  | none => exact fun s e => ⟨e, nofun⟩
  | some a => exact after (fun s _ => .pure a s) (h a rfl)

theorem attempt {m : M α} {f : Fs} (h : Mild m f) : Live (RM.attempt m) f fun _ f' => f' = f := fun s e => by
  obtain ⟨h1, h2⟩ := h s e
  unfold RM.attempt
  cases hm : m s with
  | mk r s' =>
    rw [hm] at h1 h2
    cases r with
    | ok a => exact ⟨_, _, rfl, h1⟩
    | err x => exact ⟨_, _, rfl, h1⟩
    | panic => exact absurd rfl h2

end Mild

theorem mild_sectionPath {f : Fs} {stub : Bytes} {name : Str} (h : Legible env stub name) :
    Mild (sectionPath env cfg stub name) f := by
  obtain ⟨o, ho, hne⟩ := h.read
  unfold sectionPath
  rw [ho]
  refine Mild.after (a := o) (fun s _ => .pure o s) (.ofOption fun b hb => ?_)
  have := hne b hb
  cases b with
  | nil => exact absurd rfl this
  | cons x rest =>
    unfold resolveEfiPath
    dsimp only
    cases utf8Decode rest with
    | none => exact fun s e => ⟨e, nofun⟩
    | some t => exact fun s e => ⟨e, nofun⟩

theorem mild_pathExists (hf : Faultless env) (p : Path) {f : Fs} : Mild (pathExists env.os p) f := fun s e => by
  obtain ⟨t, h⟩ := answers_pathExists hf s p
  rw [h]
  exact ⟨e, nofun⟩

theorem mild_require (b : Bool) {f : Fs} : Mild (require b) f := fun s e => by
  cases b
  · exact ⟨e, nofun⟩
  · exact ⟨e, nofun⟩

theorem Mild.readDir (hr : Reliable env.os) {dir : Path} {k : List Path → M β} {f : Fs}
    (h : ∀ l : List Path, (∀ q ∈ l, ∃ n, q = dir ++ [n]) → Mild (k l) f) : Mild (Tool.readDir env.os dir >>= k) f := by
  have hf : Faultless env := hr.fault
  intro s e
  unfold Tool.readDir
  simp only [RM.bind_run, guarded_ok hf, Tool.next, Tool.getFs]
  unfold Tool.require
  cases decide (s.fs.get dir = some .dir) with
  | false => exact ⟨e, nofun⟩
  | true =>
    refine h _ (fun q hq => ?_) _ e
    have := (hr.list _ _).mem_iff.1 hq
    obtain ⟨n, -, rfl⟩ := List.mem_map.1 this
    exact ⟨n, rfl⟩

theorem Mild.readFs (hf : Faultless env) {p : Path} {k : Bytes → M β} {f : Fs}
    (h : ∀ d, f.fileAt p = some d → Mild (k d) f) : Mild (Tool.readFs env.os p >>= k) f := by
  intro s e
  unfold Tool.readFs
  subst e
  simp only [RM.bind_run, guarded_ok hf, Tool.getFs]
  cases hd : s.fs.fileAt p with
  | none => exact ⟨rfl, nofun⟩
  | some d => exact h d hd _ rfl

theorem mild_readInstalled (hr : Reliable env.os) {f : Fs} (h : Room env cfg f) (g : Gen) (key : Bytes) :
    Mild (readInstalledGeneration env cfg (stubPrefix env.sha g key)) f := by
  have hf : Faultless env := hr.fault
  unfold readInstalledGeneration
  rw [paths_linux']
  refine .readDir hr fun l hl => .ofOption fun q hq => .readFs hf fun d hd => ?_
  have hq := List.mem_filter.1 (List.mem_of_mem_head? hq)
  obtain ⟨n, rfl⟩ := hl q hq.1
  have hm : isMatch env.uni (stubPrefix env.sha g key) n = true := by simpa using hq.2
  have he : IsEntry cfg.esp (linuxDir cfg.esp ++ [n]) := entryFile_linuxDir cfg.esp n ▸ isMatch_isEntry hm
  refine Mild.bind (mild_sectionPath (h.legible _ _ (.kernel he) d hd)) fun kp => ?_
  refine Mild.bind (mild_sectionPath (h.legible _ _ (.initrd he) d hd)) fun ip => ?_
  refine Mild.bind (mild_pathExists hf _) fun b => ?_
  split
  · exact .throw f
  · refine Mild.bind (mild_pathExists hf _) fun b => ?_
    split
    · exact .throw f
    · exact .pure _ f

theorem live_register (hr : Reliable env.os) (hsrc : Sources env cfg) {f : Fs} (h : Room env cfg f) (g : Gen) :
    Live (registerInstalledGeneration env cfg g) f fun _ f' => f' = f := by
  have hf : Faultless env := hr.fault
  obtain ⟨key, hkey⟩ := hsrc.key
  unfold registerInstalledGeneration
  refine .key hf hkey ((mild_readInstalled hr h g key).attempt.bind ?_)
  rintro o _ rfl
  cases o with
  | none => exact .pure rfl
  | some x =>
    obtain ⟨a, b, c⟩ := x
    refine .extendRoots _ ?_
    unfold registerMeasurement
    split
    · exact .pure rfl
    · refine .pathExists hf _ ?_
      split
      · exact .extendRoots _ (.pure rfl)
      · exact .pure rfl

theorem live_installGeneration {f₀ : Fs} (hr : Ready env cfg f₀) {f : Fs} (h : Room env cfg f) {g : Gen}
    (hg : Considers env cfg g) : Live (installGeneration env cfg g) f fun _ f' => Room env cfg f' := by
  unfold installGeneration
  refine (live_register hr.os hr.sources h g).bind ?_
  rintro b _ rfl
  split
  · exact .pure h
  · exact live_installNewGeneration hr h hg

theorem live_installAll {f₀ : Fs} (hr : Ready env cfg f₀) (gs : List Gen) : ∀ {f : Fs}, Room env cfg f →
    (∀ g ∈ gs, Considers env cfg g) → Live (installAll env cfg gs) f fun _ f' => Room env cfg f' := by
  induction gs with
  | nil => exact fun h _ => .pure h
  | cons g gs ih =>
    intro f h hg
    unfold installAll
    exact (live_installGeneration hr h (hg g (by simp))).bind fun _ f' h' =>
      ih h' fun x hx => hg x (by simp [hx])

theorem Room.of_nodes {f f' : Fs} (h : Room env cfg f) (e : f'.nodes = f.nodes) : Room env cfg f' := by
  have hg : ∀ q, f'.get q = f.get q := by intro q; unfold Fs.get; rw [e]
  refine ⟨h.tree.of_get e, by rw [hg]; exact h.esp, fun p hp => ⟨?_, ?_⟩, fun p name hn data hd => ?_⟩
  · rw [hg]; exact (h.room p hp).not_dir
  · intro q h1 h2; rw [hg]; exact (h.room p hp).above q h1 h2
  · refine h.legible p name hn data ?_
    rw [Fs.fileAt_eq_some] at hd ⊢
    rw [← hg]; exact hd

theorem live_syncFs (hf : Faultless env) {f : Fs} (h : Room env cfg f) :
    Live (syncFs env.os cfg.esp) f fun _ f' => Room env cfg f' := by
  unfold syncFs
  refine .guarded hf (.getFs (.require (by rw [h.esp]; rfl) (.guarded hf (Live.change.mono ?_))))
  rintro _ _ rfl
  exact h.of_nodes rfl

/-! ### The boot loader -/

theorem HasRelease.legible {data : Bytes} {r : Version.Spec.Release} (h : HasRelease env data r) :
    ∃ b, FileSection env data (lit ".osrel") b ∧ b ≠ [] := by
  have hv := version_of_release h
  obtain ⟨-, lines, sec, -, -, hsec, -⟩ := h
  refine ⟨sec, hsec, ?_⟩
  rintro rfl
  unfold versionOf at hv
  rw [(readSectionData_iff env data _ _).2 hsec] at hv
  cases hv

theorem mild_installedVersion (hf : Faultless env) {f : Fs} (h : Room env cfg f) {p : Path} (hp : IsLoader cfg p) :
    Mild (installedVersion env p) f := by
  unfold installedVersion
  refine .readFs hf fun d hd => ?_
  obtain ⟨o, ho, hne⟩ := (h.legible _ _ (.release hp) d hd).read
  have : versionOf env d ≠ .panic := by
    unfold versionOf
    rw [ho]
    cases o with
    | none => nofun
    | some sec =>
      have := hne sec rfl
      have ht : osrelText sec ≠ .panic := by
        unfold osrelText
        cases hl : sec.getLast? with
        | none => exact absurd (List.getLast?_eq_none_iff.1 hl) this
        | some x =>
          split
          · rename_i h0; cases h0
          · split
            · nofun
            · split <;> nofun
          · split <;> nofun
          · nofun
      dsimp only
      cases ht' : osrelText sec with
      | panic => exact absurd ht' ht
      | err e => nofun
      | ok t =>
        dsimp only
        split
        · nofun
        · split <;> nofun
  intro s e
  cases hv : versionOf env d with
  | panic => exact absurd hv this
  | err x => exact ⟨e, nofun⟩
  | ok x => exact ⟨e, nofun⟩

theorem live_newer (hf : Faultless env) (hsrc : Sources env cfg) {f : Fs} (h : Room env cfg f) {p : Path}
    (hp : IsLoader cfg p) : Live (newerSystemdBoot env cfg.systemdBootSource p) f fun _ f' => f' = f := by
  obtain ⟨d, r, hd, hrel⟩ := hsrc.loader
  unfold newerSystemdBoot
  rw [source_target]
  refine .pathExists hf _ ?_
  split
  · exact .pure rfl
  · refine .readSrc (src := .store _) hf hd ?_
    refine Live.after (a := Version.intended r) (fun s _ => ⟨s.tick, by rw [version_of_release hrel]; rfl⟩) ?_
    refine (mild_installedVersion hf h hp).attempt.bind ?_
    rintro o _ rfl
    cases o with
    | none => exact .pure rfl
    | some w => exact .pure rfl

theorem live_verifyPath (hf : Faultless env) (f : Fs) (p : Path) (signer : Signer) :
    Live (signer.verifyPath env p) f fun _ f' => f' = f := by
  cases signer with
  | empty => exact .pure rfl
  | «local» pub priv =>
    unfold Signer.verifyPath
    refine .guarded hf ?_
    refine Live.after (a := false) (fun s _ => ⟨s.tick + 1, by simp [faulty, Tool.next, hf s.tick]⟩) ?_
    refine .getFs ?_
    split
    · exact .pure rfl
    · exact .pure rfl

theorem live_installLoader {f₀ : Fs} (hr : Ready env cfg f₀) {f : Fs} (h : Room env cfg f) {p : Path}
    (hp : IsLoader cfg p) :
    Live (installSigned env cfg.signer (.store cfg.systemdBootSource) p) f fun _ f' => Room env cfg f' ∧
      ∀ q, (∃ p, cfg.pcrlockDirectory = some p ∧ p <+: q) → ∀ d, f.get q = some (.file d) →
        f'.get q = some (.file d) := by
  have hf : Faultless env := hr.os.fault
  obtain ⟨d, r, hd, hrel⟩ := hr.sources.loader
  have hpair : PlacePair cfg p := by
    rcases hp with rfl | rfl
    · exact fallback_pair cfg
    · exact systemd_pair cfg
  rw [source_target]
  refine (live_installSigned hf (h.canReplace hpair) (src := .store _) hd fun pub priv e =>
    hr.succeed.sbsign pub priv d e (Or.inr hd)).mono ?_
  rintro _ f' ⟨out, hout, hrep⟩
  refine ⟨h.replaced hr.disjoint hpair (fun name hn => ?_) hrep, ?_⟩
  · have : name = lit ".osrel" := by
      cases hn with
      | release _ => rfl
      | kernel he =>
        obtain ⟨n, e, -⟩ := he
        exfalso
        rcases hp with rfl | rfl
        · unfold entryFile fallbackFile at e
          have := List.append_cancel_left e
          simp only [List.cons.injEq, true_and] at this
          exact absurd this.1 (by decide)
        · unfold entryFile systemdFile at e
          have := List.append_cancel_left e
          simp only [List.cons.injEq, true_and] at this
          exact absurd this.1 (by decide)
      | initrd he =>
        obtain ⟨n, e, -⟩ := he
        exfalso
        rcases hp with rfl | rfl
        · unfold entryFile fallbackFile at e
          have := List.append_cancel_left e
          simp only [List.cons.injEq, true_and] at this
          exact absurd this.1 (by decide)
        · unfold entryFile systemdFile at e
          have := List.append_cancel_left e
          simp only [List.cons.injEq, true_and] at this
          exact absurd this.1 (by decide)
    subst this
    obtain ⟨b, hb, hne⟩ := hrel.legible
    exact hout.legible hr.faithful hb hne
  · rintro q ⟨l, hl, hq⟩ x hx
    have esp_not : ¬ cfg.esp <+: q := fun he => by
      rcases List.prefix_or_prefix_of_prefix hq he with h' | h'
      · exact (hr.disjoint l hl).2 h'
      · exact (hr.disjoint l hl).1 h'
    have hpe : cfg.esp <+: p := by
      rcases hp with rfl | rfl <;> exact List.prefix_append _ _
    have hte : cfg.esp <+: tmpOf p := by
      have := hpair.tmp
      rcases hp with rfl | rfl
      · rw [fallbackFile_snoc, tmpOf_snoc _ (efiFallbackFilename_plain _).ne_dots]
        simp
      · rw [systemdFile_snoc, tmpOf_snoc _ (systemdFilename_plain _).ne_dots]
        simp
    have hqp : q ≠ p := fun e => esp_not (e ▸ hpe)
    rcases hrep.else_ q hqp with e | ⟨-, hq'⟩ | ⟨e, -⟩
    · rw [e, hx]
    · exfalso
      have hr' := (h.room _ hpair.here).above q (hq'.trans (List.dropLast_prefix p)) hqp x
      exact hr' hx
    · exact absurd (e ▸ hte) esp_not

theorem live_replaceSystemdBoot {f₀ : Fs} (hr : Ready env cfg f₀) {f : Fs} (h : Room env cfg f) :
    Live (replaceSystemdBoot env cfg) f fun _ f' => Room env cfg f' := by
  have hf : Faultless env := hr.os.fault
  obtain ⟨d, r, hd, hrel⟩ := hr.sources.loader
  unfold replaceSystemdBoot
  rw [fallback_target, systemd_target]
  refine Live.bind (Q := fun _ f' => Room env cfg f' ∧ ∀ p, cfg.pcrlockDirectory = some p →
    ∃ m, f'.get (nextFile p) = some (.file m)) ?_ ?_
  · unfold measureNext Config.pcrlock
    cases hp : cfg.pcrlockDirectory with
    | none => exact .pure ⟨h, nofun⟩
    | some p =>
      dsimp only [Option.map_some]
      rw [next_target, source_target]
      have hpl : Place cfg (nextFile p) := .bootloader hp (Or.inl rfl)
      refine (live_lockPe hf h.tree (h.room _ hpl) (src := .store _) hd
        (hr.succeed.pcrlock p d hp (Or.inr hd))).mono ?_
      rintro _ f' ⟨t, m, f1, -, h1, h2⟩
      refine ⟨(h.dirsMade hr.disjoint hpl h1).rewritten hr.disjoint hpl (fun name hn => absurd hn
        (not_lookedUp_lock hr.disjoint hp (List.prefix_append _ _))) h2, ?_⟩
      rintro _ ⟨⟩
      exact ⟨m, h2.at_⟩
  rintro _ f1 ⟨h1, n1⟩
  refine (live_installLoader hr h1 (Or.inl rfl)).bind ?_
  rintro _ f2 ⟨h2, n2⟩
  refine (live_installLoader hr h2 (Or.inr rfl)).bind ?_
  rintro _ f3 ⟨h3, n3⟩
  unfold measurementDone Config.pcrlock
  cases hp : cfg.pcrlockDirectory with
  | none => exact .pure h3
  | some p =>
    dsimp only [Option.map_some]
    rw [next_target, current_target]
    obtain ⟨m, hm⟩ := n1 p hp
    have hm3 : f3.get (nextFile p) = _ := n3 _ ⟨p, hp, List.prefix_append _ _⟩ m (n2 _ ⟨p, hp, List.prefix_append _ _⟩ m hm)
    have hpl : Place cfg (nextFile p) := .bootloader hp (Or.inl rfl)
    have hpl' : Place cfg (currentFile p) := .bootloader hp (Or.inr rfl)
    have hdir : (currentFile p).dropLast = (nextFile p).dropLast := by
      simp [currentFile, nextFile]
    have hne : nextFile p ≠ currentFile p := by
      intro e
      have := List.append_cancel_left e
      simp only [List.cons.injEq, true_and, and_true] at this
      exact absurd this (by decide)
    have hfa : f3.fileAt (nextFile p) = some m := Fs.fileAt_eq_some.2 hm3
    have hnn := Fs.fileAt_ne_nil hfa
    have hcn := (h3.room _ hpl').ne_nil
    have hpar : f3.get (currentFile p).dropLast = some .dir := by
      rw [hdir]; exact h3.tree.parent _ hnn (by rw [hm3]; rfl)
    have hnd := (h3.room _ hpl').not_dir
    refine (live_rename hf hfa hnd hpar hne).mono ?_
    rintro _ _ rfl
    refine h3.changed hr.disjoint (h3.tree.rename hfa hcn hne hnd hpar) fun x => ?_
    rw [Fs.get_rename hnn hcn]
    by_cases e1 : x = currentFile p
    · subst e1
      rw [if_pos rfl]
      exact Or.inr (Or.inr ⟨hpl', Or.inr ⟨m, rfl, fun name hn => absurd hn
        (not_lookedUp_lock hr.disjoint hp (List.prefix_append _ _))⟩⟩)
    · rw [if_neg e1]
      by_cases e2 : x = nextFile p
      · subst e2
        rw [if_pos rfl]
        exact Or.inr (Or.inr ⟨hpl, Or.inl rfl⟩)
      · rw [if_neg e2]
        exact Or.inl rfl

theorem live_installSystemdBoot {f₀ : Fs} (hr : Ready env cfg f₀) {f : Fs} (h : Room env cfg f) :
    Live (installSystemdBoot env cfg) f fun _ f' => Room env cfg f' := by
  have hf : Faultless env := hr.os.fault
  obtain ⟨c, hc⟩ := Option.isSome_iff_exists.1 hr.sources.conf
  unfold installSystemdBoot
  rw [fallback_target, systemd_target, conf_target]
  refine Live.bind (Q := fun _ f' => f' = f) ?_ ?_
  · refine (live_newer hf hr.sources h (Or.inl rfl)).bind ?_
    rintro b _ rfl
    split
    · exact .pure rfl
    · exact live_newer hf hr.sources h (Or.inr rfl)
  intro newer f' e
  subst f'
  refine Live.bind (Q := fun _ f' => f' = f) ?_ ?_
  · refine (live_verifyPath hf f _ cfg.signer).bind ?_
    intro b f' e
    subst f'
    split
    · exact live_verifyPath hf f _ cfg.signer
    · exact .pure rfl
  intro signed f' e
  subst f'
  refine Live.bind (Q := fun _ f' => f' = f) ?_ ?_
  · unfold measurementExists
    split
    · exact .pure rfl
    · exact (Live.of_answers fun s e => e ▸ answers_pathExists hf s _).mono fun _ _ h => h.2
  intro measured f' e
  subst f'
  have conf : ∀ {f : Fs}, Room env cfg f → Live (install env (.store cfg.loaderConfig) (confFile cfg)) f
      fun _ f' => Room env cfg f' := fun h =>
    h.live_install hf hr.disjoint (conf_pair cfg) (src := .store _) hc fun _ => not_lookedUp_conf
  split
  · exact (live_replaceSystemdBoot hr h).bind fun _ f' h' => conf h'
  · exact conf h

/-! ### The whole run -/

theorem live_collect (hr : Reliable env.os) {f : Fs} (h : Room env cfg f) :
    Live (collect env cfg) f fun _ _ => True := by
  intro s e
  unfold collect
  simp only [RM.bind_run, RM.get_run]
  by_cases hb : s.broken = []
  · rw [if_pos hb]
    simp only [RM.bind_run]
    have ht : (s.fs.apply .collecting).Tree := by rw [e]; exact h.tree.of_get rfl
    obtain ⟨s', h1, -⟩ := collectThree_exact (cfg := cfg) hr (s := { s with fs := s.fs.apply .collecting, log := s.log ++ [.collecting] }) ht
    refine ⟨(), s', ?_, trivial⟩
    exact h1
  · rw [if_neg hb]
    exact ⟨(), s, rfl, trivial⟩

theorem live_run {f : Fs} (hr : Ready env cfg f) : Live (run env cfg) f fun _ _ => True := by
  have hf : Faultless env := hr.os.fault
  obtain ⟨links, hl, link, hlink, hj⟩ := hr.sources.links
  obtain ⟨j, hj⟩ := Option.isSome_iff_exists.1 hj
  unfold run
  refine .ofOption hl ?_
  refine Live.bind (Q := fun _ f' => Room env cfg f') ?_ ?_
  · unfold installGenerationsFromLinks
    refine Live.bind (Q := fun gens f' => f' = f ∧ gens ≠ [] ∧
      ∀ x ∈ gens, ∃ link ∈ links, ∃ j, env.bootJson link.path = some j ∧ x = fromBootJson link j) ?_ ?_
    · intro s e
      obtain ⟨gens, t, b, h1, h2, -, h3, -⟩ := readGenerations_spec env links s
      refine ⟨gens, _, h1, e, ?_, h2⟩
      have := h3 hf link hlink j hj
      rintro rfl
      cases this
    · rintro gens _ ⟨rfl, hne, hg⟩
      have : gens.isEmpty = false := by simpa using hne
      rw [this]
      refine (live_installAll hr _ hr.room ?_).bind fun _ f' h' => live_syncFs hf h'
      intro g hg'
      obtain ⟨x, hx, hgx⟩ := List.mem_flatMap.1 hg'
      obtain ⟨l, hl', j', hj', rfl⟩ := hg x hx
      exact ⟨links, l, j', hl, hl', hj', hgx⟩
  rintro _ f1 h1
  refine (live_installSystemdBoot hr h1).bind fun _ f2 h2 => live_collect hr.os h2

end Verif.Tool
