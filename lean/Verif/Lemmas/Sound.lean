import Verif.Lemmas.Owned
import Verif.Props.Path
/-!
# Boot entries stay sound while the installer runs
-/
namespace Verif.Tool
open Verif StubName Generation

variable {env : Env} {cfg : Config} {ld : Scope}

/-! ### Sections of new entries -/

theorem SignedBy.section (hf : FaithfulTools env) {signer : Signer} {image out : Bytes}
    (h : SignedBy env signer image out) {n : Str} {b : Bytes} (hb : FileSection env image n b) :
    FileSection env out n b := by
  cases signer with
  | empty => have h : out = image := h; rw [h]; exact hb
  | «local» pub priv => obtain ⟨t, h⟩ := h; exact hf.sbsign t _ _ _ _ h n b hb

theorem ImageOf.sections (hf : FaithfulTools env) {g : Gen} {v : Str} {kd id image : Bytes}
    (h : ImageOf env cfg g v kd id image) :
    ∀ s ∈ entrySections env g v kd id, FileSection env image s.1 s.2 := by
  obtain ⟨stub, offset, t, -, -, h2⟩ := h
  have := hf.objcopy _ _ _ _ h2 (by
    show ([lit ".osrel", lit ".cmdline", lit ".initrd", lit ".linux", lit ".initrdh",
      lit ".linuxh"] : List Str).Nodup
    decide)
  intro s hs
  have e : entrySections env g v kd id = (sectionsOf env g v kd id offset
      [UInt64.ofNat (utf8 (OsRelease.display (osRelease g))).length,
       UInt64.ofNat (utf8 (cmdlineOf g)).length,
       UInt64.ofNat (utf8 (uefiText [lit "EFI", lit "nixos",
        caName (lit "initrd-" ++ v) (env.sha.hash id)])).length,
       UInt64.ofNat (utf8 (uefiText [lit "EFI", lit "nixos",
        caName (lit "kernel-" ++ v) (env.sha.hash kd)])).length,
       UInt64.ofNat (env.sha.hash id).length]).map (fun s => (s.name, s.content)) := rfl
  rw [e] at hs
  obtain ⟨a, ha, rfl⟩ := List.mem_map.1 hs
  exact this a ha

theorem caFile_rel (esp : Path) (l : Str) (h : Bytes) : caFile esp l h = esp ++ caFile [] l h := by
  simp [caFile]

theorem kernelVersion_plain {g : Gen} {v : Str} (hg : SafeGen g)
    (hv : kernelVersion g.spec.kernel = some v) (l : Str) (hl : '/' ∉ l ∧ '\\' ∉ l) :
    '/' ∉ l ++ v ∧ '\\' ∉ l ++ v := by
  simp only [List.mem_append, not_or]
  exact ⟨⟨hl.1, kernelVersion_not_mem (fun c hc => (hg.kernel c hc).1) hv⟩,
    hl.2, kernelVersion_not_mem (fun c hc => (hg.kernel c hc).2) hv⟩

/-- The references of a new entry. -/
structure NewRefs (env : Env) (esp : Path) (g : Gen) (v : Str) (kd id out : Bytes) : Prop where
  kernel : RefersToCa env esp out (lit ".linux") (lit ".linuxh") (lit "kernel-" ++ v) (env.sha.hash kd)
  initrd : RefersToCa env esp out (lit ".initrd") (lit ".initrdh") (lit "initrd-" ++ v)
    (env.sha.hash id)
  cmdline : FileSection env out (lit ".cmdline") (utf8 (cmdlineOf g))
  osrel : FileSection env out (lit ".osrel") (utf8 (OsRelease.display (osRelease g)))

theorem ImageOf.refs (hf : FaithfulTools env) {g : Gen} (hg : SafeGen g) {v : Str}
    (hv : kernelVersion g.spec.kernel = some v) {kd id image out : Bytes}
    (h : ImageOf env cfg g v kd id image) (hs : SignedBy env cfg.signer image out) :
    NewRefs env cfg.esp g v kd id out := by
  have hsec : ∀ s ∈ entrySections env g v kd id, FileSection env out s.1 s.2 :=
    fun s h' => hs.section hf (h.sections hf s h')
  refine ⟨⟨kernelVersion_plain hg hv _ (by decide), _, caFile_rel _ _ _, ?_, ?_⟩,
    ⟨kernelVersion_plain hg hv _ (by decide), _, caFile_rel _ _ _, ?_, ?_⟩, ?_, ?_⟩
  · exact hsec _ (.tail _ (.tail _ (.tail _ (.head _))))
  · exact hsec _ (.tail _ (.tail _ (.tail _ (.tail _ (.tail _ (.head _))))))
  · exact hsec _ (.tail _ (.tail _ (.head _)))
  · exact hsec _ (.tail _ (.tail _ (.tail _ (.tail _ (.head _)))))
  · exact hsec _ (.tail _ (.head _))
  · exact hsec _ (.head _)

/-! ### References determine paths -/

theorem caName_component {l : Str} (hl : '/' ∉ l ∧ '\\' ∉ l) (h : Bytes) :
    Component (caName l h) ∧ '\\' ∉ caName l h := by
  refine ⟨(caName_plain hl.1 h).component, ?_⟩
  unfold caName
  simp only [List.mem_append, not_or]
  refine ⟨⟨⟨hl.2, by decide⟩, fun hm => ?_⟩, by decide⟩
  exact absurd (base32_mem h _ hm) (by decide)

/-- The lookup resolves such a reference to the right file. -/
theorem resolve_ca (esp : Path) {l : Str} (hl : '/' ∉ l ∧ '\\' ∉ l) (h : Bytes) :
    resolveEfiPath esp (utf8 (uefiText (caFile [] l h))) = .ok (caFile esp l h) := by
  obtain ⟨u, h1, h2⟩ := C48_efi_path_roundtrip_partial esp [lit "EFI", lit "nixos", caName l h] (by
    intro c hc
    simp only [List.mem_cons, List.not_mem_nil, or_false] at hc
    rcases hc with rfl | rfl | rfl
    · exact ⟨⟨by decide, by decide, by decide⟩, by decide⟩
    · exact ⟨⟨by decide, by decide, by decide⟩, by decide⟩
    · exact caName_component hl h)
  have e : esp ++ [lit "EFI", lit "nixos", caName l h] = caFile esp l h := by simp [caFile, caName]
  have e' : [lit "EFI", lit "nixos", caName l h] = caFile [] l h := by simp [caFile, caName]
  rw [e, espRelative_caFile _ hl.1] at h1
  cases h1
  rw [← e', h2, e]

theorem RefersToCa.section {esp : Path} {data : Bytes} {p h : Str} {l : Str} {k : Bytes}
    (hr : RefersToCa env esp data p h l k) :
    FileSection env data p (utf8 (uefiText (caFile [] l k))) ∧ FileSection env data h k := by
  obtain ⟨-, rel, e, h1, h2⟩ := hr
  rw [caFile_rel] at e
  have := List.append_cancel_left e
  rw [this]
  exact ⟨h1, h2⟩

theorem RefersToCa.resolve {esp : Path} {data : Bytes} {p h : Str} {l : Str} {k : Bytes}
    (hr : RefersToCa env esp data p h l k) {b : Bytes} (hb : FileSection env data p b) {x : Path}
    (hx : resolveEfiPath esp b = .ok x) : x = caFile esp l k := by
  rw [hb.unique hr.section.1, resolve_ca esp hr.1] at hx
  exact (Res.ok.inj hx).symm

/-! ### Names of entries -/

theorem isMatch_isEntry {esp : Path} {g : Gen} {key : Bytes} {uni : Char → Bool} {n : Str}
    (h : isMatch uni (stubPrefix env.sha g key) n = true) : IsEntry esp (entryFile esp n) := by
  obtain ⟨s, rfl, -⟩ := isMatch_form h
  refine ⟨_, rfl, ?_, List.suffix_append _ _⟩
  rw [List.append_assoc, ← List.isPrefixOf_iff_prefix]
  exact nixos_isPrefixOf_stubPrefix _ _ _ _

theorem isMatch_stubName (uni : Char → Bool) (sha : Sha) (g : Gen) (key : Bytes) (t : Nat) :
    isMatch uni (stubPrefix sha g key) (stubName sha g key t) = true :=
  C27_stub_lookup_finds uni sha g key t _ .refl

theorem entryFile_inj {esp : Path} {n m : Str} (h : entryFile esp n = entryFile esp m) : n = m := by
  unfold entryFile at h
  have := List.append_cancel_left h
  simpa using this

theorem isEntry_not_tmp {esp p : Path} (h : IsEntry esp p) : ¬ IsTmp p := by
  obtain ⟨n, rfl, -, ⟨x, rfl⟩⟩ := h
  rw [entryFile_snoc]
  exact not_isTmp_snoc (not_isTmpName_append (by decide) (by decide))

theorem isEntry_not_measurement {esp p : Path} (h : IsEntry esp p) : ¬ IsMeasurement cfg p := by
  obtain ⟨n, rfl, -⟩ := h
  exact entryFile_not_isMeasurement _ _

/-- New content at the place of an entry is an entry. -/
theorem NewContent.isEntry {f : Fs} {n : Str} {d : Bytes}
    (h : NewContent env cfg ld f (entryFile cfg.esp n) d) :
    ∃ g key kd id image v, Considers env cfg g ∧ ld.gens g ∧ KeyOf env cfg.signer key ∧
      kernelVersion g.spec.kernel = some v ∧ env.store g.spec.kernel = some kd ∧
      InitrdOf env g.spec id ∧ ImageOf env cfg g v kd id image ∧
      SignedBy env cfg.signer image d ∧
      Present env f (kernelFile env cfg v kd) (env.sha.hash kd) ∧
      Present env f (initrdFile env cfg v id) (env.sha.hash id) ∧
      n = stubName env.sha g key cfg.tries := by
  have two : ∀ {q : Path} {a b : Str}, entryFile cfg.esp n = q → lastTwo q = some (a, b) →
      a = lit "Linux" := by
    intro q a b e h
    rw [← e, entryFile_lastTwo] at h
    simp at h
    exact h.1.symm
  cases h with
  | kernel _ _ _ _ e => exact absurd (two e (caFile_lastTwo _ _ _)) (by decide)
  | initrd _ _ _ _ e => exact absurd (two e (caFile_lastTwo _ _ _)) (by decide)
  | entry hg ho hk hv hkd hid him hs pk pi e =>
    exact ⟨_, _, _, _, _, _, hg, ho, hk, hv, hkd, hid, him, hs, pk, pi, entryFile_inj e⟩
  | loader _ _ _ _ e =>
    rcases e with e | e
    · exact absurd (two e (fallbackFile_lastTwo _)) (by decide)
    · exact absurd (two e (systemdFile_lastTwo _)) (by decide)
  | conf _ e => exact absurd (two e (confFile_lastTwo _)) (by decide)

/-- What a step does to a boot entry. -/
theorem InstallStep.entry (hs : SafeInput env cfg) {f : Fs} {c : Change}
    (h : InstallStep env cfg ld f c) {n : Str} (hn : IsEntry cfg.esp (entryFile cfg.esp n)) {d : Bytes}
    (hd : (f.apply c).fileAt (entryFile cfg.esp n) = some d) :
    f.fileAt (entryFile cfg.esp n) = some d ∨ NewContent env cfg ld f (entryFile cfg.esp n) d := by
  rw [Fs.fileAt_eq_some] at hd
  rcases h.get hs (isEntry_not_tmp hn) (isEntry_not_measurement hn) with
    e | ⟨-, e⟩ | ⟨d', hc, -, -, e, -⟩
  · exact Or.inl (Fs.fileAt_eq_some.2 (e ▸ hd))
  · rw [e] at hd; cases hd
  · rw [e] at hd; cases hd; exact Or.inr hc

/-! ### The invariants -/

theorem Present.length {f : Fs} {p : Path} {h : Bytes} (hp : Present env f p h) : h.length = 32 := by
  obtain ⟨d, -, rfl⟩ := hp; exact env.sha.len _

theorem Consistent.step (hs : SafeInput env cfg) (hf : FaithfulTools env) {f : Fs} {c : Change}
    (hj : Consistent env cfg.esp f) (st : InstallStep env cfg ld f c) :
    Consistent env cfg.esp (f.apply c) := by
  intro p hp data hd
  obtain ⟨n, rfl, hn⟩ := hp
  have hp : IsEntry cfg.esp (entryFile cfg.esp n) := ⟨n, rfl, hn⟩
  rcases st.entry hs hp hd with h | h
  · obtain ⟨kl, kh, il, ih, h1, h2, h3, h4⟩ := hj _ hp _ h
    exact ⟨kl, kh, il, ih, h1, h2, st.present hs h3.length h3, st.present hs h4.length h4⟩
  · obtain ⟨g, key, kd, id, image, v, hg, -, -, hv, -, -, him, hsg, pk, pi, -⟩ := h.isEntry
    have r := him.refs hf (hs g hg) hv hsg
    exact ⟨_, _, _, _, r.kernel, r.initrd, st.present hs (env.sha.len _) pk,
      st.present hs (env.sha.len _) pi⟩

theorem FileSection.congr {env env' : Env} (h : env.parse = env'.parse) {data : Bytes} {n : Str}
    {b : Bytes} (hb : FileSection env data n b) : FileSection env' data n b := by
  obtain ⟨pe, pre, s, post, h1, rest⟩ := hb
  exact ⟨pe, pre, s, post, by rw [← h]; exact h1, rest⟩

theorem RefersTo.congr {env env' : Env} (h : env.parse = env'.parse) {esp : Path} {data : Bytes}
    {a b : Str} {p : Path} {x : Bytes} (hb : RefersTo env esp data a b p x) :
    RefersTo env' esp data a b p x := by
  obtain ⟨rel, h1, h2, h3⟩ := hb
  exact ⟨rel, h1, h2.congr h, h3.congr h⟩

theorem InitrdOf.congr {b b' : BootSpec} (h1 : b.initrd = b'.initrd)
    (h2 : b.initrdSecrets = b'.initrdSecrets) {d : Bytes} (h : InitrdOf env b d) :
    InitrdOf env b' d := by
  unfold InitrdOf at h ⊢
  rw [← h1, ← h2]; exact h

/-- A new entry of `g'` is an entry of every `g` that boots the same system. -/
theorem NewRefs.entryFor {world : Env} (hw : InWorld world env cfg) {g g' : Gen} (hb : SameBoot g.spec g'.spec)
    {v : Str} {kd id out : Bytes} (h : NewRefs env cfg.esp g' v kd id out)
    (hg : Considers env cfg g') (hv : kernelVersion g'.spec.kernel = some v)
    (hkd : env.store g'.spec.kernel = some kd) (hid : InitrdOf env g'.spec id) :
    EntryFor world cfg.esp g out kd id v where
  kernel_is := by rw [hb.kernel]; exact hw.kernel _ _ hg hkd
  initrd_is := (hw.initrd _ _ hg hid).congr hb.initrd.symm hb.initrdSecrets.symm
  version_is := by rw [hb.kernel]; exact kernelVersion_spec.1 hv
  kernel_ref := by rw [← hw.sha]; exact h.kernel.2.congr hw.parse
  initrd_ref := by rw [← hw.sha]; exact h.initrd.2.congr hw.parse
  cmdline := by
    have := h.cmdline.congr hw.parse
    unfold cmdlineOf at this
    rw [hb.init, hb.kernelParams]
    exact this

/-- The lookup for `g` recognises a new entry of `g'` only if they agree. -/
theorem isMatch_sameEntry {uni : Char → Bool} {sha : Sha} {g g' : Gen} {k k' : Bytes} {t : Nat}
    (hm : isMatch uni (stubPrefix sha g k) (stubName sha g' k' t) = true)
    (hc : ¬ Collision sha (hashed g' k') (hashed g k)) : SameEntry g' g k' k := by
  rcases C27_stub_lookup_exact uni sha g' g k' k t _ .refl hm with h | h
  · exact h
  · exact absurd h hc

theorem Coherent.step {world : Env} {known : Gen → Bytes → Prop} (hs : SafeInput env cfg)
    (hf : FaithfulTools env) (hw : InWorld world env cfg) (hu : Unambiguous world known)
    (hk : ∀ g key, Considers env cfg g → KeyOf env cfg.signer key → known g key)
    {f : Fs} {c : Change} (hj : Coherent world cfg.esp known f) (st : InstallStep env cfg ld f c) :
    Coherent world cfg.esp known (f.apply c) := by
  intro g key n data hkn hn hd
  have hm := hn.isMatch
  have hp : IsEntry cfg.esp (entryFile cfg.esp n) := isMatch_isEntry hm
  rcases st.entry hs hp hd with h | h
  · exact hj g key n data hkn hn h
  · obtain ⟨g', key', kd, id, image, v, hg, -, hkey, hv, hkd, hid, him, hsg, pk, pi, rfl⟩ := h.isEntry
    have hkn' := hk g' key' hg hkey
    rw [hw.sha] at hm
    have hse := isMatch_sameEntry hm (hu.apart _ _ _ _ hkn' hkn)
    have hsb := hu.same _ _ _ _ hkn' hkn hse
    have hsb' : SameBoot g.spec g'.spec :=
      ⟨hsb.1.symm, hsb.2.symm, hsb.3.symm, hsb.4.symm, hsb.5.symm⟩
    exact ⟨kd, id, v, (him.refs hf (hs g' hg) hv hsg).entryFor hw hsb' hg hv hkd hid⟩

/-! ### No directories in the places of files -/

/-- A path two directories below the ESP, ending in `.efi`, is not made a directory. -/
theorem InstallStep.no_dir (hs : SafeInput env cfg) (hsep : Separate cfg) {f : Fs} {c : Change}
    (h : InstallStep env cfg ld f c) {d n : Str} (hd : d = lit "nixos" ∨ d = lit "Linux")
    (hn : n.getLast? = some 'i') (h1 : f.get (cfg.esp ++ [lit "EFI", d, n]) = none) :
    (f.apply c).get (cfg.esp ++ [lit "EFI", d, n]) ≠ some .dir := by
  intro h2
  have long : ∀ a b x : Str, ¬ cfg.esp ++ [lit "EFI", d, n] <+: (cfg.esp ++ [a, b, x]).dropLast := by
    intro a b x hp
    have := hp.length_le
    simp at this
  have sep : ∀ p m x, cfg.pcrlockDirectory = some p → m.getLast? = some 'd' →
      ¬ cfg.esp ++ [lit "EFI", d, n] <+: (p ++ [m, x]).dropLast := by
    intro p m x hp hm hpre
    have e : (p ++ [m, x]).dropLast = p ++ [m] := by
      rw [show p ++ [m, x] = (p ++ [m]) ++ [x] by simp, List.dropLast_concat]
    rw [e] at hpre
    rcases prefix_snoc_iff.1 hpre with hpre | hpre
    · have : cfg.esp ++ [lit "EFI", d] <+: p := by
        refine List.IsPrefix.trans ?_ hpre
        exact ⟨[n], by simp⟩
      rcases hd with rfl | rfl
      · exact (hsep p hp).2.1 this
      · exact (hsep p hp).2.2 this
    · rw [show cfg.esp ++ [lit "EFI", d, n] = (cfg.esp ++ [lit "EFI", d]) ++ [n] by simp] at hpre
      have : n = m := by simpa using (List.append_inj' hpre rfl).2
      rw [this, hm] at hn
      exact absurd hn (by decide)
  cases h with
  | @replace to dur t r =>
    have hp := r.dir h1 h2
    cases t with
    | kernel _ _ _ _ e => subst e; exact long _ _ _ hp
    | initrd _ _ _ _ e => subst e; exact long _ _ _ hp
    | entry _ _ _ e => subst e; exact long _ _ _ hp
    | loader _ e =>
      rcases e with rfl | rfl
      · exact long _ _ _ hp
      · exact long _ _ _ hp
    | conf e =>
      subst e
      have := hp.length_le
      simp [confFile] at this
  | @measured g p hg ho hp o =>
    exact sep p _ _ hp (by decide) (o.dir h1 h2)
  | @next p hl hp o =>
    exact sep p _ _ hp (by decide) (o.dir h1 h2)
  | @current p t dd m out out' hl hp hd' hlm hf a1 h1s a2 h2s hn' e =>
    subst e
    rw [Fs.get_rename (Fs.fileAt_ne_nil hf) (by simp [currentFile])] at h2
    by_cases e1 : cfg.esp ++ [lit "EFI", d, n] = currentFile p
    · simp [e1] at h2
    · by_cases e2 : cfg.esp ++ [lit "EFI", d, n] = nextFile p
      · simp [e1, e2] at h2
      · simp only [e1, e2, if_false] at h2; rw [h1] at h2; cases h2
  | sync _ e => subst e; simp [h1] at h2

theorem caName_last (l : Str) (h : Bytes) : (l ++ lit "-" ++ base32 h ++ lit ".efi").getLast? = some 'i' := by
  rw [List.getLast?_append]; rfl

theorem Sound.step (hs : SafeInput env cfg) (hf : FaithfulTools env) (hsep : Separate cfg) {f : Fs}
    {c : Change} (hj : Sound env cfg.esp f) (st : InstallStep env cfg ld f c) :
    Sound env cfg.esp (f.apply c) where
  entries p hp data hd := by
    obtain ⟨n, rfl, hn⟩ := hp
    have hp : IsEntry cfg.esp (entryFile cfg.esp n) := ⟨n, rfl, hn⟩
    rcases st.entry hs hp hd with h | h
    · exact hj.entries _ hp _ h
    · obtain ⟨g, key, kd, id, image, v, hg, -, -, hv, -, -, him, hsg, -, -, -⟩ := h.isEntry
      have r := him.refs hf (hs g hg) hv hsg
      exact ⟨_, _, _, _, r.kernel, r.initrd, env.sha.len _, env.sha.len _⟩
  files l h node hh hn := by
    rcases st.get hs (caFile_not_isTmp cfg.esp l h) (caFile_not_isMeasurement cfg.esp l h) with
      e | ⟨e1, e2⟩ | ⟨d', hc, -, -, e, -⟩
    · exact hj.files l h node hh (by rw [← e]; exact hn)
    · exact absurd e2 (st.no_dir hs hsep (Or.inl rfl) (caName_last l h) e1)
    · rw [e] at hn
      cases hn
      exact ⟨d', rfl, hc.ca hh⟩

/-- Removing files and directories, and leaving the others alone, keeps things sound. -/
theorem Sound.of_less {esp : Path} {f f' : Fs} (h : Sound env esp f)
    (hg : ∀ x, f'.get x = f.get x ∨ f'.get x = none) : Sound env esp f' where
  entries p hp data hd := by
    rw [Fs.fileAt_eq_some] at hd
    rcases hg p with e | e
    · exact h.entries p hp data (Fs.fileAt_eq_some.2 (by rw [← e]; exact hd))
    · rw [e] at hd; cases hd
  files l k node hk hn := by
    rcases hg (caFile esp l k) with e | e
    · exact h.files l k node hk (by rw [← e]; exact hn)
    · rw [e] at hn; cases hn

/-- What is there, is right. -/
theorem Sound.present {esp : Path} {f : Fs} (h : Sound env esp f) {l : Str} {k : Bytes}
    (hk : k.length = 32) (hx : (f.get (caFile esp l k)).isSome) : Present env f (caFile esp l k) k := by
  obtain ⟨node, hn⟩ := Option.isSome_iff_exists.1 hx
  obtain ⟨d, rfl, hd⟩ := h.files l k node hk hn
  exact ⟨d, Fs.fileAt_eq_some.2 hn, hd⟩

theorem chain_present (hs : SafeInput env cfg) {f : Fs} {cs : List Change}
    (h : Fs.Chain (InstallStep env cfg ld) f cs) {l : Str} {k : Bytes} (hk : k.length = 32)
    (hp : Present env f (caFile cfg.esp l k) k) : Present env (f.replay cs) (caFile cfg.esp l k) k :=
  h.inv (J := fun f => Present env f (caFile cfg.esp l k) k) hp fun _ _ j st => st.present hs hk j

/-! ### An entry of each generation is in use -/

/-- There is an entry for `g` that is in use, with its kernel and its initrd. -/
structure InUse (env : Env) (cfg : Config) (g : Gen) (f : Fs) (r : List Path) : Prop where
  ex : ∃ n key data kl kh il ih, KeyOf env cfg.signer key ∧
    isMatch env.uni (stubPrefix env.sha g key) n = true ∧
    f.fileAt (entryFile cfg.esp n) = some data ∧
    RefersToCa env cfg.esp data (lit ".linux") (lit ".linuxh") kl kh ∧
    RefersToCa env cfg.esp data (lit ".initrd") (lit ".initrdh") il ih ∧
    (Present env f (caFile cfg.esp kl kh) kh ∧ Present env f (caFile cfg.esp il ih) ih) ∧
    entryFile cfg.esp n ∈ r ∧ caFile cfg.esp kl kh ∈ r ∧ caFile cfg.esp il ih ∈ r

theorem KeyOf.unique {signer : Signer} {k k' : Bytes} (h : KeyOf env signer k)
    (h' : KeyOf env signer k') : k = k' := by
  cases signer with
  | empty => exact Eq.trans h (Eq.symm h')
  | «local» pub priv =>
    have h : env.store pub = some k := h
    have h' : env.store pub = some k' := h'
    rw [h] at h'; exact Option.some.inj h'

/-- An entry that stays as it is unless it is the one to be written. -/
theorem chain_entry (hs : SafeInput env cfg) {f : Fs} {l : List Change}
    (h : Fs.Chain (InstallStep env cfg ld) f l) {n : Str} (hn : IsEntry cfg.esp (entryFile cfg.esp n))
    {d : Bytes} (hd : f.fileAt (entryFile cfg.esp n) = some d) :
    (f.replay l).fileAt (entryFile cfg.esp n) = some d ∨ ∃ g key, ld.gens g ∧
      KeyOf env cfg.signer key ∧ n = stubName env.sha g key cfg.tries := by
  refine h.inv (J := fun f => f.fileAt (entryFile cfg.esp n) = some d ∨ ∃ g key, ld.gens g ∧
      KeyOf env cfg.signer key ∧ n = stubName env.sha g key cfg.tries) (Or.inl hd) ?_
  intro f c j st
  rcases j with j | j
  · rw [Fs.fileAt_eq_some] at j ⊢
    rcases st.get hs (isEntry_not_tmp hn) (isEntry_not_measurement hn) with
      e | ⟨e, -⟩ | ⟨d', hc, -, -, e, -⟩
    · exact Or.inl (e.trans j)
    · rw [e] at j; cases j
    · obtain ⟨g, key, kd, id, image, v, hg, ho, hkey, -, -, -, -, -, -, -, hn⟩ := hc.isEntry
      exact Or.inr ⟨g, key, ho, hkey, hn⟩
  · exact Or.inr j

/-- An entry was like that before unless it was written. -/
theorem chain_entry_back (hs : SafeInput env cfg) {f : Fs} {l : List Change}
    (h : Fs.Chain (InstallStep env cfg ld) f l) {n : Str} (hn : IsEntry cfg.esp (entryFile cfg.esp n))
    {d : Bytes} (hd : (f.replay l).fileAt (entryFile cfg.esp n) = some d) :
    f.fileAt (entryFile cfg.esp n) = some d ∨ ∃ g key, ld.gens g ∧
      KeyOf env cfg.signer key ∧ n = stubName env.sha g key cfg.tries := by
  refine h.inv (J := fun f' => ∀ d, f'.fileAt (entryFile cfg.esp n) = some d →
      f.fileAt (entryFile cfg.esp n) = some d ∨ ∃ g key, ld.gens g ∧
      KeyOf env cfg.signer key ∧ n = stubName env.sha g key cfg.tries) (fun d h => Or.inl h) ?_ d hd
  intro f c j st d hd
  rcases st.entry hs hn hd with h | h
  · exact j d h
  · obtain ⟨g, key, kd, id, image, v, hg, ho, hkey, -, -, -, -, -, -, -, hn⟩ := h.isEntry
    exact Or.inr ⟨g, key, ho, hkey, hn⟩

/-- What a found entry is like. -/
structure FoundCa (env : Env) (cfg : Config) (g : Gen) (key : Bytes) (f : Fs) (stub kernel initrd : Path) :
    Prop where
  ex : ∃ n data kl kh il ih, stub = entryFile cfg.esp n ∧
    isMatch env.uni (stubPrefix env.sha g key) n = true ∧ f.fileAt stub = some data ∧
    RefersToCa env cfg.esp data (lit ".linux") (lit ".linuxh") kl kh ∧
    RefersToCa env cfg.esp data (lit ".initrd") (lit ".initrdh") il ih ∧
    kernel = caFile cfg.esp kl kh ∧ initrd = caFile cfg.esp il ih ∧
    Present env f (caFile cfg.esp kl kh) kh ∧ Present env f (caFile cfg.esp il ih) ih

theorem Found.ca {g : Gen} {key : Bytes} {f : Fs} {stub kernel initrd : Path}
    (h : Found env cfg (stubPrefix env.sha g key) f stub kernel initrd) (hj : Sound env cfg.esp f) :
    FoundCa env cfg g key f stub kernel initrd := by
  obtain ⟨n, data, kb, ib, rfl, hm, hd, hkb, hkr, hib, hir, x1, x2⟩ := h.ex
  obtain ⟨kl, kh, il, ih, h1, h2, h3, h4⟩ := hj.entries _ (isMatch_isEntry hm) _ hd
  have e1 := h1.resolve hkb hkr
  have e2 := h2.resolve hib hir
  rw [e1] at x1
  rw [e2] at x2
  exact ⟨n, data, kl, kh, il, ih, rfl, hm, hd, h1, h2, e1, e2, hj.present h3 x1, hj.present h4 x2⟩

theorem inUse_kept {g : Gen} {s : State} (hj : Sound env cfg.esp s.fs) (h : Kept env cfg g s) :
    InUse env cfg g s.fs s.roots := by
  obtain ⟨key, stub, kernel, initrd, hkey, hf, ⟨r1, r2, r3⟩, -⟩ := h.ex
  obtain ⟨n, data, kl, kh, il, ih, rfl, hm, hd, h1, h2, rfl, rfl, h3, h4⟩ := (hf.ca hj).ex
  exact ⟨n, key, data, kl, kh, il, ih, hkey, hm, hd, h1, h2, ⟨h3, h4⟩, r1, r2, r3⟩

theorem inUse_fresh (hs : SafeInput env cfg) (hf : FaithfulTools env) {g : Gen}
    (hg : Considers env cfg g) {s : State} (h : Fresh env cfg g s) : InUse env cfg g s.fs s.roots := by
  obtain ⟨key, kd, id, image, out, v, hkey, hv, -, -, him, hsg, ho, pk, pi, -, r1, r2, r3⟩ := h.ex
  have r := him.refs hf (hs g hg) hv hsg
  exact ⟨_, key, out, _, _, _, _, hkey, isMatch_stubName _ _ _ _ _, ho, r.kernel, r.initrd, ⟨pk, pi⟩,
    r1, r2, r3⟩

theorem inUse_carried (hs : SafeInput env cfg) (hf : FaithfulTools env) (hsep : Separate cfg) :
    Carried env cfg (Sound env cfg.esp) (InUse env cfg) where
  step f c hj st := hj.step hs hf hsep st
  post g s hg hj h := by
    rcases h with h | h
    · exact inUse_kept hj h
    · exact inUse_fresh hs hf hg h
  other g g' f r l s' hg hg' hj hr hch hfs hrs hj' hres := by
    obtain ⟨n, key, data, kl, kh, il, ih, hkey, hm, hd, h1, h2, ⟨h3, h4⟩, r1, r2, r3⟩ := hr.ex
    have h3' := chain_present hs hch h3.length h3
    have h4' := chain_present hs hch h4.length h4
    rw [← hfs] at h3' h4'
    rcases chain_entry hs hch (isMatch_isEntry hm) hd with h | ⟨_, key', rfl, hkey', hn⟩
    · rw [← hfs] at h
      exact ⟨n, key, data, kl, kh, il, ih, hkey, hm, h, h1, h2, ⟨h3', h4'⟩, hrs _ r1, hrs _ r2, hrs _ r3⟩
    · rcases hres with rfl | hfr
      · rw [Fs.replay_nil] at hfs
        rw [hfs]
        exact ⟨n, key, data, kl, kh, il, ih, hkey, hm, hd, h1, h2, ⟨h3, h4⟩, hrs _ r1, hrs _ r2, hrs _ r3⟩
      · obtain ⟨key'', kd, id, image, out, v, hkey'', hv, -, -, him, hsg, ho, pk, pi, -, q1, q2, q3⟩ :=
          hfr.ex
        cases hkey'.unique hkey''
        have r := him.refs hf (hs _ hg') hv hsg
        refine ⟨n, key, out, _, _, _, _, hkey, hm, by rw [hn]; exact ho, r.kernel, r.initrd, ⟨pk, pi⟩,
          by rw [hn]; exact q1, q2, q3⟩
  loader g f r l r' hg hj hr hch hrs := by
    obtain ⟨n, key, data, kl, kh, il, ih, hkey, hm, hd, h1, h2, ⟨h3, h4⟩, r1, r2, r3⟩ := hr.ex
    rcases chain_entry hs hch (isMatch_isEntry hm) hd with h | ⟨_, key', h, -⟩
    · exact ⟨n, key, data, kl, kh, il, ih, hkey, hm, h, h1, h2, ⟨chain_present hs hch h3.length h3,
        chain_present hs hch h4.length h4⟩, hrs _ r1, hrs _ r2, hrs _ r3⟩
    · exact absurd h id

/-- With an additional invariant. -/
theorem Carried.and {J J' : Fs → Prop} {R : Gen → Fs → List Path → Prop} (h : Carried env cfg J R)
    (hJ : ∀ f c, J' f → InstallStep env cfg .all f c → J' (f.apply c)) :
    Carried env cfg (fun f => J f ∧ J' f) R where
  step f c hj st := ⟨h.step f c hj.1 st, hJ f c hj.2 st⟩
  post g s hg hj hk := h.post g s hg hj.1 hk
  other g g' f r l s' hg hg' hj hr hch hfs hrs hj' hres :=
    h.other g g' f r l s' hg hg' hj.1 hr hch hfs hrs hj'.1 hres
  loader g f r l r' hg hj hr hch hrs := h.loader g f r l r' hg hj.1 hr hch hrs

end Verif.Tool
