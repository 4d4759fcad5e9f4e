import Verif.Lemmas.BootLive
import Verif.Props.InstallBoot
import Verif.Lemmas.SampleBoot
/-!
# C41: what the installer writes is what the stub boots
-/
namespace Verif.Tool
open Verif Generation StubName

variable {env world : Env} {cfg : Config} {fs : Fs}

/-! ## Names for the firmware -/

instance (s : Str) : Decidable (FirmwareText s) := List.decidableBAll _ _

theorem FirmwareText.append {a b : Str} (ha : FirmwareText a) (hb : FirmwareText b) : FirmwareText (a ++ b) := by
  intro c hc
  rcases List.mem_append.1 hc with h | h
  · exact ha c h
  · exact hb c h

theorem firmwareText_base32 (h : Bytes) : FirmwareText (base32 h) := fun c hc =>
  (by decide : FirmwareText b32Alphabet) c (base32_mem h c hc)

theorem firmwareText_caFile {l : Str} {h : Bytes} (hl : FirmwareText l) :
    FirmwareText (uefiText (caFile [] l h)) := by
  have e : uefiText (caFile [] l h) = lit "\\EFI\\nixos\\" ++ (l ++ lit "-" ++ base32 h ++ lit ".efi") := by
    simp [uefiText, caFile, joinWith, lit]
  rw [e]
  refine .append (by decide) (.append (.append (.append hl (by decide)) (firmwareText_base32 h)) (by decide))

theorem FirmwareGen.version {g : Gen} (hg : FirmwareGen g) {v : Str} (hv : ∀ c ∈ v, ∃ n ∈ g.spec.kernel, c ∈ n) :
    FirmwareText v := by
  intro c hc
  obtain ⟨n, hn, hcn⟩ := hv c hc
  exact hg.kernel n hn c hcn

/-! ## Sections -/

/-- C41: a section of a PE file has the same contents in memory. -/
theorem C41_sections {data own : Bytes} {pe : Stub.PE} {name : Str} {b : Bytes}
    (hl : LoadedAs env data own pe) (h : FileSection env data name b) :
    Stub.Spec.SectionContents pe own name b := by
  obtain ⟨file, pre, s, post, h1, h2, h3, h4, h5, h6, h7, h8⟩ := h
  obtain ⟨file', g1, g2⟩ := hl.headers
  rw [h1, Option.some.injEq] at g1
  subst g1
  rw [g2] at h2
  refine ⟨pre, s, post, h2, h3, ?_, h7, ?_⟩
  · intro t ht hc
    obtain ⟨n, e1, e2⟩ := h4 t ht
    rw [e1, Option.some.injEq] at hc
    exact e2 hc
  · intro i hi
    rw [if_pos (by omega), h8 i hi, hl.contents s (by rw [h2]; simp) i (by omega)]

theorem textSection_of {data own : Bytes} {pe : Stub.PE} {name : Str} {text : Str}
    (hl : LoadedAs env data own pe) (h : FileSection env data name (utf8 text)) (hf : FirmwareText text) :
    Stub.Spec.TextSection pe own name (text16 text) :=
  ⟨text, C41_sections hl h, rfl, hf⟩

theorem StubImage.sections (hf : FaithfulTools env) {g : Gen} {v : Str} {kernel initrd image out : Bytes}
    (hi : StubImage env cfg g v kernel initrd image) (hs : SignedBy env cfg.signer image out) :
    ∀ s ∈ entrySections env g v kernel initrd, FileSection env out s.1 s.2 := by
  obtain ⟨stub, t, added, -, h2, h3⟩ := hi
  intro s h
  rw [← h2] at h
  obtain ⟨a, ha, rfl⟩ := List.mem_map.1 h
  refine hs.section hf (hf.objcopy t stub added image h3 ?_ a ha)
  have : added.map (·.name) = (entrySections env g v kernel initrd).map (·.1) := by
    rw [← h2, List.map_map]; rfl
  rw [this]
  show [lit ".osrel", lit ".cmdline", lit ".initrd", lit ".linux", lit ".initrdh", lit ".linuxh"].Nodup
  decide

theorem LoadedAs.sectionsWithin {data own : Bytes} {pe : Stub.PE} (hl : LoadedAs env data own pe) :
    Stub.SectionsWithin pe own.length := hl.within

/-- C41: the stub reads from its image the paths, hashes and the command line the installer put in. -/
theorem C41_stub_reads (hf : FaithfulTools env) {g : Gen} {v : Str} {kernel initrd image out own : Bytes}
    {pe : Stub.PE} (hi : StubImage env cfg g v kernel initrd image) (hs : SignedBy env cfg.signer image out)
    (hl : LoadedAs env out own pe) (hv : FirmwareText v) (hc : FirmwareText (commandLine g)) :
    (∃ n, Spelling.ContentName (lit "kernel") v (env.sha.hash kernel) n ∧
      Stub.extractString { data := own, pe := pe } (lit ".linux") = .ok (text16 (lit "\\EFI\\nixos\\" ++ n))) ∧
    (∃ n, Spelling.ContentName (lit "initrd") v (env.sha.hash initrd) n ∧
      Stub.extractString { data := own, pe := pe } (lit ".initrd") = .ok (text16 (lit "\\EFI\\nixos\\" ++ n))) ∧
    Stub.extractString { data := own, pe := pe } (lit ".cmdline") = .ok (text16 (commandLine g)) ∧
    Stub.extractHash { data := own, pe := pe } (lit ".linuxh") = .ok (env.sha.hash kernel) ∧
    Stub.extractHash { data := own, pe := pe } (lit ".initrdh") = .ok (env.sha.hash initrd) := by
  have hsec := StubImage.sections hf hi hs
  have ek := hsec _ (.tail _ (.tail _ (.tail _ (.head _))))
  have ekh := hsec _ (.tail _ (.tail _ (.tail _ (.tail _ (.tail _ (.head _))))))
  have ei := hsec _ (.tail _ (.tail _ (.head _)))
  have eih := hsec _ (.tail _ (.tail _ (.tail _ (.tail _ (.head _)))))
  have ec := hsec _ (.tail _ (.head _))
  have hw : Stub.SectionsWithin pe own.length := hl.within
  have name : ∀ l h, lit "\\EFI\\nixos\\" ++ (l ++ lit "-" ++ base32 h ++ ".efi".toList) =
      uefiText (caFile [] l h) := by
    intro l h
    simp [uefiText, caFile, joinWith, lit]
  refine ⟨?_, ?_, ?_, ?_, ?_⟩
  · refine ⟨_, ⟨_, Spelling.base32_spec _, rfl⟩, ?_⟩
    have e := Stub.extractString_of (p := { data := own, pe := pe }) hw
      (textSection_of hl ek (firmwareText_caFile (.append (by decide) hv)))
    rw [e, ← name]
    simp [lit]
  · refine ⟨_, ⟨_, Spelling.base32_spec _, rfl⟩, ?_⟩
    have e := Stub.extractString_of (p := { data := own, pe := pe }) hw
      (textSection_of hl ei (firmwareText_caFile (.append (by decide) hv)))
    rw [e, ← name]
    simp [lit]
  · exact Stub.extractString_of (p := { data := own, pe := pe }) hw (textSection_of hl ec hc)
  · exact Stub.extractHash_of (p := { data := own, pe := pe }) hw (C41_sections hl ekh) (env.sha.len _)
  · exact Stub.extractHash_of (p := { data := own, pe := pe }) hw (C41_sections hl eih) (env.sha.len _)

/-! ## Booting an entry -/

/-- What is in memory when an entry that boots `g` is loaded. -/
theorem booting_facts {esp : Path} {p : Path} {g : Gen} {m : Stub.Env} {pe : Stub.PE}
    (hb : Boots env esp fs g p) (hm : Booting env esp fs p m pe) (hg : FirmwareGen g) :
    ∃ kernel initrd kd id kname iname, env.store g.spec.kernel = some kernel ∧ InitrdOf env g.spec initrd ∧
      (∃ q, fs.fileAt q = some kd) ∧ (∃ q, fs.fileAt q = some id) ∧
      env.sha.hash kd = env.sha.hash kernel ∧ env.sha.hash id = env.sha.hash initrd ∧
      Stub.SectionsWithin pe m.ownImage.length ∧
      Stub.Spec.TextSection pe m.ownImage (lit ".linux") kname ∧
      Stub.Spec.TextSection pe m.ownImage (lit ".initrd") iname ∧
      Stub.Spec.TextSection pe m.ownImage (lit ".cmdline") (text16 (commandLine g)) ∧
      Stub.Spec.Verified m.sha pe m.ownImage kd id ∧
      ∀ t, ∃ fw, m.fs t = some fw ∧ fw.read kname = some kd ∧ fw.read iname = some id := by
  obtain ⟨data, kernel, initrd, v, hd, he, ⟨kd, k1, k2⟩, ⟨id, i1, i2⟩⟩ := hb
  obtain ⟨data', hd', hl⟩ := hm.loaded
  rw [hd, Option.some.injEq] at hd'
  subst hd'
  have hv := hg.version he.version_is.mem
  obtain ⟨krel, ke, ks, kh⟩ := he.kernel_ref
  obtain ⟨irel, ie, is, ih⟩ := he.initrd_ref
  have hrel : ∀ l h rel, caFile esp l h = esp ++ rel → rel = caFile [] l h := by
    intro l h rel e
    unfold caFile at e ⊢
    rw [List.append_cancel_left_eq] at e
    rw [← e]; rfl
  have ek := hrel _ _ _ ke
  have ei := hrel _ _ _ ie
  have tk : FirmwareText (uefiText krel) := by
    rw [ek]; exact firmwareText_caFile (.append (by decide) hv)
  have ti : FirmwareText (uefiText irel) := by
    rw [ei]; exact firmwareText_caFile (.append (by decide) hv)
  refine ⟨kernel, initrd, kd, id, _, _, he.kernel_is, he.initrd_is, ⟨_, k1⟩, ⟨_, i1⟩, k2, i2,
    hl.sectionsWithin, textSection_of hl ks tk, textSection_of hl is ti, textSection_of hl he.cmdline hg.cmdline,
    ⟨?_, ?_⟩, ?_⟩
  · rw [hm.sha, k2]; exact C41_sections hl kh
  · rw [hm.sha, i2]; exact C41_sections hl ih
  · intro t
    obtain ⟨fw, h1, h2⟩ := hm.serves t
    exact ⟨fw, h1, h2 _ _ (by rw [← ke]; exact k1) tk, h2 _ _ (by rw [← ie]; exact i1) ti⟩

/-- C41: loading the components in the stub succeeds for every entry that boots `g`: the hash checks pass on
the files on the ESP, and these are, by their hashes, the kernel and the initrd of `g`. -/
theorem C41_hash_checks_pass {esp : Path} {p : Path} {g : Gen} {m : Stub.Env} {pe : Stub.PE}
    (hb : Boots env esp fs g p) (hm : Booting env esp fs p m pe) (hg : FirmwareGen g) (w : Stub.World) :
    ∃ kernel initrd c w', env.store g.spec.kernel = some kernel ∧ InitrdOf env g.spec initrd ∧
      Stub.loadFromPe m w = (.ok c, w') ∧ c.cmdline = text16 (commandLine g) ∧
      env.sha.hash c.kernel = env.sha.hash kernel ∧ env.sha.hash c.initrd = env.sha.hash initrd := by
  obtain ⟨kernel, initrd, kd, id, kname, iname, h1, h2, -, -, h3, h4, h5, h6, h7, h8, h9, h10⟩ :=
    booting_facts hb hm hg
  obtain ⟨w', e⟩ := Stub.loadFromPe_of hm.parsed h5 h6 h7 h8 h9 h10 w
  exact ⟨kernel, initrd, _, w', h1, h2, e, rfl, h3, h4⟩

/-- C41: whatever kernel is started from an entry that boots `g`, it is the kernel of `g`, with its initrd,
and with Secure Boot on with its command line. -/
theorem C41_only_this_starts {esp : Path} {p : Path} {g : Gen} {m : Stub.Env} {pe : Stub.PE} {w : Stub.World}
    {s : Stub.Started} (hb : Boots env esp fs g p) (hm : Booting env esp fs p m pe) (hg : FirmwareGen g)
    (hn : NoAccident env fs g) (hst : Stub.Starts m w s) :
    StartOf env m g s ∧
    (SecureBootOn m w → s.options = Stub.Spec.optionsOf (text16 (commandLine g))) := by
  obtain ⟨kernel, initrd, kd, id, kname, iname, h1, h2, ⟨kq, h3⟩, ⟨iq, h4⟩, h5, h6, h7, h8, h9, h10, h11, h12⟩ :=
    booting_facts hb hm hg
  have ek : kd = kernel := Classical.byContradiction fun hc => hn _ _ h3 _ (Or.inl h1) ⟨hc, h5⟩
  have ei : id = initrd := Classical.byContradiction fun hc => hn _ _ h4 _ (Or.inr h2) ⟨hc, h6⟩
  subst ek ei
  constructor
  · obtain ⟨pe', kpe, k', i', kn', in', extras, joined, g1, g2, g3, g4, ⟨t, fw, g5, g6⟩, ⟨t2, fw2, g5', g7⟩, g8, g9, g10, g11⟩ :=
      Stub.C08_only_verified_started m w s hst
    have hpe : pe' = pe := Option.some.inj (g1.symm.trans hm.parsed)
    subst hpe
    have e1 := Stub.TextSection.unique g3 h8
    have e2 := Stub.TextSection.unique g4 h9
    subst e1 e2
    obtain ⟨fw', f1, f2, -⟩ := h12 t
    rw [g5, Option.some.injEq] at f1
    subst f1
    obtain ⟨fw', f1, -, f3⟩ := h12 t2
    rw [g5', Option.some.injEq] at f1
    subst f1
    have e3 : kd = k' := Option.some.inj (f2.symm.trans g6)
    have e4 : id = i' := Option.some.inj (f3.symm.trans g7)
    subst e3 e4
    exact ⟨_, _, kpe, extras, joined, h1, h2, g8, g9, g10, g11⟩
  · rintro ⟨hv, hf⟩
    obtain ⟨pe', emb, g1, g2, g3⟩ := Stub.C09_embedded_cmdline m w s hst hv hf
    have hpe : pe' = pe := Option.some.inj (g1.symm.trans hm.parsed)
    subst hpe
    rw [g3, Stub.TextSection.unique g2 h10]

/-- C41: and it does start, if the kernel can be loaded and the firmware provides what is needed. -/
theorem C41_starts {esp : Path} {p : Path} {g : Gen} {m : Stub.Env} {pe : Stub.PE} {w : Stub.World}
    (hb : Boots env esp fs g p) (hm : Booting env esp fs p m pe) (hg : FirmwareGen g)
    (hn : NoAccident env fs g)
    (hk : ∀ kernel, env.store g.spec.kernel = some kernel →
      ∃ kpe, m.parseFile kernel = some kpe ∧ Stub.Spec.Loadable kpe kernel)
    (hh : Stub.Spec.Healthy m w) : ∃ s, Stub.Starts m w s := by
  obtain ⟨kernel, initrd, kd, id, kname, iname, h1, h2, ⟨kq, h3⟩, ⟨iq, h4⟩, h5, h6, h7, h8, h9, h10, h11, h12⟩ :=
    booting_facts hb hm hg
  have ek : kd = kernel := Classical.byContradiction fun hc => hn _ _ h3 _ (Or.inl h1) ⟨hc, h5⟩
  subst ek
  obtain ⟨kpe, hkp, hl⟩ := hk _ h1
  exact Stub.starts_of hh hm.parsed h7 h8 h9 h10 (by rw [text16, List.length_map]; exact hg.short) h11 h12 hkp hl

/-- C41, from the installer to the kernel: after a successful run every considered generation has a boot
entry from which a machine in working order starts the kernel of this generation, with its initrd and,
with Secure Boot on, its command line, and nothing else. -/
theorem C41_install_then_boot (hs : SafeInput env cfg) (hf : FaithfulTools env)
    (hsep : Separate cfg)
    (hw : InWorld world env cfg) {known : Gen → Bytes → Prop} (hu : Unambiguous world known)
    (hkn : ∀ g key, Considers env cfg g → KeyOf env cfg.signer key → known g key)
    (hc : Sound env cfg.esp fs) (hj : Coherent world cfg.esp known fs)
    (hok : Succeeded env cfg fs) {fs' : Fs} (hfs : fs' = (run env cfg (start cfg fs)).2.fs) {g : Gen}
    (hg : Considers env cfg g) (hgf : FirmwareGen g) (hn : NoAccident world fs' g) :
    ∃ p, IsEntry cfg.esp p ∧ (fs'.fileAt p).isSome ∧ ∀ m pe w, Booting world cfg.esp fs' p m pe →
      (Stub.Spec.Healthy m w → (∀ kernel, world.store g.spec.kernel = some kernel →
        ∃ kpe, m.parseFile kernel = some kpe ∧ Stub.Spec.Loadable kpe kernel) → ∃ s, Stub.Starts m w s) ∧
      ∀ s, Stub.Starts m w s → StartOf world m g s ∧
        (SecureBootOn m w → s.options = Stub.Spec.optionsOf (text16 (commandLine g))) := by
  obtain ⟨p, hp, hb⟩ := C38_considered_generations_boot hs hf hsep hw hu hkn hc hj hok.ok (Or.inl hok.read) hg
  rw [← hfs] at hb
  have hd : (fs'.fileAt p).isSome := by
    obtain ⟨data, _, _, _, hd, -⟩ := hb
    rw [hd]; rfl
  exact ⟨p, hp, hd, fun m pe w hm => ⟨fun hh hk => C41_starts hb hm hgf hn hk hh,
    fun s hst => C41_only_this_starts hb hm hgf hn hst⟩⟩

end Verif.Tool

/-! ## A concrete installation that is booted -/

namespace Verif.Tool.Sample
open Verif Generation StubName

/-- The ESP after the run. -/
def installed : Fs := (run good cfg (start cfg disk0)).2.fs

/-- The volume the firmware makes of a file system. -/
def serve (fs : Fs) : Companion.Fw where
  readDir _ := none
  metadataIsDir _ := some false
  tryExists _ := some false
  read f := fs.nodes.findSome? fun e => match e.2 with
    | .file d => if cfg.esp.isPrefixOf e.1 ∧ text16 (uefiText (e.1.drop cfg.esp.length)) = f then some d else none
    | .dir => none

def kernelHeader : Stub.PE where
  sections := [Stub.Sample.sec ".text" 0 3]
  entry := 1
  hasRelocations := false

/-- A machine that has loaded the boot entry `data`. -/
def machine (data : Bytes) : Stub.Env :=
  { Stub.Sample.env true .success with
    sha := sha
    ownImage := data
    parseOwn := parse
    parseFile := fun _ => some kernelHeader
    fs := fun _ => some (serve installed) }

def pathText (p : Path) : Option Companion.Str16 :=
  if cfg.esp.isPrefixOf p then some (text16 (uefiText (p.drop cfg.esp.length))) else none

theorem serves : Serves (serve installed) cfg.esp installed := by
  have key : installed.nodes.all (fun e => match e.2 with
      | .file d => match pathText e.1 with
        | none => true
        | some t => decide ((serve installed).read t = some d)
      | .dir => true) = true := by decide +kernel
  intro rel d h _
  have hm := mem_of_fileAt h (by simp [cfg])
  have := List.all_eq_true.1 key _ hm
  have hp : pathText (cfg.esp ++ rel) = some (text16 (uefiText rel)) := by
    unfold pathText
    rw [if_pos (by rw [List.isPrefixOf_iff_prefix]; exact List.prefix_append _ _), List.drop_left]
  simp only [hp, decide_eq_true_eq] at this
  exact this

/-- Every boot entry can be loaded. -/
theorem loadedAs {p : Path} (hp : IsEntry cfg.esp p) {data : Bytes} (hd : installed.fileAt p = some data) :
    ∃ pe, parse data = some pe ∧ LoadedAs good data data pe := by
  have key : installed.nodes.all (fun e => match e.2 with
      | .file d => if lit "nixos-" <+: (e.1.getLast?.getD []) then match parse d with
        | none => false
        | some pe => pe.sections.all fun s => decide (s.virtualAddress = s.pointerToRawData) &&
            decide (s.virtualAddress.toNat + min s.virtualSize.toNat s.sizeOfRawData.toNat ≤ d.length)
        else true
      | .dir => true) = true := by decide +kernel
  obtain ⟨n, rfl, hn, -⟩ := hp
  have := List.all_eq_true.1 key _ (mem_of_fileAt hd (by simp [entryFile]))
  have hl : (entryFile cfg.esp n).getLast?.getD [] = n := by simp [entryFile]
  simp only [hl, if_pos hn] at this
  cases hpe : parse data with
  | none => rw [hpe] at this; cases this
  | some pe =>
    rw [hpe] at this
    have hs : ∀ s ∈ pe.sections, s.virtualAddress = s.pointerToRawData ∧
        s.virtualAddress.toNat + min s.virtualSize.toNat s.sizeOfRawData.toNat ≤ data.length := by
      intro s hs
      have := List.all_eq_true.1 this s hs
      simpa [Bool.and_eq_true] using this
    exact ⟨pe, rfl, ⟨pe, hpe, rfl⟩, fun s h i _ => by rw [(hs s h).1], fun s h => (hs s h).2⟩

theorem firmwareGen (g : Gen) (hg : g ∈ allOf good cfg) : FirmwareGen g := by
  have key : ∀ g ∈ allOf good cfg, (∀ c ∈ g.spec.kernel, FirmwareText c) ∧ FirmwareText (commandLine g) ∧
      (commandLine g).length < 2 ^ 31 - 1 := by decide +kernel
  obtain ⟨h1, h2, h3⟩ := key g hg
  exact ⟨h1, h2, h3⟩

theorem noAccident (g : Gen) (hg : g ∈ allOf good cfg) : NoAccident good installed g := by
  have kk : ∀ g ∈ allOf good cfg, good.store g.spec.kernel ∈ [some kernel1, some kernel2] := by
    decide +kernel
  have ki : ∀ g ∈ allOf good cfg, (g.spec.initrd.bind good.store = some initrd1 ∧ g.spec.initrdSecrets = none) ∨
      (g.spec.initrd.bind good.store = some initrd2 ∧ g.spec.initrdSecrets = some (storePath "bbb-secrets")) := by
    decide +kernel
  have kh : installed.nodes.all (fun e => match e.2 with
      | .file d => [kernel1, kernel2, initrd1, initrd2 ++ [115]].all fun d' =>
          decide (sha.hash d = sha.hash d' → d = d')
      | .dir => true) = true := by decide +kernel
  intro p d hd d' hd' hc
  have hmem : d' ∈ [kernel1, kernel2, initrd1, initrd2 ++ [115]] := by
    rcases hd' with h | ⟨q, d₀, h1, h2, h3⟩
    · have := kk g hg
      rw [h] at this
      simp only [List.mem_cons, Option.some.injEq, List.not_mem_nil, or_false] at this
      rcases this with rfl | rfl <;> simp
    · rcases ki g hg with ⟨e1, e2⟩ | ⟨e1, e2⟩
      · rw [h1, Option.bind_some, h2, Option.some.injEq] at e1
        rw [e2] at h3
        simp only at h3
        subst h3 e1
        simp
      · rw [h1, Option.bind_some, h2, Option.some.injEq] at e1
        rw [e2] at h3
        obtain ⟨t, h3⟩ := h3
        have : some (d₀ ++ [115]) = some d' := h3
        rw [Option.some.injEq] at this
        subst this e1
        simp
  have hp : p ≠ [] := by
    rintro rfl
    rw [Fs.fileAt_eq_some] at hd
    simp [Fs.get] at hd
  have := List.all_eq_true.1 kh _ (mem_of_fileAt hd hp)
  have := List.all_eq_true.1 this d' hmem
  simp only [decide_eq_true_eq] at this
  exact hc.1 (this hc.2)

theorem healthy (data : Bytes) : Stub.Spec.Healthy (machine data) (Stub.Sample.start (some [1]) none) where
  image _ := rfl
  memory _ _ := ⟨_, rfl⟩
  protocols _ := rfl
  companions := by
    have hs : ∀ t fw, (machine data).fs t = some fw → fw = serve installed := fun t fw h => (Option.some.inj h).symm
    exact ⟨fun _ _ _ _ => ⟨_, rfl⟩, fun t fw h => ⟨false, by rw [hs t fw h]; rfl⟩,
      fun t fw h => (by rw [hs t fw h]; intro h; cases h), fun p _ t fw h => (by rw [hs t fw h]; intro h; cases h)⟩
  options o h := by cases h

theorem secureBootOn (data : Bytes) : SecureBootOn (machine data) (Stub.Sample.start (some [1]) none) :=
  ⟨by decide, by intro t h; cases h⟩

/-- The hypotheses can be met: for each of the three generations of the sample there is a boot entry and a
machine that starts the generation's kernel from it, with its command line. -/
example (g : Gen) (hg : g ∈ allOf good cfg) : ∃ p m w s, IsEntry cfg.esp p ∧ Stub.Starts m w s ∧
    StartOf good m g s ∧ s.options = Stub.Spec.optionsOf (text16 (commandLine g)) := by
  obtain ⟨p, hp, hd, h⟩ := C41_install_then_boot safe_good (faithful _) separate (inWorld _) unambiguous
    (known_considered _) sound0 coherent0 ⟨good0_ok, good0_broken⟩ (fs' := installed) rfl
    (considers_iff.2 hg) (firmwareGen g hg) (noAccident g hg)
  obtain ⟨data, hd⟩ := Option.isSome_iff_exists.1 hd
  obtain ⟨pe, hpe, hl⟩ := loadedAs hp hd
  have hm : Booting good cfg.esp installed p (machine data) pe :=
    ⟨rfl, ⟨data, hd, hl⟩, hpe, fun _ => ⟨_, rfl, serves⟩⟩
  obtain ⟨h1, h2⟩ := h _ _ (Stub.Sample.start (some [1]) none) hm
  obtain ⟨s, hs⟩ := h1 (healthy data) (by
    intro kernel hk
    have kk : ∀ g ∈ allOf good cfg, good.store g.spec.kernel ∈ [some kernel1, some kernel2] := by
      decide +kernel
    have hlen : 3 ≤ kernel.length := by
      have := kk g hg
      rw [hk] at this
      simp only [List.mem_cons, Option.some.injEq, List.not_mem_nil, or_false] at this
      rcases this with rfl | rfl <;> decide
    refine ⟨kernelHeader, rfl, ?_, ?_, rfl, ?_⟩
    · decide
    · intro s hs
      simp only [kernelHeader, List.mem_singleton] at hs
      subst hs
      exact hlen
    · decide)
  obtain ⟨h3, h4⟩ := h2 s hs
  exact ⟨p, _, _, s, hp, hs, h3, h4 (secureBootOn data)⟩

/-- A generation of the sample. -/
def someGen : Gen := (fromBootJson ⟨1, link1, some ⟨2025, 1, 31⟩⟩ ⟨spec1, []⟩).1

/-- The sections for it. -/
def someAdded : List Added :=
  (entrySections good someGen (lit "6.1") kernel1 initrd1).map fun s => { name := s.1, content := s.2, vma := 0 }

/-- The image objcopy makes of them, with its signature. -/
def someImage : Bytes := (objcopy stub someAdded).getD []
def someSigned : Bytes := (sbsign someImage).getD []
def someHeader : Stub.PE := (parse someSigned).getD ⟨[], 0, false⟩

/-- The hypotheses of `C41_stub_reads` and `C41_sections` can be met. -/
example : StubImage good cfg someGen (lit "6.1") kernel1 initrd1 someImage ∧
    SignedBy good cfg.signer someImage someSigned ∧ LoadedAs good someSigned someSigned someHeader ∧
    FirmwareText (lit "6.1") ∧ FirmwareText (commandLine someGen) := by
  have e1 : good.objcopy 0 stub someAdded = some someImage := by decide +kernel
  have e2 : good.sbsign 0 [lit "keys", lit "db.key"] [lit "keys", lit "db.pem"] someImage = some someSigned := by decide +kernel
  have e3 : good.parse someSigned = some someHeader := by decide +kernel
  have e4 : ∀ s ∈ someHeader.sections, s.virtualAddress = s.pointerToRawData ∧
      s.virtualAddress.toNat + min s.virtualSize.toNat s.sizeOfRawData.toNat ≤ someSigned.length := by
    decide +kernel
  refine ⟨⟨stub, 0, someAdded, by decide +kernel, ?_, e1⟩, ⟨0, e2⟩, ⟨⟨someHeader, e3, rfl⟩, ?_, ?_⟩,
    by decide, by decide⟩
  · unfold someAdded
    rw [List.map_map]
    exact List.map_id _
  · intro s h i _; rw [(e4 s h).1]
  · intro s h; exact (e4 s h).2

end Verif.Tool.Sample
