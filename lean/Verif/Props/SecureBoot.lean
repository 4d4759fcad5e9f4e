import Verif.Spec.SecureBoot
import Verif.Props.EndToEnd
import Verif.Props.Discovery
/-!
# C70: Secure Boot against an attacker who can write to the ESP
-/
namespace Verif.Tool
open Verif Generation StubName

variable {env : Env} {cfg : Config}

/-! ## Companion archives -/

theorem mem_numbered {ms : List Cpio.Member} {r : Newc.Rec} (h : r ∈ Cpio.numbered ms) :
    ∃ m ∈ ms, r.name = m.name := by
  unfold Cpio.numbered at h
  obtain ⟨⟨m, i⟩, hm, rfl⟩ := List.mem_map.1 h
  exact ⟨m, (List.mem_zipIdx hm).2.2 ▸ List.getElem_mem _, rfl⟩

theorem isCompanion_name {suffix : Companion.Str16} {e : Companion.DirEnt}
    (h : Companion.Spec.isCompanion suffix e = true) :
    (∀ u ∈ e.name, u.toNat < 128) ∧ suffix <:+ e.name := by
  unfold Companion.Spec.isCompanion at h
  simp only [Bool.and_eq_true, List.all_eq_true, decide_eq_true_eq] at h
  exact ⟨h.1.2, List.isSuffixOf_iff_suffix.1 h.2⟩

/-- The companions for one directory put files nowhere but into one directory in `.extra`. -/
theorem FoundIn.confined {fw : Companion.Fw} (hp : PlainNames fw) {dir : Companion.Str16} {ext : String}
    {kind : Companion.Kind} {place : String} {dm fm : Nat} {cs : List Companion.Companion}
    (he : ext ∈ [".cred", ".raw"]) (hpl : place ∈ ["credentials", "global_credentials", "sysext"])
    (h : Companion.Spec.FoundIn fw dir (Companion.lit16 ext) kind place dm fm cs) :
    ∀ c ∈ cs, ConfinedToExtra c.cpio.buffer := by
  cases h with
  | nothing h => intro c hc; cases hc
  | @archive files c h hne hkind hunpack =>
    intro c' hc'
    rw [List.mem_singleton] at hc'
    subst hc'
    refine ⟨_, hunpack, fun r hr => ?_⟩
    obtain ⟨m, hm, e⟩ := mem_numbered hr
    rw [e]
    unfold Companion.Spec.archiveMembers at hm
    rcases List.mem_cons.1 hm with rfl | hm
    · exact .top
    rcases List.mem_cons.1 hm with rfl | hm
    · exact .dir hpl
    obtain ⟨f, hf, rfl⟩ := List.mem_map.1 hm
    obtain ⟨es, h1, -, hperm⟩ := h.listed
    have hmem := hperm.mem_iff.1 (List.mem_map.2 ⟨f, hf, rfl⟩)
    obtain ⟨x, hx, hxn⟩ := List.mem_map.1 hmem
    obtain ⟨hx1, hx2⟩ := List.mem_filter.1 hx
    obtain ⟨o, ho, hox⟩ := List.mem_filterMap.1 hx1
    simp only [id] at hox
    subst hox
    obtain ⟨-, hsl⟩ := hp dir es x h1 ho
    obtain ⟨hascii, hsuf⟩ := isCompanion_name hx2
    rw [hxn] at hsl hascii hsuf
    refine .file hpl ?_ ?_
    · intro hc
      obtain ⟨u, hu, hu2⟩ := List.mem_map.1 hc
      have hlt := hascii u hu
      have h3 := congrArg UInt8.toNat hu2
      rw [UInt8.toNat_ofNat', Nat.mod_eq_of_lt (by omega)] at h3
      have h4 : u = 0x2F := UInt16.toNat_inj.1 h3
      exact hsl (h4 ▸ hu)
    · obtain ⟨pre, hpre⟩ := hsuf
      have hlen : 4 ≤ f.1.length := by
        rw [← hpre, List.length_append]
        simp only [List.mem_cons, List.not_mem_nil, or_false] at he
        rcases he with rfl | rfl
        · have : (Companion.lit16 ".cred").length = 5 := by decide
          omega
        · have : (Companion.lit16 ".raw").length = 4 := by decide
          omega
      refine ⟨fun hc => ?_, fun hc => ?_, fun hc => ?_⟩
      all_goals
        have := congrArg List.length hc
        rw [List.length_map] at this
        rw [this] at hlen
        exact absurd hlen (by decide)

theorem Only.confined {seen : Companion.Fw → Prop} (hp : ∀ fw, seen fw → PlainNames fw) {ip : Option (Option Companion.Str16)}
    {cs : List Companion.Companion} (h : Companion.Spec.Only seen ip cs) :
    ∀ c ∈ cs, ConfinedToExtra c.cpio.buffer := by
  obtain ⟨g, c, x, rfl, hg, hc, hx⟩ := h.ex
  intro a ha
  rcases List.mem_append.1 ha with ha | ha
  · rcases List.mem_append.1 ha with ha | ha
    · rcases hg with rfl | ⟨fw, hs, -, hg⟩
      · cases ha
      · exact FoundIn.confined (hp fw hs) (by decide) (by decide) hg a ha
    · rcases hc with rfl | ⟨-, fw, image, -, -, hs, hc⟩
      · cases ha
      · exact FoundIn.confined (hp fw hs) (by decide) (by decide) hc a ha
  · rcases hx with rfl | ⟨-, fw, image, -, -, hs, hx⟩
    · cases ha
    · exact FoundIn.confined (hp fw hs) (by decide) (by decide) hx a ha

theorem PlainNames.proper {fw : Companion.Fw} (h : PlainNames fw) : Companion.Spec.ProperNames fw :=
  fun dir es e h1 h2 => (h dir es e h1 h2).1

/-! ## The attacker -/

/-- **C70**. Whatever is on the ESP, at whatever time, and whatever the variables, the load options and the TPM
are: if a boot entry that was signed for `g` starts a kernel, it is the kernel of `g` with the initrd of
`g`, and with Secure Boot on with the command line of `g`. The only things that can be added are files in
`.extra`. Otherwise a file with the same SHA-256 hash has been found. -/
theorem C70_attacker (hf : FaithfulTools env) {g : Gen} {data : Bytes} (hd : SignedEntry env cfg g data)
    {m : Stub.Env} (hr : Runs env data m) (hn : ∀ t fw, m.fs t = some fw → PlainNames fw)
    {w : Stub.World} {s : Stub.Started} (hst : Stub.Starts m w s) :
    FoundCollision env m g ∨ (GenuineStart env m g s ∧
      (SecureBootOn m w → s.options = Stub.Spec.optionsOf (text16 (commandLine g)))) := by
  obtain ⟨v, kernel, initrd, image, hk, hi, him, hsig⟩ := hd.ex
  have hsec := StubImage.sections hf him hsig
  have ekh := hsec _ (.tail _ (.tail _ (.tail _ (.tail _ (.tail _ (.head _))))))
  have eih := hsec _ (.tail _ (.tail _ (.tail _ (.tail _ (.head _)))))
  have ec := hsec _ (.tail _ (.head _))
  obtain ⟨pe, hp, hl⟩ := hr.loaded
  have skh := C41_sections hl ekh
  have sih := C41_sections hl eih
  have sc := C41_sections hl ec
  obtain ⟨w1, w2, wk, c, cs, pe', kname, iname, r, r2, img, mid, comp, ms, f⟩ := Stub.started_facts hst
  have hpe : pe' = pe := Option.some.inj (f.ready.parsed.symm.trans hp)
  subst hpe
  obtain ⟨⟨t, fw, hfw, hrk⟩, ⟨t', fw', hfw', hri⟩⟩ := f.ready.volume
  have ekern := Stub.SectionContents.unique f.ready.verified.kernel skh
  have einit := Stub.SectionContents.unique f.ready.verified.initrd sih
  rw [hr.sha] at ekern einit
  by_cases ck : c.kernel = kernel
  swap
  · exact Or.inl ⟨t, fw, kname, c.kernel, kernel, hfw, hrk, Or.inl hk, ck, ekern⟩
  by_cases ci : c.initrd = initrd
  swap
  · exact Or.inl ⟨t', fw', iname, c.initrd, initrd, hfw', hri, Or.inr hi, ci, einit⟩
  right
  constructor
  · obtain ⟨kpe, h1, h2⟩ := f.ran.image
    refine ⟨kernel, initrd, kpe, cs.map fun c => c.cpio.buffer, _, hk, hi, ck ▸ h1, ck ▸ h2, f.ran.initrd,
      ci ▸ Stub.C12_concatenation _ _, ?_⟩
    intro a ha
    obtain ⟨c', hc', rfl⟩ := List.mem_map.1 ha
    rcases f.ready.found with ⟨t, -, rfl⟩ | ⟨w2, hd⟩
    · cases hc'
    · exact Only.confined (fun fw ⟨t, ht⟩ => hn t fw ht)
        (Stub.discoverCompanions_sound (fun t fw ht => (hn t fw ht).proper) hd) c' hc'
  · rintro ⟨hv, hfa⟩
    obtain ⟨pe2, emb, g1, ⟨text, g2, g3, g4⟩, g5⟩ := Stub.C09_embedded_cmdline m w s hst hv hfa
    have : pe2 = pe' := Option.some.inj (g1.symm.trans hp)
    subst this
    have e := utf8_injective (Stub.SectionContents.unique g2 sc)
    rw [g5, g3, e]
    rfl

/-! ## What is signed -/

/-- The same world with another signing program. -/
def Env.signing (env : Env) (f : Nat → Path → Path → Bytes → Option Bytes) : Env := { env with sbsign := f }

theorem bind_same {α β : Type} {m m' : M α} {k k' : α → M β} {s : State} (h : m s = m' s)
    (hk : ∀ a, (m' s).1 = .ok a → k a (m' s).2 = k' a (m' s).2) : (m >>= k) s = (m' >>= k') s := by
  rw [RM.bind_run, RM.bind_run, h]
  cases e : m' s with
  | mk r s' =>
    rw [e] at hk
    cases r with
    | ok a => exact hk a rfl
    | err => rfl
    | panic => rfl

variable {f : Nat → Path → Path → Bytes → Option Bytes}

/-- `f` does what `env.sbsign` does on everything that is to be signed, with the keys of the
configuration. -/
def SignsAlike (env : Env) (cfg : Config) (f : Nat → Path → Path → Bytes → Option Bytes) : Prop :=
  ∀ t pub priv image, cfg.signer = .local pub priv → ToSign env cfg image →
    f t priv pub image = env.sbsign t priv pub image

theorem installSigned_same (hf : SignsAlike env cfg f) {src : Src} (hsrc : ∀ d, env.content src = some d → ToSign env cfg d)
    (p : Path) (s : State) :
    installSigned (env.signing f) cfg.signer src p s = installSigned env cfg.signer src p s := by
  unfold installSigned
  refine bind_same rfl fun _ _ => bind_same ?_ fun _ _ => rfl
  cases hs : cfg.signer with
  | empty => rfl
  | «local» pub priv =>
    unfold Signer.signAndCopy
    dsimp only
    refine bind_same (m' := readSrc env src) rfl fun d hd => ?_
    refine bind_same (m' := next) rfl fun t ht => ?_
    have hd' := ((readSrc_triple (A := fun _ _ => True) (P := fun _ => True) (fun _ _ _ => trivial) env src _ trivial).post d hd).2
    have e : (env.signing f).sbsign t priv pub d = env.sbsign t priv pub d := hf t pub priv d hs (hsrc d hd')
    rw [e]
    cases env.sbsign t priv pub d <;> rfl

theorem installNewGeneration_same (hs : SafeInput env cfg) (hf : SignsAlike env cfg f) {g : Gen} (hg : Considers env cfg g)
    (s : State) :
    installNewGeneration (env.signing f) cfg g s = installNewGeneration env cfg g s := by
  have hsafe := hs g hg
  unfold installNewGeneration
  refine bind_same rfl fun _ _ => ?_
  refine bind_same (m' := ofOption (kernelVersion g.spec.kernel)) rfl fun v hv => ?_
  have hv := ((ofOption_triple (A := fun _ _ => True) (P := fun _ => True) _ _ trivial).post v hv).2
  refine bind_same (m' := installNixosCa env cfg (.store g.spec.kernel) (lit "kernel-" ++ v)) rfl fun kt hkt => ?_
  obtain ⟨kd, hkd, rfl, -, -⟩ := (installNixosCa_triple env cfg _
    (kernelVersion_label hsafe hv (lit "kernel-") (by decide)) _ trivial).post kt hkt
  refine bind_same (m' := initrdLocation env g.spec) rfl fun src hsrc => ?_
  have hsrc := ((initrdLocation_triple (A := fun _ _ => True) (P := fun _ => True) env g.spec (fun _ _ _ => trivial) _ trivial).post src hsrc).2
  refine bind_same (m' := installNixosCa env cfg src (lit "initrd-" ++ v)) rfl fun it hit => ?_
  obtain ⟨id, hid, rfl, -, -⟩ := (installNixosCa_triple env cfg _
    (kernelVersion_label hsafe hv (lit "initrd-") (by decide)) _ trivial).post it hit
  refine bind_same (m' := stubParameters cfg g src _ _) rfl fun ps hps => ?_
  obtain ⟨-, k, i, hk, hi, rfl⟩ := (stubParameters_triple (A := fun _ _ => True) (P := fun _ => True) cfg g src _ _ _ trivial).post ps hps
  rw [espRelative_caFile _ (kernelVersion_label hsafe hv _ (by decide))] at hk hi
  cases hk
  cases hi
  refine bind_same (m' := lanzabooteImage env _) rfl fun image himage => ?_
  obtain ⟨-, kd', id', stub, offset, t, e1, e2, e3, e4, e5⟩ := (lanzabooteImage_triple (A := fun _ _ => True) (P := fun _ => True) env _
    (fun _ _ _ => trivial) _ trivial).post image himage
  dsimp only at e1 e2 e3 e5
  have hkd : env.store g.spec.kernel = some kd := hkd
  rw [hkd] at e1
  cases e1
  rw [hid] at e2
  cases e2
  rw [cmdline_eq] at e5
  have him : ImageOf env cfg g v kd id image := ⟨stub, offset, t, e3, e4, e5⟩
  refine bind_same rfl fun _ _ => ?_
  refine bind_same (m' := cfg.signer.getPublicKey env) (by cases cfg.signer <;> rfl) fun key _ => ?_
  refine bind_same rfl fun _ _ => ?_
  refine installSigned_same hf (fun d hd => ?_) _ _
  cases hd
  exact .entry hg hkd (hsrc id hid) him.stubImage

theorem installAll_same (hs : SafeInput env cfg) (hf : SignsAlike env cfg f) (gens : List Gen)
    (hg : ∀ g ∈ gens, Considers env cfg g) (s : State) :
    installAll (env.signing f) cfg gens s = installAll env cfg gens s := by
  induction gens generalizing s with
  | nil => rfl
  | cons g gens ih =>
    unfold installAll
    refine bind_same ?_ fun _ _ => ih (fun x hx => hg x (List.mem_cons_of_mem _ hx)) _
    unfold installGeneration
    refine bind_same ?_ fun b _ => ?_
    · unfold registerInstalledGeneration
      exact bind_same (m' := cfg.signer.getPublicKey env) (by cases cfg.signer <;> rfl) fun key _ => rfl
    · split
      · rfl
      · exact installNewGeneration_same hs hf (hg g List.mem_cons_self) _

theorem parseLinks_same (l : List Path) : parseLinks (env.signing f) l = parseLinks env l := by
  induction l with
  | nil => rfl
  | cons p l ih => unfold parseLinks; rw [ih]; rfl

theorem readGenerations_same (l : List Link) (s : State) :
    readGenerations (env.signing f) l s = readGenerations env l s := by
  induction l generalizing s with
  | nil => rfl
  | cons x l ih =>
    unfold readGenerations
    refine bind_same rfl fun o _ => ?_
    cases o with
    | none => exact bind_same rfl fun _ _ => ih _
    | some g => exact bind_same (ih _) fun _ _ => rfl

theorem installSystemdBoot_same (hf : SignsAlike env cfg f) (s : State) :
    installSystemdBoot (env.signing f) cfg s = installSystemdBoot env cfg s := by
  have hsrc : ∀ d, env.content (.store cfg.systemdBootSource) = some d → ToSign env cfg d := by
    intro d hd
    exact .loader (by rw [← source_target]; exact hd)
  unfold installSystemdBoot
  refine bind_same rfl fun _ _ => ?_
  refine bind_same (m' := andM (cfg.signer.verifyPath env cfg.paths.efiFallback)
    (cfg.signer.verifyPath env cfg.paths.systemdBoot)) (by cases cfg.signer <;> rfl) fun _ _ => ?_
  refine bind_same rfl fun _ _ => ?_
  split
  · refine bind_same ?_ fun _ _ => rfl
    unfold replaceSystemdBoot
    refine bind_same rfl fun _ _ => ?_
    refine bind_same (installSigned_same hf hsrc _ _) fun _ _ => ?_
    exact bind_same (installSigned_same hf hsrc _ _) fun _ _ => rfl
  · rfl

/-- **C70**. The installer asks for signatures of nothing but boot entries of considered generations, made
from the stub, and of the boot loader, and with no other key: a signing program that behaves differently
on everything else makes no difference. -/
theorem C70_signs_nothing_else (hs : SafeInput env cfg) (f : Nat → Path → Path → Bytes → Option Bytes)
    (hf : ∀ t pub priv image, cfg.signer = .local pub priv → ToSign env cfg image →
      f t priv pub image = env.sbsign t priv pub image) (fs : Fs) :
    run { env with sbsign := f } cfg (start cfg fs) = run env cfg (start cfg fs) := by
  have hf : SignsAlike env cfg f := hf
  show run (env.signing f) cfg (start cfg fs) = _
  unfold run
  have hl : cfg.considered (env.signing f) = cfg.considered env := by
    unfold Config.considered
    rw [parseLinks_same]
  rw [hl]
  refine bind_same rfl fun links hlinks => ?_
  have hlinks := ((ofOption_triple (A := fun _ _ => True) (P := fun _ => True) _ _ trivial).post links hlinks).2
  refine bind_same ?_ fun _ _ => bind_same (installSystemdBoot_same hf _) fun _ _ => rfl
  unfold installGenerationsFromLinks
  refine bind_same (readGenerations_same _ _) fun gens hgens => ?_
  split
  · rfl
  refine bind_same (installAll_same hs hf _ ?_ _) fun _ _ => rfl
  obtain ⟨gens', t, b, e, h, -⟩ := readGenerations_spec env links
    ((ofOption (cfg.considered env) (start cfg fs)).2)
  rw [e] at hgens
  cases hgens
  intro g hg
  obtain ⟨x, hx, hgx⟩ := List.mem_flatMap.1 hg
  obtain ⟨link, hlink, j, hj, rfl⟩ := h x hx
  exact ⟨links, link, j, hlinks, hlink, hj, hgx⟩

/-! ## All runs of the installer -/

/-- **C70**. If the firmware accepts only what runs of the installer had signed, and it accepts and starts
`data`, then `data` is a boot loader, or every kernel it starts is that of a generation which was installed
at some time: with its initrd, its command line, and nothing added but files in `.extra`. -/
theorem C70_secure_boot {runs : Env → Config → Prop} {accepted : Bytes → Prop}
    (unforged : ∀ data, accepted data → ∃ env cfg image, runs env cfg ∧ ToSign env cfg image ∧
      SignedBy env cfg.signer image data)
    (faithful : ∀ env cfg, runs env cfg → FaithfulTools env)
    {data : Bytes} (ha : accepted data) {m : Stub.Env} (hr : ∀ env cfg, runs env cfg → Runs env data m)
    (hn : ∀ t fw, m.fs t = some fw → PlainNames fw) {w : Stub.World} {s : Stub.Started}
    (hst : Stub.Starts m w s) :
    (∃ env cfg image, runs env cfg ∧ env.store (loaderSource cfg) = some image ∧
      SignedBy env cfg.signer image data) ∨
    ∃ env cfg g, runs env cfg ∧ Considers env cfg g ∧ (FoundCollision env m g ∨ (GenuineStart env m g s ∧
      (SecureBootOn m w → s.options = Stub.Spec.optionsOf (text16 (commandLine g))))) := by
  obtain ⟨env, cfg, image, hrun, hsign, hby⟩ := unforged data ha
  cases hsign with
  | loader h => exact Or.inl ⟨env, cfg, image, hrun, h, hby⟩
  | @entry g v kernel initrd hg hk hi h =>
    exact Or.inr ⟨env, cfg, g, hrun, hg, C70_attacker (faithful env cfg hrun)
      ⟨hg, v, kernel, initrd, image, hk, hi, h, hby⟩ (hr env cfg hrun) hn hst⟩

end Verif.Tool

/-! ## Examples -/

namespace Verif.Tool.Sample
open Verif Generation StubName

theorem someConsidered : Considers good cfg someGen := considers_iff.2 (by decide +kernel)

theorem someInitrd : InitrdOf good someGen.spec initrd1 :=
  ⟨storePath "aaa-initrd", initrd1, by decide +kernel, by decide +kernel, rfl⟩

theorem someStub : StubImage good cfg someGen (lit "6.1") kernel1 initrd1 someImage := by
  refine ⟨stub, 0, someAdded, by decide +kernel, ?_, by decide +kernel⟩
  unfold someAdded
  rw [List.map_map]
  exact List.map_id _

theorem someSignedBy : SignedBy good cfg.signer someImage someSigned := ⟨0, by decide +kernel⟩

theorem someEntry : SignedEntry good cfg someGen someSigned :=
  ⟨someConsidered, _, kernel1, initrd1, _, by decide +kernel, someInitrd, someStub, someSignedBy⟩

/-- A credential that was added to the ESP. -/
def evilCred : Companion.DirEnt := { name := Companion.lit16 "evil.cred", regular := true }

/-- The ESP in the hands of an attacker. Every file on it can be replaced, with `change`; and there is a new
credential. -/
def attacked (change : Bytes → Bytes) : Companion.Fw where
  readDir d := if d = Companion.globalCredDir then some [some evilCred] else none
  metadataIsDir d := some (decide (d = Companion.globalCredDir))
  tryExists d := some (decide (d = Companion.globalCredDir))
  read f := if f = Companion.lit16 "\\loader\\credentials\\evil.cred" then some [6, 6, 6]
    else ((serve installed).read f).map change

def machineWith (data : Bytes) (change : Bytes → Bytes) : Stub.Env :=
  { machine data with fs := fun _ => some (attacked change) }

def attackedMachine (change : Bytes → Bytes) : Stub.Env := machineWith someSigned change

/-- The load options of the attacker. -/
def evil : Stub.World := Stub.Sample.start (some [1]) (some [105, 0, 110, 0, 105, 0, 116, 0, 0, 0])

theorem someParsed : good.parse someSigned = some someHeader := by decide +kernel

theorem someLoaded : LoadedAs good someSigned someSigned someHeader := by
  have e4 : ∀ s ∈ someHeader.sections, s.virtualAddress = s.pointerToRawData ∧
      s.virtualAddress.toNat + min s.virtualSize.toNat s.sizeOfRawData.toNat ≤ someSigned.length := by
    decide +kernel
  refine ⟨⟨someHeader, someParsed, rfl⟩, ?_, ?_⟩
  · intro s h i _; rw [(e4 s h).1]
  · intro s h; exact (e4 s h).2

theorem runsWith {data : Bytes} {pe : Stub.PE} (hp : good.parse data = some pe) (hl : LoadedAs good data data pe)
    (change : Bytes → Bytes) : Runs good data (machineWith data change) := ⟨rfl, pe, hp, hl⟩

theorem runsAttacked (change : Bytes → Bytes) : Runs good someSigned (attackedMachine change) :=
  runsWith someParsed someLoaded change

theorem plainAttacked (change : Bytes → Bytes) (t : Nat) (fw : Companion.Fw)
    (h : (attackedMachine change).fs t = some fw) : PlainNames fw := by
  have h : some (attacked change) = some fw := h
  cases h
  intro dir es e h1 h2
  have h1 : (if dir = Companion.globalCredDir then some [some evilCred] else none) = some es := h1
  split at h1
  · cases h1
    rw [List.mem_singleton] at h2
    cases h2
    decide
  · cases h1

theorem startsOf {m : Stub.Env} {w : Stub.World} {s : Stub.Started} (hw : w.trace = [])
    (h : Stub.Sample.started (Stub.main m w).2.trace = some s) : Stub.Starts m w s := by
  refine ⟨_, (by rw [hw]; exact (List.nil_append _).symm), ?_⟩
  obtain ⟨e, he, hs⟩ := List.exists_of_findSome?_eq_some h
  cases e <;> simp at hs
  subst hs
  exact he

/-- With a credential added and other load options, the stub starts; the options are those of the
generation, and the kernel and the initrd too. -/
example : ∃ s, Stub.Starts (attackedMachine id) evil s ∧
    (FoundCollision good (attackedMachine id) someGen ∨ (GenuineStart good (attackedMachine id) someGen s ∧
      s.options = Stub.Spec.optionsOf (text16 (commandLine someGen)))) := by
  obtain ⟨s, hs⟩ := Option.isSome_iff_exists.1
    (show (Stub.Sample.started (Stub.main (attackedMachine id) evil).2.trace).isSome = true by decide +kernel)
  refine ⟨s, startsOf rfl hs, ?_⟩
  exact (C70_attacker (faithful _) someEntry (runsAttacked id) (plainAttacked id) (startsOf rfl hs)).imp id
    fun h => ⟨h.1, h.2 ⟨by decide, by intro t h; cases h⟩⟩

/-- The added credential is at the end of the initrd. -/
example : ((Stub.Sample.started (Stub.main (attackedMachine id) evil).2.trace).bind (·.initrd)).map
    (fun i => decide (i.take initrd1.length = initrd1) && decide (initrd1.length < i.length)) = some true := by
  decide +kernel

/-- With the kernel and the initrd changed, nothing is started. -/
example : Stub.Sample.started (Stub.main (attackedMachine (· ++ [0])) evil).2.trace = none := by
  decide +kernel

/-- One run of the installer, and a firmware that accepts what it had signed. -/
example (s : Stub.Started) (h : Stub.Starts (attackedMachine id) evil s) :
    (∃ env' cfg' image, (env' = good ∧ cfg' = cfg) ∧ env'.store (loaderSource cfg') = some image ∧
      SignedBy env' cfg'.signer image someSigned) ∨
    ∃ env' cfg' g, (env' = good ∧ cfg' = cfg) ∧ Considers env' cfg' g ∧
      (FoundCollision env' (attackedMachine id) g ∨ (GenuineStart env' (attackedMachine id) g s ∧
        (SecureBootOn (attackedMachine id) evil → s.options = Stub.Spec.optionsOf (text16 (commandLine g))))) :=
  C70_secure_boot (runs := fun e c => e = good ∧ c = cfg) (accepted := fun d => d = someSigned)
    (by
      intro d hd
      rw [hd]
      exact ⟨good, cfg, someImage, ⟨rfl, rfl⟩, .entry someConsidered (by decide +kernel) someInitrd someStub,
        someSignedBy⟩)
    (by rintro _ _ ⟨rfl, rfl⟩; exact faithful _) rfl
    (by rintro _ _ ⟨rfl, rfl⟩; exact runsAttacked id) (plainAttacked id) h

open Classical in
/-- A signing program that refuses everything that is not to be signed. -/
noncomputable def careful : Nat → Path → Path → Bytes → Option Bytes := fun _ priv pub d =>
  if ToSign good cfg d ∧ cfg.signer = .local pub priv then sbsign d else none

/-- It refuses something, and does not disturb the installation. -/
example : (run { good with sbsign := careful } cfg (start cfg disk0)) = run good cfg (start cfg disk0) ∧
    careful 0 [] [] someImage = none ∧ sbsign someImage ≠ none := by
  refine ⟨C70_signs_nothing_else safe_good careful ?_ disk0, ?_, by decide +kernel⟩
  · intro t pub priv image h1 h2
    unfold careful
    rw [if_pos ⟨h2, h1⟩]
    rfl
  · unfold careful
    rw [if_neg]
    rintro ⟨-, h⟩
    exact absurd h (by decide)

end Verif.Tool.Sample
