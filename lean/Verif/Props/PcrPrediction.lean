import Verif.Spec.PcrPrediction
import Verif.Props.Pcr
import Verif.Props.SecureBoot
import Verif.Props.InstallFiles
import Verif.Props.InstallSigned
import Verif.Props.InstallState
/-!
# PCR 11 can be predicted from the generation
-/
namespace Verif.Tool
open Verif Generation Stub.Spec

variable {env env' : Env} {cfg cfg' : Config} {fs : Fs} {done : List Change}

theorem measured_rest (names : List Str) (contents : Str → Bytes) : ∀ (l : List Str) (own : List (Str × Bytes)),
    (∀ n ∈ l, names.count n ≤ 1) → own.map (·.1) = l.filter (fun n => decide (n ∈ names)) →
    (∀ s ∈ own, contents s.1 = s.2) →
    (l.flatMap fun n => List.replicate (names.count n) (n, contents n)) = own
  | [], own, _, h, _ => by
    rw [List.filter_nil, List.map_eq_nil_iff] at h
    rw [h]; rfl
  | n :: l, own, hc, h, hs => by
    rw [List.flatMap_cons]
    by_cases hn : n ∈ names
    · rw [List.filter_cons_of_pos (by simpa using hn)] at h
      cases own with
      | nil => simp at h
      | cons x own =>
        rw [List.map_cons, List.cons.injEq] at h
        have h1 : names.count n = 1 :=
          Nat.le_antisymm (hc n List.mem_cons_self) (List.count_pos_iff.2 hn)
        have e := hs x List.mem_cons_self
        rw [h1, measured_rest names contents l own (fun a ha => hc a (List.mem_cons_of_mem _ ha)) h.2
          (fun a ha => hs a (List.mem_cons_of_mem _ ha)), ← h.1, e]
        rfl
    · rw [List.filter_cons_of_neg (by simpa using hn)] at h
      rw [List.count_eq_zero.2 hn, measured_rest names contents l own
        (fun a ha => hc a (List.mem_cons_of_mem _ ha)) h hs]
      rfl

theorem measured_unified {ns : List Str} {contents : Str → Bytes} {own : List (Str × Bytes)}
    (hd : ∀ n ∈ extraNames, n ∉ ns) (hc : ∀ n ∈ canonicalOrder, ns.count n ≤ 1)
    (hn : own.map (·.1) = canonicalOrder.filter fun n => decide (n ∈ ns)) (hs : ∀ s ∈ own, contents s.1 = s.2) :
    (imageMeasurements (ns ++ extraNames) contents).map Prod.snd =
      measuredAs ([lit ".linux", lit ".osrel", lit ".cmdline", lit ".initrd"].map (fun n => (n, contents n)) ++ own) := by
  rw [Stub.imageMeasurements_pairs]
  unfold measuredAs
  congr 1
  have hsplit : canonicalOrder = [lit ".linux", lit ".osrel", lit ".cmdline", lit ".initrd"] ++ canonicalOrder.drop 4 := by
    decide
  have h0 : ∀ n ∈ extraNames, ns.count n = 0 := fun n h => List.count_eq_zero.2 (hd n h)
  have hrest : ∀ n ∈ canonicalOrder.drop 4, extraNames.count n = 0 := by decide
  rw [hsplit, List.flatMap_append]
  congr 1
  · have e1 : (ns ++ extraNames).count (lit ".linux") = 1 := by
      rw [List.count_append, h0 _ (by decide)]; decide
    have e2 : (ns ++ extraNames).count (lit ".osrel") = 1 := by
      rw [List.count_append, h0 _ (by decide)]; decide
    have e3 : (ns ++ extraNames).count (lit ".cmdline") = 1 := by
      rw [List.count_append, h0 _ (by decide)]; decide
    have e4 : (ns ++ extraNames).count (lit ".initrd") = 1 := by
      rw [List.count_append, h0 _ (by decide)]; decide
    simp only [List.flatMap_cons, List.flatMap_nil, e1, e2, e3, e4, List.map_cons, List.map_nil]
    rfl
  · have e : ∀ n ∈ canonicalOrder.drop 4, (ns ++ extraNames).count n = ns.count n := by
      intro n h
      rw [List.count_append, hrest n h, Nat.add_zero]
    rw [Stub.flatMap_congr' (g := fun n => List.replicate (ns.count n) (n, contents n))
      (fun n h => by rw [e n h])]
    refine measured_rest ns contents _ own (fun n h => hc n (List.mem_of_mem_drop h)) ?_ hs
    rw [hn]
    conv => lhs; rw [hsplit]
    rw [List.filter_append, List.filter_eq_nil_iff.2, List.nil_append]
    intro n h
    have : n ∈ extraNames := by
      revert n; decide
    simpa using hd n this

/-- **C95** (prediction). If a machine with a TPM starts a kernel from a boot entry that was made for `g`, then
PCR 11 has the value that one computes from the kernel, the initrd, the command line and the os-release text of
`g` and the stub's own sections. Nothing else matters: not what is on the ESP, not the signature, not the name of the
entry, not the machine. Otherwise a file with the same SHA-256 hash has been found. -/
theorem C95_predicted (hf : FaithfulTools env) {stub : Bytes} (hst : env.store cfg.lanzabooteStub = some stub)
    (hks : KeepsSections env stub) {own : List (Str × Bytes)} (hown : OwnSections env stub own)
    {g : Gen} {data : Bytes} (hd : SignedEntry env cfg g data)
    {m : Stub.Env} (hr : Runs env data m) (htpm : WorkingTpm m) {w : Stub.World} {s : Stub.Started}
    (hs : Stub.Starts m w s) {evs : List Stub.Event} (ht : (Stub.main m w).2.trace = w.trace ++ evs)
    (tpm : StubName.Sha) (v : Bytes) :
    FoundCollision env m g ∨ ∃ kernel initrd, env.store g.spec.kernel = some kernel ∧ InitrdOf env g.spec initrd ∧
      extendedWith 11 evs = measuredAs (unified g kernel initrd own) ∧
      pcrAfter tpm 11 v evs = predicted tpm v (measuredAs (unified g kernel initrd own)) := by
  obtain ⟨vs, kernel, initrd, image, hk, hi, him, hsig⟩ := hd.ex
  have hsec := StubImage.sections hf him hsig
  have ekh := hsec _ (.tail _ (.tail _ (.tail _ (.tail _ (.tail _ (.head _))))))
  have eih := hsec _ (.tail _ (.tail _ (.tail _ (.tail _ (.head _)))))
  have ec := hsec _ (.tail _ (.head _))
  have eo := hsec _ (.head _)
  obtain ⟨pe, hp, hl⟩ := hr.loaded
  obtain ⟨pe', kpe, k, i, kname, iname, embedded, contents, creds, exts, joined, c⟩ := Stub.chains hs htpm ht
  obtain rfl : pe' = pe := Option.some.inj (c.parsed.symm.trans hp)
  obtain ⟨⟨t, fw, hfw, hrk⟩, ⟨t', fw', hfw', hri⟩⟩ := c.volume
  have ekern := Stub.SectionContents.unique c.verified.kernel (C41_sections hl ekh)
  have einit := Stub.SectionContents.unique c.verified.initrd (C41_sections hl eih)
  rw [hr.sha] at ekern einit
  by_cases ck : k = kernel
  swap
  · exact Or.inl ⟨t, fw, kname, k, kernel, hfw, hrk, Or.inl hk, ck, ekern⟩
  by_cases ci : i = initrd
  swap
  · exact Or.inl ⟨t', fw', iname, i, initrd, hfw', hri, Or.inr hi, ci, einit⟩
  subst ck ci
  refine Or.inr ⟨k, i, hk, hi, ?_⟩
  -- the names of the sections
  obtain ⟨stub', t0, added, h1, h2, h3⟩ := him
  rw [hst, Option.some.injEq] at h1
  subst h1
  have hadded : added.map (·.name) = extraNames := by
    have := congrArg (List.map Prod.fst) h2
    rw [List.map_map] at this
    exact this
  obtain ⟨ns, hns, hdis, hcnt, hnames⟩ := hown.names
  have hni := hks.names t0 added image h3 hadded ns hns
  have hnd : Named env data (ns ++ extraNames) := by
    cases hsg : cfg.signer with
    | empty => rw [hsg] at hsig; rw [show data = image from hsig]; exact hni
    | «local» pub priv =>
      rw [hsg] at hsig
      obtain ⟨t1, h⟩ := hsig
      exact hks.signed t1 priv pub image data h _ hni
  obtain ⟨file, g1, g2⟩ := hl.headers
  obtain ⟨file', g1', g3⟩ := hnd
  rw [g1, Option.some.injEq] at g1'
  subst g1'
  have hpn : sectionNames pe' = ns ++ extraNames := by
    rw [← g3]; unfold sectionNames; rw [g2]
  -- their contents
  have hc : ∀ {n b}, n ∈ canonicalOrder → n ≠ lit ".linux" → n ≠ lit ".initrd" → FileSection env data n b →
      contents n = b := by
    intro n b h1 h2 h3 h4
    have h5 := C41_sections hl h4
    exact Stub.SectionContents.unique (c.others n h1 (Stub.sectionContents_mem h5) h2 h3) h5
  have hcown : ∀ s ∈ own, contents s.1 = s.2 := by
    intro s hs
    have hmem : s.1 ∈ canonicalOrder.filter fun n => decide (n ∈ ns) := by
      rw [← hnames]; exact List.mem_map_of_mem hs
    obtain ⟨m1, m2⟩ := List.mem_filter.1 hmem
    have hna : s.1 ∉ extraNames := fun h => hdis _ h (by simpa using m2)
    refine hc m1 (fun e => hna (by rw [e]; decide)) (fun e => hna (by rw [e]; decide)) ?_
    exact hsig.section hf (hks.contents t0 added image h3 hadded _ _ hna (hown.contents s hs))
  have hlist : extendedWith 11 evs = measuredAs (unified g k i own) := by
    rw [c.pcr11, hpn, measured_unified hdis hcnt hnames hcown]
    unfold unified
    rw [List.map_cons, List.map_cons, List.map_cons, List.map_cons, List.map_nil, c.linuxContents, c.initrdContents,
      hc (n := lit ".osrel") (by decide) (by decide) (by decide) eo,
      hc (n := lit ".cmdline") (by decide) (by decide) (by decide) ec]
    rfl
  exact ⟨hlist, by rw [Stub.pcrAfter_eq, hlist]⟩

theorem same_value (tpm : StubName.Sha) {v : Bytes} (hv : v.length = 32) {g g' : Gen}
    {kernel initrd kernel' initrd' : Bytes} {own own' : List (Str × Bytes)}
    (h : predicted tpm v (measuredAs (unified g kernel initrd own)) =
      predicted tpm v (measuredAs (unified g' kernel' initrd' own'))) :
    (kernel = kernel' ∧ initrd = initrd' ∧ commandLine g = commandLine g' ∧
      OsRelease.display (osRelease g) = OsRelease.display (osRelease g') ∧ own = own') ∨
    Clash tpm v (measuredAs (unified g kernel initrd own)) (measuredAs (unified g' kernel' initrd' own')) := by
  rcases Stub.predicted_inj hv _ _ h with h | h
  · left
    have h := Stub.pairs_inj _ _ h
    unfold unified at h
    simp only [List.cons_append, List.nil_append, List.cons.injEq, Prod.mk.injEq, true_and] at h
    obtain ⟨h1, h2, h3, h4, h5⟩ := h
    exact ⟨h1, h4, StubName.utf8_injective h3, StubName.utf8_injective h2, h5⟩
  · exact Or.inr h

/-- **C95** (what PCR 11 says). If PCR 11 has the same value after boots of two boot entries, the two have the same
kernel, initrd, command line and os-release text, and the stubs the same measured sections; or the hash of the PCR
bank is broken, or a file with the same SHA-256 hash as a kernel or an initrd has been found. -/
theorem C95_identifies (hf : FaithfulTools env) (hf' : FaithfulTools env') {stub stub' : Bytes}
    (hst : env.store cfg.lanzabooteStub = some stub) (hst' : env'.store cfg'.lanzabooteStub = some stub')
    (hks : KeepsSections env stub) (hks' : KeepsSections env' stub')
    {own own' : List (Str × Bytes)} (hown : OwnSections env stub own) (hown' : OwnSections env' stub' own')
    {g g' : Gen} {data data' : Bytes} (hd : SignedEntry env cfg g data) (hd' : SignedEntry env' cfg' g' data')
    {m m' : Stub.Env} (hr : Runs env data m) (hr' : Runs env' data' m') (htpm : WorkingTpm m) (htpm' : WorkingTpm m')
    {w w' : Stub.World} {s s' : Stub.Started} (hs : Stub.Starts m w s) (hs' : Stub.Starts m' w' s')
    {evs evs' : List Stub.Event} (ht : (Stub.main m w).2.trace = w.trace ++ evs)
    (ht' : (Stub.main m' w').2.trace = w'.trace ++ evs') (tpm : StubName.Sha) {v : Bytes} (hv : v.length = 32)
    (he : pcrAfter tpm 11 v evs = pcrAfter tpm 11 v evs') :
    (∃ kernel initrd, env.store g.spec.kernel = some kernel ∧ env'.store g'.spec.kernel = some kernel ∧
      InitrdOf env g.spec initrd ∧ InitrdOf env' g'.spec initrd ∧ commandLine g = commandLine g' ∧
      OsRelease.display (osRelease g) = OsRelease.display (osRelease g') ∧ own = own') ∨
    Clash tpm v (extendedWith 11 evs) (extendedWith 11 evs') ∨ FoundCollision env m g ∨ FoundCollision env' m' g' := by
  rcases C95_predicted hf hst hks hown hd hr htpm hs ht tpm v with h | ⟨k, i, h1, h2, h3, h4⟩
  · exact Or.inr (Or.inr (Or.inl h))
  rcases C95_predicted hf' hst' hks' hown' hd' hr' htpm' hs' ht' tpm v with h | ⟨k', i', h1', h2', h3', h4'⟩
  · exact Or.inr (Or.inr (Or.inr h))
  rw [h4, h4'] at he
  rw [h3, h3']
  rcases same_value tpm hv he with ⟨rfl, rfl, e⟩ | h
  · exact Or.inl ⟨k, i, h1, h1', h2, h2', e⟩
  · exact Or.inr (Or.inl h)

/-- **C95** (which entries this is about). Whenever a run is killed, a boot entry that was not there before the run
was made for a considered generation. -/
theorem C95_new_entries (hs : SafeInput env cfg) (hk : KilledAfter env cfg fs done) {p : Path}
    (hp : IsEntry cfg.esp p) {data : Bytes} (hd : (fs.replay done).fileAt p = some data)
    (hnew : fs.fileAt p ≠ some data) :
    ∃ g key, SignedEntry env cfg g data ∧ KeyOf env cfg.signer key ∧
      p = entryFile cfg.esp (StubName.stubName env.sha g key cfg.tries) := by
  have hp' : Executable cfg p := Or.inl hp
  obtain ⟨n, rfl, hn, hx⟩ := hp
  have e2 : lastTwo (entryFile cfg.esp n) = some (lit "Linux", n) := entryFile_lastTwo _ _
  rcases C35_atomic hs hk hp'.not_tmp hp'.not_measurement with h | ⟨x, hw, h⟩ | ⟨h, -⟩
  · rw [h] at hd; exact absurd hd hnew
  · rw [h] at hd
    cases hd
    cases hw with
    | entry hg hk hv hkd hid him hs e => exact ⟨_, _, ⟨hg, _, _, _, _, hkd, hid, him, hs⟩, hk, e⟩
    | kernel _ _ _ e' => exact absurd e' (lastTwo_ne e2 (caFile_lastTwo _ _ _) (by decide))
    | initrd _ _ _ e' => exact absurd e' (lastTwo_ne e2 (caFile_lastTwo _ _ _) (by decide))
    | loader hd hs e' =>
      rcases e' with e' | e'
      · exact absurd e' (lastTwo_ne e2 (fallbackFile_lastTwo _) (by decide))
      · exact absurd e' (lastTwo_ne e2 (systemdFile_lastTwo _) (by decide))
    | conf _ e' => exact absurd e' (lastTwo_ne e2 (confFile_lastTwo _) (by decide))
  · rw [Fs.fileAt_eq_some, h] at hd; cases hd

end Verif.Tool

/-! ## Examples -/

namespace Verif.Tool.Sample
open Verif Generation StubName Stub.Spec

/-- A stub with a section that is measured. -/
def sbatStub : Bytes := build [(lit ".text", [5, 5]), (lit ".sbat", [115, 98, 97, 116])]

def withSbat : Env := { good with store := fun p => if p = cfg.lanzabooteStub then some sbatStub else good.store p }

def sbatImage : Bytes := (objcopy sbatStub someAdded).getD []
def sbatSigned : Bytes := (sbsign sbatImage).getD []
def sbatHeader : Stub.PE := (parse sbatSigned).getD ⟨[], 0, false⟩

theorem sbatOwn : OwnSections withSbat sbatStub [(lit ".sbat", [115, 98, 97, 116])] where
  names := ⟨_, ⟨_, rfl, rfl⟩, by decide +kernel, by decide +kernel, by decide +kernel⟩
  contents s hs := by
    rw [List.mem_singleton] at hs
    subst hs
    exact (readSectionData_iff withSbat _ _ _).1 (by decide +kernel)

theorem objcopy_build {st : Bytes} {added : List Added} {image : Bytes} (h : objcopy st added = some image) :
    image = build (sections st ++ added.map fun s => (s.name, s.content)) := by
  unfold objcopy at h
  dsimp only at h
  split at h
  · exact (Option.some.inj h).symm
  · cases h

theorem sbatSections : sections sbatStub = [(lit ".text", [5, 5]), (lit ".sbat", [115, 98, 97, 116])] := by
  decide +kernel

theorem six {added : List Added} (h : added.map (·.name) = extraNames) :
    ∃ a b c d e f : Bytes, (added.map fun s => (s.name, s.content)) =
      [(lit ".osrel", a), (lit ".cmdline", b), (lit ".initrd", c), (lit ".linux", d), (lit ".initrdh", e),
        (lit ".linuxh", f)] := by
  obtain ⟨s1, l, rfl, e1, h⟩ := List.map_eq_cons_iff.1 h
  obtain ⟨s2, l, rfl, e2, h⟩ := List.map_eq_cons_iff.1 h
  obtain ⟨s3, l, rfl, e3, h⟩ := List.map_eq_cons_iff.1 h
  obtain ⟨s4, l, rfl, e4, h⟩ := List.map_eq_cons_iff.1 h
  obtain ⟨s5, l, rfl, e5, h⟩ := List.map_eq_cons_iff.1 h
  obtain ⟨s6, l, rfl, e6, h⟩ := List.map_eq_cons_iff.1 h
  rw [List.map_nil, List.map_eq_nil_iff] at h
  subst h
  exact ⟨s1.content, s2.content, s3.content, s4.content, s5.content, s6.content, by
    simp only [List.map_cons, List.map_nil, e1, e2, e3, e4, e5, e6]⟩

theorem sbatParsed {added : List Added} {image : Bytes} (h : objcopy sbatStub added = some image)
    (hn : added.map (·.name) = extraNames) :
    ∃ pe t u rest, parse image = some pe ∧ pe.sections = t :: u :: rest ∧
      sectionNames pe = [lit ".text", lit ".sbat"] ++ extraNames ∧
      image.drop 41 = [5, 5, 115, 98, 97, 116] ++ image.drop 47 ∧
      t = { name := some (lit ".text"), virtualAddress := 41, virtualSize := 2, pointerToRawData := 41, sizeOfRawData := 2 } ∧
      u = { name := some (lit ".sbat"), virtualAddress := 43, virtualSize := 4, pointerToRawData := 43, sizeOfRawData := 4 } := by
  rw [objcopy_build h, sbatSections]
  obtain ⟨a, b, c, d, e, f, hs⟩ := six hn
  rw [hs]
  refine ⟨_, _, _, _, rfl, rfl, rfl, rfl, ?_, ?_⟩
  all_goals
    simp only [List.length_append, List.length_cons, List.length_nil]
    decide +kernel

theorem sbatKeeps : KeepsSections withSbat sbatStub where
  names t added image h hn ns hns := by
    obtain ⟨pe, _, _, _, h1, -, h2, -⟩ := sbatParsed h hn
    obtain ⟨pe', h3, rfl⟩ := hns
    refine ⟨pe, h1, h2.trans ?_⟩
    have : parse sbatStub = some pe' := h3
    have e : parse sbatStub = some ((parse sbatStub).getD ⟨[], 0, false⟩) := by decide +kernel
    rw [e, Option.some.injEq] at this
    rw [← this]
    decide +kernel
  contents t added image h hn n b hne hs := by
    obtain ⟨pe, x, u, rest, h1, h2, h3, h4, rfl, rfl⟩ := sbatParsed h hn
    have hlen : 47 ≤ image.length := by
      have := congrArg List.length h4
      simp at this
      omega
    have hget : ∀ i < 6, image[41 + i]? = ([5, 5, 115, 98, 97, 116] : Bytes)[i]? := by
      intro i hi
      rw [← List.getElem?_drop, h4, List.getElem?_append_left (by simpa using hi)]
    have hmem : n ∈ [lit ".text", lit ".sbat"] := by
      obtain ⟨pe', pre, y, post, g1, g2, g3, -⟩ := id hs
      have e : parse sbatStub = some ((parse sbatStub).getD ⟨[], 0, false⟩) := by decide +kernel
      have g1 : parse sbatStub = some pe' := g1
      rw [e, Option.some.injEq] at g1
      have e2 : sectionNames ((parse sbatStub).getD ⟨[], 0, false⟩) = [lit ".text", lit ".sbat"] := by decide +kernel
      rw [← e2, g1]
      unfold sectionNames
      exact List.mem_filterMap.2 ⟨y, by rw [g2]; simp, g3⟩
    have hs : readSectionData withSbat sbatStub n = .ok (some b) := (readSectionData_iff withSbat _ _ _).2 hs
    rw [List.mem_cons, List.mem_singleton] at hmem
    rcases hmem with rfl | rfl
    · have : readSectionData withSbat sbatStub (lit ".text") = .ok (some [5, 5]) := by decide +kernel
      rw [this] at hs
      cases hs
      refine ⟨pe, [], _, _, h1, h2, rfl, (by simp), by decide, (by show 41 + 2 ≤ _; omega), rfl, fun i hi => ?_⟩
      have hi : i < 2 := hi
      show _ = image[41 + i]?
      rw [hget i (by omega)]
      match i, hi with
      | 0, _ => rfl
      | 1, _ => rfl
    · have : readSectionData withSbat sbatStub (lit ".sbat") = .ok (some [115, 98, 97, 116]) := by decide +kernel
      rw [this] at hs
      cases hs
      refine ⟨pe, [_], _, _, h1, h2, rfl, (fun x hx => ?_), by decide, (by show 43 + 4 ≤ _; omega), rfl, fun i hi => ?_⟩
      · rw [List.mem_singleton] at hx
        exact ⟨lit ".text", by rw [hx], by decide⟩
      · have hi : i < 4 := hi
        show _ = image[43 + i]?
        rw [show 43 + i = 41 + (2 + i) by omega, hget (2 + i) (by omega)]
        match i, hi with
        | 0, _ => rfl
        | 1, _ => rfl
        | 2, _ => rfl
        | 3, _ => rfl
  signed t priv pub data out h ns hns := by
    have h : sbsign data = some out := h
    unfold sbsign at h
    split at h
    · next hp =>
      cases h
      obtain ⟨pe, h1, h2⟩ := hns
      exact ⟨pe, (show parse (data ++ [83]) = some pe from hp.trans h1), h2⟩
    · cases h

theorem sbatFaithful : FaithfulTools withSbat := ⟨(faithful fun _ => false).objcopy, (faithful fun _ => false).sbsign⟩

theorem sbatEntry : SignedEntry withSbat cfg someGen sbatSigned := by
  refine ⟨⟨someConsidered.ex⟩, lit "6.1", kernel1, initrd1, sbatImage, by decide +kernel,
    ⟨storePath "aaa-initrd", initrd1, by decide +kernel, by decide +kernel, rfl⟩,
    ⟨sbatStub, 0, someAdded, by decide +kernel, ?_, by decide +kernel⟩, ⟨0, by decide +kernel⟩⟩
  unfold someAdded
  rw [List.map_map]
  exact List.map_id _

theorem runsSbat {data : Bytes} {pe : Stub.PE} (hp : withSbat.parse data = some pe)
    (hl : LoadedAs withSbat data data pe) (change : Bytes → Bytes) :
    Runs withSbat data (machineWith data change) := ⟨rfl, pe, hp, hl⟩

theorem sbatRuns (change : Bytes → Bytes) : Runs withSbat sbatSigned (machineWith sbatSigned change) := by
  have e3 : withSbat.parse sbatSigned = some sbatHeader := by decide +kernel
  have e4 : ∀ s ∈ sbatHeader.sections, s.virtualAddress = s.pointerToRawData ∧
      s.virtualAddress.toNat + min s.virtualSize.toNat s.sizeOfRawData.toNat ≤ sbatSigned.length := by
    decide +kernel
  refine runsSbat e3 ⟨⟨sbatHeader, e3, rfl⟩, ?_, ?_⟩ change
  · intro s h i _; rw [(e4 s h).1]
  · intro s h; exact (e4 s h).2

/-- The prediction for the sample, with a credential on the ESP and other load options. -/
example : ∃ s, Stub.Starts (machineWith sbatSigned id) evil s ∧
    (FoundCollision withSbat (machineWith sbatSigned id) someGen ∨ ∃ kernel initrd,
      withSbat.store someGen.spec.kernel = some kernel ∧ InitrdOf withSbat someGen.spec initrd ∧
      pcrAfter Stub.Sample.bank 11 (Stub.Sample.zeros 11) (Stub.main (machineWith sbatSigned id) evil).2.trace =
        predicted Stub.Sample.bank (Stub.Sample.zeros 11)
          (measuredAs (unified someGen kernel initrd [(lit ".sbat", [115, 98, 97, 116])]))) := by
  obtain ⟨s, hs⟩ := Option.isSome_iff_exists.1
    (show (Stub.Sample.started (Stub.main (machineWith sbatSigned id) evil).2.trace).isSome = true by decide +kernel)
  refine ⟨s, startsOf rfl hs, ?_⟩
  rcases C95_predicted sbatFaithful (by decide +kernel) sbatKeeps sbatOwn sbatEntry (sbatRuns id)
    ⟨fun _ => rfl, fun _ => rfl, fun _ => rfl⟩ (startsOf rfl hs) (List.nil_append _).symm Stub.Sample.bank
    (Stub.Sample.zeros 11) with h | ⟨k, i, h1, h2, -, h3⟩
  · exact Or.inl h
  · exact Or.inr ⟨k, i, h1, h2, h3⟩

/-- Computed: the value for the sample, which is not that with another kernel. -/
example : pcrAfter Stub.Sample.bank 11 (Stub.Sample.zeros 11) (Stub.main (machineWith sbatSigned id) evil).2.trace =
      predicted Stub.Sample.bank (Stub.Sample.zeros 11)
        (measuredAs (unified someGen kernel1 initrd1 [(lit ".sbat", [115, 98, 97, 116])])) ∧
    predicted Stub.Sample.bank (Stub.Sample.zeros 11)
        (measuredAs (unified someGen kernel1 initrd1 [(lit ".sbat", [115, 98, 97, 116])])) ≠
      predicted Stub.Sample.bank (Stub.Sample.zeros 11)
        (measuredAs (unified someGen kernel2 initrd1 [(lit ".sbat", [115, 98, 97, 116])])) := by
  decide +kernel

/-- Two boots with the same value: on the second the load options are others. -/
example (s s' : Stub.Started) (hs : Stub.Starts (machineWith sbatSigned id) evil s)
    (hs' : Stub.Starts (machineWith sbatSigned id) (Stub.Sample.start (some [1]) none) s') :=
  C95_identifies sbatFaithful sbatFaithful (cfg := cfg) (cfg' := cfg) (by decide +kernel) (by decide +kernel)
    sbatKeeps sbatKeeps sbatOwn sbatOwn sbatEntry sbatEntry (sbatRuns id) (sbatRuns id)
    ⟨fun _ => rfl, fun _ => rfl, fun _ => rfl⟩ ⟨fun _ => rfl, fun _ => rfl, fun _ => rfl⟩ hs hs'
    (List.nil_append _).symm (List.nil_append _).symm Stub.Sample.bank (v := Stub.Sample.zeros 11) rfl
    (by decide +kernel)

/-- The entries of the first run are new. -/
example : ∃ p data, IsEntry cfg.esp p ∧ (run good cfg (start cfg disk0)).2.fs.fileAt p = some data ∧
    disk0.fileAt p ≠ some data := by
  refine ⟨entryFile cfg.esp (StubName.stubName sha first [80, 75] 3), _, isMatch_isEntry
    (isMatch_stubName good.uni good.sha first [80, 75] 3), (Option.some_get (by decide +kernel)).symm,
    no_entry (isMatch_isEntry (isMatch_stubName good.uni good.sha first [80, 75] 3)) _⟩

end Verif.Tool.Sample
