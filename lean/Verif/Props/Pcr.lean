import Verif.Props.Stub
import Verif.Spec.Pcr
/-!
# C68: the PCR values identify what was booted
-/
namespace Verif.Stub
open Verif Verif.Companion Verif.Stub.Spec

/-! ## Chains of extensions -/

variable {tpm : StubName.Sha}

theorem predicted_snoc (v : Bytes) (l : List Bytes) (d : Bytes) :
    predicted tpm v (l ++ [d]) = tpm.hash (predicted tpm v l ++ tpm.hash d) := by
  simp [predicted, extend]

theorem predicted_length {v : Bytes} (hv : v.length = 32) (l : List Bytes) :
    (predicted tpm v l).length = 32 := by
  rcases List.eq_nil_or_concat l with rfl | ⟨a, d, rfl⟩
  · exact hv
  · rw [List.concat_eq_append, predicted_snoc, tpm.len]

theorem clash_snoc {v : Bytes} {l l' : List Bytes} {x x' : Bytes} (h : Clash tpm v l l') :
    Clash tpm v (l ++ [x]) (l' ++ [x']) := by
  cases h with
  | @data a b a' b' d d' h h' hlen c =>
    exact .data (a := a) (b := b ++ [x]) (a' := a') (b' := b' ++ [x']) (by simp [h]) (by simp [h'])
      (by simp [hlen]) c
  | @extension a b a' b' d d' h h' hlen c =>
    exact .extension (a := a) (b := b ++ [x]) (a' := a') (b' := b' ++ [x']) (by simp [h]) (by simp [h'])
      (by simp [hlen]) c
  | @back a b h ha e =>
    rcases h with h | h
    · exact .back (a := a) (b := b ++ [x]) (Or.inl (by simp [h])) ha e
    · exact .back (a := a) (b := b ++ [x']) (Or.inr (by simp [h])) ha e

/-- Equal values come from equal lists, or there is a clash. -/
theorem predicted_inj {v : Bytes} (hv : v.length = 32) (l l' : List Bytes)
    (h : predicted tpm v l = predicted tpm v l') : l = l' ∨ Clash tpm v l l' := by
  generalize hn : l.length = n
  induction n generalizing l l' with
  | zero =>
    have : l = [] := List.eq_nil_of_length_eq_zero hn
    subst this
    by_cases hl : l' = []
    · exact Or.inl hl.symm
    · exact Or.inr (.back (a := l') (b := []) (Or.inr (by simp)) hl h.symm)
  | succ n ih =>
    rcases List.eq_nil_or_concat l with rfl | ⟨a, d, rfl⟩
    · simp at hn
    rw [List.concat_eq_append] at *
    rcases List.eq_nil_or_concat l' with rfl | ⟨a', d', rfl⟩
    · exact Or.inr (.back (a := a ++ [d]) (b := []) (Or.inl (by simp)) (by simp) h)
    rw [List.concat_eq_append] at *
    rw [predicted_snoc, predicted_snoc] at h
    by_cases he : predicted tpm v a ++ tpm.hash d = predicted tpm v a' ++ tpm.hash d'
    · obtain ⟨e1, e2⟩ := List.append_inj he (by rw [predicted_length hv, predicted_length hv])
      by_cases hd : d = d'
      · subst hd
        rcases ih a a' e1 (by simpa using hn) with e | c
        · exact Or.inl (by rw [e])
        · exact Or.inr (clash_snoc c)
      · exact Or.inr (.data (b := []) (b' := []) rfl rfl rfl ⟨hd, e2⟩)
    · exact Or.inr (.extension (b := []) (b' := []) rfl rfl rfl ⟨he, h⟩)

theorem pcrAfter_eq (pcr : Nat) (v : Bytes) (t : List Event) :
    pcrAfter tpm pcr v t = predicted tpm v (extendedWith pcr t) := by
  induction t generalizing v with
  | nil => rfl
  | cons e t ih =>
    have : pcrAfter tpm pcr v (e :: t) = pcrAfter tpm pcr (step tpm pcr v e) t := rfl
    rw [this, ih]
    unfold extendedWith
    rw [List.filterMap_cons]
    cases e with
    | measure p data s o =>
      cases o with
      | extended =>
        simp only [step]
        by_cases hp : p = pcr
        · rw [if_pos hp, if_pos hp]; rfl
        · rw [if_neg hp, if_neg hp]
      | _ => rfl
    | _ => rfl

/-! ## With a working TPM everything submitted is extended -/

/-- Every measurement in the trace was carried out. -/
def AllExtended (t : List Event) : Prop := ∀ p d s o, .measure p d s o ∈ t → o = .extended

theorem extendedWith_of_all {t : List Event} (h : AllExtended t) (pcr : Nat) :
    extendedWith pcr t = ((measurements t).filter fun m => decide (m.1 = pcr)).map Prod.snd := by
  induction t with
  | nil => rfl
  | cons e t ih =>
    have ih := ih fun p d s o hm => h p d s o (List.mem_cons_of_mem _ hm)
    cases e with
    | measure p d s o =>
      have ho := h p d s o List.mem_cons_self
      subst ho
      unfold extendedWith measurements at *
      rw [List.filterMap_cons, List.filterMap_cons]
      simp only [measurement]
      rw [List.filter_cons]
      by_cases hp : p = pcr
      · rw [if_pos hp, if_pos (by simpa using hp), List.map_cons, ih]
      · rw [if_neg hp, if_neg (by simpa using hp), ih]
    | _ => exact ih

theorem working_outcome {env : Env} (h : WorkingTpm env) (t : Nat) : outcomeAt env t = .extended := by
  unfold outcomeAt
  rw [h.opens, h.builds, h.accepts]
  rfl

theorem allExtended_append {a b : List Event} (ha : AllExtended a) (hb : AllExtended b) :
    AllExtended (a ++ b) := by
  intro p d s o hm
  rcases List.mem_append.1 hm with h | h
  · exact ha _ _ _ _ h
  · exact hb _ _ _ _ h

theorem allExtended_none {a : List Event} (h : measurements a = []) : AllExtended a := by
  intro p d s o hm
  have : (p, d) ∈ measurements a := List.mem_filterMap.2 ⟨_, hm, rfl⟩
  rw [h] at this
  cases this

theorem allExtended_loop {env : Env} (h : WorkingTpm env) (p : Parsed) (k i : Bytes) (us : List Uni)
    (t : Nat) : AllExtended (loopEvents env p k i us t) := by
  induction us generalizing t with
  | nil => exact allExtended_none rfl
  | cons u rest ih =>
    unfold loopEvents
    refine allExtended_append ?_ (ih _)
    intro p d s o hm
    simp only [pairEvents, List.mem_cons, List.not_mem_nil, or_false, Event.measure.injEq] at hm
    rcases hm with ⟨-, -, -, rfl⟩ | ⟨-, -, -, rfl⟩ <;> exact working_outcome h _

theorem allExtended_companions {env : Env} (h : WorkingTpm env) (cs : List Companion) (t : Nat) :
    AllExtended (companionEvents env cs t) := by
  induction cs generalizing t with
  | nil => exact allExtended_none rfl
  | cons c rest ih =>
    unfold companionEvents
    split
    · exact ih _
    · intro p d s o hm
      rcases List.mem_cons.1 hm with hm | hm
      · simp only [Event.measure.injEq] at hm
        obtain ⟨-, -, -, rfl⟩ := hm
        exact working_outcome h _
      · exact ih _ _ _ _ _ hm

theorem allExtended_write {c : Prop} [Decidable c] {k : VarKey} {d : Bytes} {r : Setting} :
    AllExtended (if c then [.writeVar k d r] else []) := by
  split <;> exact allExtended_none rfl

/-! ## A boot with a working TPM -/

theorem filter_eq_nil' {α : Type} {l : List α} {p : α → Bool} (h : ∀ a ∈ l, p a = false) :
    l.filter p = [] := by
  rw [List.filter_eq_nil_iff]
  intro a ha
  rw [h a ha]; simp

theorem filter_eq_self' {α : Type} {l : List α} {p : α → Bool} (h : ∀ a ∈ l, p a = true) :
    l.filter p = l := List.filter_eq_self.2 h

theorem mem_imageMeasurements {names : List Str} {contents : Str → Bytes} {m : Nat × Bytes}
    (h : m ∈ imageMeasurements names contents) : m.1 = 11 := by
  unfold imageMeasurements at h
  obtain ⟨n, -, hm⟩ := List.mem_flatMap.1 h
  obtain ⟨l, hl, hm⟩ := List.mem_flatten.1 hm
  rw [List.eq_of_mem_replicate hl] at hm
  simp only [sectionMeasurements, List.mem_cons, List.not_mem_nil, or_false] at hm
  rcases hm with rfl | rfl <;> rfl

/-- What the PCRs were extended with during a boot. -/
structure Chains (env : Env) (s : Started) (evs : List Event) (pe kpe : PE) (kernel initrd : Bytes)
    (kname iname embedded : Str16) (contents : Str → Bytes) (creds exts : List Bytes) (joined : Bytes) :
    Prop where
  parsed : env.parseOwn env.ownImage = some pe
  verified : Verified env.sha pe env.ownImage kernel initrd
  kernelName : TextSection pe env.ownImage (lit ".linux") kname
  initrdName : TextSection pe env.ownImage (lit ".initrd") iname
  cmdline : TextSection pe env.ownImage (lit ".cmdline") embedded
  linuxContents : contents (lit ".linux") = kernel
  initrdContents : contents (lit ".initrd") = initrd
  others : ∀ n ∈ canonicalOrder, n ∈ sectionNames pe → n ≠ lit ".linux" → n ≠ lit ".initrd" →
        SectionContents pe env.ownImage n (contents n)
  volume : (∃ t fw, env.fs t = some fw ∧ fw.read kname = some kernel) ∧
    ∃ t fw, env.fs t = some fw ∧ fw.read iname = some initrd
  kernelParsed : env.parseFile kernel = some kpe
  loaded : IsLoaded kpe kernel s.image s.entry
  served : s.initrd = some joined
  joined : Joined (initrd :: (creds ++ exts)) joined
  pcr11 : extendedWith 11 evs = (imageMeasurements (sectionNames pe) contents).map Prod.snd
  pcr12 : extendedWith 12 evs = creds
  pcr13 : extendedWith 13 evs = exts
  pcr4 : extendedWith 4 evs = if s.options = optionsOf embedded then [] else [s.options]
  rest : ∀ p, p ≠ 4 → p ≠ 11 → p ≠ 12 → p ≠ 13 → extendedWith p evs = []

theorem chains {env : Env} {w : World} {s : Started} (h : Starts env w s) (hw : WorkingTpm env)
    {evs : List Event} (hevs : (main env w).2.trace = w.trace ++ evs) :
    ∃ pe kpe kernel initrd kname iname embedded contents creds exts joined,
      Chains env s evs pe kpe kernel initrd kname iname embedded contents creds exts joined := by
  have htpm := hw.opens w.tick
  obtain ⟨w1, w2, wk, c, cs, pe, kname, iname, r, r2, img, mid, comp, m, f⟩ := started_facts h
  obtain ⟨kpe, hkp, hl⟩ := f.ran.image
  -- the image
  have himg := f.ready.image
  rw [if_pos htpm] at himg
  obtain ⟨wA, hnp, hA⟩ := himg
  obtain ⟨-, rw_, hAll⟩ := measureImage_run env c.kernel c.initrd wA pe f.ready.parsed hnp
  rw [hA] at hAll
  have aimg : AllExtended img := by
    rw [List.append_cancel_left hAll]
    exact allExtended_append (allExtended_loop hw _ _ _ _ _) allExtended_write
  obtain ⟨evs', contents, hevs', hk, hi, hs, hm⟩ := C14_pcr11_sequence env c.kernel c.initrd wA pe
    f.ready.parsed hnp
  rw [hA] at hevs'
  have := List.append_cancel_left hevs'
  subst this
  -- the companions
  have hcomp := f.ready.companions
  rw [if_pos htpm] at hcomp
  have hcm : measurements comp = cs.filterMap companionMeasurement ∧ AllExtended comp := by
    rcases hcomp with ⟨rfl, rfl⟩ | ⟨wC, hC⟩
    · exact ⟨rfl, allExtended_none rfl⟩
    · obtain ⟨-, e2, he, hme⟩ := C13_companions_submitted env cs wC
      obtain ⟨-, r1, r2', b, hall⟩ := measureCompanions_run env cs wC
      rw [hC] at he hall
      rw [List.append_cancel_left he]
      refine ⟨hme, ?_⟩
      rw [← List.append_cancel_left he, List.append_cancel_left hall]
      exact allExtended_append (allExtended_companions hw _ _)
        (allExtended_append allExtended_write allExtended_write)
  obtain ⟨creds, exts, hcs, hcr, hex⟩ : ∃ creds exts, cs = creds ++ exts ∧
      (∀ c ∈ creds, c.kind = .credentials ∨ c.kind = .globalCredentials) ∧
      ∀ c ∈ exts, c.kind = .systemExtension := by
    rcases f.ready.found with ⟨t, -, rfl⟩ | ⟨w2, hd⟩
    · exact ⟨[], [], rfl, by simp, by simp⟩
    · exact discovered_parts hd
  have hm12 : ∀ l : List Companion, (∀ c ∈ l, c.kind = .credentials ∨ c.kind = .globalCredentials) →
      l.filterMap companionMeasurement = l.map fun c => (12, c.cpio.buffer) := by
    intro l hl
    induction l with
    | nil => rfl
    | cons c l ih =>
      rw [List.filterMap_cons, ih fun c hc => hl c (List.mem_cons_of_mem _ hc)]
      rcases hl c List.mem_cons_self with h | h <;> simp [companionMeasurement, h]
  have hm13 : ∀ l : List Companion, (∀ c ∈ l, c.kind = .systemExtension) →
      l.filterMap companionMeasurement = l.map fun c => (13, c.cpio.buffer) := by
    intro l hl
    induction l with
    | nil => rfl
    | cons c l ih =>
      rw [List.filterMap_cons, ih fun c hc => hl c (List.mem_cons_of_mem _ hc)]
      simp [companionMeasurement, hl c List.mem_cons_self]
  -- the command line
  have hcl : AllExtended m ∧ measurements m = (if s.options = optionsOf c.cmdline then [] else [(4, s.options)]) := by
    rcases f.cmdline with ⟨ho, rfl | ⟨-, passed, o, t, -, e, h'⟩⟩ | ⟨hne, -, -, o, t, rfl, e, -⟩
    · rw [if_pos ho]; exact ⟨allExtended_none rfl, rfl⟩
    · rw [working_outcome hw] at e
      rw [e] at h'
      simp at h'
    · rw [if_neg hne]
      refine ⟨?_, rfl⟩
      intro p d s' o' hm
      simp only [List.mem_singleton, Event.measure.injEq] at hm
      rw [hm.2.2.2, e]
      exact working_outcome hw t
  -- everything
  have ht : evs = [.probeTpm (env.tpmOpens w.tick), .readFile kname (some c.kernel),
      .readFile iname (some c.initrd), .readVar secureBootVar r] ++ (img ++ (mid ++ (comp ++
        ([.readVar secureBootVar r2] ++ (m ++ [.start s]))))) := by
    have := f.trace
    rw [f.trace2, f.ready.trace, hevs] at this
    simp only [List.append_assoc, List.cons_append, List.nil_append] at this ⊢
    exact List.append_cancel_left this
  have hmid : measurements mid = [] := measurements_neutral f.ready.neutral
  have hall : AllExtended evs := by
    rw [ht]
    exact allExtended_append (allExtended_none rfl) (allExtended_append aimg (allExtended_append
      (allExtended_none hmid) (allExtended_append hcm.2 (allExtended_append (allExtended_none rfl)
        (allExtended_append hcl.1 (allExtended_none rfl))))))
  have hms : measurements evs = imageMeasurements (sectionNames pe) contents ++
      ((creds.map fun c => (12, c.cpio.buffer)) ++ ((exts.map fun c => (13, c.cpio.buffer)) ++
        (if s.options = optionsOf c.cmdline then [] else [(4, s.options)]))) := by
    rw [ht]
    simp only [measurements_append, hm, hmid, hcm.1, hcl.2]
    rw [hcs, List.filterMap_append, hm12 _ hcr, hm13 _ hex]
    have e1 : measurements [.probeTpm (env.tpmOpens w.tick), .readFile kname (some c.kernel),
        .readFile iname (some c.initrd), .readVar secureBootVar r] = [] := rfl
    have e2 : measurements [.readVar secureBootVar r2] = [] := rfl
    have e3 : measurements [.start s] = [] := rfl
    simp only [e1, e2, e3, List.nil_append, List.append_nil, List.append_assoc]
  have hI : ∀ x ∈ imageMeasurements (sectionNames pe) contents, x.1 = 11 := fun x hx => mem_imageMeasurements hx
  have hC : ∀ x ∈ creds.map fun c => ((12, c.cpio.buffer) : Nat × Bytes), x.1 = 12 := by
    intro x hx; obtain ⟨_, -, rfl⟩ := List.mem_map.1 hx; rfl
  have hX : ∀ x ∈ exts.map fun c => ((13, c.cpio.buffer) : Nat × Bytes), x.1 = 13 := by
    intro x hx; obtain ⟨_, -, rfl⟩ := List.mem_map.1 hx; rfl
  have hL : ∀ x ∈ (if s.options = optionsOf c.cmdline then [] else [((4, s.options) : Nat × Bytes)]), x.1 = 4 := by
    intro x hx
    split at hx
    · cases hx
    · rw [List.mem_singleton] at hx; rw [hx]
  have key : ∀ (l : List (Nat × Bytes)) (q p : Nat), (∀ x ∈ l, x.1 = q) →
      l.filter (fun m => decide (m.1 = p)) = if q = p then l else [] := by
    intro l q p hq
    by_cases e : q = p
    · rw [if_pos e]
      exact filter_eq_self' fun a ha => by rw [hq a ha]; simpa using e
    · rw [if_neg e]
      exact filter_eq_nil' fun a ha => by rw [hq a ha]; simpa using e
  have hfin : ∀ p, extendedWith p evs = ((if 11 = p then imageMeasurements (sectionNames pe) contents else []) ++
      ((if 12 = p then (creds.map fun c => ((12, c.cpio.buffer) : Nat × Bytes)) else []) ++
        ((if 13 = p then (exts.map fun c => ((13, c.cpio.buffer) : Nat × Bytes)) else []) ++
        (if 4 = p then (if s.options = optionsOf c.cmdline then [] else [((4, s.options) : Nat × Bytes)])
          else [])))).map Prod.snd := by
    intro p
    rw [extendedWith_of_all hall, hms, List.filter_append, List.filter_append, List.filter_append,
      key _ _ p hI, key _ _ p hC, key _ _ p hX, key _ _ p hL]
  refine ⟨pe, kpe, c.kernel, c.initrd, kname, iname, c.cmdline, contents, creds.map fun c => c.cpio.buffer,
    exts.map fun c => c.cpio.buffer, _, f.ready.parsed, f.ready.verified, f.ready.kernelName,
    f.ready.initrdName, f.ready.cmdline, hk, hi, hs, f.ready.volume, hkp, hl, f.ran.initrd, ?_, ?_, ?_, ?_, ?_, ?_⟩
  · rw [← List.map_append, ← hcs]
    exact C12_concatenation _ _
  · rw [hfin]; simp
  · rw [hfin]; simp [Function.comp_def]
  · rw [hfin]; simp [Function.comp_def]
  · rw [hfin]
    simp only [if_neg (show ¬ (11 = 4) by decide), if_neg (show ¬ (12 = 4) by decide),
      if_neg (show ¬ (13 = 4) by decide), if_pos, List.nil_append]
    split <;> rfl
  · intro p h4 h11 h12 h13
    rw [hfin]
    simp [Ne.symm h4, Ne.symm h11, Ne.symm h12, Ne.symm h13]

/-- C68: with a working TPM, when the kernel gets control PCR 11 has the value that is predicted from
the contents of the image, the kernel and the initrd, PCR 12 and 13 the values predicted from the
archives appended to the initrd, PCR 4 is extended with the command line if it is not the embedded
one, and all other PCRs have the values they had. -/
theorem C68_pcr_values (tpm : StubName.Sha) (env : Env) (w : World) (s : Started) (h : Starts env w s)
    (hw : WorkingTpm env) (evs : List Event) (ht : (main env w).2.trace = w.trace ++ evs)
    (v : Nat → Bytes) :
    ∃ pe kernel initrd embedded contents creds exts joined,
      env.parseOwn env.ownImage = some pe ∧ Verified env.sha pe env.ownImage kernel initrd ∧
      TextSection pe env.ownImage (lit ".cmdline") embedded ∧
      contents (lit ".linux") = kernel ∧ contents (lit ".initrd") = initrd ∧
      (∀ n ∈ canonicalOrder, n ∈ sectionNames pe → n ≠ lit ".linux" → n ≠ lit ".initrd" →
        SectionContents pe env.ownImage n (contents n)) ∧
      s.initrd = some joined ∧ Joined (initrd :: (creds ++ exts)) joined ∧
      pcrAfter tpm 11 (v 11) evs =
        predicted tpm (v 11) ((imageMeasurements (sectionNames pe) contents).map Prod.snd) ∧
      pcrAfter tpm 12 (v 12) evs = predicted tpm (v 12) creds ∧
      pcrAfter tpm 13 (v 13) evs = predicted tpm (v 13) exts ∧
      pcrAfter tpm 4 (v 4) evs =
        (if s.options = optionsOf embedded then v 4 else extend tpm (v 4) s.options) ∧
      ∀ p, p ≠ 4 → p ≠ 11 → p ≠ 12 → p ≠ 13 → pcrAfter tpm p (v p) evs = v p := by
  obtain ⟨pe, kpe, kernel, initrd, kname, iname, embedded, contents, creds, exts, joined, c⟩ :=
    chains h hw ht
  refine ⟨pe, kernel, initrd, embedded, contents, creds, exts, joined, c.parsed, c.verified, c.cmdline,
    c.linuxContents, c.initrdContents, c.others, c.served, c.joined, ?_, ?_, ?_, ?_, ?_⟩
  · rw [pcrAfter_eq, c.pcr11]
  · rw [pcrAfter_eq, c.pcr12]
  · rw [pcrAfter_eq, c.pcr13]
  · rw [pcrAfter_eq, c.pcr4]; split <;> rfl
  · intro p h1 h2 h3 h4
    rw [pcrAfter_eq, c.rest p h1 h2 h3 h4]; rfl

/-! ## The measurements of an image determine its sections -/

theorem imageMeasurements_pairs (names : List Str) (contents : Str → Bytes) :
    (imageMeasurements names contents).map Prod.snd =
      (canonicalOrder.flatMap fun n => List.replicate (names.count n) (n, contents n)).flatMap
        fun p => [utf8 (p.1 ++ ['\x00']), p.2] := by
  unfold imageMeasurements
  generalize canonicalOrder = l
  induction l with
  | nil => rfl
  | cons n l ih =>
    simp only [List.flatMap_cons, List.map_append, List.flatMap_append]
    rw [ih]
    congr 1
    generalize names.count n = k
    induction k with
    | zero => rfl
    | succ k ih => simp only [List.replicate_succ, List.flatten_cons, List.map_append, List.flatMap_cons, ih]; rfl

theorem pairs_inj : ∀ l l' : List (Str × Bytes),
    (l.flatMap fun p => [utf8 (p.1 ++ ['\x00']), p.2]) = (l'.flatMap fun p => [utf8 (p.1 ++ ['\x00']), p.2]) →
    l = l'
  | [], [], _ => rfl
  | [], _ :: _, h => by simp at h
  | _ :: _, [], h => by simp at h
  | p :: l, p' :: l', h => by
    simp only [List.flatMap_cons, List.cons_append, List.nil_append, List.cons.injEq] at h
    obtain ⟨h1, h2, h3⟩ := h
    have e1 := List.append_cancel_right (StubName.utf8_injective h1)
    rw [pairs_inj l l' h3, Prod.ext e1 h2]

theorem pairs_filter (names : List Str) (contents : Str → Bytes) {n : Str} : ∀ {l : List Str}, l.Nodup →
    ((l.flatMap fun n => List.replicate (names.count n) (n, contents n)).filter
      fun p => decide (p.1 = n)) = if n ∈ l then List.replicate (names.count n) (n, contents n) else []
  | [], _ => by simp
  | a :: l, hn => by
    obtain ⟨ha, hn⟩ := List.nodup_cons.1 hn
    rw [List.flatMap_cons, List.filter_append, pairs_filter names contents hn]
    by_cases e : a = n
    · subst e
      rw [if_neg ha, List.append_nil, if_pos List.mem_cons_self]
      exact filter_eq_self' fun x hx => by rw [List.eq_of_mem_replicate hx]; simp
    · rw [filter_eq_nil' fun x hx => by rw [List.eq_of_mem_replicate hx]; simpa using e]
      simp [Ne.symm e]

theorem imageMeasurements_inj {names names' : List Str} {contents contents' : Str → Bytes}
    (h : (imageMeasurements names contents).map Prod.snd = (imageMeasurements names' contents').map Prod.snd)
    {n : Str} (hn : n ∈ canonicalOrder) :
    names.count n = names'.count n ∧ (n ∈ names → contents n = contents' n) := by
  rw [imageMeasurements_pairs, imageMeasurements_pairs] at h
  have h := congrArg (List.filter fun p => decide (p.1 = n)) (pairs_inj _ _ h)
  have hnd : canonicalOrder.Nodup := by decide
  rw [pairs_filter names contents hnd, pairs_filter names' contents' hnd, if_pos hn, if_pos hn] at h
  have hc : names.count n = names'.count n := by simpa using congrArg List.length h
  refine ⟨hc, fun hin => ?_⟩
  have hpos : 0 < names.count n := List.count_pos_iff.2 hin
  obtain ⟨k, hk⟩ : ∃ k, names.count n = k + 1 := ⟨names.count n - 1, by omega⟩
  rw [← hc, hk, List.replicate_succ, List.replicate_succ] at h
  exact congrArg Prod.snd (List.cons.inj h).1

theorem sectionContents_mem {pe : PE} {own : Bytes} {n : Str} {c : Bytes} (h : SectionContents pe own n c) :
    n ∈ sectionNames pe := by
  obtain ⟨pre, s, post, e, hs, -⟩ := h
  unfold sectionNames
  rw [e]
  exact List.mem_filterMap.2 ⟨s, by simp, hs⟩

theorem textSection_contents {pe : PE} {own : Bytes} {n : Str} {s : Str16} (h : TextSection pe own n s) :
    ∃ c, SectionContents pe own n c := by
  obtain ⟨t, h, -⟩ := h
  exact ⟨_, h⟩

theorem textSection_same {pe pe' : PE} {own own' : Bytes} {n : Str} {s s' : Str16} {c : Bytes}
    (h : TextSection pe own n s) (h' : TextSection pe' own' n s') (hc : SectionContents pe own n c)
    (hc' : SectionContents pe' own' n c) : s = s' := by
  obtain ⟨t, ht, hs, -⟩ := h
  obtain ⟨t', ht', hs', -⟩ := h'
  have e := SectionContents.unique ht hc
  have e' := SectionContents.unique ht' hc'
  rw [hs, hs', StubName.utf8_injective (e.trans e'.symm)]

/-- C68: if PCR 11 has the same value at the start of two kernels and had the same value before, then
the kernels, the initrds, the embedded command lines and all other measured sections of the two stubs
are the same, or the hash of the PCR bank is broken. -/
theorem C68_pcr11_identifies (tpm : StubName.Sha) (env env' : Env) (w w' : World) (s s' : Started)
    (h : Starts env w s) (h' : Starts env' w' s') (hw : WorkingTpm env) (hw' : WorkingTpm env')
    (evs evs' : List Event) (ht : (main env w).2.trace = w.trace ++ evs)
    (ht' : (main env' w').2.trace = w'.trace ++ evs') (v : Bytes) (hv : v.length = 32)
    (he : pcrAfter tpm 11 v evs = pcrAfter tpm 11 v evs') :
    (∃ pe pe' kernel initrd embedded,
      env.parseOwn env.ownImage = some pe ∧ env'.parseOwn env'.ownImage = some pe' ∧
      Verified env.sha pe env.ownImage kernel initrd ∧ Verified env'.sha pe' env'.ownImage kernel initrd ∧
      TextSection pe env.ownImage (lit ".cmdline") embedded ∧
      TextSection pe' env'.ownImage (lit ".cmdline") embedded ∧
      ∀ n ∈ canonicalOrder, (sectionNames pe).count n = (sectionNames pe').count n ∧
        (n ≠ lit ".linux" → n ≠ lit ".initrd" →
          ∀ c, SectionContents pe env.ownImage n c ↔ SectionContents pe' env'.ownImage n c)) ∨
    Clash tpm v (extendedWith 11 evs) (extendedWith 11 evs') := by
  obtain ⟨pe, kpe, kernel, initrd, kname, iname, embedded, contents, creds, exts, joined, c⟩ :=
    chains h hw ht
  obtain ⟨pe', kpe', kernel', initrd', kname', iname', embedded', contents', creds', exts', joined', c'⟩ :=
    chains h' hw' ht'
  rw [pcrAfter_eq, pcrAfter_eq] at he
  rcases predicted_inj hv _ _ he with e | hc
  · left
    rw [c.pcr11, c'.pcr11] at e
    have hin := fun {n : Str} (hn : n ∈ canonicalOrder) => imageMeasurements_inj e hn
    have hl : kernel = kernel' := by
      obtain ⟨x, hx⟩ := textSection_contents c.kernelName
      rw [← c.linuxContents, ← c'.linuxContents]
      exact (hin (by decide)).2 (sectionContents_mem hx)
    have hi : initrd = initrd' := by
      obtain ⟨x, hx⟩ := textSection_contents c.initrdName
      rw [← c.initrdContents, ← c'.initrdContents]
      exact (hin (by decide)).2 (sectionContents_mem hx)
    have hsec : ∀ n ∈ canonicalOrder, n ≠ lit ".linux" → n ≠ lit ".initrd" → ∀ x,
        SectionContents pe env.ownImage n x ↔ SectionContents pe' env'.ownImage n x := by
      intro n hn h1 h2 x
      constructor
      · intro hx
        have hm := (sectionContents_mem hx)
        have hm' : n ∈ sectionNames pe' := by
          rw [← List.count_pos_iff, ← (hin hn).1, List.count_pos_iff]; exact hm
        have e1 := SectionContents.unique hx (c.others n hn hm h1 h2)
        rw [e1, (hin hn).2 hm]
        exact c'.others n hn hm' h1 h2
      · intro hx
        have hm' := (sectionContents_mem hx)
        have hm : n ∈ sectionNames pe := by
          rw [← List.count_pos_iff, (hin hn).1, List.count_pos_iff]; exact hm'
        have e1 := SectionContents.unique hx (c'.others n hn hm' h1 h2)
        rw [e1, ← (hin hn).2 hm]
        exact c.others n hn hm h1 h2
    have hcl : embedded = embedded' := by
      obtain ⟨x, hx⟩ := textSection_contents c.cmdline
      exact textSection_same c.cmdline c'.cmdline hx
        ((hsec _ (by decide) (by decide) (by decide) x).1 hx)
    subst hl hi hcl
    exact ⟨pe, pe', kernel, initrd, embedded, c.parsed, c'.parsed, c.verified, c'.verified, c.cmdline,
      c'.cmdline, fun n hn => ⟨(hin hn).1, hsec n hn⟩⟩
  · exact Or.inr hc

/-! ## The started kernel -/

theorem Placed.unique {secs : List Section} {file : Bytes} {off : Nat} {b b' : UInt8}
    (h : Placed secs file off b) (h' : Placed secs file off b') : b = b' := by
  rcases h with ⟨pre, s, post, e, hs, hp, hb⟩ | ⟨hn, rfl⟩
  · rcases h' with ⟨pre', s', post', e', hs', hp', hb'⟩ | ⟨hn, -⟩
    · have : s = s' := by
        rw [e] at e'
        rcases List.append_eq_append_iff.1 e' with ⟨x, h1, h2⟩ | ⟨x, h1, h2⟩
        · cases x with
          | nil => simp at h2; exact h2.1
          | cons y x =>
            simp only [List.cons_append, List.cons.injEq] at h2
            exact absurd hs' (hp s' (by rw [h2.2]; simp))
        · cases x with
          | nil => simp at h2; exact h2.1.symm
          | cons y x =>
            simp only [List.cons_append, List.cons.injEq] at h2
            exact absurd hs (hp' s (by rw [h2.2]; simp))
      subst this
      rw [hb] at hb'
      exact Option.some.inj hb'
    · exact absurd hs (hn s (by rw [e]; simp))
  · rcases h' with ⟨pre', s', post', e', hs', -⟩ | ⟨-, rfl⟩
    · exact absurd hs' (hn s' (by rw [e']; simp))
    · rfl

theorem IsLoaded.unique {pe : PE} {file image image' : Bytes} {entry entry' : Nat}
    (h : IsLoaded pe file image entry) (h' : IsLoaded pe file image' entry') :
    image = image' ∧ entry = entry' := by
  refine ⟨?_, by rw [h.entry_eq, h'.entry_eq]⟩
  have hlen : image.length = image'.length := by
    obtain ⟨h1, h2⟩ := h.size
    obtain ⟨h1', h2'⟩ := h'.size
    rcases h2 with h0 | ⟨x, hx, ex⟩
    · rcases h2' with h0' | ⟨x', hx', ex'⟩
      · omega
      · have := h1 x' hx'; omega
    · rcases h2' with h0' | ⟨x', hx', ex'⟩
      · have := h1' x hx; omega
      · have := h1 x' hx'; have := h1' x hx; omega
  apply List.ext_getElem? 
  intro i
  by_cases hi : i < image.length
  · rw [List.getElem?_eq_getElem hi, List.getElem?_eq_getElem (hlen ▸ hi)]
    exact congrArg some (Placed.unique (h.content i _ (List.getElem?_eq_getElem hi))
      (h'.content i _ (List.getElem?_eq_getElem (hlen ▸ hi))))
  · rw [List.getElem?_eq_none (by omega), List.getElem?_eq_none (by omega)]

/-- C68: two kernels that find the same values in PCR 4, 11, 12 and 13, on machines where these PCRs had
the same values before the stub ran, were started in the same way: the same bytes in memory, the same
entry point, the same command line, the same initrd; or the hash of the PCR bank is broken. -/
theorem C68_pcrs_identify_boot (tpm : StubName.Sha) (env env' : Env) (w w' : World) (s s' : Started)
    (h : Starts env w s) (h' : Starts env' w' s') (hw : WorkingTpm env) (hw' : WorkingTpm env')
    (hparse : env.parseFile = env'.parseFile)
    (evs evs' : List Event) (ht : (main env w).2.trace = w.trace ++ evs)
    (ht' : (main env' w').2.trace = w'.trace ++ evs') (v : Nat → Bytes) (hv : ∀ p, (v p).length = 32)
    (he : ∀ p ∈ [4, 11, 12, 13], pcrAfter tpm p (v p) evs = pcrAfter tpm p (v p) evs') :
    s = s' ∨ ∃ p ∈ [4, 11, 12, 13], Clash tpm (v p) (extendedWith p evs) (extendedWith p evs') := by
  refine Classical.byContradiction fun hno => ?_
  have hclash : ∀ p ∈ [4, 11, 12, 13], ¬ Clash tpm (v p) (extendedWith p evs) (extendedWith p evs') :=
    fun p hp hc => hno (Or.inr ⟨p, hp, hc⟩)
  have heq : ∀ p ∈ [4, 11, 12, 13], extendedWith p evs = extendedWith p evs' := by
    intro p hp
    have h1 := he p hp
    rw [pcrAfter_eq, pcrAfter_eq] at h1
    exact (predicted_inj (hv p) _ _ h1).resolve_right (hclash p hp)
  apply hno
  left
  obtain ⟨pe, kpe, kernel, initrd, kname, iname, embedded, contents, creds, exts, joined, c⟩ :=
    chains h hw ht
  obtain ⟨pe', kpe', kernel', initrd', kname', iname', embedded', contents', creds', exts', joined', c'⟩ :=
    chains h' hw' ht'
  have e11 := heq 11 (by decide)
  rw [c.pcr11, c'.pcr11] at e11
  have hin := fun {n : Str} (hn : n ∈ canonicalOrder) => imageMeasurements_inj e11 hn
  have hl : kernel = kernel' := by
    obtain ⟨x, hx⟩ := textSection_contents c.kernelName
    rw [← c.linuxContents, ← c'.linuxContents]
    exact (hin (by decide)).2 (sectionContents_mem hx)
  have hi : initrd = initrd' := by
    obtain ⟨x, hx⟩ := textSection_contents c.initrdName
    rw [← c.initrdContents, ← c'.initrdContents]
    exact (hin (by decide)).2 (sectionContents_mem hx)
  have hcl : embedded = embedded' := by
    obtain ⟨x, hx⟩ := textSection_contents c.cmdline
    obtain ⟨x', hx'⟩ := textSection_contents c'.cmdline
    have e1 := SectionContents.unique hx (c.others _ (by decide) (sectionContents_mem hx) (by decide) (by decide))
    have e2 := SectionContents.unique hx' (c'.others _ (by decide) (sectionContents_mem hx') (by decide) (by decide))
    have : x' = x := by rw [e1, e2]; exact ((hin (by decide)).2 (sectionContents_mem hx)).symm
    exact textSection_same c.cmdline c'.cmdline hx (this ▸ hx')
  have e12 := heq 12 (by decide)
  have e13 := heq 13 (by decide)
  have e4 := heq 4 (by decide)
  rw [c.pcr12, c'.pcr12] at e12
  rw [c.pcr13, c'.pcr13] at e13
  rw [c.pcr4, c'.pcr4, ← hcl] at e4
  subst hl hi e12 e13
  have hk := c'.kernelParsed
  rw [← hparse, c.kernelParsed] at hk
  have hk := Option.some.inj hk
  subst hk
  obtain ⟨i1, i2⟩ := IsLoaded.unique c.loaded c'.loaded
  have hj := Joined.unique c.joined c'.joined
  subst hj
  have hopt : s.options = s'.options := by
    by_cases h1 : s.options = optionsOf embedded
    · by_cases h2 : s'.options = optionsOf embedded
      · rw [h1, h2]
      · rw [if_pos h1, if_neg h2] at e4; cases e4
    · by_cases h2 : s'.options = optionsOf embedded
      · rw [if_neg h1, if_pos h2] at e4; cases e4
      · rw [if_neg h1, if_neg h2] at e4
        exact (List.cons.inj e4).1
  have hini : s.initrd = s'.initrd := by rw [c.served, c'.served]
  cases s
  cases s'
  simp_all

/-! ## Examples -/

namespace Sample

/-- The digits of a number in base 256, least significant first. -/
def digits : Nat → Nat → Bytes
  | 0, _ => []
  | k + 1, n => UInt8.ofNat (n % 256) :: digits k (n / 256)

theorem digits_length (k n : Nat) : (digits k n).length = k := by
  induction k generalizing n with
  | zero => rfl
  | succ k ih => simp [digits, ih]

/-- Stands in for the hash of the PCR bank: a polynomial modulo a prime of 256 bits. -/
def bank : StubName.Sha where
  hash b := digits 32 (b.foldl (fun a x => (a * 257 + x.toNat + 1) % (2 ^ 256 - 189)) 1)
  len _ := digits_length _ _

/-- PCRs after a reset. -/
def zeros (_ : Nat) : Bytes := List.replicate 32 0

/-- The machine whose stub has its sections in reverse order, with another file that is no companion. -/
def other : Env := { envReversed with
  fs := fun _ => some { volume with read := fun f => if f = lit16 "\\readme" then some [9] else volume.read f } }

theorem envWorks (st : Status) : WorkingTpm (env true st) := ⟨fun _ => rfl, fun _ => rfl, fun _ => rfl⟩
theorem otherWorks : WorkingTpm other := ⟨fun _ => rfl, fun _ => rfl, fun _ => rfl⟩

/-- With Secure Boot off and a command line of the boot loader, it starts its kernel. -/
theorem other_starts : ∃ s, Starts other (start (some [0]) (some [1, 2])) s := by
  have : (started (main other (start (some [0]) (some [1, 2]))).2.trace).isSome = true := by
    decide +kernel
  obtain ⟨s, hs⟩ := Option.isSome_iff_exists.1 this
  obtain ⟨e, he, hs⟩ := List.exists_of_findSome?_eq_some hs
  cases e <;> simp at hs
  subst hs
  exact ⟨_, _, (List.nil_append _).symm, he⟩

/-- On two machines that differ in the order of the sections the values are the same, and were changed
by the stub: the kernels were started in the same way unless the bank is broken. -/
example : ∃ s s' : Started, s.options = [1, 2] ∧
    (∀ p ∈ [4, 11, 12, 13], pcrAfter bank p (zeros p) (main (env true .success) (start (some [0]) (some [1, 2]))).2.trace ≠
      zeros p) ∧
    (s = s' ∨ ∃ p ∈ [4, 11, 12, 13], Clash bank (zeros p)
      (extendedWith p (main (env true .success) (start (some [0]) (some [1, 2]))).2.trace)
      (extendedWith p (main other (start (some [0]) (some [1, 2]))).2.trace)) := by
  obtain ⟨s, h, ho⟩ := insecure
  obtain ⟨s', h'⟩ := other_starts
  refine ⟨s, s', ho, by decide +kernel, ?_⟩
  exact C68_pcrs_identify_boot bank _ _ _ _ s s' h h' (envWorks _) otherWorks rfl _ _
    (List.nil_append _).symm (List.nil_append _).symm zeros (fun _ => rfl) (by decide +kernel)

/-- Without the command line of the boot loader PCR 4 differs, PCR 11 does not. -/
example : pcrAfter bank 4 (zeros 4) (main (env true .success) (start (some [0]) (some [1, 2]))).2.trace ≠
      pcrAfter bank 4 (zeros 4) (main (env true .success) (start (some [1]) (some [1, 2]))).2.trace ∧
    pcrAfter bank 11 (zeros 11) (main (env true .success) (start (some [0]) (some [1, 2]))).2.trace =
      pcrAfter bank 11 (zeros 11) (main (env true .success) (start (some [1]) (some [1, 2]))).2.trace := by
  decide +kernel

end Sample

end Verif.Stub
