import Verif.Model.Tpm
import Verif.Props.Pcr
import Verif.Lemmas.SampleBoot
/-!
# C71: the event log of the TPM
-/
namespace Verif.Tpm
open Verif Stub Stub.Spec Companion

variable {d : Device} {base : Stub.Env}

/-- None of the stub's uses of the TPM is still under way. -/
def Free (d : Device) (s : State) : Prop := ∀ t h, d.handle t = .ok h → h ∉ s.held

/-- The firmware calls themselves do not panic. -/
def Device.Regular (d : Device) : Prop := ∀ t, d.handle t ≠ .panic ∧ d.capability t ≠ .panic

theorem erase_self {s : State} (h : Nat) : { s with held := (h :: s.held).erase h } = s := by
  simp

theorem openCapable_run (hd : d.Regular) {s : State} (hs : Free d s) (t : Nat) :
    (∃ h, openCapable d t s = (.ok h, { s with held := h :: s.held }) ∧ (d.env base).tpmOpens t = true) ∨
    (∃ st, openCapable d t s = (.err st, s) ∧ (d.env base).tpmOpens t = false) := by
  unfold openCapable
  have e : (d.env base).tpmOpens t = ((match d.handle t with | .ok _ => true | _ => false) &&
      (d.openFault t).isNone && (match d.capability t with | .ok b => b | _ => false)) := rfl
  rw [e]
  cases hh : d.handle t with
  | panic => exact absurd hh (hd t).1
  | err st => exact Or.inr ⟨st, rfl, rfl⟩
  | ok h =>
    have hn := hs t h hh
    dsimp only
    rw [RM.bind_run]
    unfold openExclusive
    rw [if_neg hn]
    cases ho : d.openFault t with
    | some st => exact Or.inr ⟨st, rfl, rfl⟩
    | none =>
      dsimp only
      cases hc : d.capability t with
      | panic => exact absurd hc (hd t).2
      | err st =>
        refine Or.inr ⟨st, ?_, rfl⟩
        simp [RM.bind_run, close]
      | ok b =>
        cases b with
        | true => exact Or.inl ⟨h, rfl, rfl⟩
        | false =>
          refine Or.inr ⟨.unsupported, ?_, rfl⟩
          simp [RM.bind_run, close]

/-- Looking for a TPM: the same answer as in the model of the stub, and the protocol is closed again. -/
theorem C71_probe (hd : d.Regular) {s : State} (hs : Free d s) (w : World) :
    available d w.tick s = (.ok ((d.env base).tpmOpens w.tick), s) ∧
    (tpmAvailable (d.env base) w).1 = .ok ((d.env base).tpmOpens w.tick) := by
  refine ⟨?_, rfl⟩
  unfold available
  rcases openCapable_run (base := base) hd hs w.tick with ⟨h, e, e'⟩ | ⟨st, e, e'⟩
  · rw [e, e']
    simp [RM.bind_run, close]
  · rw [e, e']

/-- **C71**. One measurement: the same result as in the model of the stub; the device has extended and
logged what the stub's trace says, and nothing otherwise; and the protocol is closed again, whatever
happened. -/
theorem C71_one_measurement (hd : d.Regular) {s : State} (hs : Free d s) (w : World) (pcr : Nat)
    (data : Bytes) (description : Str) :
    ∃ evs, (tpmLogEvent (d.env base) pcr data description w).2.trace = w.trace ++ evs ∧
      logEvent d w.tick pcr data description s =
        ((tpmLogEvent (d.env base) pcr data description w).1, evs.foldl (received d) s) := by
  unfold logEvent tpmLogEvent
  by_cases hp : pcr = u32Max
  · rw [if_pos hp]
    refine ⟨[], by simp, ?_⟩
    rw [if_pos hp]
    rfl
  simp only [if_neg hp]
  unfold whenCapable
  simp only [RM.bind_run, next]
  rcases openCapable_run (base := base) hd hs w.tick with ⟨h, e, e'⟩ | ⟨st, e, e'⟩
  · rw [e, e']
    simp only [if_true]
    unfold closing newEvent
    have eb : (d.env base).eventFault w.tick = d.buildFault w.tick := rfl
    have ee : (d.env base).extendFault w.tick = d.extendFault w.tick := rfl
    rw [eb, ee]
    cases hb : d.buildFault w.tick with
    | some st => exact ⟨[.measure pcr data description .notBuilt], by simp [emit], by simp [received, emit]⟩
    | none =>
      cases hx : d.extendFault w.tick with
      | some st =>
        exact ⟨[.measure pcr data description .rejected], by simp [emit],
          by simp [received, emit, hashLogExtend, hx]⟩
      | none =>
        refine ⟨[.measure pcr data description .extended], by simp [emit], ?_⟩
        simp [received, emit, hashLogExtend, hx, ipl, evIpl, Stub.Spec.extend]
  · rw [e, e']
    exact ⟨[.measure pcr data description .noTpm], by simp [emit], by simp [received, emit]⟩

/-- There is a TPM that can be opened and says that it is present. -/
def Usable (d : Device) (t : Nat) : Prop :=
  (∃ h, d.handle t = .ok h) ∧ d.openFault t = none ∧ d.capability t = .ok true

theorem tpmOpens_iff {t : Nat} : (d.env base).tpmOpens t = true ↔ Usable d t := by
  have e : (d.env base).tpmOpens t = ((match d.handle t with | .ok _ => true | _ => false) &&
      (d.openFault t).isNone && (match d.capability t with | .ok b => b | _ => false)) := rfl
  rw [e]
  unfold Usable
  cases d.handle t <;> cases d.openFault t <;> rcases d.capability t with _ | (_ | _) | _ <;> simp

theorem utf16le_wide {s : Str} (h : ∀ c ∈ s, c.toNat < 128) : utf16le s = wide s := by
  induction s with
  | nil => rfl
  | cons c s ih =>
    have e : utf16Char c = [UInt16.ofNat c.toNat] := by
      unfold utf16Char
      rw [if_pos (by have := h c (by simp); omega)]
    have e2 : utf16le (c :: s) = leBytes16 (utf16Char c) ++ utf16le s := by
      simp [utf16le, utf16, leBytes16]
    rw [e2, ih fun c hc => h c (by simp [hc]), e]
    have := h c (by simp)
    have e3 : (UInt16.ofNat c.toNat).toNat = c.toNat := by
      simp [UInt16.toNat_ofNat']; omega
    simp only [leBytes16, wide, List.flatMap_cons, List.flatMap_nil, List.append_nil, e3]
    rw [Nat.mod_eq_of_lt (by omega), Nat.div_eq_of_lt (by omega)]
    rfl

/-- **C71**. What one measurement does to the device: if there is a usable TPM and nothing fails, then exactly
the given PCR is extended with exactly the given data and exactly one entry is logged; otherwise nothing
changes, and it is an error unless there is no usable TPM. In all cases nothing is left open. -/
theorem C71_effect (hd : d.Regular) {s : State} (hs : Free d s) (t pcr : Nat) (data : Bytes) {text : Str}
    (htext : ∀ c ∈ text, c.toNat < 128) :
    (pcr ≠ 2 ^ 32 - 1 → Usable d t → d.buildFault t = none → d.extendFault t = none →
      logEvent d t pcr data text s = (.ok (), { s with
        pcrs := fun p => if p = pcr then d.hash.hash (s.pcrs p ++ d.hash.hash data) else s.pcrs p
        log := s.log ++ [entry d.hash.hash pcr data text] })) ∧
    (¬ (pcr ≠ 2 ^ 32 - 1 ∧ Usable d t ∧ d.buildFault t = none ∧ d.extendFault t = none) →
      (logEvent d t pcr data text s).2 = s ∧
      ((logEvent d t pcr data text s).1 = .ok () ↔ pcr ≠ 2 ^ 32 - 1 ∧ ¬ Usable d t)) := by
  have hu : u32Max = 2 ^ 32 - 1 := rfl
  unfold logEvent
  by_cases hp : pcr = 2 ^ 32 - 1
  · rw [if_pos (hu ▸ hp)]
    exact ⟨fun h => absurd hp h, fun _ => ⟨rfl, by simp [hp, RM.throw_run]⟩⟩
  rw [if_neg (hu ▸ hp)]
  unfold whenCapable
  have hb := tpmOpens_iff (d := d) (base := Stub.Sample.env true .success) (t := t)
  rcases openCapable_run (base := Stub.Sample.env true .success) hd hs t with ⟨h, e, e'⟩ | ⟨st, e, e'⟩
  · have hU := hb.1 e'
    simp only [e]
    unfold closing newEvent
    cases hbf : d.buildFault t with
    | some st => simp [RM.bind_run, RM.throw_run, hU]
    | none =>
      cases hx : d.extendFault t with
      | some st => simp [RM.bind_run, hashLogExtend, hx, hU]
      | none => simp [RM.bind_run, hashLogExtend, hx, hU, hp, ipl, evIpl, entry, utf16le_wide htext]
  · have hU : ¬ Usable d t := fun h => by rw [hb.2 h] at e'; cases e'
    simp only [e]
    exact ⟨fun _ h => absurd h hU, fun _ => ⟨trivial, by simp [hp, hU]⟩⟩

/-- The stub holds nothing open that it did not hold before. -/
theorem received_held (evs : List Event) (s : State) : (evs.foldl (received d) s).held = s.held := by
  induction evs generalizing s with
  | nil => rfl
  | cons e evs ih =>
    rw [List.foldl_cons, ih]
    cases e with
    | measure p x y o => cases o <;> rfl
    | _ => rfl

/-- **C71**. After a measurement, whether it succeeded or not, the protocol is closed again, so that it can be
opened for the next one. -/
theorem C71_closed (hd : d.Regular) {s : State} (hs : Free d s) (t pcr : Nat) (data : Bytes)
    (description : Str) : (logEvent d t pcr data description s).2.held = s.held ∧
      Free d (logEvent d t pcr data description s).2 := by
  obtain ⟨evs, -, h⟩ := C71_one_measurement (base := Stub.Sample.env true .success) hd hs
    { Stub.Sample.start none none with tick := t } pcr data description
  have e : (logEvent d t pcr data description s).2.held = s.held := by
    have h : logEvent d t pcr data description s = (_, _) := h
    rw [h]
    exact received_held evs s
  exact ⟨e, fun t' h' hh => by rw [e]; exact hs t' h' hh⟩

/-- What the device remembers for a PCR is what C68 speaks about. -/
theorem C71_pcrs (evs : List Event) (s : State) (p : Nat) :
    (evs.foldl (received d) s).pcrs p = pcrAfter d.hash p (s.pcrs p) evs := by
  induction evs generalizing s with
  | nil => rfl
  | cons e evs ih =>
    rw [List.foldl_cons, ih]
    have : pcrAfter d.hash p (s.pcrs p) (e :: evs) = pcrAfter d.hash p (step d.hash p (s.pcrs p) e) evs := rfl
    rw [this]
    congr 1
    cases e with
    | measure q x y o =>
      cases o with
      | extended =>
        show (if p = q then _ else _) = if q = p then _ else _
        by_cases h : p = q
        · rw [if_pos h, if_pos h.symm]
        · rw [if_neg h, if_neg fun h' => h h'.symm]
      | _ => rfl
    | _ => rfl

/-- **C71**. Replaying the log: if the log accounted for the values of the PCRs before the stub ran, it does
so afterwards, whatever the stub did and whatever failed. -/
theorem C71_log_replays (v : Nat → Bytes) (s : State)
    (hs : ∀ p, s.pcrs p = replay d.hash.hash p (v p) s.log) (evs : List Event) (p : Nat) :
    (evs.foldl (received d) s).pcrs p = replay d.hash.hash p (v p) (evs.foldl (received d) s).log := by
  induction evs generalizing s with
  | nil => exact hs p
  | cons e evs ih =>
    refine ih (received d s e) fun q => ?_
    cases e with
    | measure r x y o =>
      cases o with
      | extended =>
        show (if q = r then Stub.Spec.extend d.hash (s.pcrs q) x else s.pcrs q) =
          replay d.hash.hash q (v q) (s.log ++ [_])
        unfold replay at hs ⊢
        rw [List.foldl_append, ← hs q]
        simp only [List.foldl_cons, List.foldl_nil]
        by_cases h : q = r
        · rw [if_pos h, if_pos h.symm]; rfl
        · rw [if_neg h, if_neg fun h' => h h'.symm]
      | _ => exact hs q
    | _ => exact hs q

/-! ## The log of a boot -/

/-- The entry for an event. -/
def entryOf (d : Device) : Event → Option Entry
  | .measure pcr data description .extended =>
    some { pcr := pcr, type := evIpl, digest := d.hash.hash data, event := utf16le description }
  | _ => none

theorem received_log (evs : List Event) (s : State) :
    (evs.foldl (received d) s).log = s.log ++ evs.filterMap (entryOf d) := by
  induction evs generalizing s with
  | nil => simp
  | cons e evs ih =>
    rw [List.foldl_cons, ih, List.filterMap_cons]
    cases e with
    | measure p x y o => cases o <;> simp [received, entryOf]
    | _ => rfl

/-- The TPM is there and does what it is asked to. -/
structure Works (d : Device) : Prop where
  present : ∀ t, (∃ h, d.handle t = .ok h) ∧ d.openFault t = none ∧ d.capability t = .ok true
  builds : ∀ t, d.buildFault t = none
  accepts : ∀ t, d.extendFault t = none

theorem Works.working (h : Works d) : WorkingTpm (d.env base) := by
  refine ⟨fun t => ?_, h.builds, h.accepts⟩
  obtain ⟨⟨x, h1⟩, h2, h3⟩ := h.present t
  show ((match d.handle t with | .ok _ => true | _ => false) &&
      (d.openFault t).isNone && (match d.capability t with | .ok b => b | _ => false)) = true
  rw [h1, h2, h3]
  rfl

theorem utf16le_wide_name (u : Uni) : utf16le u.name = wide u.name := by cases u <;> decide

theorem entries_loop (hw : WorkingTpm (d.env base)) (p : Parsed) (k i : Bytes) (us : List Uni) (t : Nat) :
    (loopEvents (d.env base) p k i us t).filterMap (entryOf d) = us.flatMap fun u =>
      [entry d.hash.hash 11 (utf8 (u.name ++ ['\x00'])) u.name,
       entry d.hash.hash 11 (contentsOf p k i u.name) u.name] := by
  induction us generalizing t with
  | nil => rfl
  | cons u rest ih =>
    rw [loopEvents, List.filterMap_append, ih, List.flatMap_cons]
    congr 1
    unfold pairEvents
    rw [working_outcome hw, working_outcome hw]
    simp [entryOf, entry, utf16le_wide_name]

theorem entries_image (names : List Str) (hash : Bytes → Bytes) (c : Str → Bytes) :
    ((sectionsToMeasure names).flatMap fun u =>
      [entry hash 11 (utf8 (u.name ++ ['\x00'])) u.name, entry hash 11 (c u.name) u.name]) =
      imageEntries hash names c := by
  rw [sectionsToMeasure_eq, imageEntries, canonicalOrder_eq, List.flatMap_assoc, List.flatMap_map]
  apply flatMap_congr'
  intro u _
  exact flatMap_replicate _ _ _

theorem entries_companions (hw : WorkingTpm (d.env base)) (cs : List Companion) (t : Nat)
    (hk : ∀ c ∈ cs, c.kind = .credentials ∨ c.kind = .globalCredentials ∨ c.kind = .systemExtension) :
    (companionEvents (d.env base) cs t).filterMap (entryOf d) = cs.map (companionEntry d.hash.hash) := by
  induction cs generalizing t with
  | nil => rfl
  | cons c rest ih =>
    have ih := fun t => ih t fun x hx => hk x (List.mem_cons_of_mem _ hx)
    unfold companionEvents
    have e1 : utf16le (lit "Credentials initrd") = wide (lit "Credentials initrd") := by decide
    have e2 : utf16le (lit "Global credentials initrd") = wide (lit "Global credentials initrd") := by decide
    have e3 : utf16le (lit "System extension initrd") = wide (lit "System extension initrd") := by decide
    rcases hk c List.mem_cons_self with h | h | h
    all_goals
      rw [h]
      simp only [companionPcr, List.filterMap_cons, working_outcome hw, entryOf, ih, List.map_cons,
        companionEntry, h, entry]
      first | rw [e1] | rw [e2] | rw [e3]
      rfl

theorem entries_neutral {evs : List Event} (h : measurements evs = []) : evs.filterMap (entryOf d) = [] := by
  rw [List.filterMap_eq_nil_iff]
  intro e he
  have := List.filterMap_eq_nil_iff.1 h e he
  cases e with
  | measure p x y o => simp [measurement] at this
  | _ => rfl

theorem entries_write (P : Prop) [Decidable P] (k : VarKey) (x : Bytes) (a : Setting) :
    (if P then [Event.writeVar k x a] else []).filterMap (entryOf d) = [] := by
  split <;> rfl

/-- **C71**. The log of a boot with a working TPM: for the sections of the image, for the archives that are
appended to the initrd, and for a command line that is not the embedded one, in this order, and nothing
else; each entry says in its text what was measured. -/
theorem C71_event_log (hd : Works d) (w : World) (s : Started) (h : Starts (d.env base) w s)
    (evs : List Event) (ht : (main (d.env base) w).2.trace = w.trace ++ evs) (s0 : State) :
    ∃ pe kernel initrd embedded contents, ∃ cs : List Companion, ∃ joined,
      base.parseOwn base.ownImage = some pe ∧ Verified base.sha pe base.ownImage kernel initrd ∧
      TextSection pe base.ownImage (lit ".cmdline") embedded ∧
      contents (lit ".linux") = kernel ∧ contents (lit ".initrd") = initrd ∧
      (∀ n ∈ canonicalOrder, n ∈ sectionNames pe → n ≠ lit ".linux" → n ≠ lit ".initrd" →
        SectionContents pe base.ownImage n (contents n)) ∧
      s.initrd = some joined ∧ Joined (initrd :: cs.map fun c => c.cpio.buffer) joined ∧
      (∀ c ∈ cs, c.kind = .credentials ∨ c.kind = .globalCredentials ∨ c.kind = .systemExtension) ∧
      (evs.foldl (received d) s0).log = s0.log ++ (imageEntries d.hash.hash (sectionNames pe) contents ++
        cs.map (companionEntry d.hash.hash) ++
        if s.options = optionsOf embedded then [] else [cmdlineEntry d.hash.hash s.options]) := by
  have hw : WorkingTpm (d.env base) := hd.working
  have htpm := hw.opens w.tick
  obtain ⟨w1, w2, wk, c, cs, pe, kname, iname, r, r2, img, mid, comp, m, f⟩ := started_facts h
  have himg := f.ready.image
  rw [if_pos htpm] at himg
  obtain ⟨wA, hnp, hA⟩ := himg
  obtain ⟨hread, rw_, hAll⟩ := measureImage_run (d.env base) c.kernel c.initrd wA pe f.ready.parsed hnp
  rw [hA] at hAll
  have eimg := List.append_cancel_left hAll
  have hk : ∀ c ∈ cs, c.kind = .credentials ∨ c.kind = .globalCredentials ∨ c.kind = .systemExtension := by
    intro x hx
    rcases f.ready.found with ⟨t, -, rfl⟩ | ⟨w2, hd⟩
    · cases hx
    · exact discovered_kinds hd x hx
  have limg : img.filterMap (entryOf d) = imageEntries d.hash.hash (sectionNames pe)
      (contentsOf { data := base.ownImage, pe := pe } c.kernel c.initrd) := by
    rw [eimg, List.filterMap_append, entries_loop hw, entries_write, List.append_nil]
    exact entries_image _ _ _
  have hcomp := f.ready.companions
  rw [if_pos htpm] at hcomp
  have lcomp : comp.filterMap (entryOf d) = cs.map (companionEntry d.hash.hash) := by
    rcases hcomp with ⟨rfl, rfl⟩ | ⟨wC, hC⟩
    · rfl
    · obtain ⟨-, r1, r2', b, hall⟩ := measureCompanions_run (d.env base) cs wC
      rw [hC] at hall
      rw [List.append_cancel_left hall, List.filterMap_append, entries_companions hw _ _ hk,
        List.filterMap_append, entries_write, entries_write, List.append_nil, List.append_nil]
  have lcmd : m.filterMap (entryOf d) =
      if s.options = optionsOf c.cmdline then [] else [cmdlineEntry d.hash.hash s.options] := by
    rcases f.cmdline with ⟨ho, rfl | ⟨-, passed, o, t, -, e, h'⟩⟩ | ⟨hne, -, -, o, t, rfl, e, -⟩
    · rw [if_pos ho]; rfl
    · rw [working_outcome hw] at e
      rw [e] at h'
      simp at h'
    · rw [if_neg hne, e, working_outcome hw t]
      have e1 : utf16le cmdlineDescription = wide cmdlineDescription := by decide
      simp only [List.filterMap_cons, entryOf, List.filterMap_nil, e1]
      rfl
  have hev : evs = [.probeTpm ((d.env base).tpmOpens w.tick), .readFile kname (some c.kernel),
      .readFile iname (some c.initrd), .readVar secureBootVar r] ++ (img ++ (mid ++ (comp ++
        ([.readVar secureBootVar r2] ++ (m ++ [.start s]))))) := by
    have := f.trace
    rw [f.trace2, f.ready.trace, ht] at this
    simp only [List.append_assoc, List.cons_append, List.nil_append] at this ⊢
    exact List.append_cancel_left this
  refine ⟨pe, c.kernel, c.initrd, c.cmdline, contentsOf { data := base.ownImage, pe := pe } c.kernel c.initrd,
    cs, _, f.ready.parsed, f.ready.verified, f.ready.cmdline, ?_, ?_, ?_, f.ran.initrd, C12_concatenation _ _,
    hk, ?_⟩
  · unfold contentsOf; rw [if_pos rfl]
  · unfold contentsOf; rw [if_neg (by decide), if_pos rfl]
  · intro n hn hin h1 h2
    rw [canonicalOrder_eq] at hn
    obtain ⟨u, hu, rfl⟩ := List.mem_map.1 hn
    have hmem : u ∈ sectionsToMeasure (sectionNames pe) := by
      unfold sectionsToMeasure
      rw [List.mem_isort, List.mem_filter]
      exact ⟨List.mem_filterMap.2 ⟨u.name, hin, ofName_name u⟩, mem_measuredUni.1 hu⟩
    obtain ⟨x, hx⟩ := hread u hmem
    have : contentsOf { data := base.ownImage, pe := pe } c.kernel c.initrd u.name = x := by
      unfold contentsOf
      rw [if_neg h1, if_neg h2]
      have hx' : Parsed.sectionData { data := base.ownImage, pe := pe } u.name = .ok (some x) := hx
      rw [hx']
    rw [this]
    exact sectionData_contents (p := { data := base.ownImage, pe := pe }) hx
  · rw [received_log, hev]
    simp only [List.filterMap_append, limg, lcomp, lcmd, entries_neutral (measurements_neutral f.ready.neutral)]
    have e1 : [Event.probeTpm ((d.env base).tpmOpens w.tick), .readFile kname (some c.kernel),
        .readFile iname (some c.initrd), .readVar secureBootVar r].filterMap (entryOf d) = [] := rfl
    have e2 : [Event.readVar secureBootVar r2].filterMap (entryOf d) = [] := rfl
    have e3 : [Event.start s].filterMap (entryOf d) = [] := rfl
    rw [e1, e2, e3]
    simp only [List.nil_append, List.append_nil, List.append_assoc]

/-! ## Examples -/

namespace Sample

/-- A working TPM. -/
def device : Device where
  handle _ := .ok 7
  openFault _ := none
  capability _ := .ok true
  buildFault _ := none
  extendFault _ := none
  hash := Stub.Sample.sha
  imageDigest _ := []

def fresh : State := { held := [], pcrs := fun _ => List.replicate 32 0, log := [] }

theorem works : Works device := ⟨fun _ => ⟨⟨7, rfl⟩, rfl, rfl⟩, fun _ => rfl, fun _ => rfl⟩

theorem regular : device.Regular := fun _ => ⟨by simp [device], by simp [device]⟩

theorem isFree : Free device fresh := fun _ _ _ h => by cases h

/-- A TPM that is there but not present, and one that breaks. -/
def absent : Device := { device with capability := fun _ => .ok false }
def broken : Device := { device with extendFault := fun t => if t = 3 then some (.other 7) else none }

example : (logEvent device 0 11 [1, 2] (lit ".linux") fresh).2.log =
      [⟨11, 13, Stub.Sample.sha.hash [1, 2], [46, 0, 108, 0, 105, 0, 110, 0, 117, 0, 120, 0]⟩] ∧
    (logEvent device 0 11 [1, 2] (lit ".linux") fresh).2.held = [] ∧
    (logEvent absent 0 11 [1, 2] (lit ".linux") fresh).2.log = [] ∧
    (logEvent absent 0 11 [1, 2] (lit ".linux") fresh).2.held = [] ∧
    (logEvent absent 0 11 [1, 2] (lit ".linux") fresh).1 = .ok () ∧
    (logEvent broken 3 11 [1, 2] (lit ".linux") fresh).1 = .err (.other 7) ∧
    (logEvent broken 3 11 [1, 2] (lit ".linux") fresh).2.log = [] ∧
    (logEvent broken 3 11 [1, 2] (lit ".linux") fresh).2.held = [] := by decide +kernel

/-- If the protocol were still open, nothing would be measured. -/
example : (logEvent device 0 11 [1, 2] (lit ".linux") { fresh with held := [7] }).2.log = [] := by
  decide +kernel

example (w : World) := C71_probe (base := Stub.Sample.env true .success) regular isFree w
example (w : World) := C71_one_measurement (base := Stub.Sample.env true .success) regular isFree w 11 [1, 2]
  (lit ".linux")
example := (C71_effect regular isFree 0 11 [1, 2] (text := lit ".linux") (by decide)).1 (by decide)
  ⟨⟨7, rfl⟩, rfl, rfl⟩ rfl rfl
example : (logEvent absent 0 11 [1, 2] (lit ".linux") fresh).2 = fresh :=
  ((C71_effect (d := absent) (fun _ => ⟨by simp [absent, device], by simp [absent]⟩)
    (fun _ _ _ h => by cases h) 0 11 [1, 2] (text := lit ".linux") (by decide)).2
      (fun h => by have := h.2.1.2.2; simp [absent] at this)).1
example := C71_closed regular isFree 0 11 [1, 2] (lit ".linux")
example (evs : List Event) (p : Nat) :=
  C71_log_replays (d := broken) (fun _ => List.replicate 32 0) fresh (fun _ => rfl) evs p

def boot : List Event := (main (device.env (Stub.Sample.env true .success)) (Stub.Sample.start (some [0]) (some [1, 2]))).2.trace

/-- The sample machine starts a kernel with this TPM; the texts in the log. -/
example : (Stub.Sample.started boot).isSome = true ∧
    (boot.foldl (received device) fresh).log.map (fun e => (e.pcr, e.event)) =
      [(11, wide (lit ".linux")), (11, wide (lit ".linux")), (11, wide (lit ".osrel")), (11, wide (lit ".osrel")),
       (11, wide (lit ".cmdline")), (11, wide (lit ".cmdline")), (11, wide (lit ".initrd")),
       (11, wide (lit ".initrd")), (12, wide (lit "Global credentials initrd")),
       (12, wide (lit "Credentials initrd")), (13, wide (lit "System extension initrd")),
       (4, wide (lit "Custom user provided kernel cmdline"))] := by
  decide +kernel

example : ∃ s, Starts (device.env (Stub.Sample.env true .success)) (Stub.Sample.start (some [0]) (some [1, 2])) s ∧
    ∃ l, (boot.foldl (received device) fresh).log = l ∧ l.length = 12 := by
  obtain ⟨s, hs⟩ := Option.isSome_iff_exists.1
    (show (Stub.Sample.started boot).isSome = true by decide +kernel)
  have h : Starts (device.env (Stub.Sample.env true .success)) (Stub.Sample.start (some [0]) (some [1, 2])) s := by
    refine ⟨boot, (List.nil_append _).symm, ?_⟩
    obtain ⟨e, he, hs⟩ := List.exists_of_findSome?_eq_some hs
    cases e <;> simp at hs
    subst hs
    exact he
  obtain ⟨pe, kernel, initrd, embedded, contents, cs, joined, -, -, -, -, -, -, -, -, -, hl⟩ :=
    C71_event_log works _ s h boot (List.nil_append _).symm fresh
  exact ⟨s, h, _, rfl, by decide +kernel⟩

end Sample
end Verif.Tpm
