import Verif.Lemmas.Stub
import Verif.Spec.Uki
import Verif.Lemmas.SampleBoot
/-!
# C13, C14, C15, C23: measurements
-/
namespace Verif.Stub
open Verif Verif.Companion Spec

/-! ## C15: the section name table -/

/-- All section kinds. -/
def allUni : List Uni :=
  [.linux, .osRel, .cmdLine, .initrd, .ucode, .splash, .dtb, .dtbAuto, .hwids, .uname, .sbat,
   .pcrSig, .pcrPkey]

theorem mem_allUni (u : Uni) : u ∈ allUni := by cases u <;> decide

theorem ofName_name (u : Uni) : Uni.ofName u.name = some u := by cases u <;> decide

theorem ite_some {α : Type} {c : Prop} [Decidable c] {a u : α} {x : Option α}
    (h : (if c then some a else x) = some u) : (c ∧ a = u) ∨ x = some u := by
  by_cases hc : c
  · rw [if_pos hc] at h; exact Or.inl ⟨hc, Option.some.inj h⟩
  · rw [if_neg hc] at h; exact Or.inr h

theorem name_of_ofName {n : Str} {u : Uni} (h : Uni.ofName n = some u) : u.name = n := by
  unfold Uni.ofName at h
  iterate 13
    rcases ite_some h with ⟨hc, rfl⟩ | h
    · exact hc.symm
  cases h

/-- C15: names and section kinds correspond one to one. -/
theorem C15_names_bijective :
    (∀ u, Uni.ofName u.name = some u) ∧ (∀ n u, Uni.ofName n = some u ↔ n = u.name) ∧
    (∀ u : Uni, u.name ∈ ukiNames) ∧ (∀ n ∈ ukiNames, ∃ u : Uni, u.name = n) := by
  refine ⟨ofName_name, ?_, ?_, ?_⟩
  · intro n u
    exact ⟨fun h => (name_of_ofName h).symm, fun h => h ▸ ofName_name u⟩
  · intro u; cases u <;> decide
  · intro n hn
    have : ukiNames = allUni.map Uni.name := by decide
    rw [this] at hn
    obtain ⟨u, -, rfl⟩ := List.mem_map.1 hn
    exact ⟨u, rfl⟩

/-- The measured kinds in canonical order. -/
def measuredUni : List Uni :=
  [.linux, .osRel, .cmdLine, .initrd, .ucode, .splash, .dtb, .hwids, .uname, .sbat, .pcrPkey]

theorem canonicalOrder_eq : canonicalOrder = measuredUni.map Uni.name := by decide

theorem mem_measuredUni {u : Uni} : u ∈ measuredUni ↔ u.measured = true := by
  cases u <;> decide

theorem rank_inj {a b : Uni} (h : a.rank = b.rank) : a = b := by
  revert h; cases a <;> cases b <;> decide

/-! ## Sorting -/

theorem flatMap_congr' {α β : Type} {l : List α} {f g : α → List β} (h : ∀ a ∈ l, f a = g a) :
    l.flatMap f = l.flatMap g := by
  induction l with
  | nil => rfl
  | cons a l ih =>
    rw [List.flatMap_cons, List.flatMap_cons, h a List.mem_cons_self,
      ih fun b hb => h b (List.mem_cons_of_mem _ hb)]


theorem count_flatMap_replicate {L us : List Uni} (hn : us.Nodup) (a : Uni) :
    (us.flatMap fun u => List.replicate (L.count u) u).count a
      = if a ∈ us then L.count a else 0 := by
  induction us with
  | nil => simp
  | cons u rest ih =>
    obtain ⟨h1, h2⟩ := List.nodup_cons.1 hn
    rw [List.flatMap_cons, List.count_append, ih h2, List.count_replicate]
    by_cases hau : a = u
    · subst hau
      simp [h1]
    · have : ¬ (u == a) = true := by simpa using fun h => hau h.symm
      rw [if_neg this]
      simp [hau]

theorem sectionsToMeasure_eq (names : List Str) :
    sectionsToMeasure names =
      measuredUni.flatMap fun u => List.replicate (names.count u.name) u := by
  have hcount : ∀ u : Uni, u.measured = true →
      ((names.filterMap Uni.ofName).filter Uni.measured).count u = names.count u.name := by
    intro u hu
    rw [List.count_filter hu]
    induction names with
    | nil => rfl
    | cons n rest ih =>
      rw [List.filterMap_cons, List.count_cons]
      cases hn : Uni.ofName n with
      | none =>
        have : n ≠ u.name := by
          intro hc; rw [hc, ofName_name] at hn; cases hn
        simp [ih, this]
      | some v =>
        simp only [List.count_cons, ih]
        congr 1
        have hv := name_of_ofName hn
        by_cases huv : v = u
        · subst huv; simp [hv]
        · have : n ≠ u.name := by
            intro hc; rw [hc, ofName_name] at hn; exact huv (Option.some.inj hn).symm
          simp [huv, this]
  have hperm : (sectionsToMeasure names).Perm
      (measuredUni.flatMap fun u => List.replicate (names.count u.name) u) := by
    refine (List.isort_perm _ _).trans ?_
    rw [List.perm_iff_count]
    intro a
    have hn : measuredUni.Nodup := by decide
    have e : (measuredUni.flatMap fun u => List.replicate (names.count u.name) u)
        = measuredUni.flatMap fun u =>
          List.replicate (((names.filterMap Uni.ofName).filter Uni.measured).count u) u := by
      apply flatMap_congr'
      intro u hu
      rw [hcount u (mem_measuredUni.1 hu)]
    rw [e, count_flatMap_replicate hn]
    split
    · rfl
    · rename_i ha
      apply List.count_eq_zero.2
      intro hc
      exact ha (mem_measuredUni.2 (List.mem_filter.1 hc).2)
  refine List.Perm.eq_of_pairwise (le := fun a b : Uni => a.rank ≤ b.rank) ?_ ?_ ?_ hperm
  · intro a b _ _ h1 h2
    exact rank_inj (by omega)
  · have := List.pairwise_isort (le := fun a b : Uni => decide (a.rank ≤ b.rank))
      (by intro a b c h1 h2; simp only [decide_eq_true_eq] at *; omega)
      (by intro a b; simp only [Bool.or_eq_true, decide_eq_true_eq]; omega)
      ((names.filterMap Uni.ofName).filter Uni.measured)
    exact this.imp fun h => by simpa using h
  · have hs : measuredUni.Pairwise fun a b => a.rank ≤ b.rank := by decide
    generalize measuredUni = us at hs
    induction us with
    | nil => exact List.Pairwise.nil
    | cons u rest ih =>
      rw [List.flatMap_cons]
      obtain ⟨h1, h2⟩ := List.pairwise_cons.1 hs
      refine List.pairwise_append.2 ⟨?_, ih h2, ?_⟩
      · rw [List.pairwise_replicate]; right; exact Nat.le_refl _
      · intro a ha b hb
        have := List.eq_of_mem_replicate ha
        subst this
        obtain ⟨v, hv, hbv⟩ := List.mem_flatMap.1 hb
        have := List.eq_of_mem_replicate hbv
        subst this
        exact h1 _ hv

/-! ## One measurement -/

/-- What the TPM makes of one measurement at a given time. -/
def outcomeAt (env : Env) (t : Nat) : Measured :=
  if env.tpmOpens t then
    match env.eventFault t with
    | some _ => .notBuilt
    | none => match env.extendFault t with
      | some _ => .rejected
      | none => .extended
  else .noTpm

theorem tpmLogEvent_run (env : Env) (pcr : Nat) (d : Bytes) (s : Str) (w : World)
    (hp : pcr ≠ u32Max) :
    ∃ r, tpmLogEvent env pcr d s w = (r, { w with
        tick := w.tick + 1, trace := w.trace ++ [.measure pcr d s (outcomeAt env w.tick)] }) ∧
      r ≠ .panic ∧
      (r.isOk = true ↔ outcomeAt env w.tick = .extended ∨ outcomeAt env w.tick = .noTpm) := by
  unfold tpmLogEvent outcomeAt
  rw [if_neg hp]
  simp only [RM.bind_run, next]
  cases h1 : env.tpmOpens w.tick with
  | false => exact ⟨.ok (), by simp [emit], by simp, by simp [Res.isOk]⟩
  | true =>
    cases h2 : env.eventFault w.tick with
    | some st => exact ⟨.err st, by simp [emit], by simp, by simp [Res.isOk]⟩
    | none =>
      cases h3 : env.extendFault w.tick with
      | some st => exact ⟨.err st, by simp [emit], by simp, by simp [Res.isOk]⟩
      | none => exact ⟨.ok (), by simp [emit], by simp, by simp [Res.isOk]⟩

/-! ## The section loop -/

theorem result_run {α : Type} (m : M α) (w : World) (h : (m w).1 ≠ .panic) :
    result m w = (.ok (m w).1, (m w).2) := by
  unfold result
  rcases hm : m w with ⟨r, w'⟩
  rw [hm] at h
  cases r with
  | ok a => rfl
  | err e => rfl
  | panic => exact absurd rfl h

theorem result_panic {α : Type} (m : M α) (w : World) (h : (m w).1 = .panic) :
    result m w = (.panic, (m w).2) := by
  unfold result
  rcases hm : m w with ⟨r, w'⟩
  rw [hm] at h
  simp only at h
  subst h
  rfl

/-- The events of the two measurements of one section starting at tick `t`. -/
def pairEvents (env : Env) (u : Uni) (d : Bytes) (t : Nat) : List Event :=
  [.measure 11 (utf8 (u.name ++ ['\x00'])) u.name (outcomeAt env t),
   .measure 11 d u.name (outcomeAt env (t + 1))]

/-- The outcome counts as success for the stub. -/
def counts (o : Measured) : Nat := if o = .extended ∨ o = .noTpm then 1 else 0

theorem isOk_counts {env : Env} {t : Nat} {r : Res Status Unit}
    (h : r.isOk = true ↔ outcomeAt env t = .extended ∨ outcomeAt env t = .noTpm) :
    (if r.isOk = true then 1 else 0) = counts (outcomeAt env t) := by
  unfold counts
  by_cases hc : outcomeAt env t = .extended ∨ outcomeAt env t = .noTpm
  · rw [if_pos hc, if_pos (h.2 hc)]
  · rw [if_neg hc, if_neg fun hh => hc (h.1 hh)]

theorem measureNameAndData_run (env : Env) (u : Uni) (d : Bytes) (w : World) :
    measureNameAndData env u (some d) w =
      (.ok (counts (outcomeAt env w.tick) + counts (outcomeAt env (w.tick + 1))),
       { w with tick := w.tick + 2, trace := w.trace ++ pairEvents env u d w.tick }) := by
  unfold measureNameAndData
  obtain ⟨r1, e1, np1, ok1⟩ := tpmLogEvent_run env 11 (utf8 (u.name ++ ['\x00'])) u.name w (by decide)
  obtain ⟨r2, e2, np2, ok2⟩ := tpmLogEvent_run env 11 d u.name
    { w with tick := w.tick + 1, trace := w.trace ++
        [.measure 11 (utf8 (u.name ++ ['\x00'])) u.name (outcomeAt env w.tick)] } (by decide)
  have h1 := result_run (tpmLogEvent env pcrKernelImage (utf8 (u.name ++ ['\x00'])) u.name) w
    (by show (tpmLogEvent env 11 _ _ w).1 ≠ _; rw [e1]; exact np1)
  rw [show pcrKernelImage = 11 from rfl] at h1 ⊢
  rw [e1] at h1
  simp only
  rw [RM.bind_run, h1]
  simp only
  have h2 := result_run (tpmLogEvent env 11 d u.name) _
    (by rw [e2]; exact np2 : (tpmLogEvent env 11 d u.name { w with tick := w.tick + 1, trace := w.trace ++
        [.measure 11 (utf8 (u.name ++ ['\x00'])) u.name (outcomeAt env w.tick)] }).1 ≠ _)
  rw [e2] at h2
  rw [RM.bind_run, h2]
  simp only [RM.pure_run, isOk_counts ok1, isOk_counts ok2, pairEvents]
  simp

/-- Contents of a section by name, as the stub sees them; irrelevant where reading fails. -/
def contentsOf (p : Parsed) (kernel initrd : Bytes) (n : Str) : Bytes :=
  if n = lit ".linux" then kernel
  else if n = lit ".initrd" then initrd
  else match p.sectionData n with
    | .ok (some d) => d
    | _ => []

theorem sectionData_some {p : Parsed} {n : Str} (h : n ∈ p.sectionNames)
    (hp : p.sectionData n ≠ .panic) : ∃ d, p.sectionData n = .ok (some d) := by
  unfold Parsed.sectionData at hp ⊢
  unfold Parsed.sectionNames at h
  obtain ⟨s, hs, hsn⟩ := List.mem_filterMap.1 h
  cases hf : p.pe.sections.find? (fun s => s.name == some n) with
  | none =>
    have := List.find?_eq_none.1 hf s hs
    simp [hsn] at this
  | some s' =>
    rw [hf] at hp
    simp only at hp ⊢
    cases hr : readSection p.data s' with
    | ok b => exact ⟨b, rfl⟩
    | err e =>
      unfold readSection slice at hr
      simp only at hr
      split at hr <;> rename_i heq <;> simp_all
      split at heq <;> simp at heq
    | panic => rw [hr] at hp; exact absurd rfl hp

theorem measuredData_eq {p : Parsed} {k i : Bytes} {u : Uni} {sd : Option Bytes}
    (hs : p.sectionData u.name = .ok sd) (hu : ∃ d, p.sectionData u.name = .ok (some d)) :
    measuredData u k i sd = some (contentsOf p k i u.name) := by
  obtain ⟨d, hd⟩ := hu
  rw [hs] at hd
  simp only [Res.ok.injEq] at hd
  subst hd
  unfold contentsOf
  cases u
  case linux => rw [if_pos (by decide)]; rfl
  case initrd => rw [if_neg (by decide), if_pos (by decide)]; rfl
  all_goals rw [if_neg (by decide), if_neg (by decide), hs]; rfl

/-- The events of the whole loop. -/
def loopEvents (env : Env) (p : Parsed) (k i : Bytes) : List Uni → Nat → List Event
  | [], _ => []
  | u :: rest, t =>
    pairEvents env u (contentsOf p k i u.name) t ++ loopEvents env p k i rest (t + 2)

/-- The number of measurements counted as successful. -/
def loopCount (env : Env) : List Uni → Nat → Nat
  | [], _ => 0
  | _ :: rest, t => counts (outcomeAt env t) + counts (outcomeAt env (t + 1)) + loopCount env rest (t + 2)

/-- The loop either panics on an unreadable section or emits exactly `loopEvents`. -/
theorem measureSections_run (env : Env) (p : Parsed) (k i : Bytes) (us : List Uni) (w : World)
    (hu : ∀ u ∈ us, u.name ∈ p.sectionNames) :
    (measureSections env p k i us w).1 = .panic ∨
    measureSections env p k i us w = (.ok (loopCount env us w.tick),
      { w with tick := w.tick + 2 * us.length,
               trace := w.trace ++ loopEvents env p k i us w.tick }) := by
  induction us generalizing w with
  | nil => right; simp [measureSections, loopEvents, loopCount]
  | cons u rest ih =>
    unfold measureSections
    by_cases hp : p.sectionData u.name = .panic
    · left
      rw [RM.bind_run, hp]
      rfl
    · obtain ⟨d, hd⟩ := sectionData_some (hu u List.mem_cons_self) hp
      rw [RM.bind_run, hd]
      simp only [lift, RM.pure_run]
      rw [measuredData_eq hd ⟨d, hd⟩, RM.bind_run, measureNameAndData_run]
      simp only
      rw [RM.bind_run]
      rcases ih { w with
          tick := w.tick + 2
          trace := w.trace ++ pairEvents env u (contentsOf p k i u.name) w.tick }
          (fun v hv => hu v (List.mem_cons_of_mem _ hv)) with h | h
      · left
        revert h
        generalize measureSections env p k i rest _ = x
        obtain ⟨r, w'⟩ := x
        intro h
        simp only at h
        subst h
        rfl
      · right
        rw [h]
        simp only [RM.pure_run, loopEvents, loopCount, List.length_cons, List.append_assoc]
        congr 2
        omega

theorem measurements_append (a b : List Event) :
    measurements (a ++ b) = measurements a ++ measurements b := List.filterMap_append ..

theorem measurements_loopEvents (env : Env) (p : Parsed) (k i : Bytes) (us : List Uni) (t : Nat) :
    measurements (loopEvents env p k i us t) =
      us.flatMap fun u => sectionMeasurements u.name (contentsOf p k i u.name) := by
  induction us generalizing t with
  | nil => rfl
  | cons u rest ih =>
    rw [loopEvents, measurements_append, ih, List.flatMap_cons]
    rfl

theorem flatMap_replicate {α β : Type} (n : Nat) (a : α) (f : α → List β) :
    (List.replicate n a).flatMap f = (List.replicate n (f a)).flatten := by
  induction n with
  | zero => rfl
  | succ n ih => rw [List.replicate_succ, List.replicate_succ, List.flatMap_cons, List.flatten_cons, ih]

theorem sectionsToMeasure_measurements (names : List Str) (c : Str → Bytes) :
    (sectionsToMeasure names).flatMap (fun u => sectionMeasurements u.name (c u.name))
      = imageMeasurements names c := by
  rw [sectionsToMeasure_eq, imageMeasurements, canonicalOrder_eq, List.flatMap_assoc,
    List.flatMap_map]
  apply flatMap_congr'
  intro u _
  exact flatMap_replicate _ _ _

theorem mem_sectionsToMeasure {names : List Str} {u : Uni} (h : u ∈ sectionsToMeasure names) :
    u.name ∈ names ∧ u.measured = true := by
  unfold sectionsToMeasure at h
  rw [List.mem_isort] at h
  obtain ⟨h1, h2⟩ := List.mem_filter.1 h
  obtain ⟨n, hn, hu⟩ := List.mem_filterMap.1 h1
  exact ⟨name_of_ofName hu ▸ hn, h2⟩

/-! ## Contents of sections -/

theorem readSection_spec {data : Bytes} {s : Section} {b : Bytes} (h : readSection data s = .ok b) :
    b.length = s.virtualSize.toNat ∧ ∀ i < b.length,
      b[i]? = if i < s.sizeOfRawData.toNat then data[s.virtualAddress.toNat + i]? else some 0 := by
  unfold readSection slice at h
  by_cases hc : s.virtualAddress.toNat ≤
        s.virtualAddress.toNat + min s.virtualSize.toNat s.sizeOfRawData.toNat ∧
      s.virtualAddress.toNat + min s.virtualSize.toNat s.sizeOfRawData.toNat ≤ data.length
  · simp only [if_pos hc, Res.ok.injEq] at h
    subst h
    rw [Nat.add_sub_cancel_left]
    have hl : ((data.drop s.virtualAddress.toNat).take
        (min s.virtualSize.toNat s.sizeOfRawData.toNat)).length
        = min s.virtualSize.toNat s.sizeOfRawData.toNat := by
      rw [List.length_take, List.length_drop]; omega
    constructor
    · rw [List.length_append, hl, List.length_replicate]; omega
    · intro i hi
      rw [List.length_append, hl, List.length_replicate] at hi
      rw [List.getElem?_append, hl]
      by_cases h1 : i < min s.virtualSize.toNat s.sizeOfRawData.toNat
      · rw [if_pos h1, if_pos (by omega), List.getElem?_take, if_pos h1, List.getElem?_drop]
      · rw [if_neg h1, if_neg (by omega), List.getElem?_replicate, if_pos (by omega)]
  · simp only [if_neg hc] at h
    cases h

theorem sectionData_contents {p : Parsed} {n : Str} {d : Bytes}
    (h : p.sectionData n = .ok (some d)) : SectionContents p.pe p.data n d := by
  unfold Parsed.sectionData at h
  cases hf : p.pe.sections.find? (fun s => s.name == some n) with
  | none => rw [hf] at h; simp at h
  | some s =>
    rw [hf] at h
    simp only at h
    obtain ⟨hs, pre, post, hsplit, hpre⟩ := List.find?_eq_some_iff_append.1 hf
    cases hr : readSection p.data s with
    | err e => rw [hr] at h; cases h
    | panic => rw [hr] at h; cases h
    | ok b =>
      rw [hr] at h
      simp only [Res.ok.injEq, Option.some.injEq] at h
      subst h
      obtain ⟨h1, h2⟩ := readSection_spec hr
      refine ⟨pre, s, post, hsplit, by simpa using hs, ?_, h1, h2⟩
      intro t ht
      have := hpre t ht
      simpa using this

theorem SectionContents.unique {pe : PE} {data : Bytes} {n : Str} {a b : Bytes}
    (ha : SectionContents pe data n a) (hb : SectionContents pe data n b) : a = b := by
  obtain ⟨p1, s1, q1, e1, n1, l1, len1, c1⟩ := ha
  obtain ⟨p2, s2, q2, e2, n2, l2, len2, c2⟩ := hb
  have hs : s1 = s2 := by
    rw [e1] at e2
    rcases List.append_eq_append_iff.1 e2 with ⟨a, ha, hb⟩ | ⟨a, ha, hb⟩
    · cases a with
      | nil => simp only [List.nil_append, List.cons.injEq] at hb; exact hb.1
      | cons x xs =>
        simp only [List.cons_append, List.cons.injEq] at hb
        exact absurd n1 (l2 s1 (by rw [ha, hb.1]; simp))
    · cases a with
      | nil => simp only [List.nil_append, List.cons.injEq] at hb; exact hb.1.symm
      | cons x xs =>
        simp only [List.cons_append, List.cons.injEq] at hb
        exact absurd n2 (l1 s2 (by rw [ha, hb.1]; simp))
  subst hs
  apply List.ext_getElem?
  intro i
  by_cases hi : i < a.length
  · rw [c1 i hi, c2 i (by omega)]
  · rw [List.getElem?_eq_none (by omega), List.getElem?_eq_none (by omega)]

theorem setVariable_run (env : Env) (k : VarKey) (a : Attributes) (d : Bytes) (w : World) :
    ∃ r w', setVariable env k a d w = (r, w') ∧ r ≠ .panic ∧
      w'.trace = w.trace ++ [.writeVar k d ⟨a, env.setFault w.tick⟩] ∧
      w'.vars = (if env.setFault w.tick = none then store w.vars k d else w.vars) := by
  unfold setVariable
  simp only [RM.bind_run, next, emit]
  cases env.setFault w.tick with
  | some st => exact ⟨_, _, rfl, by simp, rfl, by simp⟩
  | none => exact ⟨_, _, rfl, by simp, rfl, by simp⟩

theorem setVariableIf_run (env : Env) (c : Bool) (k : VarKey) (a : Attributes) (d : Bytes) (w : World) :
    ∃ r w', setVariableIf env c k a d w = (r, w') ∧ r ≠ .panic ∧
      w'.trace = w.trace ++ (if c then [.writeVar k d ⟨a, env.setFault w.tick⟩] else []) := by
  cases c with
  | false => exact ⟨.ok (), w, rfl, by simp, by simp⟩
  | true =>
    obtain ⟨r, w', h1, h2, h3, -⟩ := setVariable_run env k a d w
    exact ⟨r, w', h1, h2, by simpa using h3⟩

/-! ## C14, C15: the PCR 11 sequence -/

/-- Complete description of `measure_image`. -/
theorem measureImage_run (env : Env) (k i : Bytes) (w : World) (pe : PE)
    (hp : env.parseOwn env.ownImage = some pe) (hnp : (measureImage env k i w).1 ≠ .panic) :
    let p : Parsed := { data := env.ownImage, pe := pe }
    let us := sectionsToMeasure p.sectionNames
    (∀ u ∈ us, ∃ d, p.sectionData u.name = .ok (some d)) ∧
    ∃ r, (measureImage env k i w).2.trace =
      w.trace ++ (loopEvents env p k i us w.tick ++
        (if loopCount env us w.tick > 0 then
          [.writeVar (loaderVar "StubPcrKernelImage") (utf16le (lit "11")) r] else [])) := by
  intro p us
  have hpar : parseOwnImage env = .ok p := by unfold parseOwnImage; rw [hp]
  unfold measureImage at hnp ⊢
  rw [RM.bind_run, hpar] at hnp ⊢
  simp only [lift, RM.pure_run] at hnp ⊢
  rw [RM.bind_run] at hnp ⊢
  have hread : ∀ (us : List Uni) (w : World), (measureSections env p k i us w).1 ≠ .panic →
      (∀ u ∈ us, u.name ∈ p.sectionNames) → ∀ u ∈ us, ∃ d, p.sectionData u.name = .ok (some d) := by
    intro us
    induction us with
    | nil => intro _ _ _ u hu; cases hu
    | cons v rest ih =>
      intro w hnp hn u hu
      unfold measureSections at hnp
      rw [RM.bind_run] at hnp
      by_cases hpan : p.sectionData v.name = .panic
      · rw [hpan] at hnp; exact absurd rfl hnp
      · obtain ⟨d, hd⟩ := sectionData_some (hn v List.mem_cons_self) hpan
        rcases List.mem_cons.1 hu with rfl | hu
        · exact ⟨d, hd⟩
        · rw [hd] at hnp
          simp only [lift, RM.pure_run] at hnp
          rw [measuredData_eq hd ⟨d, hd⟩, RM.bind_run, measureNameAndData_run] at hnp
          simp only at hnp
          rw [RM.bind_run] at hnp
          refine ih { w with
              tick := w.tick + 2
              trace := w.trace ++ pairEvents env v (contentsOf p k i v.name) w.tick }
            (fun hc => hnp ?_) (fun u hu => hn u (List.mem_cons_of_mem _ hu)) u hu
          revert hc
          generalize measureSections env p k i rest _ = x
          obtain ⟨r, w'⟩ := x
          intro h
          simp only at h
          subst h
          rfl
  have hus : ∀ u ∈ us, u.name ∈ p.sectionNames := fun u hu => (mem_sectionsToMeasure hu).1
  rcases measureSections_run env p k i us w hus with h | h
  · exfalso
    apply hnp
    revert h
    show (measureSections env p k i us w).1 = .panic → _
    generalize measureSections env p k i (sectionsToMeasure p.sectionNames) w = x
    obtain ⟨r, w'⟩ := x
    intro h
    simp only at h
    subst h
    rfl
  · refine ⟨hread us w (by rw [h]; simp) hus, ?_⟩
    rw [h]
    simp only
    obtain ⟨r, w', hs, hr, ht⟩ := setVariableIf_run env (decide (loopCount env us w.tick > 0))
      (loaderVar "StubPcrKernelImage") (bootserviceAccess ||| runtimeAccess) (utf16le (toDec pcrKernelImage))
      { w with
        tick := w.tick + 2 * us.length
        trace := w.trace ++ loopEvents env p k i us w.tick }
    refine ⟨⟨bootserviceAccess ||| runtimeAccess, env.setFault (w.tick + 2 * us.length)⟩, ?_⟩
    rw [RM.bind_run, hs]
    have h11 : toDec pcrKernelImage = lit "11" := by
      unfold pcrKernelImage; rw [toDec, if_neg (by decide), toDec, if_pos (by decide)]; decide
    rw [h11] at ht
    cases r with
    | panic => exact absurd rfl hr
    | ok a =>
      simp only [RM.pure_run]
      rw [ht, List.append_assoc]
      simp only [decide_eq_true_eq]
    | err e =>
      simp only
      rw [ht, List.append_assoc]
      simp only [decide_eq_true_eq]

/-- C14: the measurements of an image are, for the sections of the canonical order that occur in its
section table, the NUL-terminated name and the contents; the contents of `.linux` and `.initrd` are
the kernel and the initrd that were loaded. (Reading a section that lies outside the image panics,
and the machine does not boot.) -/
theorem C14_pcr11_sequence (env : Env) (k i : Bytes) (w : World) (pe : PE)
    (hp : env.parseOwn env.ownImage = some pe) (hnp : (measureImage env k i w).1 ≠ .panic) :
    ∃ evs contents, (measureImage env k i w).2.trace = w.trace ++ evs ∧
      contents (lit ".linux") = k ∧ contents (lit ".initrd") = i ∧
      (∀ n ∈ canonicalOrder, n ∈ sectionNames pe → n ≠ lit ".linux" → n ≠ lit ".initrd" →
        SectionContents pe env.ownImage n (contents n)) ∧
      measurements evs = imageMeasurements (sectionNames pe) contents := by
  obtain ⟨hread, r, ht⟩ := measureImage_run env k i w pe hp hnp
  refine ⟨_, contentsOf { data := env.ownImage, pe := pe } k i, ht, ?_, ?_, ?_, ?_⟩
  · unfold contentsOf; rw [if_pos rfl]
  · unfold contentsOf; rw [if_neg (by decide), if_pos rfl]
  · intro n hn hin h1 h2
    rw [canonicalOrder_eq] at hn
    obtain ⟨u, hu, rfl⟩ := List.mem_map.1 hn
    have hmem : u ∈ sectionsToMeasure (sectionNames pe) := by
      unfold sectionsToMeasure
      rw [List.mem_isort, List.mem_filter]
      exact ⟨List.mem_filterMap.2 ⟨u.name, hin, ofName_name u⟩, mem_measuredUni.1 hu⟩
    obtain ⟨d, hd⟩ := hread u hmem
    have : contentsOf { data := env.ownImage, pe := pe } k i u.name = d := by
      unfold contentsOf
      rw [if_neg h1, if_neg h2, hd]
    rw [this]
    exact sectionData_contents (p := { data := env.ownImage, pe := pe }) hd
  · rw [measurements_append, measurements_loopEvents]
    have : measurements (if loopCount env (sectionsToMeasure (Parsed.sectionNames
        { data := env.ownImage, pe := pe })) w.tick > 0 then
        [.writeVar (loaderVar "StubPcrKernelImage") (utf16le (lit "11")) r] else []) = [] := by
      split <;> rfl
    rw [this, List.append_nil]
    exact sectionsToMeasure_measurements _ _

/-- C14, C15: the PCR 11 measurements depend only on how often each canonical name occurs and on the
contents of these sections: not on the order of the section table, not on sections with other names
(such as `.linuxh`, `.pcrsig`, `.dtbauto`), not on the TPM. -/
theorem C14_order_irrelevant (env env' : Env) (k i : Bytes) (w w' : World) (pe pe' : PE)
    (hp : env.parseOwn env.ownImage = some pe) (hp' : env'.parseOwn env'.ownImage = some pe')
    (hnp : (measureImage env k i w).1 ≠ .panic) (hnp' : (measureImage env' k i w').1 ≠ .panic)
    (hcount : ∀ n ∈ canonicalOrder, (sectionNames pe).count n = (sectionNames pe').count n)
    (hsame : ∀ n ∈ canonicalOrder, ∀ c, SectionContents pe env.ownImage n c →
      SectionContents pe' env'.ownImage n c) :
    ∃ evs evs', (measureImage env k i w).2.trace = w.trace ++ evs ∧
      (measureImage env' k i w').2.trace = w'.trace ++ evs' ∧
      measurements evs = measurements evs' := by
  obtain ⟨evs, c, t, l, n, s, m⟩ := C14_pcr11_sequence env k i w pe hp hnp
  obtain ⟨evs', c', t', l', n', s', m'⟩ := C14_pcr11_sequence env' k i w' pe' hp' hnp'
  refine ⟨evs, evs', t, t', ?_⟩
  rw [m, m']
  unfold imageMeasurements
  apply flatMap_congr'
  intro a ha
  rw [hcount a ha]
  by_cases h0 : (sectionNames pe').count a = 0
  · rw [h0]; rfl
  · have hin' : a ∈ sectionNames pe' := List.count_pos_iff.1 (by omega)
    have hin : a ∈ sectionNames pe := List.count_pos_iff.1 (by rw [hcount a ha]; omega)
    have : c a = c' a := by
      by_cases h1 : a = lit ".linux"
      · rw [h1, l, l']
      · by_cases h2 : a = lit ".initrd"
        · rw [h2, n, n']
        · exact SectionContents.unique (hsame a ha _ (s a ha hin h1 h2)) (s' a ha hin' h1 h2)
    rw [this]

/-- Permuting a section table with distinct names leaves the contents of every section alone, so the
order of the sections does not matter. -/
theorem C14_permutation {pe pe' : PE} {data : Bytes} (h : pe.sections.Perm pe'.sections)
    (hn : (sectionNames pe).Nodup) :
    (∀ n, (sectionNames pe).count n = (sectionNames pe').count n) ∧
    ∀ n c, SectionContents pe data n c → SectionContents pe' data n c := by
  have hperm : (sectionNames pe).Perm (sectionNames pe') := h.filterMap _
  refine ⟨fun n => hperm.count_eq n, ?_⟩
  rintro n c ⟨pre, s, post, e, hs, -, hl, hc⟩
  have hin : s ∈ pe'.sections := h.mem_iff.1 (by rw [e]; simp)
  obtain ⟨pre', post', e'⟩ := List.append_of_mem hin
  refine ⟨pre', s, post', e', hs, ?_, hl, hc⟩
  intro t ht htn
  have hn' := hperm.nodup_iff.1 hn
  unfold sectionNames at hn'
  rw [e', List.filterMap_append, List.filterMap_cons, hs] at hn'
  have := (List.nodup_append.1 hn').2.2 n (List.mem_filterMap.2 ⟨t, ht, htn⟩) n (by simp)
  exact this rfl

/-- C15: whatever happens, even when measuring breaks off, all events of `measure_image` are PCR 11
measurements described by one of the canonical names, or the write of its variable. -/
theorem C15_only_canonical_names (env : Env) (k i : Bytes) (w : World) :
    ∃ evs, (measureImage env k i w).2.trace = w.trace ++ evs ∧
      ∀ e ∈ evs, (∃ d o, ∃ n ∈ canonicalOrder, e = .measure 11 d n o) ∨
        ∃ d r, e = .writeVar (loaderVar "StubPcrKernelImage") d r := by
  let P : Event → Prop := fun e => (∃ d o, ∃ n ∈ canonicalOrder, e = .measure 11 d n o) ∨
    ∃ d r, e = .writeVar (loaderVar "StubPcrKernelImage") d r
  have hus : ∀ (p : Parsed) (us : List Uni), (∀ u ∈ us, u.measured = true) →
      QuietM P (fun _ => True) (measureSections env p k i us) := by
    intro p us
    induction us with
    | nil => intro _; exact QuietM.pure _
    | cons u rest ih =>
      intro h
      have hu : u.name ∈ canonicalOrder := by
        rw [canonicalOrder_eq]
        exact List.mem_map_of_mem (mem_measuredUni.2 (h u List.mem_cons_self))
      unfold measureSections
      refine QuietM.bind (QuietM.lift _) fun sd => QuietM.bind ?_ fun here =>
        QuietM.bind (ih fun v hv => h v (List.mem_cons_of_mem _ hv)) fun _ => QuietM.pure _
      cases measuredData u k i sd with
      | none => exact QuietM.pure _
      | some d =>
        exact QuietM.bind (QuietM.result (QuietM.tpmLogEvent fun o => Or.inl ⟨_, o, _, hu, rfl⟩))
          fun _ => QuietM.bind (QuietM.result (QuietM.tpmLogEvent fun o =>
            Or.inl ⟨_, o, _, hu, rfl⟩)) fun _ => QuietM.pure _
  have hq : QuietM P (fun _ => True) (measureImage env k i) := by
    unfold measureImage
    refine QuietM.bind (QuietM.lift _) fun p => QuietM.bind
      (hus p _ fun u hu => (mem_sectionsToMeasure hu).2) fun n =>
      QuietM.bind (QuietM.setVariableIf (fun r => Or.inr ⟨_, _, rfl⟩) trivial) fun _ => QuietM.pure _
  exact (hq w).trace

/-- The names that must not be measured are not canonical names. -/
theorem C15_excluded : lit ".pcrsig" ∉ canonicalOrder ∧ lit ".dtbauto" ∉ canonicalOrder ∧
    lit ".linuxh" ∉ canonicalOrder ∧ lit ".initrdh" ∉ canonicalOrder ∧ lit ".text" ∉ canonicalOrder ∧
    ∀ n, n ∉ ukiNames → n ∉ canonicalOrder := by
  refine ⟨by decide, by decide, by decide, by decide, by decide, ?_⟩
  intro n hn hc
  apply hn
  have : ∀ m ∈ canonicalOrder, m ∈ ukiNames := by decide
  exact this n hc

/-! ## C13: companions -/

/-- What the stub makes of one companion at time `t`: event and whether time passes. -/
def companionEvents (env : Env) : List Companion → Nat → List Event
  | [], _ => []
  | c :: rest, t =>
    match companionPcr c.kind with
    | none => companionEvents env rest t
    | some (pcr, s) =>
      .measure pcr c.cpio.buffer s (outcomeAt env t) :: companionEvents env rest (t + 1)

/-- Counters of the loop. -/
def companionTotals (env : Env) : List Companion → Nat → Nat × Nat × Bool
  | [], _ => (0, 0, false)
  | c :: rest, t =>
    match companionPcr c.kind with
    | none => companionTotals env rest t
    | some _ =>
      let more := companionTotals env rest (t + 1)
      if counts (outcomeAt env t) = 1 then
        let here := companionCount c.kind
        (here.1 + more.1, here.2.1 + more.2.1, here.2.2 || more.2.2)
      else more

theorem measureCompanionLoop_run (env : Env) (cs : List Companion) (w : World) :
    ∃ t', measureCompanionLoop env cs w = (.ok (companionTotals env cs w.tick),
      { w with tick := t', trace := w.trace ++ companionEvents env cs w.tick }) := by
  induction cs generalizing w with
  | nil => exact ⟨w.tick, by simp [measureCompanionLoop, companionTotals, companionEvents]⟩
  | cons c rest ih =>
    unfold measureCompanionLoop companionTotals companionEvents measureCompanion
    cases hk : companionPcr c.kind with
    | none =>
      obtain ⟨t', h⟩ := ih w
      refine ⟨t', ?_⟩
      simp only [RM.bind_run, RM.pure_run, h]
      simp
    | some ps =>
      obtain ⟨pcr, s⟩ := ps
      have hne : pcr ≠ u32Max := by
        revert hk
        cases c.kind <;> simp [companionPcr, pcrKernelConfig, pcrSysexts, u32Max] <;> omega
      obtain ⟨r, e, np, hok⟩ := tpmLogEvent_run env pcr c.cpio.buffer s w hne
      obtain ⟨t', h⟩ := ih { w with
        tick := w.tick + 1
        trace := w.trace ++ [.measure pcr c.cpio.buffer s (outcomeAt env w.tick)] }
      refine ⟨t', ?_⟩
      have hr := result_run (tpmLogEvent env pcr c.cpio.buffer s) w (by rw [e]; exact np)
      rw [e] at hr
      simp only [RM.bind_run, RM.pure_run, hr, h]
      have hcnt := isOk_counts hok
      by_cases hc : r.isOk = true
      · rw [if_pos hc] at hcnt
        rw [if_pos hc, ← hcnt]
        simp
      · rw [if_neg hc] at hcnt
        rw [if_neg hc, ← hcnt]
        simp

theorem measurements_companionEvents (env : Env) (cs : List Companion) (t : Nat) :
    measurements (companionEvents env cs t) = cs.filterMap companionMeasurement := by
  induction cs generalizing t with
  | nil => rfl
  | cons c rest ih =>
    unfold companionEvents
    rw [List.filterMap_cons]
    obtain ⟨kind, cpio⟩ := c
    cases kind
    · exact congrArg (List.cons _) (ih _)
    · exact congrArg (List.cons _) (ih _)
    · exact congrArg (List.cons _) (ih _)
    · exact ih _
    · exact ih _

/-- Complete description of `measure_companion_initrds`. -/
theorem measureCompanions_run (env : Env) (cs : List Companion) (w : World) :
    (measureCompanions env cs w).1 ≠ .panic ∧
    ∃ r1 r2 b, (measureCompanions env cs w).2.trace = w.trace ++ (companionEvents env cs w.tick ++
      ((if (companionTotals env cs w.tick).2.1 > 0 then
        [.writeVar (loaderVar "StubPcrKernelParameters") (le32 12) r1] else []) ++
       (if b && (companionTotals env cs w.tick).2.2 then
        [.writeVar (loaderVar "StubPcrInitRDSysExts") (le32 13) r2] else []))) := by
  unfold measureCompanions
  obtain ⟨t', h⟩ := measureCompanionLoop_run env cs w
  rw [RM.bind_run, h]
  simp only
  generalize companionTotals env cs w.tick = tot
  obtain ⟨r, w1, hs, hr, ht⟩ := setVariableIf_run env (decide (tot.2.1 > 0))
    (loaderVar "StubPcrKernelParameters") (bootserviceAccess ||| runtimeAccess) (le32 pcrKernelConfig)
    { w with tick := t', trace := w.trace ++ companionEvents env cs w.tick }
  rw [RM.bind_run, hs]
  simp only [decide_eq_true_eq] at ht
  cases r with
  | panic => exact absurd rfl hr
  | err e =>
    refine ⟨by simp, ⟨bootserviceAccess ||| runtimeAccess, env.setFault t'⟩, ⟨6, none⟩, false, ?_⟩
    simp only
    rw [ht, List.append_assoc]
    congr 2
    simp [pcrKernelConfig]
  | ok a =>
    simp only
    obtain ⟨r2, w2, hs2, hr2, ht2⟩ := setVariableIf_run env tot.2.2
      (loaderVar "StubPcrInitRDSysExts") (bootserviceAccess ||| runtimeAccess) (le32 pcrSysexts) w1
    rw [RM.bind_run, hs2]
    cases r2 with
    | panic => exact absurd rfl hr2
    | err e =>
      refine ⟨by simp, ⟨bootserviceAccess ||| runtimeAccess, env.setFault t'⟩, ⟨bootserviceAccess ||| runtimeAccess, env.setFault w1.tick⟩, true, ?_⟩
      simp only [Bool.true_and]
      rw [ht2, ht, List.append_assoc, List.append_assoc]
      rfl
    | ok a =>
      refine ⟨by simp, ⟨bootserviceAccess ||| runtimeAccess, env.setFault t'⟩, ⟨bootserviceAccess ||| runtimeAccess, env.setFault w1.tick⟩, true, ?_⟩
      simp only [Bool.true_and, RM.pure_run]
      rw [ht2, ht, List.append_assoc, List.append_assoc]
      rfl

/-- C13 for `measure_companion_initrds`: every credential and system extension archive is submitted
for measurement to its PCR, in the order of the list, whatever the TPM answers. -/
theorem C13_companions_submitted (env : Env) (cs : List Companion) (w : World) :
    (measureCompanions env cs w).1 ≠ .panic ∧
    ∃ evs, (measureCompanions env cs w).2.trace = w.trace ++ evs ∧
      measurements evs = cs.filterMap companionMeasurement := by
  obtain ⟨h1, r1, r2, b, h2⟩ := measureCompanions_run env cs w
  refine ⟨h1, _, h2, ?_⟩
  rw [measurements_append, measurements_append, measurements_companionEvents]
  have e1 : measurements (if (companionTotals env cs w.tick).2.1 > 0 then
        [.writeVar (loaderVar "StubPcrKernelParameters") (le32 12) r1] else []) = [] := by
    split <;> rfl
  have e2 : measurements (if (b && (companionTotals env cs w.tick).2.2) = true then
        [.writeVar (loaderVar "StubPcrInitRDSysExts") (le32 13) r2] else []) = [] := by
    split <;> rfl
  rw [e1, e2]; simp

/-! ## Examples -/

namespace Sample

/-- The sample machine with a stub whose section table is in reverse order. -/
def reversed : PE := { header with sections := header.sections.reverse }
def envReversed : Env := { env true .success with
  parseOwn := fun b => if b = image then some reversed else none }

theorem measured_ok (e : Env) (w : World) (h : (measureImage e kernelFile initrdFile w).1.isOk = true) :
    (measureImage e kernelFile initrdFile w).1 ≠ .panic := by
  intro hp
  rw [hp] at h
  cases h

/-- The hypotheses of `C14_permutation` and `C14_order_irrelevant` can be met: the two stubs lead to the
same measurements. -/
example : ∃ evs evs', (measureImage (env true .success) kernelFile initrdFile (start none none)).2.trace =
      [] ++ evs ∧
    (measureImage envReversed kernelFile initrdFile (start none none)).2.trace = [] ++ evs' ∧
    measurements evs = measurements evs' ∧ header.sections ≠ reversed.sections := by
  have hperm : header.sections.Perm reversed.sections := (List.reverse_perm _).symm
  obtain ⟨h1, h2⟩ := C14_permutation (data := image) hperm (by decide)
  obtain ⟨evs, evs', a, b, c⟩ := C14_order_irrelevant (env true .success) envReversed kernelFile initrdFile
    (start none none) (start none none) header reversed (by decide +kernel) (by decide +kernel)
    (measured_ok _ _ (by decide +kernel)) (measured_ok _ _ (by decide +kernel))
    (fun n _ => h1 n) (fun n _ c => h2 n c)
  exact ⟨evs, evs', a, b, c, by decide⟩

end Sample

end Verif.Stub
