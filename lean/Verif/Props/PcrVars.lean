import Verif.Props.Stub
/-!
# C23: the variables announcing which PCRs were used
-/
namespace Verif.Stub
open Verif Verif.Companion Verif.Stub.Spec

section
variable {Ok : Measured → Prop}

theorem happened_mono {pcr : Nat} {a b : List Event} (h : Happened Ok pcr a) (hs : ∀ e ∈ a, e ∈ b) :
    Happened Ok pcr b := by
  obtain ⟨d, s, o, hm, ho⟩ := h
  exact ⟨d, s, o, hs _ hm, ho⟩

/-- One of the three statements about one variable. -/
def TruthfulVar (Ok : Measured → Prop) (k : VarKey) (v : Bytes) (pcr : Nat) (t : List Event) : Prop :=
  ∀ a b d r, t = a ++ .writeVar k d r :: b → d = v ∧ Happened Ok pcr a

theorem TruthfulVar.append {k : VarKey} {v : Bytes} {pcr : Nat} {t1 t2 : List Event}
    (h1 : TruthfulVar Ok k v pcr t1) (h2 : TruthfulVar Ok k v pcr t2) :
    TruthfulVar Ok k v pcr (t1 ++ t2) := by
  intro a b d r h
  rcases List.append_eq_append_iff.1 h with ⟨a', ha, hb⟩ | ⟨c', ha, hb⟩
  · obtain ⟨hd, hh⟩ := h2 _ _ _ _ hb
    refine ⟨hd, happened_mono hh ?_⟩
    intro e he; rw [ha]; exact List.mem_append_right _ he
  · cases c' with
    | nil =>
      simp only [List.append_nil, List.nil_append] at ha hb
      subst ha
      obtain ⟨hd, hh⟩ := h2 [] b d r hb.symm
      exact ⟨hd, happened_mono hh (by simp)⟩
    | cons e rest =>
      simp only [List.cons_append, List.cons.injEq] at hb
      obtain ⟨rfl, -⟩ := hb
      exact h1 _ _ _ _ ha

theorem TruthfulVar.quiet {k : VarKey} {v : Bytes} {pcr : Nat} {t : List Event}
    (h : ∀ d r, .writeVar k d r ∉ t) : TruthfulVar Ok k v pcr t := by
  intro a b d r he
  exact absurd (by rw [he]; simp) (h d r)

/-- The statement about all three. -/
def Truthful (Ok : Measured → Prop) (t : List Event) : Prop :=
  TruthfulVar Ok (loaderVar "StubPcrKernelImage") (utf16le (lit "11")) 11 t ∧
  TruthfulVar Ok (loaderVar "StubPcrKernelParameters") [12, 0, 0, 0] 12 t ∧
  TruthfulVar Ok (loaderVar "StubPcrInitRDSysExts") [13, 0, 0, 0] 13 t

/-- No write of one of the three. -/
def NoPcrVar (e : Event) : Prop := ∀ k d r, e = .writeVar k d r →
  k ≠ loaderVar "StubPcrKernelImage" ∧ k ≠ loaderVar "StubPcrKernelParameters" ∧
    k ≠ loaderVar "StubPcrInitRDSysExts"

theorem Truthful.append {t1 t2 : List Event} (h1 : Truthful Ok t1) (h2 : Truthful Ok t2) :
    Truthful Ok (t1 ++ t2) :=
  ⟨h1.1.append h2.1, h1.2.1.append h2.2.1, h1.2.2.append h2.2.2⟩

theorem Truthful.quiet {t : List Event} (h : ∀ e ∈ t, NoPcrVar e) : Truthful Ok t :=
  ⟨.quiet fun d r hm => (h _ hm _ d r rfl).1 rfl, .quiet fun d r hm => (h _ hm _ d r rfl).2.1 rfl,
    .quiet fun d r hm => (h _ hm _ d r rfl).2.2 rfl⟩

/-- The events of a program are truthful. -/
def Tells (Ok : Measured → Prop) {α : Type} (m : M α) : Prop :=
  ∀ w, ∃ evs, (m w).2.trace = w.trace ++ evs ∧ Truthful Ok evs

theorem Tells.bind {α β : Type} {m : M α} {f : α → M β} (hm : Tells Ok m) (hf : ∀ a, Tells Ok (f a)) :
    Tells Ok (m >>= f) := by
  intro w
  rw [RM.bind_run]
  obtain ⟨e1, t1, h1⟩ := hm w
  rcases hmw : m w with ⟨r, w'⟩
  rw [hmw] at t1
  cases r with
  | ok a =>
    obtain ⟨e2, t2, h2⟩ := hf a w'
    refine ⟨e1 ++ e2, ?_, h1.append h2⟩
    simp only
    rw [t2, t1, List.append_assoc]
  | err e => exact ⟨e1, t1, h1⟩
  | panic => exact ⟨e1, t1, h1⟩

theorem Tells.result {α : Type} {m : M α} (hm : Tells Ok m) : Tells Ok (Stub.result m) := by
  intro w
  obtain ⟨e1, t1, h1⟩ := hm w
  unfold Stub.result
  rcases hmw : m w with ⟨r, w'⟩
  rw [hmw] at t1
  cases r <;> exact ⟨e1, t1, h1⟩

theorem Tells.quiet {α : Type} {m : M α} {K : VarKey → Prop} (h : QuietM NoPcrVar K m) : Tells Ok m := by
  intro w
  obtain ⟨evs, ht, hn⟩ := (h w).trace
  exact ⟨evs, ht, .quiet hn⟩

theorem noPcrVar_measure (p : Nat) (d : Bytes) (s : Str) (o : Measured) :
    NoPcrVar (.measure p d s o) := by intro k d r h; simp at h
theorem noPcrVar_readVar (k : VarKey) (r : Res Status Bytes) : NoPcrVar (.readVar k r) := by
  intro k d r h; simp at h
theorem noPcrVar_readFile (n : Str16) (r : Option Bytes) : NoPcrVar (.readFile n r) := by
  intro k d r h; simp at h
theorem noPcrVar_probe (b : Bool) : NoPcrVar (.probeTpm b) := by intro k d r h; simp at h
theorem noPcrVar_start (s : Started) : NoPcrVar (.start s) := by intro k d r h; simp at h

theorem exported_noPcrVar : ∀ k ∈ QuietM.exported, k ≠ loaderVar "StubPcrKernelImage" ∧
    k ≠ loaderVar "StubPcrKernelParameters" ∧ k ≠ loaderVar "StubPcrInitRDSysExts" := by
  decide

/-- What the proofs assume of `Ok`: outcomes the code takes for a success are in it. -/
def Covers (env : Env) (Ok : Measured → Prop) : Prop :=
  ∀ t, outcomeAt env t = .extended ∨ outcomeAt env t = .noTpm → Ok (outcomeAt env t)

theorem counts_pos {o : Measured} (h : counts o ≠ 0) : o = .extended ∨ o = .noTpm := by
  unfold counts at h
  split at h
  · assumption
  · exact absurd rfl h

theorem loopCount_happened {env : Env} (hc : Covers env Ok) (p : Parsed) (k i : Bytes) (us : List Uni)
    (t : Nat) (h : loopCount env us t > 0) : Happened Ok 11 (loopEvents env p k i us t) := by
  induction us generalizing t with
  | nil => simp [loopCount] at h
  | cons u rest ih =>
    unfold loopEvents
    simp only [loopCount] at h
    by_cases h1 : counts (outcomeAt env t) = 0
    · by_cases h2 : counts (outcomeAt env (t + 1)) = 0
      · exact happened_mono (ih (t + 2) (by omega)) fun e he => List.mem_append_right _ he
      · exact ⟨_, _, _, List.mem_append_left _ (List.mem_cons_of_mem _ List.mem_cons_self),
          hc _ (counts_pos h2)⟩
    · exact ⟨_, _, _, List.mem_append_left _ List.mem_cons_self, hc _ (counts_pos h1)⟩

theorem companionTotals_happened {env : Env} (hc : Covers env Ok) (cs : List Companion) (t : Nat) :
    ((companionTotals env cs t).2.1 > 0 → Happened Ok 12 (companionEvents env cs t)) ∧
    ((companionTotals env cs t).2.2 = true → Happened Ok 13 (companionEvents env cs t)) := by
  induction cs generalizing t with
  | nil => simp [companionTotals]
  | cons c rest ih =>
    have mono : ∀ {p e l}, Happened Ok p l → Happened Ok p (e :: l) :=
      fun h => happened_mono h fun e he => List.mem_cons_of_mem _ he
    have ih1 := ih (t + 1)
    unfold companionTotals companionEvents
    cases hk : c.kind <;> simp only [companionPcr]
    · by_cases h : counts (outcomeAt env t) = 1
      · rw [if_pos h]
        exact ⟨fun _ => ⟨_, _, _, List.mem_cons_self, hc _ (counts_pos (by omega))⟩,
          fun h2 => mono (ih1.2 (by simpa [companionCount] using h2))⟩
      · rw [if_neg h]
        exact ⟨fun h2 => mono (ih1.1 h2), fun h2 => mono (ih1.2 h2)⟩
    · by_cases h : counts (outcomeAt env t) = 1
      · rw [if_pos h]
        exact ⟨fun _ => ⟨_, _, _, List.mem_cons_self, hc _ (counts_pos (by omega))⟩,
          fun h2 => mono (ih1.2 (by simpa [companionCount] using h2))⟩
      · rw [if_neg h]
        exact ⟨fun h2 => mono (ih1.1 h2), fun h2 => mono (ih1.2 h2)⟩
    · by_cases h : counts (outcomeAt env t) = 1
      · rw [if_pos h]
        exact ⟨fun h2 => mono (ih1.1 (by simpa [companionCount] using h2)),
          fun h2 => ⟨_, _, _, List.mem_cons_self, hc _ (counts_pos (by omega))⟩⟩
      · rw [if_neg h]
        exact ⟨fun h2 => mono (ih1.1 h2), fun h2 => mono (ih1.2 h2)⟩
    · exact ih t
    · exact ih t

theorem truthful_singleton {e : Event} (h : NoPcrVar e) : Truthful Ok [e] := .quiet (by simpa using h)

theorem TruthfulVar.write {k k' : VarKey} {v v' : Bytes} {pcr : Nat} {x : List Event}
    {r : Setting} (hx : TruthfulVar Ok k v pcr x) (h : k = k' → v' = v ∧ Happened Ok pcr x) :
    TruthfulVar Ok k v pcr (x ++ [.writeVar k' v' r]) := by
  intro a b d r' he
  rcases List.append_eq_append_iff.1 he with ⟨a', ha, hb⟩ | ⟨c', ha, hb⟩
  · cases a' with
    | nil =>
      simp only [List.nil_append, List.cons.injEq, Event.writeVar.injEq] at hb
      obtain ⟨⟨hkk, rfl, rfl⟩, -⟩ := hb
      rw [ha, List.append_nil]
      exact h hkk.symm
    | cons y z => simp at hb
  · cases c' with
    | nil =>
      simp only [List.nil_append, List.cons.injEq, Event.writeVar.injEq] at hb
      obtain ⟨⟨hkk, rfl, rfl⟩, -⟩ := hb
      rw [List.append_nil] at ha
      rw [← ha]
      exact h hkk
    | cons y z =>
      simp only [List.cons_append, List.cons.injEq] at hb
      obtain ⟨rfl, -⟩ := hb
      exact hx _ _ _ _ ha

theorem toDec_11 : toDec pcrKernelImage = lit "11" := by
  unfold pcrKernelImage; rw [toDec, if_neg (by decide), toDec, if_pos (by decide)]; decide

theorem loopEvents_noPcrVar (env : Env) (p : Parsed) (k i : Bytes) (us : List Uni) (t : Nat) :
    ∀ e ∈ loopEvents env p k i us t, NoPcrVar e := by
  induction us generalizing t with
  | nil => intro e he; simp [loopEvents] at he
  | cons u rest ih =>
    intro e he
    unfold loopEvents at he
    rcases List.mem_append.1 he with h | h
    · simp only [pairEvents, List.mem_cons, List.not_mem_nil, or_false] at h
      rcases h with rfl | rfl <;> exact noPcrVar_measure _ _ _ _
    · exact ih _ e h

theorem companionEvents_noPcrVar (env : Env) (cs : List Companion) (t : Nat) :
    ∀ e ∈ companionEvents env cs t, NoPcrVar e := by
  induction cs generalizing t with
  | nil => intro e he; simp [companionEvents] at he
  | cons c rest ih =>
    intro e he
    unfold companionEvents at he
    split at he
    · exact ih _ e he
    · rcases List.mem_cons.1 he with rfl | h
      · exact noPcrVar_measure _ _ _ _
      · exact ih _ e h

theorem tells_measureImage {env : Env} (hc : Covers env Ok) (k i : Bytes) :
    Tells Ok (measureImage env k i) := by
  unfold measureImage
  refine .bind (.quiet (K := fun _ => True) (QuietM.lift _)) fun p => ?_
  intro w
  rw [RM.bind_run]
  rcases measureSections_run env p k i (sectionsToMeasure p.sectionNames) w
    (fun u hu => (mem_sectionsToMeasure hu).1) with h | h
  · obtain ⟨evs, ht, hn⟩ := (QuietM.measureSections (K := fun _ => True) (P := NoPcrVar)
      (fun _ _ _ => noPcrVar_measure _ _ _ _) w : Quiet _ _ w
        (measureSections env p k i (sectionsToMeasure p.sectionNames) w).2).trace
    generalize measureSections env p k i (sectionsToMeasure p.sectionNames) w = x at h ht
    obtain ⟨r, w'⟩ := x
    simp only at h ht
    subst h
    exact ⟨evs, ht, .quiet hn⟩
  · rw [h]
    simp only
    rw [RM.bind_run]
    obtain ⟨r, w', hs, -, ht⟩ := setVariableIf_run env
      (decide (loopCount env (sectionsToMeasure p.sectionNames) w.tick > 0))
      (loaderVar "StubPcrKernelImage") (bootserviceAccess ||| runtimeAccess) (utf16le (toDec pcrKernelImage)) { w with
        tick := w.tick + 2 * (sectionsToMeasure p.sectionNames).length
        trace := w.trace ++ loopEvents env p k i (sectionsToMeasure p.sectionNames) w.tick }
    rw [hs]
    refine ⟨loopEvents env p k i (sectionsToMeasure p.sectionNames) w.tick ++ (if
      decide (loopCount env (sectionsToMeasure p.sectionNames) w.tick > 0) = true then
        [.writeVar (loaderVar "StubPcrKernelImage") (utf16le (toDec pcrKernelImage))
          ⟨bootserviceAccess ||| runtimeAccess, env.setFault (w.tick + 2 * (sectionsToMeasure p.sectionNames).length)⟩] else []), ?_, ?_⟩
    · have : w'.trace = w.trace ++ (loopEvents env p k i (sectionsToMeasure p.sectionNames) w.tick ++ (if
          decide (loopCount env (sectionsToMeasure p.sectionNames) w.tick > 0) = true then
            [.writeVar (loaderVar "StubPcrKernelImage") (utf16le (toDec pcrKernelImage))
              ⟨bootserviceAccess ||| runtimeAccess, env.setFault (w.tick + 2 * (sectionsToMeasure p.sectionNames).length)⟩] else [])) := by
        rw [ht]; simp only [List.append_assoc]
      rw [← this]
      cases r <;> rfl
    · have hq := loopEvents_noPcrVar env p k i (sectionsToMeasure p.sectionNames) w.tick
      split
      · next hpos =>
        have h11 : toDec pcrKernelImage = lit "11" := toDec_11
        have hx := Truthful.quiet (Ok := Ok) hq
        refine ⟨hx.1.write fun _ => ⟨by rw [h11], ?_⟩, hx.2.1.write fun h => absurd h (by decide),
          hx.2.2.write fun h => absurd h (by decide)⟩
        exact loopCount_happened hc p k i _ _ (of_decide_eq_true hpos)
      · rw [List.append_nil]; exact .quiet hq

theorem tells_measureCompanions {env : Env} (hc : Covers env Ok) (cs : List Companion) :
    Tells Ok (measureCompanions env cs) := by
  intro w
  obtain ⟨-, r1, r2, b, ht⟩ := measureCompanions_run env cs w
  refine ⟨_, ht, ?_⟩
  have hq := companionEvents_noPcrVar env cs w.tick
  obtain ⟨h12, h13⟩ := companionTotals_happened hc cs w.tick
  rw [← List.append_assoc]
  -- the second write
  have hB : ∀ x : List Event, Truthful Ok x → (∀ e ∈ companionEvents env cs w.tick, e ∈ x) →
      Truthful Ok (x ++ if (b && (companionTotals env cs w.tick).2.2) = true then
        [.writeVar (loaderVar "StubPcrInitRDSysExts") (le32 13) r2] else []) := by
    intro x hx hsub
    split
    · next hb =>
      have hb2 : (companionTotals env cs w.tick).2.2 = true := by
        cases b <;> simp at hb; exact hb
      exact ⟨hx.1.write fun h => absurd h (by decide), hx.2.1.write fun h => absurd h (by decide),
        hx.2.2.write fun _ => ⟨by decide, happened_mono (h13 hb2) hsub⟩⟩
    · rw [List.append_nil]; exact hx
  apply hB
  · split
    · next hpos =>
      have hx := Truthful.quiet (Ok := Ok) hq
      exact ⟨hx.1.write fun h => absurd h (by decide), hx.2.1.write fun _ => ⟨by decide, h12 hpos⟩,
        hx.2.2.write fun h => absurd h (by decide)⟩
    · rw [List.append_nil]; exact .quiet hq
  · intro e he; exact List.mem_append_left _ he

theorem tells_bootLinux (env : Env) (c : Components) (d : List Bytes) : Tells Ok (bootLinux env c d) := by
  intro w
  unfold bootLinux
  obtain ⟨r, cmd, w2, m, h, -, -, ht, hm⟩ := getCmdline_run env c.cmdline w
  rw [RM.bind_run, h]
  simp only
  have hq : ∀ e ∈ Event.readVar secureBootVar r :: m, NoPcrVar e := by
    intro e he
    rcases List.mem_cons.1 he with rfl | he
    · exact noPcrVar_readVar _ _
    · rcases hm with ⟨-, rfl | ⟨-, p, o, t, rfl, -⟩⟩ | ⟨-, -, -, o, t, rfl, -⟩
      · simp at he
      · simp only [List.mem_singleton] at he; rw [he]; exact noPcrVar_measure _ _ _ _
      · simp only [List.mem_singleton] at he; rw [he]; exact noPcrVar_measure _ _ _ _
  rcases bootLinuxUnchecked_run env c.kernel cmd (appendInitrds (padTo4 c.initrd) d) w2 with
    ⟨h1, -⟩ | ⟨s, wk, -, h1, -⟩
  · exact ⟨_, by rw [h1, ht], .quiet hq⟩
  · refine ⟨(Event.readVar secureBootVar r :: m) ++ [.start s], ?_, ?_⟩
    · rw [h1, ht, List.append_assoc]
    · exact Truthful.append (.quiet hq) (truthful_singleton (noPcrVar_start s))

theorem tells_main {env : Env} {w : World} (hc : env.tpmOpens w.tick = true → Covers env Ok) :
    ∃ evs, (main env w).2.trace = w.trace ++ evs ∧ Truthful Ok evs := by
  have key : ∀ tpm, (tpm = true → Covers env Ok) → Tells Ok (do
      let _ ← expect (openLoadedImage env)
      let c ← expect (loadFromPe env)
      measureImageIf env tpm c
      let _ ← result (getLoaderFeatures env)
      let _ ← result (exportEfiVariables env)
      let dynamic ← companionBlock env tpm
      bootLinux env c dynamic) := by
    intro tpm hc
    refine .bind (.quiet (K := fun _ => True) (QuietM.expect QuietM.openLoadedImage)) fun _ => ?_
    refine .bind (.quiet (K := fun _ => True) (QuietM.expect (QuietM.loadFromPe noPcrVar_readVar
      noPcrVar_readFile))) fun c => ?_
    refine .bind ?_ fun _ => ?_
    · unfold measureImageIf
      split
      · next h =>
        exact .bind (.result (tells_measureImage (hc h) _ _)) fun _ => .quiet (K := fun _ => True) (QuietM.pure _)
      · exact .quiet (K := fun _ => True) (QuietM.pure _)
    refine .bind (.quiet (K := fun _ => True) (QuietM.result (QuietM.getLoaderFeatures noPcrVar_readVar))) fun _ => ?_
    refine .bind (.quiet (K := fun _ => True) (QuietM.result (QuietM.exportEfiVariables noPcrVar_readVar
      (fun k d r h => ?_) fun _ _ => trivial))) fun _ => ?_
    · intro k' d' r' he
      cases he
      exact exported_noPcrVar _ h
    refine .bind ?_ fun _ => tells_bootLinux _ _ _
    unfold companionBlock
    refine .bind (.quiet (K := fun _ => True) QuietM.getImageFileSystem) fun fs => ?_
    cases fs with
    | none => exact .quiet (K := fun _ => True) (QuietM.pure _)
    | some fw =>
      refine .bind (.quiet (K := fun _ => True) QuietM.discoverCompanions) fun cs => ?_
      refine .bind ?_ fun _ => .quiet (K := fun _ => True) (QuietM.pure _)
      unfold measureCompanionsIf
      split
      · next h =>
        exact .bind (.result (tells_measureCompanions (hc h) _)) fun _ =>
          .quiet (K := fun _ => True) (QuietM.pure _)
      · exact .quiet (K := fun _ => True) (QuietM.pure _)
  have e1 : main env w = (do
      let _ ← expect (openLoadedImage env)
      let c ← expect (loadFromPe env)
      measureImageIf env (env.tpmOpens w.tick) c
      let _ ← result (getLoaderFeatures env)
      let _ ← result (exportEfiVariables env)
      let dynamic ← companionBlock env (env.tpmOpens w.tick)
      bootLinux env c dynamic : M Unit)
      { w with tick := w.tick + 1, trace := w.trace ++ [.probeTpm (env.tpmOpens w.tick)] } := rfl
  obtain ⟨evs, ht, h⟩ := key (env.tpmOpens w.tick) hc
    { w with tick := w.tick + 1, trace := w.trace ++ [.probeTpm (env.tpmOpens w.tick)] }
  refine ⟨.probeTpm (env.tpmOpens w.tick) :: evs, ?_, ?_⟩
  · rw [e1, ht]; simp
  · exact Truthful.append (truthful_singleton (noPcrVar_probe _)) h

theorem Truthful.spec {t : List Event} (h : Truthful Ok t) : TruthfulPcrVars Ok t :=
  ⟨h.1, h.2.1, h.2.2⟩

/-- C23, for every run (also failing ones): a PCR variable is written only after a measurement to the
PCR it names that did not fail. Missing from the full property: a TPM that can no longer be opened at
the time of the measurement counts as not failed, see `C23_unmeasured`. -/
theorem C23_not_failed_partial (env : Env) (w : World) :
    ∃ evs, (main env w).2.trace = w.trace ++ evs ∧
      TruthfulPcrVars (fun o => o = .extended ∨ o = .noTpm) evs := by
  obtain ⟨evs, ht, h⟩ := tells_main (env := env) (w := w) (Ok := fun o => o = .extended ∨ o = .noTpm)
    fun _ t ho => ho
  exact ⟨evs, ht, h.spec⟩

/-- C23, for every run in which the TPM does not disappear after the first look: a PCR variable is
written only after a measurement to the PCR it names that extended it. -/
theorem C23_truthful_partial (env : Env) (w : World)
    (hconst : env.tpmOpens w.tick = true → ∀ t, env.tpmOpens t = true) :
    ∃ evs, (main env w).2.trace = w.trace ++ evs ∧ TruthfulPcrVars (fun o => o = .extended) evs := by
  obtain ⟨evs, ht, h⟩ := tells_main (env := env) (w := w) (Ok := fun o => o = .extended) (by
    intro hopen t ho
    rcases ho with h | h
    · exact h
    · unfold outcomeAt at h
      rw [if_pos (hconst hopen t)] at h
      split at h
      · simp at h
      · split at h <;> simp at h)
  exact ⟨evs, ht, h.spec⟩

end

/-- The machine of the sample, but the TPM can only be opened once. -/
def Sample.vanishingTpm : Env := { Sample.env true .success with tpmOpens := fun t => decide (t = 0) }

/-- C23 is false without the hypothesis of `C23_truthful_partial`: the variable is set although no
PCR was extended at all. -/
theorem C23_unmeasured :
    (.writeVar (loaderVar "StubPcrKernelImage") (utf16le (lit "11")) ⟨6, none⟩) ∈
      (main Sample.vanishingTpm (Sample.start (some [1]) none)).2.trace ∧
    ∀ pcr d s, (.measure pcr d s .extended) ∉
      (main Sample.vanishingTpm (Sample.start (some [1]) none)).2.trace := by
  refine ⟨by decide +kernel, ?_⟩
  intro pcr d s h
  have : (main Sample.vanishingTpm (Sample.start (some [1]) none)).2.trace.all
      (fun e => match e with | .measure _ _ _ .extended => false | _ => true) = true := by
    decide +kernel
  rw [List.all_eq_true] at this
  exact absurd (this _ h) (by simp)

/-- All three variables are written on the sample machine, whose TPM does not disappear. -/
example : (∀ t, (Sample.env true .success).tpmOpens t = true) ∧
    ∀ k ∈ [loaderVar "StubPcrKernelImage", loaderVar "StubPcrKernelParameters",
        loaderVar "StubPcrInitRDSysExts"],
      ((main (Sample.env true .success) (Sample.start (some [1]) none)).2.vars k).isSome = true :=
  ⟨fun _ => rfl, by decide +kernel⟩

end Verif.Stub
