import Verif.Spec.Counts
import Verif.Props.Measure
/-!
# C75: the number of measurements the measuring functions return
-/
namespace Verif.Stub
open Verif Spec Companion

theorem carriedOut_append (a b : List Event) : carriedOut (a ++ b) = carriedOut a + carriedOut b := by
  simp [carriedOut, List.countP_append]
theorem skipped_append (a b : List Event) : skipped (a ++ b) = skipped a + skipped b := by
  simp [skipped, List.countP_append]

/-- The function only adds events; a result and the number of added measurements that did not fail are
related by `Q`. -/
def Counting {α : Type} (m : M α) (Q : α → Nat → Prop) : Prop := ∀ w, ∃ evs,
  (m w).2.trace = w.trace ++ evs ∧ ∀ a, (m w).1 = .ok a → Q a (carriedOut evs + skipped evs)

theorem Counting.bind {α β : Type} {P : α → Nat → Prop} {Q : β → Nat → Prop} {m : M α} {k : α → M β}
    (hm : Counting m P) (hk : ∀ a i, P a i → Counting (k a) fun b j => Q b (i + j)) :
    Counting (m >>= k) Q := by
  intro w
  obtain ⟨e1, t1, c1⟩ := hm w
  rw [RM.bind_run]
  rcases hr : m w with ⟨r, w'⟩
  rw [hr] at t1 c1
  cases r with
  | ok a =>
    obtain ⟨e2, t2, c2⟩ := hk a _ (c1 a rfl) w'
    refine ⟨e1 ++ e2, ?_, ?_⟩
    · show (k a w').2.trace = _
      dsimp only at t1
      rw [t2, t1, List.append_assoc]
    · intro b hb
      have := c2 b hb
      rwa [show carriedOut (e1 ++ e2) + skipped (e1 ++ e2) =
        carriedOut e1 + skipped e1 + (carriedOut e2 + skipped e2) by
          rw [carriedOut_append, skipped_append]; omega]
  | err e => exact ⟨e1, t1, by intro b hb; simp at hb⟩
  | panic => exact ⟨e1, t1, by intro b hb; simp at hb⟩

theorem Counting.pure {α : Type} {Q : α → Nat → Prop} {a : α} (h : Q a 0) :
    Counting (pure a : M α) Q := by
  intro w
  refine ⟨[], by simp, ?_⟩
  intro b hb
  simp at hb
  subst hb
  exact h

theorem Counting.lift {α : Type} (r : Res Status α) : Counting (lift r) fun _ k => k = 0 := by
  intro w
  refine ⟨[], ?_, fun _ _ => rfl⟩
  unfold Stub.lift
  split <;> simp

theorem Counting.setVariableIf (env : Env) (c : Bool) (key : VarKey) (at' : Attributes) (data : Bytes) :
    Counting (setVariableIf env c key at' data) fun _ k => k = 0 := by
  unfold Stub.setVariableIf
  split
  · intro w
    refine ⟨[.writeVar key data { attributes := at', result := env.setFault w.tick }], ?_, fun _ _ => rfl⟩
    unfold setVariable
    simp only [RM.bind_run, next, emit]
    cases env.setFault w.tick <;> simp
  · exact Counting.pure rfl

/-- One measurement. -/
theorem Counting.tpmLogEvent (env : Env) {pcr : Nat} (hp : pcr ≠ u32Max) (d : Bytes) (s : Str) :
    Counting (result (tpmLogEvent env pcr d s)) fun r k => k = if r.isOk then 1 else 0 := by
  intro w
  obtain ⟨r, e, np, hok⟩ := tpmLogEvent_run env pcr d s w hp
  have hr := result_run (Stub.tpmLogEvent env pcr d s) w (by rw [e]; exact np)
  rw [e] at hr
  rw [hr]
  refine ⟨_, rfl, ?_⟩
  intro a ha
  have ha : r = a := by simpa using ha
  subst ha
  rw [isOk_counts hok]
  cases outcomeAt env w.tick <;> rfl

theorem Counting.measureNameAndData (env : Env) (u : Uni) (d : Option Bytes) :
    Counting (measureNameAndData env u d) fun n k => k = n := by
  have hp : pcrKernelImage ≠ u32Max := by decide
  cases d with
  | none => exact Counting.pure rfl
  | some d =>
    refine Counting.bind (Counting.tpmLogEvent env hp _ _) fun a i hi => ?_
    refine Counting.bind (Counting.tpmLogEvent env hp _ _) fun b j hj => ?_
    exact Counting.pure (by omega)

theorem Counting.measureSections (env : Env) (p : Parsed) (kernel initrd : Bytes) (us : List Uni) :
    Counting (measureSections env p kernel initrd us) fun n k => k = n := by
  induction us with
  | nil => exact Counting.pure rfl
  | cons u us ih =>
    refine Counting.bind (Counting.lift _) fun s i hi => ?_
    refine Counting.bind (Counting.measureNameAndData env u _) fun a j hj => ?_
    intro w
    obtain ⟨evs, t, c⟩ := Counting.bind (Q := fun n k => k + i + j = n) ih (fun b l hl => Counting.pure
      (Q := fun n k => l + k + i + j = n) (a := a + b) (by omega)) w
    exact ⟨evs, t, fun n hn => by have := c n hn; omega⟩

theorem Counting.measureCompanion (env : Env) (c : Companion) :
    Counting (measureCompanion env c) fun n k => k = n.1 := by
  have hp : ∀ pcr s, companionPcr c.kind = some (pcr, s) → pcr ≠ u32Max := by
    intro pcr s h
    cases hk : c.kind <;> rw [hk] at h <;> simp [companionPcr] at h <;> rw [← h.1] <;> decide
  unfold Stub.measureCompanion
  split
  · exact Counting.pure rfl
  · next pcr s h =>
    refine Counting.bind (Counting.tpmLogEvent env (hp _ _ h) _ _) fun a i hi => ?_
    refine Counting.pure ?_
    subst hi
    cases a.isOk
    · rfl
    · cases c.kind <;> rfl

theorem Counting.measureCompanionLoop (env : Env) (cs : List Companion) :
    Counting (measureCompanionLoop env cs) fun n k => k = n.1 := by
  induction cs with
  | nil => exact Counting.pure rfl
  | cons c cs ih =>
    refine Counting.bind (Counting.measureCompanion env c) fun a i hi => ?_
    intro w
    obtain ⟨evs, t, h⟩ := Counting.bind (Q := fun (n : Nat × Nat × Bool) k => k + i = n.1) ih (fun b l hl => Counting.pure
      (Q := fun n k => l + k + i = n.1) (a := (a.1 + b.1, a.2.1 + b.2.1, a.2.2 || b.2.2))
      (by dsimp only; omega)) w
    exact ⟨evs, t, fun n hn => by have := h n hn; omega⟩

theorem Counting.measureImage (env : Env) (kernel initrd : Bytes) :
    Counting (measureImage env kernel initrd) fun n k => k = n := by
  refine Counting.bind (Counting.lift _) fun p i hi => ?_
  refine Counting.bind (Counting.measureSections env p kernel initrd _) fun n j hj => ?_
  refine Counting.bind (Counting.setVariableIf _ _ _ _ _) fun _ l hl => ?_
  exact Counting.pure (by omega)

theorem Counting.measureCompanions (env : Env) (cs : List Companion) :
    Counting (measureCompanions env cs) fun n k => k = n := by
  refine Counting.bind (Counting.measureCompanionLoop env cs) fun r i hi => ?_
  refine Counting.bind (Counting.setVariableIf _ _ _ _ _) fun _ j hj => ?_
  refine Counting.bind (Counting.setVariableIf _ _ _ _ _) fun _ l hl => ?_
  exact Counting.pure (by omega)

/-! ## The statements -/

theorem Counting.ok {m : M Nat} (h : Counting m fun n k => k = n) {w w' : World} {n : Nat}
    (hr : m w = (.ok n, w')) : ∃ evs, w'.trace = w.trace ++ evs ∧ n = carriedOut evs + skipped evs := by
  obtain ⟨evs, t, c⟩ := h w
  rw [hr] at t c
  exact ⟨evs, t, (c n rfl).symm⟩

/-- **C75.** The number `measure_image` returns is the number of measurements the TPM carried out during
the call, plus the number of those that were skipped for want of a TPM. -/
theorem C75_image (env : Env) (kernel initrd : Bytes) (w w' : World) (n : Nat)
    (h : measureImage env kernel initrd w = (.ok n, w')) :
    ∃ evs, w'.trace = w.trace ++ evs ∧ n = carriedOut evs + skipped evs :=
  (Counting.measureImage env kernel initrd).ok h

/-- **C75.** The same for `measure_companion_initrds`. -/
theorem C75_companions (env : Env) (cs : List Companion) (w w' : World) (n : Nat)
    (h : measureCompanions env cs w = (.ok n, w')) :
    ∃ evs, w'.trace = w.trace ++ evs ∧ n = carriedOut evs + skipped evs :=
  (Counting.measureCompanions env cs).ok h

/-- Every measurement among the events had the outcome of a time. -/
def Timely (env : Env) {α : Type} (m : M α) : Prop := ∀ w, ∃ evs, (m w).2.trace = w.trace ++ evs ∧
  ∀ pcr d s o, Event.measure pcr d s o ∈ evs → ∃ t, o = outcomeAt env t

theorem Timely.bind {env : Env} {α β : Type} {m : M α} {k : α → M β} (hm : Timely env m)
    (hk : ∀ a, Timely env (k a)) : Timely env (m >>= k) := by
  intro w
  obtain ⟨e1, t1, c1⟩ := hm w
  rw [RM.bind_run]
  rcases hr : m w with ⟨r, w'⟩
  rw [hr] at t1
  cases r with
  | ok a =>
    obtain ⟨e2, t2, c2⟩ := hk a w'
    refine ⟨e1 ++ e2, ?_, ?_⟩
    · show (k a w').2.trace = _
      dsimp only at t1
      rw [t2, t1, List.append_assoc]
    · intro pcr d s o ho
      rcases List.mem_append.1 ho with h | h
      · exact c1 _ _ _ _ h
      · exact c2 _ _ _ _ h
  | err e => exact ⟨e1, t1, c1⟩
  | panic => exact ⟨e1, t1, c1⟩

theorem Timely.pure {env : Env} {α : Type} (a : α) : Timely env (pure a : M α) :=
  fun w => ⟨[], by simp, by simp⟩

theorem Timely.lift {env : Env} {α : Type} (r : Res Status α) : Timely env (lift r) := by
  intro w
  refine ⟨[], ?_, by simp⟩
  unfold Stub.lift
  split <;> simp

theorem Timely.setVariableIf (env : Env) (c : Bool) (key : VarKey) (at' : Attributes) (data : Bytes) :
    Timely env (setVariableIf env c key at' data) := by
  unfold Stub.setVariableIf
  split
  · intro w
    refine ⟨[.writeVar key data { attributes := at', result := env.setFault w.tick }], ?_, by simp⟩
    unfold setVariable
    simp only [RM.bind_run, next, emit]
    cases env.setFault w.tick <;> simp
  · exact Timely.pure _

theorem Timely.tpmLogEvent (env : Env) {pcr : Nat} (hp : pcr ≠ u32Max) (d : Bytes) (s : Str) :
    Timely env (result (tpmLogEvent env pcr d s)) := by
  intro w
  obtain ⟨r, e, np, hok⟩ := tpmLogEvent_run env pcr d s w hp
  have hr := result_run (Stub.tpmLogEvent env pcr d s) w (by rw [e]; exact np)
  rw [e] at hr
  rw [hr]
  refine ⟨_, rfl, ?_⟩
  intro pcr' d' s' o ho
  simp at ho
  exact ⟨w.tick, ho.2.2.2⟩

theorem Timely.measureImage (env : Env) (kernel initrd : Bytes) :
    Timely env (measureImage env kernel initrd) := by
  refine (Timely.lift _).bind fun p => Timely.bind ?_ fun n => (Timely.setVariableIf _ _ _ _ _).bind fun _ =>
    Timely.pure _
  generalize sectionsToMeasure p.sectionNames = us
  induction us with
  | nil => exact Timely.pure _
  | cons u us ih =>
    refine (Timely.lift _).bind fun s => Timely.bind ?_ fun a => ih.bind fun b => Timely.pure _
    have hp : pcrKernelImage ≠ u32Max := by decide
    cases measuredData u kernel initrd s with
    | none => exact Timely.pure _
    | some d =>
      exact (Timely.tpmLogEvent env hp _ _).bind fun a => (Timely.tpmLogEvent env hp _ _).bind fun b =>
        Timely.pure _

theorem Timely.measureCompanions (env : Env) (cs : List Companion) :
    Timely env (measureCompanions env cs) := by
  refine Timely.bind ?_ fun r => (Timely.setVariableIf _ _ _ _ _).bind fun _ =>
    (Timely.setVariableIf _ _ _ _ _).bind fun _ => Timely.pure _
  induction cs with
  | nil => exact Timely.pure _
  | cons c cs ih =>
    refine Timely.bind ?_ fun a => ih.bind fun b => Timely.pure _
    have hp : ∀ pcr s, companionPcr c.kind = some (pcr, s) → pcr ≠ u32Max := by
      intro pcr s h
      cases hk : c.kind <;> rw [hk] at h <;> simp [companionPcr] at h <;> rw [← h.1] <;> decide
    unfold Stub.measureCompanion
    split
    · exact Timely.pure _
    · next pcr s h => exact (Timely.tpmLogEvent env (hp _ _ h) _ _).bind fun a => Timely.pure _

theorem skipped_none {env : Env} (htpm : ∀ t, env.tpmOpens t = true) {evs : List Event}
    (h : ∀ pcr d s o, Event.measure pcr d s o ∈ evs → ∃ t, o = outcomeAt env t) : skipped evs = 0 := by
  rw [skipped, List.countP_eq_zero]
  intro e he
  cases e with
  | measure pcr d s o =>
    obtain ⟨t, rfl⟩ := h _ _ _ _ he
    have : outcomeAt env t ≠ .noTpm := by
      unfold outcomeAt
      rw [if_pos (htpm t)]
      cases env.eventFault t <;> cases env.extendFault t <;> simp
    cases ho : outcomeAt env t <;> simp_all
  | _ => simp

theorem with_tpm {env : Env} {m : M Nat} (hc : Counting m fun n k => k = n) (ht : Timely env m)
    (htpm : ∀ t, env.tpmOpens t = true) {w w' : World} {n : Nat} (hr : m w = (.ok n, w')) :
    ∃ evs, w'.trace = w.trace ++ evs ∧ n = carriedOut evs := by
  obtain ⟨evs, t, c⟩ := hc.ok hr
  obtain ⟨evs', t', c'⟩ := ht w
  rw [hr] at t'
  obtain rfl : evs = evs' := List.append_cancel_left (t.symm.trans t')
  have := skipped_none htpm c'
  exact ⟨evs, t, by omega⟩

/-- **C75.** On a machine with a TPM both numbers are the numbers of measurements the TPM carried out. -/
theorem C75_with_tpm (env : Env) (htpm : ∀ t, env.tpmOpens t = true) (w w' : World) (n : Nat) :
    (∀ kernel initrd, measureImage env kernel initrd w = (.ok n, w') →
      ∃ evs, w'.trace = w.trace ++ evs ∧ n = carriedOut evs) ∧
    (∀ cs, measureCompanions env cs w = (.ok n, w') →
      ∃ evs, w'.trace = w.trace ++ evs ∧ n = carriedOut evs) :=
  ⟨fun kernel initrd h => with_tpm (Counting.measureImage env kernel initrd)
      (Timely.measureImage env kernel initrd) htpm h,
   fun cs h => with_tpm (Counting.measureCompanions env cs) (Timely.measureCompanions env cs) htpm h⟩

namespace Sample

/-- Six sections, of which four are measured, each with its name. With and without a TPM the number is
the same. -/
example : (measureImage (env true .success) kernelFile initrdFile (start none none)).1 = .ok 8 ∧
    carriedOut (measureImage (env true .success) kernelFile initrdFile (start none none)).2.trace = 8 ∧
    (measureImage (env false .success) kernelFile initrdFile (start none none)).1 = .ok 8 ∧
    carriedOut (measureImage (env false .success) kernelFile initrdFile (start none none)).2.trace = 0 := by
  decide +kernel

/-- A TPM that refuses the third measurement. -/
example : (measureImage { env true .success with
      extendFault := fun t => if t = 2 then some .unsupported else none } kernelFile initrdFile
      (start none none)).1 = .ok 7 := by
  decide +kernel

end Sample

end Verif.Stub
