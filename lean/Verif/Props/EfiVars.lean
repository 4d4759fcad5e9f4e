import Verif.Props.Measure
import Verif.Lemmas.SampleBoot
import Verif.Lemmas.Text
/-!
# C21, C22: exported EFI variables
-/
namespace Verif.Stub
open Verif Verif.Companion Spec

/-- The variables a boot loader may have set before (systemd's boot loader interface). -/
def loaderOwned : List VarKey :=
  [loaderVar "LoaderDevicePartUUID", loaderVar "LoaderImageIdentifier",
   loaderVar "LoaderFirmwareInfo", loaderVar "LoaderFirmwareType"]

/-! ## Invariants -/

/-- `m` preserves `I`. -/
def Keeps (I : World → Prop) {α : Type} (m : M α) : Prop := ∀ w, I w → I (m w).2

namespace Keeps
variable {I : World → Prop} {α β : Type}

theorem bind {m : M α} {f : α → M β} (hm : Keeps I m) (hf : ∀ a, Keeps I (f a)) :
    Keeps I (m >>= f) := by
  intro w hw
  rw [RM.bind_run]
  have h := hm w hw
  rcases hmw : m w with ⟨r, w'⟩
  rw [hmw] at h
  cases r with
  | ok a => exact hf a w' h
  | err e => exact h
  | panic => exact h

theorem result {m : M α} (hm : Keeps I m) : Keeps I (Stub.result m) := by
  intro w hw
  have h := hm w hw
  unfold Stub.result
  rcases hmw : m w with ⟨r, w'⟩
  rw [hmw] at h
  cases r <;> exact h

theorem pure (a : α) : Keeps I (Pure.pure a : M α) := fun _ h => h

end Keeps

theorem getVariable_run (env : Env) (key : VarKey) (n : Nat) (w : World) :
    ∃ r : Res Status Bytes, getVariable env key n w =
        (r, { w with tick := w.tick + 1, trace := w.trace ++ [.readVar key r] }) ∧
      r = (match env.getFault w.tick with
        | some st => .err st
        | none => lookup w.vars key n) := by
  unfold getVariable
  simp only [RM.bind_run, next, RM.get_run, emit]
  cases env.getFault w.tick with
  | some st => exact ⟨_, rfl, rfl⟩
  | none => cases lookup w.vars key n <;> exact ⟨_, rfl, rfl⟩

theorem variableExists_run (env : Env) (key : VarKey) (w : World) :
    ∃ (r : Res Status Bytes) (b : Res Status Bool), variableExists env key w =
        (b, { w with tick := w.tick + 1, trace := w.trace ++ [.readVar key r] }) ∧
      r = (match env.getFault w.tick with
        | some st => .err st
        | none => lookup w.vars key 1) ∧ r ≠ .panic ∧ b ≠ .panic ∧
      (b = .ok true ↔ (∃ d, r = .ok d) ∨ r = .err .bufferTooSmall) := by
  obtain ⟨r, h, hr⟩ := getVariable_run env key 1 w
  have hnp : r ≠ .panic := by
    rw [hr]
    split
    · simp
    · unfold lookup
      split
      · simp
      · split <;> simp
  unfold variableExists
  rw [RM.bind_run, result_run _ _ (by rw [h]; exact hnp), h]
  simp only
  cases r with
  | panic => exact absurd rfl hnp
  | ok d => exact ⟨.ok d, .ok true, rfl, hr, by simp, by simp, by simp⟩
  | err st =>
    by_cases h1 : st = .bufferTooSmall
    · exact ⟨.err st, .ok true, by simp [h1], hr, by simp, by simp, by simp [h1]⟩
    · by_cases h2 : st = .notFound
      · exact ⟨.err st, .ok false, by simp [h2], hr, by simp, by simp, by simp [h2]⟩
      · refine ⟨.err st, .err st, ?_, hr, by simp, by simp, ?_⟩
        · simp only [if_neg h1, if_neg h2]; rfl
        · simp [h1]

/-! ## C21 -/

/-- The variable still has its old value, or the firmware answered a read of it with an error other
than that the value is larger than the buffer. -/
def KeptOrFault (k : VarKey) (v : Bytes) (w0 w : World) : Prop :=
  ∃ evs, w.trace = w0.trace ++ evs ∧
    (w.vars k = some v ∨ ∃ st, st ≠ .bufferTooSmall ∧ .readVar k (.err st) ∈ evs)

theorem KeptOrFault.of_quiet {k : VarKey} {v : Bytes} {w0 w w' : World} {P : Event → Prop}
    {K : VarKey → Prop} (h : KeptOrFault k v w0 w) (hq : Quiet P K w w') (hk : ¬ K k) :
    KeptOrFault k v w0 w' := by
  obtain ⟨evs, t, h⟩ := h
  obtain ⟨evs', t', -⟩ := hq.trace
  refine ⟨evs ++ evs', by rw [t', t, List.append_assoc], ?_⟩
  rcases h with h | ⟨st, h1, h2⟩
  · left; rw [hq.vars k hk, h]
  · right; exact ⟨st, h1, List.mem_append_left _ h2⟩

theorem keeps_ensure {env : Env} {k key : VarKey} {att : Attributes} {v : Bytes} {w0 : World} {f : M Bytes}
    (hf : QuietM (fun _ => True) (fun _ => False) f) :
    Keeps (KeptOrFault k v w0) (ensureVariable env key att f) := by
  intro w hw
  by_cases hkey : key = k
  · subst hkey
    obtain ⟨evs, t, h⟩ := hw
    obtain ⟨r, b, e, hr, np, npb, hb⟩ := variableExists_run env key w
    unfold ensureVariable
    rw [RM.bind_run, result_run _ _ (by rw [e]; exact npb), e]
    simp only
    have hrest : ∀ w1 : World, ∃ evs', ((do
        let v ← f
        setVariable env key att v : M Unit) w1).2.trace = w1.trace ++ evs' := by
      intro w1
      have q : QuietM (fun _ => True) (fun _ => True) (do
        let v ← f
        setVariable env key att v : M Unit) :=
        QuietM.bind (hf.mono (fun _ _ => trivial) (fun _ _ => trivial))
          fun v => QuietM.setVariable (fun _ => trivial) trivial
      obtain ⟨evs', h, -⟩ := (q w1).trace
      exact ⟨evs', h⟩
    by_cases hbt : b = .ok true
    · rw [if_pos hbt]
      refine ⟨evs ++ [.readVar key r], by simp [t], ?_⟩
      rcases h with h | ⟨st, h1, h2⟩
      · left; exact h
      · right; exact ⟨st, h1, List.mem_append_left _ h2⟩
    · rw [if_neg hbt]
      obtain ⟨evs', ht⟩ := hrest { w with
        tick := w.tick + 1
        trace := w.trace ++ [.readVar key r] }
      refine ⟨evs ++ [.readVar key r] ++ evs', ?_, Or.inr ?_⟩
      · rw [ht]
        simp [t]
      · cases r with
        | panic => exact absurd rfl np
        | ok d => exact absurd (hb.2 (Or.inl ⟨d, rfl⟩)) hbt
        | err st =>
          refine ⟨st, ?_, by simp⟩
          intro hc
          exact hbt (hb.2 (Or.inr (by rw [hc])))
  · exact hw.of_quiet (P := fun _ => True) (K := fun x => x = key)
      (QuietM.ensureVariable (K := fun x => x = key) (fun _ => trivial) (fun _ _ => trivial) rfl
        (hf.mono (fun _ h => h) fun _ h => h.elim) w) (fun hc => hkey hc.symm)

theorem keeps_quiet {K : VarKey → Prop} {k : VarKey} {v : Bytes} {w0 : World} {α : Type} {m : M α}
    (h : QuietM (fun _ => True) K m) (hk : ¬ K k) : Keeps (KeptOrFault k v w0) m :=
  fun w hw => hw.of_quiet (h w) hk

/-- C21: a variable the boot loader has set keeps its value, unless the firmware answers the read of
just this variable with an error. -/
theorem C21_not_overwritten_partial (env : Env) (w : World) (k : VarKey) (v : Bytes)
    (hk : k ∈ loaderOwned) (hv : w.vars k = some v) :
    (exportEfiVariables env w).2.vars k = some v ∨
    ∃ evs st, (exportEfiVariables env w).2.trace = w.trace ++ evs ∧ st ≠ .bufferTooSmall ∧
      .readVar k (.err st) ∈ evs := by
  have hstub : ∀ n, n ∈ ["StubInfo", "StubFeatures"] → ¬ (k = loaderVar n) := by
    intro n hn hc
    rw [hc] at hk
    have hd : ∀ m ∈ ["StubInfo", "StubFeatures"], loaderVar m ∉ loaderOwned := by decide
    exact hd n hn hk
  have hkeep : Keeps (KeptOrFault k v w) (exportEfiVariables env) := by
    unfold exportEfiVariables
    refine Keeps.bind (keeps_quiet QuietM.openLoadedImage (K := fun _ => False) (by simp)) fun _ => ?_
    refine Keeps.bind (Keeps.result (keeps_ensure
      QuietM.partUuidBytes)) fun _ => ?_
    refine Keeps.bind (Keeps.result (keeps_ensure QuietM.imageIdentifier)) fun _ => ?_
    refine Keeps.bind (Keeps.result (keeps_ensure (QuietM.pure _))) fun _ => ?_
    refine Keeps.bind (Keeps.result (keeps_ensure (QuietM.pure _))) fun _ => ?_
    refine Keeps.bind (Keeps.result (keeps_quiet
      (QuietM.setVariable (K := fun x => x = loaderVar "StubInfo") (fun _ => trivial) rfl)
      (hstub _ (by simp)))) fun _ => ?_
    exact Keeps.bind (Keeps.result (keeps_quiet
      (QuietM.setVariable (K := fun x => x = loaderVar "StubFeatures") (fun _ => trivial) rfl)
      (hstub _ (by simp)))) fun _ => Keeps.pure _
  obtain ⟨evs, ht, h⟩ := hkeep w ⟨[], by simp, Or.inl hv⟩
  rcases h with h | ⟨st, h1, h2⟩
  · exact Or.inl h
  · exact Or.inr ⟨evs, st, ht, h1, h2⟩

/-- C21: no variable but the six exported ones changes. -/
theorem C21_only_exported (env : Env) (w : World) (k : VarKey)
    (hk : k ∉ loaderOwned ++ [loaderVar "StubInfo", loaderVar "StubFeatures"]) :
    (exportEfiVariables env w).2.vars k = w.vars k := by
  have h := QuietM.exportEfiVariables (env := env) (P := fun _ => True)
    (K := fun k => k ∈ QuietM.exported) (fun _ _ => trivial) (fun _ _ _ _ => trivial)
    (fun _ h => h) w
  exact h.vars k hk

/-! The full behaviour on firmware that does not fail. -/

/-- A fallback value that does not depend on the world. -/
def Computes (f : M Bytes) (v : Option Bytes) : Prop :=
  ∀ w, ∃ t st, f w = (match v with | some b => .ok b | none => .err st, { w with tick := t })

theorem lookup_none {vars : Vars} {k : VarKey} {n : Nat} :
    lookup vars k n = .err .notFound ↔ vars k = none := by
  unfold lookup
  cases vars k with
  | none => simp
  | some d => by_cases h : d.length > n <;> simp [h]

/-- Store a value where there is none. -/
def fill (vars : Vars) (key : VarKey) (v : Option Bytes) : Vars :=
  if vars key = none then (match v with | some b => store vars key b | none => vars) else vars

/-- `ensure_efi_variable` on working firmware: an existing variable stays, a missing one gets the
value. -/
theorem ensureVariable_works (env : Env) (key : VarKey) (att : Attributes) (f : M Bytes) (v : Option Bytes) (w : World)
    (hf : Computes f v) (hget : ∀ t, env.getFault t = none) (hset : ∀ t, env.setFault t = none) :
    (ensureVariable env key att f w).1 ≠ .panic ∧
    (ensureVariable env key att f w).2.vars = fill w.vars key v := by
  unfold fill
  obtain ⟨r, b, e, hr, np, npb, hb⟩ := variableExists_run env key w
  rw [hget] at hr
  simp only at hr
  unfold ensureVariable
  rw [RM.bind_run, result_run _ _ (by rw [e]; exact npb), e]
  simp only
  by_cases hn : w.vars key = none
  · have hr' : r = .err .notFound := by rw [hr]; exact lookup_none.2 hn
    have hbt : b ≠ .ok true := by
      intro hc
      rcases hb.1 hc with ⟨d, h⟩ | h <;> rw [hr'] at h <;> simp at h
    rw [if_neg hbt, if_pos hn]
    obtain ⟨t, st, hfw⟩ := hf { w with tick := w.tick + 1, trace := w.trace ++ [.readVar key r] }
    rw [RM.bind_run, hfw]
    cases v with
    | none => exact ⟨by simp, by simp⟩
    | some b =>
      simp only
      obtain ⟨r', w', e', np', -, hv⟩ := setVariable_run env key att b
        { w with tick := t, trace := w.trace ++ [.readVar key r] }
      rw [e']
      refine ⟨np', ?_⟩
      simp only
      rw [hv, if_pos (hset _)]
  · have hbt : b = .ok true := by
      apply hb.2
      rw [hr]
      unfold lookup
      cases hk : w.vars key with
      | none => exact absurd hk hn
      | some d =>
        by_cases hd : d.length > 1
        · right; simp [hd]
        · left; exact ⟨d, by simp [hd]⟩
    rw [if_pos hbt, if_neg hn]
    exact ⟨by simp, rfl⟩

theorem bind_result_run {α β : Type} (m : M α) (f : Res Status α → M β) (w : World)
    (h : (m w).1 ≠ .panic) : (result m >>= f) w = f (m w).1 (m w).2 := by
  rw [RM.bind_run, result_run m w h]

/-- C21: on working firmware the four variables of the boot loader are filled in when missing, the
two variables of the stub are always set, everything else stays as it was. `uuid` and `path` are
the GUID of the partition and the text of the image's path, if they can be determined. -/
theorem C21_export_works (env : Env) (w : World) (uuid : Option Str) (path : Option Str16)
    (hopen : ∀ t, env.openLoadedImageFault t = none)
    (hget : ∀ t, env.getFault t = none) (hset : ∀ t, env.setFault t = none)
    (huuid : ∀ t, uuid = match env.devicePath t with
      | .ok nodes => (nodes.filter (·.hardDrive)).findSome? (·.guid)
      | .error _ => none)
    (huuid' : uuid ≠ some [])
    (hpath : ∀ t, path = match env.imagePath, env.imagePathText t with
      | some _, .ok s => some s
      | _, _ => none) :
    let vars' := (exportEfiVariables env w).2.vars
    let orElse := fun n (v : Option Bytes) => vars' (loaderVar n) = (w.vars (loaderVar n)).or v
    orElse "LoaderDevicePartUUID" (uuid.map utf16le) ∧
    orElse "LoaderImageIdentifier" (path.map fun s => leBytes16 (s ++ [0])) ∧
    orElse "LoaderFirmwareInfo" (some (utf16le (firmwareInfo env.firmwareVendor env.firmwareRevision))) ∧
    orElse "LoaderFirmwareType" (some (utf16le (lit "UEFI " ++ env.uefiRevision))) ∧
    vars' (loaderVar "StubInfo") = some (utf16le (lit "lanzastub 1.1.0")) ∧
    vars' (loaderVar "StubFeatures") = some [1, 0, 0, 0, 0, 0, 0, 0] := by
  have hfind : ∀ nodes : List DpNode, findPartUuid nodes =
      match (nodes.filter (·.hardDrive)).findSome? (·.guid) with
      | some g => .ok g
      | none => .err .unsupported := by
    intro nodes
    induction nodes with
    | nil => rfl
    | cons n rest ih =>
      unfold findPartUuid
      cases hh : n.hardDrive with
      | false => simp [hh, ih]
      | true =>
        cases hg : n.guid with
        | none => simp [hh, hg, ih]
        | some g => simp [hh, hg]
  have c1 : Computes (partUuidBytes env) (uuid.map utf16le) := by
    intro w
    have hu := huuid w.tick
    unfold partUuidBytes diskGetPartUuid
    simp only [RM.bind_run, next]
    cases hd : env.devicePath w.tick with
    | error st =>
      rw [hd] at hu
      simp only at hu
      rw [hu]
      exact ⟨w.tick + 1, st, rfl⟩
    | ok nodes =>
      rw [hd] at hu
      simp only at hu
      simp only [hfind, ← hu]
      cases uuid with
      | none => exact ⟨w.tick + 1, .unsupported, rfl⟩
      | some g => exact ⟨w.tick + 1, .unsupported, rfl⟩
  have c2 : Computes (imageIdentifier env) (path.map fun s => leBytes16 (s ++ [0])) := by
    intro w
    have hu := hpath w.tick
    unfold imageIdentifier
    simp only [RM.bind_run, next]
    cases h1 : env.imagePath with
    | none =>
      rw [h1] at hu
      simp only at hu
      rw [hu]
      exact ⟨w.tick + 1, .unsupported, rfl⟩
    | some p =>
      rw [h1] at hu
      cases h2 : env.imagePathText w.tick with
      | error st =>
        rw [h2] at hu
        simp only at hu
        rw [hu]
        exact ⟨w.tick + 1, st, rfl⟩
      | ok s =>
        rw [h2] at hu
        simp only at hu
        rw [hu]
        exact ⟨w.tick + 1, .unsupported, rfl⟩
  have c3 : ∀ b : Bytes, Computes (pure b) (some b) := fun b w => ⟨w.tick, .unsupported, rfl⟩
  have hfinal : (exportEfiVariables env w).2.vars =
      store (store (fill (fill (fill (fill w.vars
        (loaderVar "LoaderDevicePartUUID") (uuid.map utf16le))
        (loaderVar "LoaderImageIdentifier") (path.map fun s => leBytes16 (s ++ [0])))
        (loaderVar "LoaderFirmwareInfo") (some (utf16le (firmwareInfo env.firmwareVendor env.firmwareRevision))))
        (loaderVar "LoaderFirmwareType") (some (utf16le (lit "UEFI " ++ env.uefiRevision))))
        (loaderVar "StubInfo") (utf16le stubInfoName))
        (loaderVar "StubFeatures") (le64 1) := by
    have hol : openLoadedImage env w = (.ok w.loaded, { w with tick := w.tick + 1 }) := by
      unfold openLoadedImage
      simp only [RM.bind_run, next, hopen, failIf, RM.pure_run, RM.get_run]
    unfold exportEfiVariables
    rw [RM.bind_run, hol]
    simp only
    have e1 := ensureVariable_works env (loaderVar "LoaderDevicePartUUID") defaultAttributes _ _
      { w with tick := w.tick + 1 } c1 hget hset
    rw [bind_result_run _ _ _ e1.1]
    generalize hw1 : (ensureVariable env (loaderVar "LoaderDevicePartUUID") _ _ _).2 = w1 at e1 ⊢
    have e2 := ensureVariable_works env (loaderVar "LoaderImageIdentifier") defaultAttributes _ _ w1 c2 hget hset
    rw [bind_result_run _ _ _ e2.1]
    generalize hw2 : (ensureVariable env (loaderVar "LoaderImageIdentifier") _ _ _).2 = w2 at e2 ⊢
    have e3 := ensureVariable_works env (loaderVar "LoaderFirmwareInfo") defaultAttributes _ _ w2
      (c3 (utf16le (firmwareInfo env.firmwareVendor env.firmwareRevision))) hget hset
    rw [bind_result_run _ _ _ e3.1]
    generalize hw3 : (ensureVariable env (loaderVar "LoaderFirmwareInfo") _ _ _).2 = w3 at e3 ⊢
    have e4 := ensureVariable_works env (loaderVar "LoaderFirmwareType") defaultAttributes _ _ w3
      (c3 (utf16le (lit "UEFI " ++ env.uefiRevision))) hget hset
    rw [bind_result_run _ _ _ e4.1]
    generalize hw4 : (ensureVariable env (loaderVar "LoaderFirmwareType") _ _ _).2 = w4 at e4 ⊢
    obtain ⟨r5, w5, e5, np5, -, v5⟩ := setVariable_run env (loaderVar "StubInfo") defaultAttributes
      (utf16le stubInfoName) w4
    rw [bind_result_run _ _ _ (by rw [e5]; exact np5), e5]
    simp only
    obtain ⟨r6, w6, e6, np6, -, v6⟩ := setVariable_run env (loaderVar "StubFeatures") defaultAttributes (le64 1) w5
    rw [bind_result_run _ _ _ (by rw [e6]; exact np6), e6]
    simp only [RM.pure_run]
    rw [v6, if_pos (hset _), v5, if_pos (hset _), e4.2, e3.2, e2.2, e1.2]
  intro vars' orElse
  have hstore : ∀ (vs : Vars) (k k' : VarKey) (b : Bytes), k' ≠ k → store vs k b k' = vs k' := by
    intro vs k k' b h; unfold store; rw [if_neg h]
  have hfillne : ∀ (vs : Vars) (k k' : VarKey) (b : Option Bytes), k' ≠ k → fill vs k b k' = vs k' := by
    intro vs k k' b h
    unfold fill
    split
    · cases b with
      | none => rfl
      | some b => exact hstore _ _ _ _ h
    · rfl
  have hfill : ∀ (vs : Vars) (k : VarKey) (b : Option Bytes), b ≠ some [] →
      fill vs k b k = (vs k).or b := by
    intro vs k b h
    unfold fill
    cases hk : vs k with
    | none =>
      rw [if_pos rfl]
      cases b with
      | none => simp [hk]
      | some b =>
        have : b ≠ [] := fun hc => h (by rw [hc])
        simp [store, this]
    | some d => simp [hk]
  have hnil : ∀ (c : Char) (s : Str), utf16le (c :: s) ≠ [] := by
    intro c s
    unfold utf16le utf16 leBytes16
    rw [List.flatMap_cons]
    unfold utf16Char
    split <;> simp
  show _ ∧ _ ∧ _ ∧ _ ∧ _ ∧ _
  simp only [orElse, vars', hfinal]
  refine ⟨?_, ?_, ?_, ?_, ?_, ?_⟩
  · rw [hstore _ _ _ _ (by decide), hstore _ _ _ _ (by decide), hfillne _ _ _ _ (by decide),
      hfillne _ _ _ _ (by decide), hfillne _ _ _ _ (by decide), hfill]
    cases uuid with
    | none => simp
    | some g =>
      cases g with
      | nil => exact absurd rfl huuid'
      | cons c s => simpa using hnil c s
  · rw [hstore _ _ _ _ (by decide), hstore _ _ _ _ (by decide), hfillne _ _ _ _ (by decide),
      hfillne _ _ _ _ (by decide), hfill, hfillne _ _ _ _ (by decide)]
    cases path with
    | none => simp
    | some s => simp [leBytes16]
  · rw [hstore _ _ _ _ (by decide), hstore _ _ _ _ (by decide), hfillne _ _ _ _ (by decide),
      hfill, hfillne _ _ _ _ (by decide), hfillne _ _ _ _ (by decide)]
    intro hc
    have hc := Option.some.inj hc
    unfold firmwareInfo at hc
    cases hv : env.firmwareVendor with
    | nil => rw [hv] at hc; exact hnil _ _ hc
    | cons c s => rw [hv] at hc; exact hnil _ _ hc
  · rw [hstore _ _ _ _ (by decide), hstore _ _ _ _ (by decide), hfill, hfillne _ _ _ _ (by decide),
      hfillne _ _ _ _ (by decide), hfillne _ _ _ _ (by decide)]
    intro hc
    exact hnil _ _ (Option.some.inj hc)
  · rw [hstore _ _ _ _ (by decide)]
    unfold store
    have : utf16le stubInfoName ≠ [] := hnil 'l' (lit "anzastub 1.1.0")
    rw [if_pos rfl, if_neg this]
    rfl
  · have : le64 1 = [1, 0, 0, 0, 0, 0, 0, 0] := by decide
    rw [this]
    unfold store
    rw [if_pos rfl, if_neg (by decide)]

/-- C21, attempted writes: whenever the loaded image can be opened, StubInfo and StubFeatures are
written, whatever else fails. -/
theorem C21_stub_variables_attempted_partial (env : Env) (w : World) (hopen : env.openLoadedImageFault w.tick = none) :
    ∃ evs r r', (exportEfiVariables env w).2.trace = w.trace ++ evs ∧
      .writeVar (loaderVar "StubInfo") (utf16le (lit "lanzastub 1.1.0")) r ∈ evs ∧
      .writeVar (loaderVar "StubFeatures") [1, 0, 0, 0, 0, 0, 0, 0] r' ∈ evs := by
  have np : ∀ (key : VarKey) (att : Attributes) (f : M Bytes) (w : World), (∀ w, (f w).1 ≠ .panic) →
      (ensureVariable env key att f w).1 ≠ .panic := by
    intro key att f w hf
    obtain ⟨r, b, e, hr, np, npb, hb⟩ := variableExists_run env key w
    unfold ensureVariable
    rw [RM.bind_run, result_run _ _ (by rw [e]; exact npb), e]
    simp only
    split
    · simp
    · rw [RM.bind_run]
      have := hf { w with tick := w.tick + 1, trace := w.trace ++ [.readVar key r] }
      revert this
      generalize f _ = x
      obtain ⟨r1, w1⟩ := x
      intro this
      cases r1 with
      | panic => exact absurd rfl this
      | err e => simp
      | ok a =>
        obtain ⟨r', w', e', np', -, -⟩ := setVariable_run env key att a w1
        simp only [e']
        exact np'
  have tr : ∀ (key : VarKey) (att : Attributes) (f : M Bytes) (w : World), QuietM (fun _ => True) (fun _ => True) f →
      ∃ evs, (ensureVariable env key att f w).2.trace = w.trace ++ evs := by
    intro key att f w hf
    obtain ⟨evs, h, -⟩ := (QuietM.ensureVariable (P := fun _ => True) (K := fun _ => True)
      (env := env) (key := key) (fun _ => trivial) (fun _ _ => trivial) trivial hf w).trace
    exact ⟨evs, h⟩
  have n1 : ∀ w, (partUuidBytes env w).1 ≠ .panic := by
    intro w
    unfold partUuidBytes diskGetPartUuid
    simp only [RM.bind_run, next]
    cases env.devicePath w.tick with
    | error st => simp
    | ok nodes =>
      have : findPartUuid nodes ≠ .panic := by
        induction nodes with
        | nil => simp [findPartUuid]
        | cons n rest ih =>
          unfold findPartUuid
          split
          · split
            · simp
            · exact ih
          · exact ih
      cases hf : findPartUuid nodes with
      | panic => exact absurd hf this
      | ok g => simp [lift, hf]
      | err e => simp [lift, hf]
  have n2 : ∀ w, (imageIdentifier env w).1 ≠ .panic := by
    intro w
    unfold imageIdentifier
    simp only [RM.bind_run, next]
    cases env.imagePath with
    | none => simp
    | some p => cases env.imagePathText w.tick <;> simp
  have hol : openLoadedImage env w = (.ok w.loaded, { w with tick := w.tick + 1 }) := by
    unfold openLoadedImage
    simp only [RM.bind_run, next, hopen, failIf, RM.pure_run, RM.get_run]
  unfold exportEfiVariables
  rw [RM.bind_run, hol]
  simp only
  rw [bind_result_run _ _ _ (np _ _ _ _ n1)]
  obtain ⟨v1, t1⟩ := tr (loaderVar "LoaderDevicePartUUID") defaultAttributes _ { w with tick := w.tick + 1 }
    QuietM.partUuidBytes
  generalize (ensureVariable env (loaderVar "LoaderDevicePartUUID") _ _ _).2 = w1 at t1 ⊢
  rw [bind_result_run _ _ _ (np _ _ _ _ n2)]
  obtain ⟨v2, t2⟩ := tr (loaderVar "LoaderImageIdentifier") defaultAttributes _ w1 (QuietM.imageIdentifier (env := env))
  generalize (ensureVariable env (loaderVar "LoaderImageIdentifier") _ _ _).2 = w2 at t2 ⊢
  rw [bind_result_run _ _ _ (np _ _ _ _ (by simp))]
  obtain ⟨v3, t3⟩ := tr (loaderVar "LoaderFirmwareInfo") defaultAttributes _ w2 (QuietM.pure
    (utf16le (firmwareInfo env.firmwareVendor env.firmwareRevision)))
  generalize (ensureVariable env (loaderVar "LoaderFirmwareInfo") _ _ _).2 = w3 at t3 ⊢
  rw [bind_result_run _ _ _ (np _ _ _ _ (by simp))]
  obtain ⟨v4, t4⟩ := tr (loaderVar "LoaderFirmwareType") defaultAttributes _ w3 (QuietM.pure
    (utf16le (lit "UEFI " ++ env.uefiRevision)))
  generalize (ensureVariable env (loaderVar "LoaderFirmwareType") _ _ _).2 = w4 at t4 ⊢
  obtain ⟨r5, w5, e5, np5, t5, -⟩ := setVariable_run env (loaderVar "StubInfo") defaultAttributes
    (utf16le stubInfoName) w4
  rw [bind_result_run _ _ _ (by rw [e5]; exact np5), e5]
  simp only
  obtain ⟨r6, w6, e6, np6, t6, -⟩ := setVariable_run env (loaderVar "StubFeatures") defaultAttributes (le64 1) w5
  rw [bind_result_run _ _ _ (by rw [e6]; exact np6), e6]
  simp only [RM.pure_run]
  refine ⟨v1 ++ v2 ++ v3 ++ v4 ++
    [.writeVar (loaderVar "StubInfo") (utf16le stubInfoName) ⟨defaultAttributes, env.setFault w4.tick⟩] ++
    [.writeVar (loaderVar "StubFeatures") (le64 1) ⟨defaultAttributes, env.setFault w5.tick⟩],
    ⟨defaultAttributes, env.setFault w4.tick⟩, ⟨defaultAttributes, env.setFault w5.tick⟩, ?_, ?_, ?_⟩
  · rw [t6, t5, t4, t3, t2, t1]; simp
  · simp [stubInfoName]
  · have : le64 1 = [1, 0, 0, 0, 0, 0, 0, 0] := by decide
    rw [this]; simp

/-! ## C22 -/

/-- What LoaderFirmwareInfo has to say about the revision. -/
def revisionText (revision : UInt32) : Str :=
  toDec (revision.toNat / 65536) ++ lit "." ++
    (if revision.toNat % 65536 < 10 then lit "0" ++ toDec (revision.toNat % 65536)
     else toDec (revision.toNat % 65536))

theorem and_mask (n : Nat) : n &&& 0xFFFFF = n % 2 ^ 20 := Nat.and_two_pow_sub_one_eq_mod n 20

/-- C22: the revision is reported correctly exactly if its bits 16 to 19 are zero. In particular
"2.80" (0x0002_0050) is not. -/
theorem C22_firmware_revision_partial (vendor : Str) (revision : UInt32) :
    firmwareInfo vendor revision = vendor ++ lit " " ++ revisionText revision ↔
      revision.toNat / 65536 % 16 = 0 := by
  unfold firmwareInfo revisionText toDec2
  rw [and_mask, Nat.shiftRight_eq_div_pow]
  have h16 : (2 ^ 16 : Nat) = 65536 := by decide
  have h20 : (2 ^ 20 : Nat) = 1048576 := by decide
  rw [h16, h20]
  generalize hr : revision.toNat = r
  have hmod : r % 1048576 = r % 65536 + 65536 * (r / 65536 % 16) := by omega
  constructor
  · intro h
    simp only [List.append_assoc, List.append_cancel_left_eq] at h
    by_cases hz : r / 65536 % 16 = 0
    · exact hz
    · have hbig : ¬ r % 1048576 < 10 := by omega
      rw [if_neg hbig] at h
      have hinj : r % 1048576 = r % 65536 := by
        by_cases hs : r % 65536 < 10
        · rw [if_pos hs] at h
          have hd := congrArg digits h
          rw [digits_toDec] at hd
          have : digits (lit "0" ++ toDec (r % 65536)) = some (r % 65536) := by
            have h0 : digits (lit "0" ++ toDec (r % 65536)) = digitsFrom 0 (toDec (r % 65536)) := by
              rfl
            rw [h0, digitsFrom_toDec]
          rw [this] at hd
          exact Option.some.inj hd
        · rw [if_neg hs] at h
          exact toDec_injective h
      omega
  · intro h
    have : r % 1048576 = r % 65536 := by omega
    rw [this]
    simp only [List.append_assoc]
    rfl

/-- C22 is false as stated: firmware revision 2.80 is reported as "2.131152". -/
theorem C22_firmware_revision_wrong :
    firmwareInfo (lit "EDK II") 0x00020050 = lit "EDK II 2.131152" ∧
    firmwareInfo (lit "EDK II") 0x00020050 ≠ lit "EDK II" ++ lit " " ++ revisionText 0x00020050 := by
  constructor
  · simp [firmwareInfo, toDec2, lit, toDec, digitChar]
  · intro h
    exact absurd ((C22_firmware_revision_partial _ _).1 h) (by decide)

/-- The machine of the sample, but the fourth access to a variable fails with NOT_FOUND. -/
def Sample.forgetful : Env :=
  { Sample.env true .success with getFault := fun t => if t = 4 then some .notFound else none }

/-- A variable store in which the boot loader has set the identifier of its image. -/
def Sample.withIdentifier : World := { Sample.start none none with
  vars := fun k => if k = loaderVar "LoaderImageIdentifier" then some [1, 0, 0, 0] else none }

/-- C21 fails if the firmware answers NOT_FOUND for a variable that exists: it is overwritten. This is
the only way, see `C21_not_overwritten_partial`. -/
theorem C21_overwritten_on_fault :
    loaderVar "LoaderImageIdentifier" ∈ loaderOwned ∧
    Sample.withIdentifier.vars (loaderVar "LoaderImageIdentifier") = some [1, 0, 0, 0] ∧
    (exportEfiVariables Sample.forgetful Sample.withIdentifier).2.vars
      (loaderVar "LoaderImageIdentifier") = some (cstr16ToBytes Sample.selfPath) := by
  decide +kernel

/-- The hypotheses of `C21_export_works` are met on the sample machine. -/
example : (∀ t, (Sample.env true .success).openLoadedImageFault t = none) ∧
    (∀ t, (Sample.env true .success).getFault t = none) ∧
    (∀ t, (Sample.env true .success).setFault t = none) ∧
    (exportEfiVariables (Sample.env true .success) Sample.withIdentifier).2.vars
      (loaderVar "LoaderImageIdentifier") = some [1, 0, 0, 0] ∧
    (exportEfiVariables (Sample.env true .success) Sample.withIdentifier).2.vars
      (loaderVar "LoaderDevicePartUUID") = some (utf16le (lit "0000-11")) :=
  ⟨fun _ => rfl, fun _ => rfl, fun _ => rfl, by decide +kernel⟩

end Verif.Stub
