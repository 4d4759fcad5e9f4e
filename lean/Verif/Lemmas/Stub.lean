import Verif.Model.Stub
/-!
# Frame lemmas for the stub model: which function can emit which events and change which state
-/
namespace Verif.Stub
open Verif Verif.Companion

/-- From `w` to `w'` only events satisfying `P` were emitted, only variables satisfying `K` changed,
and the rest of the world is the same. -/
structure Quiet (P : Event → Prop) (K : VarKey → Prop) (w w' : World) : Prop where
  trace : ∃ evs, w'.trace = w.trace ++ evs ∧ ∀ e ∈ evs, P e
  vars : ∀ k, ¬ K k → w'.vars k = w.vars k
  mem : w'.mem = w.mem
  pages : w'.pages = w.pages
  loaded : w'.loaded = w.loaded
  protos : w'.protos = w.protos

namespace Quiet
variable {P P' : Event → Prop} {K K' : VarKey → Prop} {w w1 w2 : World}

theorem refl : Quiet P K w w := ⟨⟨[], by simp, by simp⟩, fun _ _ => rfl, rfl, rfl, rfl, rfl⟩

theorem trans (h1 : Quiet P K w w1) (h2 : Quiet P K w1 w2) : Quiet P K w w2 := by
  obtain ⟨e1, t1, p1⟩ := h1.trace
  obtain ⟨e2, t2, p2⟩ := h2.trace
  refine ⟨⟨e1 ++ e2, by rw [t2, t1, List.append_assoc], ?_⟩, ?_, ?_, ?_, ?_, ?_⟩
  · intro e he
    rcases List.mem_append.1 he with h | h
    · exact p1 e h
    · exact p2 e h
  · intro k hk; rw [h2.vars k hk, h1.vars k hk]
  · rw [h2.mem, h1.mem]
  · rw [h2.pages, h1.pages]
  · rw [h2.loaded, h1.loaded]
  · rw [h2.protos, h1.protos]

theorem mono (hP : ∀ e, P e → P' e) (hK : ∀ k, K k → K' k) (h : Quiet P K w w1) :
    Quiet P' K' w w1 := by
  obtain ⟨e1, t1, p1⟩ := h.trace
  exact ⟨⟨e1, t1, fun e he => hP e (p1 e he)⟩, fun k hk => h.vars k fun hc => hk (hK k hc),
    h.mem, h.pages, h.loaded, h.protos⟩

end Quiet

/-- `m` is quiet from every world. -/
def QuietM (P : Event → Prop) (K : VarKey → Prop) {α : Type} (m : M α) : Prop :=
  ∀ w, Quiet P K w (m w).2

namespace QuietM
variable {P : Event → Prop} {K : VarKey → Prop} {α β : Type}

theorem pure (a : α) : QuietM P K (Pure.pure a : M α) := fun _ => Quiet.refl
theorem throw (e : Status) : QuietM P K (RM.throw e : M α) := fun _ => Quiet.refl
theorem panic : QuietM P K (RM.panic : M α) := fun _ => Quiet.refl
theorem get : QuietM P K (RM.get : M World) := fun _ => Quiet.refl
theorem next : QuietM P K Stub.next := fun _ => ⟨⟨[], by simp [Stub.next], by simp⟩, fun _ _ => rfl, rfl, rfl, rfl, rfl⟩

theorem emit {e : Event} (h : P e) : QuietM P K (Stub.emit e) := fun _ =>
  ⟨⟨[e], rfl, by simpa using h⟩, fun _ _ => rfl, rfl, rfl, rfl, rfl⟩

theorem bind {m : M α} {f : α → M β} (hm : QuietM P K m) (hf : ∀ a, QuietM P K (f a)) :
    QuietM P K (m >>= f) := by
  intro w
  rw [RM.bind_run]
  have h := hm w
  rcases hmw : m w with ⟨r, w'⟩
  rw [hmw] at h
  cases r with
  | ok a => exact h.trans (hf a w')
  | err e => exact h
  | panic => exact h

theorem result {m : M α} (hm : QuietM P K m) : QuietM P K (Stub.result m) := by
  intro w
  have h := hm w
  unfold Stub.result
  rcases hmw : m w with ⟨r, w'⟩
  rw [hmw] at h
  cases r <;> exact h

theorem expect {m : M α} (hm : QuietM P K m) : QuietM P K (Stub.expect m) := by
  intro w
  have h := hm w
  unfold Stub.expect
  rcases hmw : m w with ⟨r, w'⟩
  rw [hmw] at h
  cases r <;> exact h

theorem lift (r : Res Status α) : QuietM P K (Stub.lift r) := by
  cases r
  · exact pure _
  · exact throw _
  · exact panic

theorem mono {P' : Event → Prop} {K' : VarKey → Prop} (hP : ∀ e, P e → P' e) (hK : ∀ k, K k → K' k)
    {m : M α} (h : QuietM P K m) : QuietM P' K' m := fun w => (h w).mono hP hK

theorem failIf (f : Option Status) : QuietM P K (Stub.failIf f) := by
  cases f
  · exact pure _
  · exact throw _

theorem getVariable {env : Env} {key : VarKey} {n : Nat} (h : ∀ r, P (.readVar key r)) :
    QuietM P K (Stub.getVariable env key n) := by
  unfold Stub.getVariable
  refine bind next fun t => bind get fun w => ?_
  refine bind (emit (h _)) fun _ => ?_
  split
  · exact pure _
  · exact throw _
  · exact panic

theorem setVariable {env : Env} {key : VarKey} {a : Attributes} {d : Bytes}
    (h : ∀ r, P (.writeVar key d ⟨a, r⟩)) (hk : K key) :
    QuietM P K (Stub.setVariable env key a d) := by
  unfold Stub.setVariable
  refine bind next fun t => bind (emit (h _)) fun _ => ?_
  split
  · exact throw _
  · intro w
    refine ⟨⟨[], by simp, by simp⟩, ?_, rfl, rfl, rfl, rfl⟩
    intro k hk'
    have : k ≠ key := fun hc => hk' (hc ▸ hk)
    simp [store, this]

theorem openLoadedImage {env : Env} : QuietM P K (Stub.openLoadedImage env) := by
  unfold Stub.openLoadedImage
  exact bind next fun t => bind (failIf _) fun _ => bind get fun w => pure _

theorem volumeNow {env : Env} : QuietM P K (Stub.volumeNow env) := bind next fun _ => pure _

theorem readFile {env : Env} {n : Str16} (h : ∀ r, P (.readFile n r)) :
    QuietM P K (Stub.readFile env n) := bind volumeNow fun _ => bind (emit (h _)) fun _ => pure _

theorem tpmAvailable {env : Env} (h : ∀ b, P (.probeTpm b)) : QuietM P K (Stub.tpmAvailable env) :=
  bind next fun _ => bind (emit (h _)) fun _ => pure _

theorem tpmLogEvent {env : Env} {pcr : Nat} {d : Bytes} {s : Str}
    (h : ∀ o, P (.measure pcr d s o)) : QuietM P K (Stub.tpmLogEvent env pcr d s) := by
  unfold Stub.tpmLogEvent
  split
  · exact throw _
  · refine bind next fun t => ?_
    split
    · split
      · exact bind (emit (h _)) fun _ => throw _
      · split
        · exact bind (emit (h _)) fun _ => throw _
        · exact emit (h _)
    · exact emit (h _)

theorem measureNameAndData {env : Env} {u : Uni} {o : Option Bytes}
    (h : ∀ d s o, P (.measure 11 d s o)) : QuietM P K (Stub.measureNameAndData env u o) := by
  cases o
  · exact pure _
  · exact bind (result (tpmLogEvent fun o => h _ _ _)) fun _ =>
      bind (result (tpmLogEvent fun o => h _ _ _)) fun _ => pure _

theorem measureSections {env : Env} {p : Parsed} {k i : Bytes} {us : List Uni}
    (h : ∀ d s o, P (.measure 11 d s o)) : QuietM P K (Stub.measureSections env p k i us) := by
  induction us with
  | nil => exact pure _
  | cons u rest ih =>
    unfold Stub.measureSections
    exact bind (lift _) fun sd => bind (measureNameAndData h) fun here => bind ih fun more => pure _

theorem setVariableIf {env : Env} {c : Bool} {key : VarKey} {a : Attributes} {d : Bytes}
    (h : ∀ r, P (.writeVar key d ⟨a, r⟩)) (hk : K key) :
    QuietM P K (Stub.setVariableIf env c key a d) := by
  cases c
  · exact pure _
  · exact setVariable h hk

theorem measureImage {env : Env} {k i : Bytes}
    (h : ∀ d s o, P (.measure 11 d s o))
    (hw : ∀ d r, P (.writeVar (loaderVar "StubPcrKernelImage") d ⟨6, r⟩))
    (hk : K (loaderVar "StubPcrKernelImage")) : QuietM P K (Stub.measureImage env k i) := by
  unfold Stub.measureImage
  exact bind (lift _) fun p => bind (measureSections h) fun n =>
    bind (setVariableIf (hw _) hk) fun _ => pure _

theorem measureCompanion {env : Env} {c : Companion}
    (h : ∀ p d s o, p = 12 ∨ p = 13 → P (.measure p d s o)) :
    QuietM P K (Stub.measureCompanion env c) := by
  unfold Stub.measureCompanion
  split
  · exact pure _
  · rename_i pcr desc hc
    refine bind (result (tpmLogEvent fun o => h _ _ _ _ ?_)) fun _ => pure _
    revert hc
    cases c.kind <;> simp [companionPcr, pcrKernelConfig, pcrSysexts] <;> omega

theorem measureCompanionLoop {env : Env} {cs : List Companion}
    (h : ∀ p d s o, p = 12 ∨ p = 13 → P (.measure p d s o)) :
    QuietM P K (Stub.measureCompanionLoop env cs) := by
  induction cs with
  | nil => exact pure _
  | cons c rest ih =>
    unfold Stub.measureCompanionLoop
    exact bind (measureCompanion h) fun here => bind ih fun more => pure _

theorem measureCompanions {env : Env} {cs : List Companion}
    (h : ∀ p d s o, p = 12 ∨ p = 13 → P (.measure p d s o))
    (hw : ∀ k d r, k = loaderVar "StubPcrKernelParameters" ∨ k = loaderVar "StubPcrInitRDSysExts" →
      P (.writeVar k d ⟨6, r⟩))
    (hk1 : K (loaderVar "StubPcrKernelParameters")) (hk2 : K (loaderVar "StubPcrInitRDSysExts")) :
    QuietM P K (Stub.measureCompanions env cs) := by
  unfold Stub.measureCompanions
  exact bind (measureCompanionLoop h) fun r =>
    bind (setVariableIf (fun r => hw _ _ r (Or.inl rfl)) hk1) fun _ =>
    bind (setVariableIf (fun r => hw _ _ r (Or.inr rfl)) hk2) fun _ => pure _

theorem getLoaderFeatures {env : Env} (h : ∀ k r, P (.readVar k r)) :
    QuietM P K (Stub.getLoaderFeatures env) := by
  unfold Stub.getLoaderFeatures
  refine bind (result (getVariable (h _))) fun r => ?_
  split
  · split
    · exact throw _
    · split
      · exact pure _
      · exact throw _
  · split
    · exact throw _
    · exact pure _
  · exact panic

theorem variableExists {env : Env} {key : VarKey} (h : ∀ r, P (.readVar key r)) :
    QuietM P K (Stub.variableExists env key) := by
  unfold Stub.variableExists
  refine bind (result (getVariable h)) fun r => ?_
  split
  · exact pure _
  · split
    · exact pure _
    · split
      · exact pure _
      · exact throw _
  · exact panic

theorem ensureVariable {env : Env} {key : VarKey} {a : Attributes} {f : M Bytes}
    (h : ∀ r, P (.readVar key r))
    (hw : ∀ d r, P (.writeVar key d ⟨a, r⟩)) (hk : K key) (hf : QuietM P K f) :
    QuietM P K (Stub.ensureVariable env key a f) := by
  unfold Stub.ensureVariable
  refine bind (result (variableExists h)) fun r => ?_
  split
  · exact pure _
  · exact bind hf fun v => setVariable (hw _) hk

theorem diskGetPartUuid {env : Env} : QuietM P K (Stub.diskGetPartUuid env) := by
  unfold Stub.diskGetPartUuid
  refine bind next fun t => ?_
  split
  · exact lift _
  · exact throw _

/-- The variables `export_efi_variables` may write. -/
def exported : List VarKey :=
  [loaderVar "LoaderDevicePartUUID", loaderVar "LoaderImageIdentifier",
   loaderVar "LoaderFirmwareInfo", loaderVar "LoaderFirmwareType", loaderVar "StubInfo",
   loaderVar "StubFeatures"]

theorem partUuidBytes {env : Env} : QuietM P K (Stub.partUuidBytes env) :=
  bind diskGetPartUuid fun _ => pure _

theorem imageIdentifier {env : Env} : QuietM P K (Stub.imageIdentifier env) := by
  unfold Stub.imageIdentifier
  refine bind next fun t => ?_
  split
  · exact throw _
  · split
    · exact pure _
    · exact throw _

theorem exportEfiVariables {env : Env} (h : ∀ k r, P (.readVar k r))
    (hw : ∀ k d r, k ∈ exported → P (.writeVar k d ⟨6, r⟩)) (hk : ∀ k ∈ exported, K k) :
    QuietM P K (Stub.exportEfiVariables env) := by
  unfold Stub.exportEfiVariables
  have m : ∀ {n}, n ∈ ["LoaderDevicePartUUID", "LoaderImageIdentifier", "LoaderFirmwareInfo",
      "LoaderFirmwareType", "StubInfo", "StubFeatures"] → loaderVar n ∈ exported := by
    intro n hn
    have : exported = ["LoaderDevicePartUUID", "LoaderImageIdentifier", "LoaderFirmwareInfo",
      "LoaderFirmwareType", "StubInfo", "StubFeatures"].map loaderVar := rfl
    rw [this]; exact List.mem_map_of_mem hn
  refine bind openLoadedImage fun _ => ?_
  refine bind (result (ensureVariable (h _) (fun d r => hw _ d r (m (by simp))) (hk _ (m (by simp)))
    partUuidBytes)) fun _ => ?_
  refine bind (result (ensureVariable (h _) (fun d r => hw _ d r (m (by simp))) (hk _ (m (by simp)))
    imageIdentifier)) fun _ => ?_
  refine bind (result (ensureVariable (h _) (fun d r => hw _ d r (m (by simp))) (hk _ (m (by simp)))
    (pure _))) fun _ => ?_
  refine bind (result (ensureVariable (h _) (fun d r => hw _ d r (m (by simp))) (hk _ (m (by simp)))
    (pure _))) fun _ => ?_
  refine bind (result (setVariable (fun r => hw _ _ r (m (by simp))) (hk _ (m (by simp))))) fun _ => ?_
  exact bind (result (setVariable (fun r => hw _ _ r (m (by simp))) (hk _ (m (by simp))))) fun _ =>
    pure _

theorem getSecureBootStatus {env : Env} (h : ∀ k r, P (.readVar k r)) :
    QuietM P K (Stub.getSecureBootStatus env) :=
  bind (result (getVariable (h _))) fun _ => pure _

theorem expectSome (o : Option α) : QuietM P K (Stub.expectSome o) := by
  cases o
  · exact panic
  · exact pure _

theorem checkHash {env : Env} {a b : Bytes} : QuietM P K (Stub.checkHash env a b) := by
  unfold Stub.checkHash
  split
  · exact pure _
  · exact throw _

theorem getImageFileSystem {env : Env} : QuietM P K (Stub.getImageFileSystem env) :=
  bind next fun _ => pure _

theorem loadFromPe {env : Env} (h : ∀ k r, P (.readVar k r)) (hf : ∀ n r, P (.readFile n r)) :
    QuietM P K (Stub.loadFromPe env) := by
  unfold Stub.loadFromPe
  refine bind (lift _) fun _ => bind (lift _) fun _ => bind (lift _) fun _ => bind (lift _) fun _ =>
    bind (lift _) fun _ => bind (lift _) fun _ => bind getImageFileSystem fun _ =>
    bind (expectSome _) fun _ => bind (readFile (hf _)) fun _ => bind (expectSome _) fun _ =>
    bind (readFile (hf _)) fun _ => bind (expectSome _) fun _ => bind (getSecureBootStatus h) fun _ =>
    bind checkHash fun _ => bind checkHash fun _ => pure _

theorem liftCompanion (r : Res Companion.Status α) (d : α) : QuietM P K (Stub.liftCompanion r d) := by
  cases r
  · exact pure _
  · exact pure _
  · exact panic

theorem dropinDirectory {env : Env} {fw : Fw} : QuietM P K (Stub.dropinDirectory env fw) := by
  unfold Stub.dropinDirectory
  split
  · exact pure _
  · exact liftCompanion _ _

theorem discoverCompanions {env : Env} : QuietM P K (Stub.discoverCompanions env) := by
  unfold Stub.discoverCompanions
  refine bind volumeNow fun _ => bind dropinDirectory fun d => bind volumeNow fun _ =>
    bind (liftCompanion _ _) fun c => ?_
  split
  · exact pure _
  · exact bind volumeNow fun _ => bind (liftCompanion _ _) fun _ => pure _

end QuietM

end Verif.Stub
