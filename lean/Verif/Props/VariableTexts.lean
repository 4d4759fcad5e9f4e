import Verif.Spec.VariableTexts
import Verif.Props.Spelling
import Verif.Lemmas.SampleBoot
import Verif.Model.Stub
/-!
# C83: what the variables of the boot loader interface say
-/
namespace Verif.Stub
open Verif Verif.Companion Verif.Stub.Spec

/-! ## UTF-16 -/

theorem codeUnits_leBytes16 (us : List UInt16) : codeUnits (leBytes16 us) = some (us.map UInt16.toNat) := by
  induction us with
  | nil => rfl
  | cons u us ih =>
    have e : leBytes16 (u :: us) = UInt8.ofNat (u.toNat % 256) :: UInt8.ofNat (u.toNat / 256) :: leBytes16 us := rfl
    have hu : u.toNat < 65536 := u.toNat_lt
    rw [e, codeUnits, ih, Option.map_some, List.map_cons, UInt8.toNat_ofNat', UInt8.toNat_ofNat']
    congr 2
    omega

theorem scalarValues_utf16 (s : Str) : scalarValues ((utf16 s).map UInt16.toNat) = some (s.map Char.toNat) := by
  induction s with
  | nil => rfl
  | cons c s ih =>
    have e : utf16 (c :: s) = utf16Char c ++ utf16 s := rfl
    have hc := c.valid
    have hn : c.val.toNat = c.toNat := rfl
    rw [e]
    unfold utf16Char
    simp only [UInt32.isValidChar, Nat.isValidChar, hn] at hc
    split
    · next h =>
      have e1 : (UInt16.ofNat c.toNat).toNat = c.toNat := by rw [UInt16.toNat_ofNat']; omega
      rw [List.cons_append, List.nil_append, List.map_cons, e1, scalarValues.eq_def]
      dsimp only
      rw [if_pos (by omega), ih]
      rfl
    · next h =>
      have e1 : (UInt16.ofNat (0xD800 + (c.toNat - 0x10000) / 0x400)).toNat = 0xD800 + (c.toNat - 0x10000) / 0x400 := by
        rw [UInt16.toNat_ofNat']; omega
      have e2 : (UInt16.ofNat (0xDC00 + (c.toNat - 0x10000) % 0x400)).toNat = 0xDC00 + (c.toNat - 0x10000) % 0x400 := by
        rw [UInt16.toNat_ofNat']; omega
      rw [List.cons_append, List.cons_append, List.nil_append, List.map_cons, List.map_cons, e1, e2, scalarValues.eq_def]
      dsimp only
      rw [if_neg (by omega)]
      have e3 : 0x10000 + (0xD800 + (c.toNat - 0x10000) / 0x400 - 0xD800) * 0x400 +
          (0xDC00 + (c.toNat - 0x10000) % 0x400 - 0xDC00) = c.toNat := by omega
      rw [if_pos (by omega), ih, Option.map_some, List.map_cons, e3]

theorem utf16le_says (s : Str) : Utf16 (utf16le s) s := by
  unfold Utf16 utf16le
  rw [codeUnits_leBytes16]
  exact scalarValues_utf16 s

/-- C83: a text has at most one reading. -/
theorem C83_one_reading {d : Bytes} {s s' : Str} (h : Utf16 d s) (h' : Utf16 d s') : s = s' := by
  have e : s.map Char.toNat = s'.map Char.toNat := Option.some.inj (h.symm.trans h')
  exact (List.map_inj_right fun a b h => Char.ext (UInt32.toNat_inj.1 h)).1 e

/-! ## Runs -/

/-- The event is no false writing of a variable. -/
def Honest (env : Env) (e : Event) : Prop := ∀ k d how, e = .writeVar k d how →
  ∃ name, k = { vendor := .loader, name := name.toList } ∧ Says env name d

variable {env : Env} {α β : Type}

/-- All the computation writes is honest. -/
def Discloses (env : Env) (m : M α) : Prop :=
  ∀ w, ∃ evs, (m w).2.trace = w.trace ++ evs ∧ ∀ e ∈ evs, Honest env e

namespace Discloses

theorem quiet {m : M α} (h : ∀ w, (m w).2.trace = w.trace) : Discloses env m := fun w =>
  ⟨[], by simp [h w], by simp⟩

theorem pure' (a : α) : Discloses env (Pure.pure a : M α) := quiet fun _ => rfl
theorem throw' (e : Status) : Discloses env (RM.throw e : M α) := quiet fun _ => rfl
theorem panic' : Discloses env (RM.panic : M α) := quiet fun _ => rfl
theorem next' : Discloses env next := quiet fun _ => rfl
theorem get' : Discloses env (RM.get : M World) := quiet fun _ => rfl
theorem modify' {f : World → World} (h : ∀ w, (f w).trace = w.trace) : Discloses env (RM.modify f : M Unit) :=
  quiet fun w => h w
theorem lift' (r : Res Status α) : Discloses env (lift r : M α) := quiet fun w => by cases r <;> rfl

theorem bindW {m : M α} {f : α → M β} (hm : Discloses env m)
    (hf : ∀ w a w', m w = (.ok a, w') → Discloses env (f a)) : Discloses env (m >>= f) := by
  intro w
  obtain ⟨evs, h1, h2⟩ := hm w
  rw [RM.bind_run]
  rcases hr : m w with ⟨r, w'⟩
  rw [hr] at h1
  cases r with
  | ok a =>
    obtain ⟨evs', h3, h4⟩ := hf w a w' hr w'
    refine ⟨evs ++ evs', ?_, fun e he => ?_⟩
    · show (f a w').2.trace = _
      rw [h3, h1, List.append_assoc]
    · rcases List.mem_append.1 he with h | h
      · exact h2 e h
      · exact h4 e h
  | err e => exact ⟨evs, h1, h2⟩
  | panic => exact ⟨evs, h1, h2⟩

theorem bind' {m : M α} {f : α → M β} (hm : Discloses env m) (hf : ∀ a, Discloses env (f a)) : Discloses env (m >>= f) :=
  bindW hm fun _ a _ _ => hf a

theorem expect' {m : M α} (h : Discloses env m) : Discloses env (expect m) := by
  intro w
  obtain ⟨evs, h1, h2⟩ := h w
  refine ⟨evs, ?_, h2⟩
  rw [← h1]
  unfold expect
  rcases m w with ⟨_ | _ | _, w'⟩ <;> rfl

theorem result' {m : M α} (h : Discloses env m) : Discloses env (result m) := by
  intro w
  obtain ⟨evs, h1, h2⟩ := h w
  refine ⟨evs, ?_, h2⟩
  rw [← h1]
  unfold result
  rcases m w with ⟨_ | _ | _, w'⟩ <;> rfl

theorem emit' {e : Event} (h : ∀ k d how, e ≠ .writeVar k d how) : Discloses env (emit e) := fun w =>
  ⟨[e], rfl, fun e' he' k d how hk => by
    rw [List.mem_singleton] at he'
    exact absurd (he' ▸ hk) (h k d how)⟩

theorem expectSome' (o : Option α) : Discloses env (expectSome o) := by
  cases o with
  | none => exact panic'
  | some a => exact pure' a

theorem failIf' (o : Option Status) : Discloses env (failIf o) := by
  cases o with
  | none => exact pure' _
  | some a => exact throw' _

theorem openLoadedImage' : Discloses env (openLoadedImage env) :=
  bind' next' fun _ => bind' (failIf' _) fun _ => bind' get' fun _ => pure' _

theorem getVariable' (k : VarKey) (n : Nat) : Discloses env (getVariable env k n) := by
  refine bind' next' fun t => bind' get' fun w => bind' (emit' (by simp)) fun _ => ?_
  split
  · exact pure' _
  · exact throw' _
  · exact panic'

theorem setVariable' {name : String} {a : Attributes} {d : Bytes} (h : Says env name d) :
    Discloses env (setVariable env (loaderVar name) a d) := by
  refine bind' next' fun t => bind' (fun w => ⟨[_], rfl, fun e he k d' how hk => ?_⟩) fun _ => ?_
  · rw [List.mem_singleton] at he
    rw [he] at hk
    cases hk
    exact ⟨name, rfl, h⟩
  · split
    · exact throw' _
    · exact modify' fun _ => rfl

theorem setVariableIf' {c : Bool} {name : String} {a : Attributes} {d : Bytes} (h : Says env name d) :
    Discloses env (setVariableIf env c (loaderVar name) a d) := by
  unfold setVariableIf
  split
  · exact setVariable' h
  · exact pure' _

theorem tpmAvailable' : Discloses env (tpmAvailable env) :=
  bind' next' fun _ => bind' (emit' (by simp)) fun _ => pure' _

theorem tpmLogEvent' (pcr : Nat) (d : Bytes) (s : Str) : Discloses env (tpmLogEvent env pcr d s) := by
  unfold tpmLogEvent
  split
  · exact throw' _
  refine bind' next' fun t => ?_
  split
  · split
    · exact bind' (emit' (by simp)) fun _ => throw' _
    · split
      · exact bind' (emit' (by simp)) fun _ => throw' _
      · exact emit' (by simp)
  · exact emit' (by simp)

theorem volumeNow' : Discloses env (volumeNow env) := bind' next' fun _ => pure' _

theorem readFile' (n : Str16) : Discloses env (readFile env n) :=
  bind' volumeNow' fun _ => bind' (emit' (by simp)) fun _ => pure' _

theorem getImageFileSystem' : Discloses env (getImageFileSystem env) := bind' next' fun _ => pure' _

theorem getSecureBootStatus' : Discloses env (getSecureBootStatus env) :=
  bind' (result' (getVariable' _ _)) fun _ => pure' _

theorem checkHash' (d e : Bytes) : Discloses env (checkHash env d e) := by
  unfold checkHash
  split
  · exact pure' _
  · exact throw' _

theorem loadFromPe' : Discloses env (loadFromPe env) :=
  bind' (lift' _) fun _ => bind' (lift' _) fun _ => bind' (lift' _) fun _ => bind' (lift' _) fun _ =>
  bind' (lift' _) fun _ => bind' (lift' _) fun _ => bind' getImageFileSystem' fun _ =>
  bind' (expectSome' _) fun _ => bind' (readFile' _) fun _ => bind' (expectSome' _) fun _ =>
  bind' (readFile' _) fun _ => bind' (expectSome' _) fun _ => bind' getSecureBootStatus' fun _ =>
  bind' (checkHash' _ _) fun _ => bind' (checkHash' _ _) fun _ => pure' _

theorem measureSections' (p : Parsed) (k i : Bytes) (us : List Uni) : Discloses env (measureSections env p k i us) := by
  induction us with
  | nil => exact pure' _
  | cons u us ih =>
    unfold measureSections
    refine bind' (lift' _) fun d => bind' ?_ fun _ => bind' ih fun _ => pure' _
    unfold measureNameAndData
    split
    · exact pure' _
    · exact bind' (result' (tpmLogEvent' _ _ _)) fun _ => bind' (result' (tpmLogEvent' _ _ _)) fun _ => pure' _

theorem measureImageIf' (tpm : Bool) (c : Components) : Discloses env (measureImageIf env tpm c) := by
  unfold measureImageIf
  split
  · refine bind' (result' ?_) fun _ => pure' _
    refine bind' (lift' _) fun p => bind' (measureSections' _ _ _ _) fun n => bind' (setVariableIf' (.pcrImage ?_)) fun _ => pure' _
    have : toDec pcrKernelImage = "11".toList := by decide +kernel
    rw [this]
    exact utf16le_says _
  · exact pure' _

theorem getLoaderFeatures' : Discloses env (getLoaderFeatures env) := by
  refine bind' (result' (getVariable' _ _)) fun r => ?_
  split
  · split
    · exact throw' _
    · split
      · exact pure' _
      · exact throw' _
  · split
    · exact throw' _
    · exact pure' _
  · exact panic'

theorem ensureVariable' {name : String} {a : Attributes} {fallback : M Bytes} (hf : Discloses env fallback)
    (h : ∀ w d w', fallback w = (.ok d, w') → Says env name d) :
    Discloses env (ensureVariable env (loaderVar name) a fallback) := by
  refine bind' (result' (bind' (result' (getVariable' _ _)) fun r => ?_)) fun r => ?_
  · split
    · exact pure' _
    · split
      · exact pure' _
      · split
        · exact pure' _
        · exact throw' _
    · exact panic'
  · split
    · exact pure' _
    · exact bindW hf fun w d w' hd => setVariable' (h w d w' hd)

theorem findPartUuid_spec {nodes : List DpNode} {g : Str} (h : findPartUuid nodes = .ok g) :
    (nodes.filter (·.hardDrive)).findSome? (·.guid) = some g := by
  induction nodes with
  | nil => cases h
  | cons n rest ih =>
    unfold findPartUuid at h
    by_cases hh : n.hardDrive = true
    · rw [if_pos hh] at h
      rw [List.filter_cons_of_pos hh, List.findSome?_cons]
      cases hg : n.guid with
      | none => rw [hg] at h; exact ih h
      | some g' => rw [hg] at h; cases h; rfl
    · rw [if_neg hh] at h
      rw [List.filter_cons_of_neg hh]
      exact ih h

theorem exportEfiVariables' : Discloses env (exportEfiVariables env) := by
  refine bind' openLoadedImage' fun _ => bind' (result' (ensureVariable' ?_ ?_)) fun _ =>
    bind' (result' (ensureVariable' ?_ ?_)) fun _ => bind' (result' (ensureVariable' (pure' _) ?_)) fun _ =>
    bind' (result' (ensureVariable' (pure' _) ?_)) fun _ =>
    bind' (result' (setVariable' (.stubInfo (utf16le_says _)))) fun _ =>
    bind' (result' (setVariable' ?_)) fun _ => pure' _
  · refine bind' (bind' next' fun t => ?_) fun _ => pure' _
    split
    · exact lift' _
    · exact throw' _
  · intro w d w' h
    simp only [partUuidBytes, diskGetPartUuid, RM.bind_run, next] at h
    cases hp : env.devicePath w.tick with
    | error e => simp [hp] at h
    | ok nodes =>
      rw [hp] at h
      dsimp only at h
      cases hf : findPartUuid nodes with
      | ok g =>
        rw [hf] at h
        simp only [lift, RM.pure_run, Prod.mk.injEq, Res.ok.injEq] at h
        exact .partUuid hp (findPartUuid_spec hf) (h.1 ▸ utf16le_says g)
      | err e => rw [hf] at h; simp [lift] at h
      | panic => rw [hf] at h; simp [lift] at h
  · refine bind' next' fun t => ?_
    split
    · exact throw' _
    · split
      · exact pure' _
      · exact throw' _
  · intro w d w' h
    simp only [imageIdentifier, RM.bind_run, next] at h
    cases hi : env.imagePath with
    | none => simp [hi] at h
    | some p =>
      rw [hi] at h
      dsimp only at h
      cases ht : env.imagePathText w.tick with
      | error e => simp [ht] at h
      | ok s =>
        rw [ht] at h
        simp only [RM.pure_run, Prod.mk.injEq, Res.ok.injEq] at h
        exact .identifier ht h.1.symm
  · intro w d w' h
    simp only [RM.pure_run, Prod.mk.injEq, Res.ok.injEq] at h
    refine .firmwareInfo ?_
    rw [← h.1]
    have e : firmwareInfo env.firmwareVendor env.firmwareRevision = env.firmwareVendor ++ [' '] ++
      Nat.toDigits 10 (env.firmwareRevision.toNat / 2 ^ 16) ++ ['.'] ++
      twoDigits (env.firmwareRevision.toNat % 2 ^ 20) := by
      have e1 : ∀ n, toDec n = Nat.toDigits 10 n := fun n => Spelling.toDec_eq_decimal n
      have e2 : env.firmwareRevision.toNat &&& 0xFFFFF = env.firmwareRevision.toNat % 2 ^ 20 :=
        Nat.and_two_pow_sub_one_eq_mod _ 20
      unfold firmwareInfo toDec2 twoDigits
      rw [e2, Nat.shiftRight_eq_div_pow]
      simp only [e1]
      rfl
    rw [e]
    exact utf16le_says _
  · intro w d w' h
    simp only [RM.pure_run, Prod.mk.injEq, Res.ok.injEq] at h
    exact .firmwareType (h.1 ▸ utf16le_says _)
  · have : le64 1 = [1, 0, 0, 0, 0, 0, 0, 0] := by decide
    rw [this]
    exact .stubFeatures

theorem liftCompanion' (r : Res Companion.Status α) (d : α) : Discloses env (liftCompanion r d) :=
  quiet fun w => by cases r <;> rfl

theorem discoverCompanions' : Discloses env (discoverCompanions env) := by
  refine bind' volumeNow' fun _ => bind' ?_ fun d => bind' volumeNow' fun _ => bind' (liftCompanion' _ _) fun _ => ?_
  · unfold dropinDirectory
    split
    · exact pure' _
    · exact liftCompanion' _ _
  · split
    · exact pure' _
    · exact bind' volumeNow' fun _ => bind' (liftCompanion' _ _) fun _ => pure' _

theorem measureCompanionLoop' (cs : List Companion) : Discloses env (measureCompanionLoop env cs) := by
  induction cs with
  | nil => exact pure' _
  | cons c cs ih =>
    refine bind' ?_ fun _ => bind' ih fun _ => pure' _
    unfold measureCompanion
    split
    · exact pure' _
    · exact bind' (result' (tpmLogEvent' _ _ _)) fun _ => pure' _

theorem companionBlock' (tpm : Bool) : Discloses env (companionBlock env tpm) := by
  refine bind' getImageFileSystem' fun fs => ?_
  split
  · exact pure' _
  refine bind' discoverCompanions' fun cs => bind' ?_ fun _ => pure' _
  unfold measureCompanionsIf
  split
  · refine bind' (result' (bind' (measureCompanionLoop' _) fun r => bind' (setVariableIf' ?_) fun _ =>
      bind' (setVariableIf' ?_) fun _ => pure' _)) fun _ => pure' _
    · have : le32 pcrKernelConfig = [12, 0, 0, 0] := by decide
      rw [this]; exact .pcrParameters
    · have : le32 pcrSysexts = [13, 0, 0, 0] := by decide
      rw [this]; exact .pcrSysexts
  · exact pure' _

theorem getCmdline' (e : Str16) : Discloses env (getCmdline env e) := by
  refine bind' getSecureBootStatus' fun sb => ?_
  split
  · exact pure' _
  refine bind' (bind' (result' openLoadedImage') fun r => ?_) fun o => ?_
  · split <;> exact pure' _
  split
  · exact pure' _
  split
  · exact pure' _
  refine bind' (result' (tpmLogEvent' _ _ _)) fun r => ?_
  split <;> exact pure' _

theorem loadSections' (b l : Nat) (f : Bytes) (ss : List Section) : Discloses env (loadSections b l f ss) := by
  induction ss with
  | nil => exact pure' _
  | cons s ss ih =>
    refine bind' ?_ fun _ => ih
    unfold loadSection copyInto
    dsimp only
    repeat' split
    all_goals first | exact throw' _ | exact panic' | exact pure' _ | exact modify' fun _ => rfl

theorem imageLoad' (f : Bytes) : Discloses env (Image.load env f) := by
  unfold Image.load
  split
  · exact throw' _
  next pe _ =>
  have rest : ∀ l, Discloses env (do
      let base ← allocatePages env (bytesToPages l)
      RM.modify fun w => { w with mem := writeMem w.mem base (List.replicate l 0) }
      loadSections base l f pe.sections
      if pe.hasRelocations then RM.throw .incompatibleVersion
      else if pe.entry.toNat ≥ l then RM.throw .loadError
      else pure { base := base, len := l, entry := pe.entry.toNat } : M Image) := by
    intro l
    refine bind' (bind' next' fun t => ?_) fun b => bind' (modify' fun _ => rfl) fun _ =>
      bind' (loadSections' _ _ _ _) fun _ => ?_
    · split
      · exact bind' (modify' fun _ => rfl) fun _ => pure' _
      · exact throw' _
    · split
      · exact throw' _
      · split
        · exact throw' _
        · exact pure' _
  dsimp only
  split
  · exact bind' (pure' _) rest
  · exact bind' (throw' _) rest
  · exact bind' panic' rest

theorem installProtocol' (p : Proto) : Discloses env (installProtocol env p) := by
  refine bind' next' fun t => ?_
  split
  · exact throw' _
  · exact modify' fun _ => rfl

theorem uninstallProtocol' (p : Proto) : Discloses env (uninstallProtocol env p) := by
  refine bind' next' fun t => ?_
  split
  · exact throw' _
  · exact modify' fun _ => rfl

theorem imageStart' (i : Image) (o : Bytes) : Discloses env (Image.start env i o) := by
  refine bind' (expect' openLoadedImage') fun ours => ?_
  split
  · exact panic'
  refine bind' (modify' fun _ => rfl) fun _ => bind' get' fun _ => bind' (emit' (by simp)) fun _ => bind' get' fun _ =>
    bind' (modify' fun _ => rfl) fun _ => bind' next' fun t => ?_
  split
  · exact panic'
  · exact bind' (modify' fun _ => rfl) fun _ => bind' (modify' fun _ => rfl) fun _ => pure' _

theorem bootLinux' (c : Components) (ds : List Bytes) : Discloses env (bootLinux env c ds) := by
  refine bind' (getCmdline' _) fun o => bind' (expect' (imageLoad' _)) fun i => bind' ?_ fun _ =>
    bind' (imageStart' _ _) fun st => bind' ?_ fun _ => ?_
  · exact bind' (installProtocol' _) fun _ => installProtocol' _
  · exact expect' (bind' (uninstallProtocol' _) fun _ => uninstallProtocol' _)
  · unfold statusToResult
    split
    · exact pure' _
    · exact throw' _

theorem main' : Discloses env (main env) :=
  bind' tpmAvailable' fun _ => bind' (expect' openLoadedImage') fun _ => bind' (expect' loadFromPe') fun _ =>
  bind' (measureImageIf' _ _) fun _ => bind' (result' getLoaderFeatures') fun _ =>
  bind' (result' exportEfiVariables') fun _ => bind' (companionBlock' _) fun _ => bootLinux' _ _

end Discloses

/-- **C83**. Whatever variable a run of the stub sets, and whatever fails, its value says what it should. -/
theorem C83_texts (env : Env) (w : World) : ∃ evs, (main env w).2.trace = w.trace ++ evs ∧
    ∀ k d how, .writeVar k d how ∈ evs →
      ∃ name, k = { vendor := .loader, name := name.toList } ∧ Says env name d := by
  obtain ⟨evs, h1, h2⟩ := Discloses.main' (env := env) w
  exact ⟨evs, h1, fun k d how hm => h2 _ hm k d how rfl⟩

/-- C83: not every number of a PCR can be read as a text. -/
theorem C83_finding_binary : ¬ Utf16 [12, 0, 0, 0] "12".toList ∧ ¬ Utf16 [13, 0, 0, 0] "13".toList := by
  unfold Utf16
  decide +kernel

/-- The reader on characters of one and two units. -/
example : Utf16 [0x6C, 0, 0x3D, 0xD8, 0x00, 0xDE] ['l', '😀'] ∧ ¬ ∃ s, Utf16 [0x3D, 0xD8] s := by
  unfold Utf16
  refine ⟨by decide +kernel, ?_⟩
  rintro ⟨s, h⟩
  have : (codeUnits [0x3D, 0xD8]).bind scalarValues = none := by decide +kernel
  rw [this] at h
  cases h

/-- Nine variables are set by the sample machine. -/
example : (main (Sample.env true .success) (Sample.start (some [1]) none)).2.trace.filterMap (fun e => match e with
    | .writeVar k _ _ => some k.name
    | _ => none) = [lit "StubPcrKernelImage", lit "LoaderDevicePartUUID", lit "LoaderImageIdentifier",
      lit "LoaderFirmwareInfo", lit "LoaderFirmwareType", lit "StubInfo", lit "StubFeatures",
      lit "StubPcrKernelParameters", lit "StubPcrInitRDSysExts"] := by decide +kernel

end Verif.Stub
