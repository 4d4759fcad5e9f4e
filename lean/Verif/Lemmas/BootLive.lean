import Verif.Lemmas.Boot
import Verif.Props.StubImage
import Verif.Props.Companion
import Verif.Props.Stub
/-!
# When the stub gets to start a kernel
-/
namespace Verif.Stub
open Verif Verif.Companion Spec

/-! ## No panics -/

/-- The operation never panics. -/
def NoPanic {α : Type} (m : M α) : Prop := ∀ w, (m w).1 ≠ .panic

namespace NoPanic
variable {α β : Type} {env : Env}

theorem pure (a : α) : NoPanic (Pure.pure a : M α) := fun _ => by simp
theorem throw (e : Status) : NoPanic (RM.throw e : M α) := fun _ => by simp

theorem bind {m : M α} {f : α → M β} (hm : NoPanic m) (hf : ∀ a, NoPanic (f a)) : NoPanic (m >>= f) := by
  intro w
  have := hm w
  rw [RM.bind_run]
  rcases h : m w with ⟨r, w'⟩
  rw [h] at this
  cases r with
  | ok a => exact hf a w'
  | err e => simp
  | panic => exact absurd rfl this

theorem result {m : M α} (hm : NoPanic m) : NoPanic (Stub.result m) := by
  intro w
  have := hm w
  unfold Stub.result
  rcases h : m w with ⟨r, w'⟩
  rw [h] at this
  cases r with
  | ok a => simp
  | err e => simp
  | panic => exact absurd rfl this

theorem next : NoPanic Stub.next := fun _ => by simp [Stub.next]
theorem emit (e : Event) : NoPanic (Stub.emit e) := fun _ => by simp [Stub.emit]
theorem get : NoPanic (RM.get : M World) := fun _ => by simp
theorem modify (f : World → World) : NoPanic (RM.modify f : M Unit) := fun _ => by simp

theorem failIf (f : Option Status) : NoPanic (Stub.failIf f) := by
  cases f with
  | none => exact pure ()
  | some st => exact throw st

theorem getVariable (key : VarKey) (n : Nat) : NoPanic (Stub.getVariable env key n) := by
  intro w
  obtain ⟨r, h, hr⟩ := getVariable_run env key n w
  rw [h]
  show r ≠ _
  rw [hr]
  split
  · simp
  · unfold lookup
    split
    · simp
    · split <;> simp

theorem setVariable (key : VarKey) (a : Attributes) (d : Bytes) :
    NoPanic (Stub.setVariable env key a d) := by
  unfold Stub.setVariable
  refine bind next fun t => bind (emit _) fun _ => ?_
  split
  · exact throw _
  · exact modify _

theorem openLoadedImage : NoPanic (Stub.openLoadedImage env) :=
  bind next fun _ => bind (failIf _) fun _ => bind get fun _ => pure _

theorem lift {r : Res Status α} (h : r ≠ .panic) : NoPanic (Stub.lift r) := by
  cases r with
  | ok a => exact pure a
  | err e => exact throw e
  | panic => exact absurd rfl h

theorem getLoaderFeatures : NoPanic (Stub.getLoaderFeatures env) := by
  unfold Stub.getLoaderFeatures
  intro w
  obtain ⟨r, h, -⟩ := getVariable_run env (loaderVar "LoaderFeatures") 8 w
  have hp := getVariable (env := env) (loaderVar "LoaderFeatures") 8 w
  rw [bind_result_run _ _ _ hp, h]
  rw [h] at hp
  cases r with
  | ok d =>
    dsimp only
    split
    · simp
    · split <;> simp
  | err st => dsimp only; split <;> simp
  | panic => exact absurd rfl hp

theorem variableExists (key : VarKey) : NoPanic (Stub.variableExists env key) := by
  unfold Stub.variableExists
  intro w
  obtain ⟨r, h, -⟩ := getVariable_run env key 1 w
  have hp := getVariable (env := env) key 1 w
  rw [bind_result_run _ _ _ hp, h]
  rw [h] at hp
  cases r with
  | ok d => simp
  | err st =>
    dsimp only
    split
    · simp
    · split <;> simp
  | panic => exact absurd rfl hp

theorem ensureVariable (key : VarKey) (a : Attributes) {f : M Bytes} (hf : NoPanic f) :
    NoPanic (Stub.ensureVariable env key a f) := by
  unfold Stub.ensureVariable
  refine bind (result (variableExists key)) fun r => ?_
  split
  · exact pure _
  · exact bind hf fun v => setVariable _ _ _

theorem findPartUuid (l : List DpNode) : Stub.findPartUuid l ≠ .panic := by
  induction l with
  | nil => simp [Stub.findPartUuid]
  | cons a l ih =>
    unfold Stub.findPartUuid
    split
    · split
      · simp
      · exact ih
    · exact ih

theorem partUuidBytes : NoPanic (Stub.partUuidBytes env) := by
  unfold Stub.partUuidBytes Stub.diskGetPartUuid
  refine bind (bind next fun t => ?_) fun g => pure _
  split
  · exact lift (findPartUuid _)
  · exact throw _

theorem imageIdentifier : NoPanic (Stub.imageIdentifier env) := by
  unfold Stub.imageIdentifier
  refine bind next fun t => ?_
  split
  · exact throw _
  · split
    · exact pure _
    · exact throw _

theorem exportEfiVariables : NoPanic (Stub.exportEfiVariables env) := by
  unfold Stub.exportEfiVariables
  exact bind openLoadedImage fun _ => bind (result (ensureVariable _ _ partUuidBytes)) fun _ =>
    bind (result (ensureVariable _ _ imageIdentifier)) fun _ =>
    bind (result (ensureVariable _ _ (pure _))) fun _ =>
    bind (result (ensureVariable _ _ (pure _))) fun _ =>
    bind (result (setVariable _ _ _)) fun _ => bind (result (setVariable _ _ _)) fun _ => pure _

theorem tpmLogEvent (pcr : Nat) (d : Bytes) (s : Str) : NoPanic (Stub.tpmLogEvent env pcr d s) := by
  unfold Stub.tpmLogEvent
  split
  · exact throw _
  · refine bind next fun t => ?_
    split
    · split
      · exact bind (emit _) fun _ => throw _
      · split
        · exact bind (emit _) fun _ => throw _
        · exact emit _
    · exact emit _

theorem measureNameAndData (u : Uni) (o : Option Bytes) : NoPanic (Stub.measureNameAndData env u o) := by
  cases o with
  | none => exact pure _
  | some d => exact bind (result (tpmLogEvent _ _ _)) fun _ => bind (result (tpmLogEvent _ _ _)) fun _ => pure _

theorem measureSections {p : Parsed} (hp : ∀ n, p.sectionData n ≠ .panic) (k i : Bytes) (us : List Uni) :
    NoPanic (Stub.measureSections env p k i us) := by
  induction us with
  | nil => exact pure _
  | cons u us ih =>
    unfold Stub.measureSections
    exact bind (lift (hp _)) fun _ => bind (measureNameAndData _ _) fun _ => bind ih fun _ => pure _

theorem setVariableIf (c : Bool) (key : VarKey) (a : Attributes) (d : Bytes) :
    NoPanic (Stub.setVariableIf env c key a d) := by
  unfold Stub.setVariableIf
  split
  · exact setVariable _ _ _
  · exact pure _

end NoPanic

/-- All sections of the image are inside it, as far as they come from the file. -/
def SectionsWithin (pe : PE) (len : Nat) : Prop :=
  ∀ s ∈ pe.sections, s.virtualAddress.toNat + min s.virtualSize.toNat s.sizeOfRawData.toNat ≤ len

theorem sectionData_noPanic {p : Parsed} (h : SectionsWithin p.pe p.data.length) (n : Str) :
    p.sectionData n ≠ .panic := by
  unfold Parsed.sectionData
  cases hf : p.pe.sections.find? (fun s => s.name == some n) with
  | none => simp
  | some s =>
    dsimp only
    have hb := h s (List.mem_of_find?_eq_some hf)
    unfold readSection slice
    dsimp only
    rw [if_pos ⟨by omega, hb⟩]
    simp

theorem measureImage_noPanic {env : Env} {pe : PE} (hp : env.parseOwn env.ownImage = some pe)
    (h : SectionsWithin pe env.ownImage.length) (k i : Bytes) : NoPanic (measureImage env k i) := by
  unfold measureImage
  have e : parseOwnImage env = .ok { data := env.ownImage, pe := pe } := by
    unfold parseOwnImage; rw [hp]
  rw [e]
  intro w
  rw [RM.bind_run]
  exact NoPanic.bind (NoPanic.measureSections
    (sectionData_noPanic (p := { data := env.ownImage, pe := pe }) h) _ _ _) (fun n =>
    NoPanic.bind (NoPanic.setVariableIf _ _ _ _) fun _ => NoPanic.pure _) w

/-! ## Loading the components -/

theorem utf8Decode_utf8 (s : Str) : utf8Decode (utf8 s) = some s := by
  unfold utf8Decode
  have : (utf8 s).toByteArray = s.utf8Encode := rfl
  rw [this, List.utf8Decode?_utf8Encode]
  simp

theorem toCString16_of {s : Str} (h : ∀ c ∈ s, 0 < c.toNat ∧ c.toNat < 0x10000) :
    toCString16 s = some (s.map fun c => UInt16.ofNat c.toNat) := by
  unfold toCString16
  rw [if_pos]
  refine List.all_eq_true.2 fun c hc => ?_
  have := h c hc
  simp only [Bool.and_eq_true, decide_eq_true_eq]
  omega

theorem firstWithin {pe : PE} {len : Nat} (h : SectionsWithin pe len) (n : Str) : FirstWithin pe len n :=
  fun pre s post e _ _ => h s (by rw [e]; simp)

theorem extractString_of {p : Parsed} {n : Str} {s : Str16} (hw : SectionsWithin p.pe p.data.length)
    (h : TextSection p.pe p.data n s) : extractString p n = .ok s := by
  obtain ⟨text, h1, h2, h3⟩ := h
  unfold extractString
  rw [(C53_memory_section p n _).2 ⟨h1, firstWithin hw n⟩]
  dsimp only
  rw [utf8Decode_utf8]
  dsimp only
  rw [toCString16_of h3, h2]

theorem extractHash_of {p : Parsed} {n : Str} {b : Bytes} (hw : SectionsWithin p.pe p.data.length)
    (h : SectionContents p.pe p.data n b) (hl : b.length = 32) : extractHash p n = .ok b := by
  unfold extractHash
  rw [(C53_memory_section p n _).2 ⟨h, firstWithin hw n⟩]
  dsimp only
  rw [if_pos hl]

/-- `load_from_pe` succeeds if everything is there. -/
theorem loadFromPe_of {env : Env} {pe : PE} {kname iname cmdline : Str16} {kernel initrd : Bytes}
    (hp : env.parseOwn env.ownImage = some pe) (hw : SectionsWithin pe env.ownImage.length)
    (hk : TextSection pe env.ownImage (lit ".linux") kname)
    (hi : TextSection pe env.ownImage (lit ".initrd") iname)
    (hc : TextSection pe env.ownImage (lit ".cmdline") cmdline)
    (hv : Verified env.sha pe env.ownImage kernel initrd)
    (hfs : ∀ t, ∃ fw, env.fs t = some fw ∧ fw.read kname = some kernel ∧ fw.read iname = some initrd)
    (w : World) : ∃ w', loadFromPe env w = (.ok ⟨kernel, initrd, cmdline⟩, w') := by
  have e0 : parseOwnImage env = .ok { data := env.ownImage, pe := pe } := by
    unfold parseOwnImage; rw [hp]
  have e1 := extractString_of (p := { data := env.ownImage, pe := pe }) hw hk
  have e2 := extractString_of (p := { data := env.ownImage, pe := pe }) hw hi
  have e3 := extractString_of (p := { data := env.ownImage, pe := pe }) hw hc
  have e4 := extractHash_of (p := { data := env.ownImage, pe := pe }) hw hv.kernel (env.sha.len _)
  have e5 := extractHash_of (p := { data := env.ownImage, pe := pe }) hw hv.initrd (env.sha.len _)
  obtain ⟨fw, h1, -⟩ := hfs w.tick
  obtain ⟨fw1, h2, h2', -⟩ := hfs (w.tick + 1)
  obtain ⟨fw2, h3, -, h3'⟩ := hfs (w.tick + 1 + 1)
  unfold loadFromPe
  simp only [RM.bind_run, e0, lift, RM.pure_run, e1, e2, e3, e4, e5, getImageFileSystem, next, h1,
    expectSome, readFile, volumeNow, emit, h2, h3, Option.getD_some, h2', h3']
  obtain ⟨r, hr, -⟩ := getSecureBootStatus_run env { w with
    tick := w.tick + 1 + 1 + 1
    trace := w.trace ++ [.readFile kname (some kernel)] ++ [.readFile iname (some initrd)] }
  rw [hr]
  simp only [checkHash, if_true, RM.pure_run]
  exact ⟨_, rfl⟩

/-! ## Companions -/

theorem baseName_append {dir name : Str16} (h : sep16 ∉ name) :
    baseName (dir ++ [sep16] ++ name) = name := by
  unfold baseName
  rw [List.reverse_append, List.reverse_append]
  have : ((name.reverse ++ ([sep16].reverse ++ dir.reverse)).takeWhile (· != sep16)) = name.reverse := by
    have hn : ∀ x ∈ name.reverse, (x != sep16) = true := by
      intro x hx
      simp only [bne_iff_ne, ne_eq]
      rintro rfl
      exact h (List.mem_reverse.1 hx)
    rw [List.takeWhile_append_of_pos hn]
    simp
  rw [this, List.reverse_reverse]

theorem findFiles_readable {fw : Fw} {dir suf : Str16} (h : ReadableDir fw dir) (hs : suf ≠ []) :
    findFiles fw dir suf ≠ .panic ∧ ∀ fs, findFiles fw dir suf = .ok fs → ∀ f ∈ fs,
      baseName f ≠ [] ∧ (∃ c, fw.read f = some c) ∧ (toUtf8 (baseName f)).length < 2 ^ 31 := by
  obtain ⟨es, h1, h2⟩ := h
  unfold findFiles
  rw [h1]
  dsimp only
  rw [findEntries_eq]
  split
  · simp
  · refine ⟨by simp, fun fs e f hf => ?_⟩
    rw [Res.ok.injEq] at e
    subst e
    obtain ⟨o, ho, hfo⟩ := List.mem_filterMap.1 hf
    cases o with
    | none => simp at hfo
    | some e =>
      simp only [Option.bind_some, Option.ite_none_right_eq_some, Option.some.injEq, Bool.and_eq_true] at hfo
      obtain ⟨⟨⟨hr, ha⟩, hsuf⟩, rfl⟩ := hfo
      obtain ⟨g1, g2, g3⟩ := h2 e ho hr
      rw [baseName_append g1]
      refine ⟨?_, Option.isSome_iff_exists.1 g3, ?_⟩
      · rintro he
        rw [he] at hsuf
        have := List.isSuffixOf_iff_suffix.1 hsuf
        exact hs (List.suffix_nil.1 this)
      · have hlen : ∀ l : Str16, (toUtf8 l).length ≤ 4 * l.length := by
          intro l
          induction l with
          | nil => simp [toUtf8]
          | cons a l ih =>
            have h4 : (String.utf8EncodeChar (Char.ofNat a.toNat)).length ≤ 4 := by
              rw [String.length_utf8EncodeChar]; exact Char.utf8Size_le_four _
            unfold toUtf8 at ih ⊢
            rw [List.flatMap_cons, List.length_append, List.length_cons]
            omega
        have := hlen e.name
        omega

theorem mapLoadError_noPanic {r : Res Cpio.Err Cpio.State} (h : r ≠ .panic) : mapLoadError r ≠ .panic := by
  cases r with
  | ok a => simp [mapLoadError]
  | err e => simp [mapLoadError]
  | panic => exact absurd rfl h

theorem res_bind_noPanic {ε α β : Type} {x : Res ε α} {f : α → Res ε β} (hx : x ≠ .panic)
    (hf : ∀ a, x = .ok a → f a ≠ .panic) : (x >>= f) ≠ .panic := by
  cases x with
  | ok a => exact hf a rfl
  | err e => simp [bind, Res.bind]
  | panic => exact absurd rfl hx

/-- Packing what was found in a readable directory. -/
theorem pack_noPanic {fw : Fw} {dir suf : Str16} {pfx : Bytes} {dm am : UInt32} {α : Type} {none_ : α}
    {some_ : Cpio.State → α} (h : ReadableDir fw dir) (hs : suf ≠ []) (hp : pfx.length < 2 ^ 31 - 1) :
    (do
      let files ← findFiles fw dir suf
      if files.isEmpty then return none_
      else do
        let cpio ← mapLoadError (packCpio fw files pfx dm am)
        return some_ cpio : Res Companion.Status α) ≠ .panic := by
  obtain ⟨h1, h2⟩ := findFiles_readable h hs
  refine res_bind_noPanic h1 fun files hf => ?_
  split
  · simp [pure]
  · exact res_bind_noPanic (mapLoadError_noPanic (companions_no_panic (h2 files hf) hp))
      fun cpio _ => by simp [pure]

theorem discoverCredentials_noPanic {fs : Nat → Option Fw} {ip : Option (Option Str16)}
    (h : CompanionsReadable fs ip) {t : Nat} {fw : Fw} (hfw : fs t = some fw) {dropin : Option Str16} (hd : ∀ d, dropin = some d → ReadableDir fw d) :
    discoverCredentials fw dropin ≠ .panic := by
  unfold discoverCredentials
  refine res_bind_noPanic ?_ fun g _ => ?_
  · unfold discoverGlobalCredentials
    obtain ⟨b, hb⟩ := h.credentials t fw hfw
    rw [show fw.tryExists globalCredDir = some b from hb]
    cases b with
    | false => simp
    | true =>
      dsimp only
      split
      · simp
      · simp
      · next hm => exact pack_noPanic (h.global t fw hfw hm) (by decide) (by decide)
  · cases dropin with
    | none => simp [pure]
    | some d => exact pack_noPanic (hd d rfl) (by decide) (by decide)

theorem discoverCompanions_live {env : Env} (h : CompanionsReadable env.fs env.imagePath) {t : Nat} {fw : Fw}
    (hfw : env.fs t = some fw) (w : World) : ∃ cs w', discoverCompanions env w = (.ok cs, w') := by
  obtain ⟨fw1, g1⟩ := h.stays t fw hfw w.tick
  obtain ⟨fw2, g2⟩ := h.stays t fw hfw (w.tick + 1)
  obtain ⟨fw3, g3⟩ := h.stays t fw hfw (w.tick + 1 + 1)
  have hnow : ∀ (w : World) (fw : Fw), env.fs w.tick = some fw →
      volumeNow env w = (.ok fw, { w with tick := w.tick + 1 }) := by
    intro w fw hf
    simp only [volumeNow, next, RM.bind_run, RM.pure_run, hf, Option.getD_some]
  have hl : ∀ {α : Type} (r : Res Companion.Status α) (d : α) (w : World), r ≠ .panic →
      ∃ a, liftCompanion r d w = (.ok a, w) ∧ (r = .ok a ∨ a = d) := by
    intro α r d w hr
    cases r with
    | ok a => exact ⟨a, rfl, Or.inl rfl⟩
    | err e => exact ⟨d, rfl, Or.inr rfl⟩
    | panic => exact absurd rfl hr
  have hdrop : ∀ w : World, ∃ o, dropinDirectory env fw1 w = (.ok o, w) ∧ ∀ d, o = some d →
      ∀ t' fw', env.fs t' = some fw' → ReadableDir fw' d := by
    intro w
    unfold dropinDirectory
    cases hip : env.imagePath with
    | none => exact ⟨none, rfl, by simp⟩
    | some p =>
      dsimp only
      have hnp : getDefaultDropinDirectory fw1 p ≠ .panic := by
        unfold getDefaultDropinDirectory
        cases p with
        | none => simp
        | some p => dsimp only; split <;> simp
      obtain ⟨a, e1, e2⟩ := hl (getDefaultDropinDirectory fw1 p) none w hnp
      refine ⟨a, e1, ?_⟩
      rintro d rfl
      rcases e2 with e2 | e2
      · unfold getDefaultDropinDirectory at e2
        cases p with
        | none => cases e2
        | some p =>
          dsimp only at e2
          split at e2
          · next hm =>
            simp only [Res.ok.injEq, Option.some.injEq] at e2
            subst e2
            exact h.own p hip _ _ g1 hm
          · simp at e2
      · cases e2
  obtain ⟨o, e1, ho⟩ := hdrop { w with tick := w.tick + 1 }
  obtain ⟨cr, e2, -⟩ := hl (discoverCredentials fw2 o) [] { w with tick := w.tick + 1 + 1 }
    (discoverCredentials_noPanic h g2 fun d hd => ho d hd _ _ g2)
  unfold discoverCompanions
  rw [RM.bind_run, hnow w fw1 g1]
  dsimp only
  rw [RM.bind_run, e1]
  dsimp only
  rw [RM.bind_run, hnow { w with tick := w.tick + 1 } fw2 g2]
  dsimp only
  rw [RM.bind_run, e2]
  dsimp only
  cases o with
  | none => exact ⟨cr, _, rfl⟩
  | some d =>
    obtain ⟨ex, e3, -⟩ := hl (discoverSystemExtensions fw3 d) [] { w with tick := w.tick + 1 + 1 + 1 }
      (pack_noPanic (ho d rfl _ _ g3) (by decide) (by decide))
    dsimp only
    rw [RM.bind_run, hnow { w with tick := w.tick + 1 + 1 } fw3 g3]
    dsimp only
    rw [RM.bind_run, e3]
    exact ⟨_, _, rfl⟩

theorem companionBlock_live {env : Env} (h : CompanionsReadable env.fs env.imagePath)
    (tpm : Bool) (w : World) : (companionBlock env tpm w).1 ≠ .panic := by
  unfold companionBlock
  simp only [RM.bind_run, getImageFileSystem, next, RM.pure_run]
  cases hfs : env.fs w.tick with
  | none => simp
  | some fw =>
    obtain ⟨cs, w', e⟩ := discoverCompanions_live h hfs { w with tick := w.tick + 1 }
    simp only [RM.bind_run]
    rw [e]
    simp only
    unfold measureCompanionsIf
    cases tpm with
    | false => simp
    | true =>
      obtain ⟨hnp, -⟩ := C13_companions_submitted env cs w'
      rw [if_pos rfl, bind_result_run _ _ _ hnp]
      simp

/-! ## Loading the kernel -/

theorem imageLength_ok {secs : List Section}
    (h : ∀ s ∈ secs, s.virtualAddress.toNat + s.virtualSize.toNat < 2 ^ 32) :
    ∃ n, imageLength secs = .ok n ∧ IsImageSize secs n := by
  rcases imageLength_spec secs with ⟨n, h1, h2, -⟩ | he
  · exact ⟨n, h1, h2⟩
  · exfalso
    have hu : u32Max = 2 ^ 32 - 1 := rfl
    induction secs with
    | nil => simp [imageLength] at he
    | cons s rest ih =>
      unfold imageLength at he
      have hs := h s List.mem_cons_self
      rw [if_pos (by omega)] at he
      cases hr : imageLength rest with
      | ok n => rw [hr] at he; simp at he
      | panic => rw [hr] at he; simp at he
      | err e =>
        rw [hr] at he
        simp only [Res.err.injEq] at he
        exact ih (fun t ht => h t (List.mem_cons_of_mem _ ht)) (by rw [hr, he])

theorem loadSections_ok {base len : Nat} {file : Bytes} {secs : List Section}
    (hlen : ∀ s ∈ secs, s.virtualAddress.toNat + s.virtualSize.toNat ≤ len)
    (hfile : ∀ s ∈ secs,
      s.pointerToRawData.toNat + min s.virtualSize.toNat s.sizeOfRawData.toNat ≤ file.length)
    (w : World) : ∃ w', loadSections base len file secs w = (.ok (), w') := by
  induction secs generalizing w with
  | nil => exact ⟨w, rfl⟩
  | cons s rest ih =>
    have h1 := hlen s List.mem_cons_self
    have h2 := hfile s List.mem_cons_self
    have hmax : usizeMax = 18446744073709551615 := by decide
    have hp := s.pointerToRawData.toNat_lt
    have hv := s.virtualAddress.toNat_lt
    have hs := s.virtualSize.toNat_lt
    have e : ∃ w', loadSection base len file s w = (.ok (), w') := by
      unfold loadSection
      rw [if_neg (by omega), if_neg (by omega), if_neg (by omega)]
      unfold slice
      rw [if_pos ⟨by omega, h2⟩]
      dsimp only
      unfold copyInto
      rw [if_pos ⟨by omega, by omega, by rw [List.length_take, List.length_drop]; omega⟩]
      exact ⟨_, rfl⟩
    obtain ⟨w1, e⟩ := e
    obtain ⟨w2, e2⟩ := ih (fun t ht => hlen t (List.mem_cons_of_mem _ ht))
      (fun t ht => hfile t (List.mem_cons_of_mem _ ht)) w1
    exact ⟨w2, by unfold loadSections; rw [RM.bind_run, e]; exact e2⟩

/-- C17, the other direction: a proper kernel is loaded, if there is memory for it. -/
theorem C17_load_accepts (env : Env) (file : Bytes) (pe : PE) (w : World)
    (hp : env.parseFile file = some pe) (hl : Loadable pe file)
    (hm : ∀ t n, ∃ base, env.allocate t n = .ok base) :
    ∃ img, (Image.load env file w).1 = .ok img := by
  obtain ⟨n, hn, hsize⟩ := imageLength_ok hl.memory
  obtain ⟨base, hb⟩ := hm w.tick (bytesToPages n)
  unfold Image.load
  simp only [hp, hn, RM.bind_run, RM.pure_run, allocatePages, next, hb, RM.modify_run]
  obtain ⟨w2, e⟩ := loadSections_ok (base := base) (w := { w with
    tick := w.tick + 1
    pages := w.pages ++ [(base, bytesToPages n)]
    mem := writeMem w.mem base (List.replicate n 0) }) hsize.1 hl.inFile
  rw [e]
  simp only [hl.noRelocations, Bool.false_eq_true, if_false]
  obtain ⟨s, hs, hent⟩ := hl.entry
  have := hsize.1 s hs
  rw [if_neg (by omega)]
  exact ⟨_, rfl⟩

/-- Non-vacuity of `C16_load_memory_safe`, `C17_load_contents` and `C17_load_accepts`: the sample's kernel is
loaded, from file offset 2 to image offset 4, the rest is zero. -/
example : (Sample.env true .success).parseFile Sample.kernelFile = some Sample.kernelHeader ∧
    Loadable Sample.kernelHeader Sample.kernelFile ∧
    (Image.load (Sample.env true .success) Sample.kernelFile (Sample.start none none)).1 =
      .ok { base := 0x1000, len := 10, entry := 5 } ∧
    readMem (Image.load (Sample.env true .success) Sample.kernelFile (Sample.start none none)).2.mem 0x1000 10 =
      [0, 0, 0, 0, 1, 2, 3, 0, 0, 0] := by
  refine ⟨by decide, ⟨by decide, by decide, rfl, by decide⟩, by decide +kernel, by decide +kernel⟩

/-! ## Getting to the kernel -/

theorem optionsOf_length (s : Str16) : (optionsOf s).length = 2 * (s.length + 1) := by
  unfold optionsOf
  rw [List.length_flatMap]
  have : ∀ l : Str16, (l.map fun (u : UInt16) => ([UInt8.ofNat (u.toNat % 256),
      UInt8.ofNat (u.toNat / 256)] : Bytes).length).sum = 2 * l.length := by
    intro l
    induction l with
    | nil => rfl
    | cons a l ih => rw [List.map_cons, List.sum_cons, ih, List.length_cons]; simp only [List.length_cons, List.length_nil]; omega
  rw [this]
  simp

/-- A stub with all its parts in place starts the kernel, whatever else goes wrong: the variables of the
boot loader interface, the TPM. -/
theorem starts_of {env : Env} {w : World} {pe kpe : PE} {kname iname cmdline : Str16}
    {kernel initrd : Bytes} (hh : Healthy env w)
    (hp : env.parseOwn env.ownImage = some pe) (hw : SectionsWithin pe env.ownImage.length)
    (hk : TextSection pe env.ownImage (lit ".linux") kname)
    (hi : TextSection pe env.ownImage (lit ".initrd") iname)
    (hc : TextSection pe env.ownImage (lit ".cmdline") cmdline)
    (hcl : cmdline.length < 2 ^ 31 - 1)
    (hv : Verified env.sha pe env.ownImage kernel initrd)
    (hfs : ∀ t, ∃ fw, env.fs t = some fw ∧ fw.read kname = some kernel ∧ fw.read iname = some initrd)
    (hkp : env.parseFile kernel = some kpe) (hl : Loadable kpe kernel) :
    ∃ s, Starts env w s := by
  have hload := loadFromPe_of hp hw hk hi hc hv hfs
  have hns : ¬ Stuck env := by
    rintro (⟨w, h⟩ | ⟨w, h⟩ | ⟨tpm, c, w, h⟩ | ⟨w, h⟩ | ⟨w, h⟩ | ⟨tpm, w, h⟩)
    · rw [expect_open_live w (hh.image _)] at h; simp at h
    · obtain ⟨w', e⟩ := hload w
      unfold expect at h
      rw [e] at h
      simp at h
    · have : NoPanic (measureImageIf env tpm c) := by
        unfold measureImageIf
        cases tpm with
        | false => exact NoPanic.pure _
        | true => exact NoPanic.bind (NoPanic.result (measureImage_noPanic hp hw _ _)) fun _ => NoPanic.pure _
      exact this w h
    · exact NoPanic.result NoPanic.getLoaderFeatures w h
    · exact NoPanic.result NoPanic.exportEfiVariables w h
    · exact companionBlock_live hh.companions tpm w h
  rcases main_shape' env w with ⟨-, -, h⟩ | ⟨w1, c, cs, pe', kname', iname', r, img, mid, comp, hready, hmain⟩
  · exact absurd h hns
  have hpe : pe' = pe := Option.some.inj (hready.parsed.symm.trans hp)
  subst hpe
  have hcmd : c.cmdline = cmdline := TextSection.unique hready.cmdline hc
  have hkn : kname' = kname := TextSection.unique hready.kernelName hk
  have hker : c.kernel = kernel := by
    obtain ⟨⟨t, fw, e1, e2⟩, -⟩ := hready.volume
    obtain ⟨fw', e3, e4, -⟩ := hfs t
    rw [e1, Option.some.injEq] at e3
    subst e3
    rw [hkn, e4, Option.some.injEq] at e2
    exact e2.symm
  obtain ⟨r2, cmd, w2, m, hgc, -, hq2, -, hcm⟩ := getCmdline_run env c.cmdline w1
  have hmain2 : main env w = bootLinuxUnchecked env c.kernel cmd
      (appendInitrds (padTo4 c.initrd) (cs.map fun c => c.cpio.buffer)) w2 := by
    rw [hmain, bootLinux, RM.bind_run, hgc]
  have hlen : cmd.length ≤ u32Max := by
    have hu : u32Max = 2 ^ 32 - 1 := rfl
    rcases hcm with ⟨e, -⟩ | ⟨-, -, e, -⟩
    · rw [e, hcmd, optionsOf_length]; omega
    · rw [hready.quiet.loaded] at e
      have := hh.options _ e
      omega
  have hnb : ¬ Blocked env c.kernel cmd := by
    rintro (⟨w, h⟩ | ⟨t, h⟩ | h | ⟨t, h⟩)
    · obtain ⟨img, e⟩ := C17_load_accepts env c.kernel kpe w (by rw [hker]; exact hkp)
        (by rw [hker]; exact hl) hh.memory
      exact h img e
    · exact h (hh.image t)
    · omega
    · exact h (hh.protocols t)
  rcases bootLinuxUnchecked_run' env c.kernel cmd
      (appendInitrds (padTo4 c.initrd) (cs.map fun c => c.cpio.buffer)) w2 with ⟨h, -⟩ | ⟨s, wk, -, ht, -⟩
  · exact absurd h hnb
  · obtain ⟨evs, hev, -⟩ := (hready.quiet.trans (hq2.mono (fun _ h => h) fun _ h => h.elim)).trace
    refine ⟨s, evs ++ [.start s], ?_, by simp⟩
    rw [hmain2, ht, hev, List.append_assoc]

end Verif.Stub
