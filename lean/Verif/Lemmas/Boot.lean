import Verif.Spec.Boot
import Verif.Props.EfiVars
import Verif.Props.PeLoader
import Verif.Lemmas.StubName
/-!
# How a run of `main` is put together
-/
namespace Verif.Stub
open Verif Verif.Companion Spec

theorem utf8_of_decode {b : Bytes} {s : Str} (h : utf8Decode b = some s) : b = utf8 s := by
  unfold utf8Decode at h
  have hsome : b.toByteArray.utf8Decode?.isSome := by
    cases hd : b.toByteArray.utf8Decode? with
    | none => rw [hd] at h; simp at h
    | some a => rfl
  have hv := ByteArray.isSome_utf8Decode?_iff.1 hsome
  obtain ⟨l, hl⟩ := hv
  have : b.toByteArray.utf8Decode? = some l.toArray := by rw [hl]; exact List.utf8Decode?_utf8Encode
  rw [this] at h
  simp at h
  subst h
  have h2 : b.toByteArray = (utf8 l).toByteArray := by rw [hl]; rfl
  have := congrArg (fun x => x.toList) h2
  have hd := congrArg ByteArray.data h2
  simp at hd
  exact hd

theorem toCString16_some {s : Str} {c : Str16} (h : toCString16 s = some c) :
    c = s.map (fun c => UInt16.ofNat c.toNat) ∧ ∀ c ∈ s, 0 < c.toNat ∧ c.toNat < 0x10000 := by
  unfold toCString16 at h
  split at h
  · rename_i hall
    refine ⟨(Option.some.inj h).symm, ?_⟩
    intro c hc
    have := List.all_eq_true.1 hall c hc
    simp only [Bool.and_eq_true, decide_eq_true_eq] at this
    omega
  · simp at h

theorem extractString_spec {p : Parsed} {n : Str} {s : Str16} (h : extractString p n = .ok s) :
    TextSection p.pe p.data n s := by
  unfold extractString at h
  cases hs : p.sectionData n with
  | panic => rw [hs] at h; simp at h
  | err e => rw [hs] at h; simp at h
  | ok o =>
    rw [hs] at h
    cases o with
    | none => simp at h
    | some data =>
      simp only at h
      cases hd : utf8Decode data with
      | none => rw [hd] at h; simp at h
      | some t =>
        rw [hd] at h
        simp only at h
        cases hc : toCString16 t with
        | none => rw [hc] at h; simp at h
        | some c =>
          rw [hc] at h
          simp only [Res.ok.injEq] at h
          subst h
          have hb := utf8_of_decode hd
          subst hb
          obtain ⟨h1, h2⟩ := toCString16_some hc
          exact ⟨t, sectionData_contents hs, h1, h2⟩

theorem extractHash_spec {p : Parsed} {n : Str} {b : Bytes} (h : extractHash p n = .ok b) :
    SectionContents p.pe p.data n b := by
  unfold extractHash at h
  cases hs : p.sectionData n with
  | panic => rw [hs] at h; simp at h
  | err e => rw [hs] at h; simp at h
  | ok o =>
    rw [hs] at h
    cases o with
    | none => simp at h
    | some data =>
      simp only at h
      split at h
      · simp only [Res.ok.injEq] at h
        subst h
        exact sectionData_contents hs
      · simp at h

/-- A bind either continues with the value of its first part or stops in its state. -/
theorem bind_cases {α β : Type} (m : M α) (f : α → M β) (w : World) :
    (∃ a w1, m w = (.ok a, w1) ∧ (m >>= f) w = f a w1) ∨
    (((m >>= f) w).2 = (m w).2 ∧ (∀ a, (m w).1 ≠ .ok a) ∧ (∀ b, ((m >>= f) w).1 ≠ .ok b) ∧
      ((m w).1 = .panic → ((m >>= f) w).1 = .panic) ∧
      (∀ e, (m w).1 = .err e → ((m >>= f) w).1 = .err e)) := by
  rw [RM.bind_run]
  rcases hm : m w with ⟨r, w'⟩
  cases r with
  | ok a => left; exact ⟨a, w', rfl, rfl⟩
  | err e => right; simp
  | panic => right; simp

/-- A successful bind is a successful first part and a successful rest. -/
theorem bind_ok {α β : Type} {m : M α} {f : α → M β} {w w' : World} {b : β}
    (h : (m >>= f) w = (.ok b, w')) : ∃ a w1, m w = (.ok a, w1) ∧ f a w1 = (.ok b, w') := by
  rcases bind_cases m f w with ⟨a, w1, h1, h2⟩ | ⟨-, -, h3, -⟩
  · exact ⟨a, w1, h1, h2 ▸ h⟩
  · exact absurd (congrArg Prod.fst h) (h3 b)

theorem lift_ok {α : Type} {r : Res Status α} {w w' : World} {a : α}
    (h : lift r w = (.ok a, w')) : r = .ok a ∧ w' = w := by
  cases r with
  | ok x => simp only [lift, RM.pure_run, Prod.mk.injEq, Res.ok.injEq] at h; exact ⟨by rw [h.1], h.2.symm⟩
  | err e => simp [lift] at h
  | panic => simp [lift] at h

theorem expectSome_ok {α : Type} {o : Option α} {w w' : World} {a : α}
    (h : expectSome o w = (.ok a, w')) : o = some a ∧ w' = w := by
  cases o with
  | some x =>
    simp only [expectSome, RM.pure_run, Prod.mk.injEq, Res.ok.injEq] at h
    exact ⟨by rw [h.1], h.2.symm⟩
  | none => simp [expectSome] at h

theorem expect_ok {α : Type} {m : M α} {w w' : World} {a : α} (h : expect m w = (.ok a, w')) :
    m w = (.ok a, w') := by
  unfold expect at h
  rcases hm : m w with ⟨r, w1⟩
  rw [hm] at h
  cases r <;> simp_all

theorem expect_cases {α : Type} (m : M α) (w : World) :
    expect m w = (.panic, (m w).2) ∨ ∃ a w', m w = (.ok a, w') ∧ expect m w = (.ok a, w') := by
  unfold expect
  rcases m w with ⟨r, w1⟩
  cases r with
  | ok a => exact Or.inr ⟨a, w1, rfl, rfl⟩
  | err e => exact Or.inl rfl
  | panic => exact Or.inl rfl

theorem result_cases {α : Type} (m : M α) (w : World) :
    (result m w).1 = .panic ∨ ∃ a, (result m w).1 = .ok a := by
  unfold result
  rcases m w with ⟨r, w1⟩
  cases r with
  | ok a => exact Or.inr ⟨_, rfl⟩
  | err e => exact Or.inr ⟨_, rfl⟩
  | panic => exact Or.inl rfl

theorem getSecureBootStatus_run (env : Env) (w : World) :
    ∃ r, getSecureBootStatus env w = (.ok (decodeSecureBoot r),
        { w with tick := w.tick + 1, trace := w.trace ++ [.readVar secureBootVar r] }) ∧
      r = (match env.getFault w.tick with
        | some st => .err st
        | none => lookup w.vars secureBootVar 1) := by
  obtain ⟨r, h, hr⟩ := getVariable_run env secureBootVar 1 w
  have hnp : r ≠ .panic := by
    rw [hr]
    split
    · simp
    · unfold lookup
      split
      · simp
      · split <;> simp
  refine ⟨r, ?_, hr⟩
  unfold getSecureBootStatus
  rw [RM.bind_run, result_run _ _ (by rw [h]; exact hnp), h]
  rfl

/-- C11: Secure Boot counts as off only if the firmware says so. -/
theorem decodeSecureBoot_false (r : Res Status Bytes) : decodeSecureBoot r = false ↔ SaysOff r := by
  unfold decodeSecureBoot SaysOff
  split
  · rename_i v
    by_cases h0 : v = 0
    · simp [h0]
    · by_cases h1 : v = 1 <;> simp [h0, h1]
  · rename_i d hd
    have : ∀ v, d ≠ [v] := fun v h => hd v (by rw [h])
    simp
    exact fun h => this 0 h
  · rename_i st
    by_cases h : st = .notFound <;> simp [h]
  · simp

/-! ## Loading the components -/

/-- What `load_from_pe` has found when it succeeds. -/
structure Fetched (env : Env) (w w' : World) (c : Components) (pe : PE) (kname iname : Str16)
    (r : Res Status Bytes) : Prop where
  parsed : env.parseOwn env.ownImage = some pe
  verified : Verified env.sha pe env.ownImage c.kernel c.initrd
  kernelName : TextSection pe env.ownImage (lit ".linux") kname
  initrdName : TextSection pe env.ownImage (lit ".initrd") iname
  cmdline : TextSection pe env.ownImage (lit ".cmdline") c.cmdline
  trace : w'.trace = w.trace ++ [.readFile kname (some c.kernel), .readFile iname (some c.initrd),
    .readVar secureBootVar r]
  volume : (∃ t fw, env.fs t = some fw ∧ fw.read kname = some c.kernel) ∧
    ∃ t fw, env.fs t = some fw ∧ fw.read iname = some c.initrd

theorem readFile_ok {env : Env} {n : Str16} {w w' : World} {r : Option Bytes}
    (h : readFile env n w = (.ok r, w')) :
    w'.trace = w.trace ++ [.readFile n r] ∧ ∀ d, r = some d → ∃ t fw, env.fs t = some fw ∧ fw.read n = some d := by
  simp only [readFile, volumeNow, next, emit, RM.bind_run, RM.pure_run, Prod.mk.injEq, Res.ok.injEq] at h
  obtain ⟨rfl, rfl⟩ := h
  refine ⟨rfl, fun d hd => ?_⟩
  cases hf : env.fs w.tick with
  | none => rw [hf] at hd; cases hd
  | some fw => rw [hf] at hd; exact ⟨_, fw, hf, hd⟩

theorem loadFromPe_ok {env : Env} {w w' : World} {c : Components}
    (h : loadFromPe env w = (.ok c, w')) :
    ∃ pe kname iname r, Fetched env w w' c pe kname iname r := by
  unfold loadFromPe at h
  obtain ⟨p, w1, h1, g1⟩ := bind_ok h
  obtain ⟨hp, rfl⟩ := lift_ok h1
  obtain ⟨kname, w1, h1, g2⟩ := bind_ok g1
  obtain ⟨hk, rfl⟩ := lift_ok h1
  obtain ⟨khash, w1, h1, g3⟩ := bind_ok g2
  obtain ⟨hkh, rfl⟩ := lift_ok h1
  obtain ⟨iname, w1, h1, g4⟩ := bind_ok g3
  obtain ⟨hi, rfl⟩ := lift_ok h1
  obtain ⟨ihash, w1, h1, g5⟩ := bind_ok g4
  obtain ⟨hih, rfl⟩ := lift_ok h1
  obtain ⟨cmd, w1, h1, g6⟩ := bind_ok g5
  obtain ⟨hc, rfl⟩ := lift_ok h1
  obtain ⟨fs, w1, hv, g7⟩ := bind_ok g6
  obtain ⟨fw, w2, h2, g8⟩ := bind_ok g7
  obtain ⟨hfs, rfl⟩ := expectSome_ok h2
  obtain ⟨k?, w3, h3, g9⟩ := bind_ok g8
  obtain ⟨kernel, w4, h4, g10⟩ := bind_ok g9
  obtain ⟨hkern, rfl⟩ := expectSome_ok h4
  obtain ⟨i?, w5, h5, g11⟩ := bind_ok g10
  obtain ⟨initrd, w6, h6, g12⟩ := bind_ok g11
  obtain ⟨hini, rfl⟩ := expectSome_ok h6
  obtain ⟨sb, w7, h7, g13⟩ := bind_ok g12
  obtain ⟨u, w8, h8, g14⟩ := bind_ok g13
  obtain ⟨u', w9, h9, g15⟩ := bind_ok g14
  simp only [RM.pure_run, Prod.mk.injEq, Res.ok.injEq] at g15
  obtain ⟨rfl, rfl⟩ := g15
  subst hkern hini hfs
  unfold parseOwnImage at hp
  cases hpe : env.parseOwn env.ownImage with
  | none => rw [hpe] at hp; simp at hp
  | some pe =>
    rw [hpe] at hp
    simp only [Res.ok.injEq] at hp
    subst hp
    obtain ⟨r, hr, -⟩ := getSecureBootStatus_run env w6
    rw [hr] at h7
    simp only [Prod.mk.injEq] at h7
    obtain ⟨-, rfl⟩ := h7
    have hcheck : ∀ {d e : Bytes} {a b : World} {u : Unit}, checkHash env d e a = (.ok u, b) →
        env.sha.hash d = e ∧ b = a := by
      intro d e a b u h
      unfold checkHash at h
      split at h
      · rename_i he
        simp only [RM.pure_run, Prod.mk.injEq] at h
        exact ⟨he, h.2.symm⟩
      · simp at h
    obtain ⟨hk1, rfl⟩ := hcheck h8
    obtain ⟨hi1, rfl⟩ := hcheck h9
    simp only [getImageFileSystem, next, RM.bind_run, RM.pure_run, Prod.mk.injEq, Res.ok.injEq] at hv
    obtain ⟨-, rfl⟩ := hv
    obtain ⟨hr3, hv3⟩ := readFile_ok h3
    obtain ⟨hr5, hv5⟩ := readFile_ok h5
    refine ⟨pe, kname, iname, r, hpe, ⟨?_, ?_⟩, extractString_spec hk, extractString_spec hi,
      extractString_spec hc, ?_, ?_⟩
    · rw [hk1]; exact extractHash_spec hkh
    · rw [hi1]; exact extractHash_spec hih
    · simp [hr3, hr5]
    · exact ⟨hv3 _ rfl, hv5 _ rfl⟩

/-! ## main up to the boot -/

/-- No kernel is started, and if a variable is written it is one of the stub's, with the attributes
boot service and runtime access. -/
def NoStart (e : Event) : Prop := (∀ s, e ≠ .start s) ∧
  ∀ k d h, e = .writeVar k d h → k ∈ stubVariables ∧ h.attributes = 6

/-- A variable the stub sets. -/
def LoaderKey (k : VarKey) : Prop := k ∈ stubVariables

/-- Nothing is measured and no StubPcr variable is written. -/
def Neutral (e : Event) : Prop :=
  (∃ k r, e = .readVar k r) ∨ ∃ k d r, e = .writeVar k d r ∧ k ∈ QuietM.exported

/-- What is known when `main` gets to `boot_linux`. -/
structure Ready (env : Env) (w w1 : World) (c : Components) (cs : List Companion) (pe : PE)
    (kname iname : Str16) (r : Res Status Bytes) (img mid comp : List Event) : Prop where
  parsed : env.parseOwn env.ownImage = some pe
  verified : Verified env.sha pe env.ownImage c.kernel c.initrd
  kernelName : TextSection pe env.ownImage (lit ".linux") kname
  initrdName : TextSection pe env.ownImage (lit ".initrd") iname
  cmdline : TextSection pe env.ownImage (lit ".cmdline") c.cmdline
  volume : (∃ t fw, env.fs t = some fw ∧ fw.read kname = some c.kernel) ∧
    ∃ t fw, env.fs t = some fw ∧ fw.read iname = some c.initrd
  quiet : Quiet NoStart LoaderKey w w1
  trace : w1.trace = w.trace ++ (.probeTpm (env.tpmOpens w.tick) :: .readFile kname (some c.kernel) ::
    .readFile iname (some c.initrd) :: .readVar secureBootVar r :: (img ++ (mid ++ comp)))
  image : if env.tpmOpens w.tick then ∃ wA, (measureImage env c.kernel c.initrd wA).1 ≠ .panic ∧
      (measureImage env c.kernel c.initrd wA).2.trace = wA.trace ++ img
    else img = []
  neutral : ∀ e ∈ mid, Neutral e
  found : (∃ t, env.fs t = none ∧ cs = []) ∨
    ∃ w2, (discoverCompanions env w2).1 = .ok cs
  companions : if env.tpmOpens w.tick then
      (cs = [] ∧ comp = []) ∨ ∃ wC, (measureCompanions env cs wC).2.trace = wC.trace ++ comp
    else comp = []

theorem quiet_measureImageIf {P : Event → Prop} {K : VarKey → Prop} {env : Env} {tpm : Bool}
    {c : Components} (h : QuietM P K (measureImage env c.kernel c.initrd)) :
    QuietM P K (measureImageIf env tpm c) := by
  unfold measureImageIf
  split
  · exact QuietM.bind (QuietM.result h) fun _ => QuietM.pure _
  · exact QuietM.pure _

theorem noStart_measure (p : Nat) (d : Bytes) (s : Str) (o : Measured) : NoStart (.measure p d s o) := by
  constructor <;> intros <;> simp_all
theorem noStart_readVar (k : VarKey) (r : Res Status Bytes) : NoStart (.readVar k r) := by
  constructor <;> intros <;> simp_all
theorem noStart_writeVar {k : VarKey} (hk : k ∈ stubVariables) (d : Bytes) (r : Option Status) :
    NoStart (.writeVar k d ⟨6, r⟩) := by
  refine ⟨fun s h => by simp at h, fun k' d' h e => ?_⟩
  cases e
  exact ⟨hk, rfl⟩
theorem noStart_readFile (n : Str16) (r : Option Bytes) : NoStart (.readFile n r) := by
  constructor <;> intros <;> simp_all
theorem noStart_probe (b : Bool) : NoStart (.probeTpm b) := by
  constructor <;> intros <;> simp_all

theorem exported_loader : ∀ k ∈ QuietM.exported, LoaderKey k := by
  unfold LoaderKey; decide

theorem measureImageIf_run (env : Env) (tpm : Bool) (c : Components) (w : World) :
    ((measureImageIf env tpm c w).1 = .panic) ∨
    ((measureImageIf env tpm c w).1 = .ok () ∧ ∃ img,
      (measureImageIf env tpm c w).2.trace = w.trace ++ img ∧
      if tpm then (measureImage env c.kernel c.initrd w).1 ≠ .panic ∧
        (measureImage env c.kernel c.initrd w).2.trace = w.trace ++ img
      else img = []) := by
  unfold measureImageIf
  cases tpm with
  | false => right; exact ⟨rfl, [], by simp, rfl⟩
  | true =>
    rw [if_pos rfl]
    by_cases hp : (measureImage env c.kernel c.initrd w).1 = .panic
    · left
      rw [RM.bind_run, result_panic _ _ hp]
    · right
      rw [bind_result_run _ _ _ hp]
      have hq := QuietM.measureImage (P := fun _ => True) (K := fun _ => True) (env := env)
        (k := c.kernel) (i := c.initrd) (fun _ _ _ => trivial) (fun _ _ => trivial) trivial w
      obtain ⟨img, ht, -⟩ := hq.trace
      exact ⟨rfl, img, ht, by rw [if_pos rfl]; exact ⟨hp, ht⟩⟩

/-- The code for companions never gives up with an error. -/
def NoErr {α : Type} (m : M α) : Prop := ∀ w e, (m w).1 ≠ .err e

theorem NoErr.pure {α : Type} (a : α) : NoErr (Pure.pure a : M α) := fun w e => by simp

theorem NoErr.bind {α β : Type} {m : M α} {k : α → M β} (hm : NoErr m) (hk : ∀ a, NoErr (k a)) :
    NoErr (m >>= k) := by
  intro w e
  rw [RM.bind_run]
  rcases h : m w with ⟨a | e' | _, w'⟩
  · exact hk a w' e
  · exact absurd (by rw [h]) (hm w e')
  · simp

theorem NoErr.liftCompanion {α : Type} (r : Res Companion.Status α) (d : α) : NoErr (Stub.liftCompanion r d) := by
  intro w e
  cases r <;> simp [Stub.liftCompanion]

theorem NoErr.volumeNow (env : Env) : NoErr (Stub.volumeNow env) := fun w e => by
  simp [Stub.volumeNow, next]

theorem discoverCompanions_noErr (env : Env) : NoErr (discoverCompanions env) := by
  unfold discoverCompanions
  refine .bind (.volumeNow env) fun fw => .bind ?_ fun o => .bind (.volumeNow env) fun fw =>
    .bind (.liftCompanion _ _) fun cr => ?_
  · unfold dropinDirectory
    split
    · exact .pure _
    · exact .liftCompanion _ _
  · split
    · exact .pure _
    · exact .bind (.volumeNow env) fun fw => .bind (.liftCompanion _ _) fun ex => .pure _

theorem companionBlock_run (env : Env) (tpm : Bool) (w : World) :
    ((companionBlock env tpm w).1 = .panic) ∨
    ∃ cs comp, (companionBlock env tpm w).1 = .ok (cs.map fun c => c.cpio.buffer) ∧
      (companionBlock env tpm w).2.trace = w.trace ++ comp ∧
      ((∃ t, env.fs t = none ∧ cs = []) ∨
        ∃ w2, (discoverCompanions env w2).1 = .ok cs) ∧
      if tpm then (cs = [] ∧ comp = []) ∨
        ∃ wC, (measureCompanions env cs wC).2.trace = wC.trace ++ comp
      else comp = [] := by
  unfold companionBlock
  simp only [RM.bind_run, getImageFileSystem, next, RM.pure_run]
  cases hfs : env.fs w.tick with
  | none =>
    right
    refine ⟨[], [], rfl, by simp, Or.inl ⟨w.tick, hfs, rfl⟩, ?_⟩
    cases tpm <;> simp
  | some fw =>
    simp only
    have hq : Quiet (fun _ => False) (fun _ => False) { w with tick := w.tick + 1 }
        (discoverCompanions env { w with tick := w.tick + 1 }).2 := QuietM.discoverCompanions _
    rcases hd : discoverCompanions env { w with tick := w.tick + 1 } with ⟨rd, wd⟩
    rw [RM.bind_run, hd]
    rw [hd] at hq
    have htr : wd.trace = w.trace := by
      obtain ⟨evs, h1, h2⟩ := hq.trace
      cases evs with
      | nil => simpa using h1
      | cons e _ => exact (h2 e (by simp)).elim
    have hne : ∀ e, rd ≠ .err e := by
      rintro e rfl
      exact discoverCompanions_noErr env _ e (by rw [hd])
    cases rd with
    | panic => left; rfl
    | err e => exact absurd rfl (hne e)
    | ok cs =>
      right
      simp only
      have hfound : ∃ w2, (discoverCompanions env w2).1 = .ok cs := ⟨_, by rw [hd]⟩
      unfold measureCompanionsIf
      cases tpm with
      | false => exact ⟨cs, [], by simp, by simp [htr], Or.inr hfound, rfl⟩
      | true =>
        obtain ⟨hnp, evs, ht, -⟩ := C13_companions_submitted env cs wd
        rw [if_pos rfl, RM.bind_run, bind_result_run _ _ _ hnp]
        refine ⟨cs, evs, by simp, by simp [ht, htr], Or.inr hfound, ?_⟩
        rw [if_pos rfl]
        exact Or.inr ⟨wd, ht⟩

/-- A step of `main` before `boot_linux` panics in some state. -/
def Stuck (env : Env) : Prop :=
  (∃ w, (expect (openLoadedImage env) w).1 = .panic) ∨
  (∃ w, (expect (loadFromPe env) w).1 = .panic) ∨
  (∃ tpm c w, (measureImageIf env tpm c w).1 = .panic) ∨
  (∃ w, (result (getLoaderFeatures env) w).1 = .panic) ∨
  (∃ w, (result (exportEfiVariables env) w).1 = .panic) ∨
  (∃ tpm w, (companionBlock env tpm w).1 = .panic)

/-- `main` either panics before a kernel is started, or everything is prepared and `boot_linux` is
called. -/
theorem main_shape' (env : Env) (w : World) :
    ((main env w).1 = .panic ∧ Quiet NoStart LoaderKey w (main env w).2 ∧ Stuck env) ∨
    ∃ w1 c cs pe kname iname r img mid comp, Ready env w w1 c cs pe kname iname r img mid comp ∧
      main env w = bootLinux env c (cs.map fun c => c.cpio.buffer) w1 := by
  unfold main
  -- the quietness of every step
  have q1 : QuietM NoStart LoaderKey (tpmAvailable env) := QuietM.tpmAvailable noStart_probe
  have q2 : QuietM NoStart LoaderKey (expect (openLoadedImage env)) :=
    QuietM.expect QuietM.openLoadedImage
  have q3 : QuietM NoStart LoaderKey (expect (loadFromPe env)) :=
    QuietM.expect (QuietM.loadFromPe noStart_readVar noStart_readFile)
  have q4 : ∀ tpm c, QuietM NoStart LoaderKey (measureImageIf env tpm c) := fun tpm c =>
    quiet_measureImageIf (QuietM.measureImage (fun _ _ _ => noStart_measure _ _ _ _)
      (fun _ _ => noStart_writeVar (by decide) _ _) (by unfold LoaderKey; decide))
  have q5 : QuietM NoStart LoaderKey (result (getLoaderFeatures env)) :=
    QuietM.result (QuietM.getLoaderFeatures noStart_readVar)
  have q6 : QuietM NoStart LoaderKey (result (exportEfiVariables env)) :=
    QuietM.result (QuietM.exportEfiVariables noStart_readVar
      (fun _ _ _ h => noStart_writeVar (exported_loader _ h) _ _) exported_loader)
  have q7 : ∀ tpm, QuietM NoStart LoaderKey (companionBlock env tpm) := by
    intro tpm
    unfold companionBlock
    refine QuietM.bind QuietM.getImageFileSystem fun fs => ?_
    cases fs with
    | none => exact QuietM.pure _
    | some fw =>
      refine QuietM.bind QuietM.discoverCompanions fun cs => QuietM.bind ?_ fun _ => QuietM.pure _
      unfold measureCompanionsIf
      split
      · exact QuietM.bind (QuietM.result (QuietM.measureCompanions
          (fun _ _ _ _ _ => noStart_measure _ _ _ _) (fun _ _ _ h => noStart_writeVar
            (by rcases h with rfl | rfl <;> decide) _ _) (by unfold LoaderKey; decide)
            (by unfold LoaderKey; decide)))
          fun _ => QuietM.pure _
      · exact QuietM.pure _
  have n5 : QuietM Neutral (fun _ => True) (result (getLoaderFeatures env)) :=
    QuietM.result (QuietM.getLoaderFeatures fun k r => Or.inl ⟨k, r, rfl⟩)
  have n6 : QuietM Neutral (fun _ => True) (result (exportEfiVariables env)) :=
    QuietM.result (QuietM.exportEfiVariables (fun k r => Or.inl ⟨k, r, rfl⟩)
      (fun k d r h => Or.inr ⟨k, d, _, rfl, h⟩) fun _ _ => trivial)
  -- probe
  have e1 : tpmAvailable env w = (.ok (env.tpmOpens w.tick),
      { w with tick := w.tick + 1, trace := w.trace ++ [.probeTpm (env.tpmOpens w.tick)] }) := rfl
  rw [RM.bind_run, e1]
  simp only
  have z1 := q1 w
  rw [e1] at z1
  simp only at z1
  generalize hw1 : ({ w with tick := w.tick + 1, trace := w.trace ++ [.probeTpm (env.tpmOpens w.tick)] } : World) = w1 at z1 ⊢
  have t1 : w1.trace = w.trace ++ [.probeTpm (env.tpmOpens w.tick)] := by rw [← hw1]
  generalize htpm : env.tpmOpens w.tick = tpm at t1 ⊢
  clear hw1 e1
  -- own image
  have z2 := z1.trans (q2 w1)
  rw [RM.bind_run]
  rcases expect_cases (openLoadedImage env) w1 with h2 | ⟨l, w2, h2, h2'⟩
  · left
    have hs : Stuck env := Or.inl ⟨w1, by rw [h2]⟩
    rw [h2] at z2 ⊢; exact ⟨rfl, z2, hs⟩
  rw [h2'] at z2 ⊢
  simp only at z2 ⊢
  have t2 : w2.trace = w1.trace := by
    have := (QuietM.openLoadedImage (P := fun _ => False) (K := fun _ => False) (env := env) w1).trace
    rw [h2] at this
    obtain ⟨evs, ht, hf⟩ := this
    cases evs with
    | nil => simpa using ht
    | cons e _ => exact (hf e (by simp)).elim
  -- components
  have z3 := z2.trans (q3 w2)
  rw [RM.bind_run]
  rcases expect_cases (loadFromPe env) w2 with h3 | ⟨c, w3, h3, h3'⟩
  · left
    have hs : Stuck env := Or.inr (Or.inl ⟨w2, by rw [h3]⟩)
    rw [h3] at z3 ⊢; exact ⟨rfl, z3, hs⟩
  rw [h3'] at z3 ⊢
  simp only at z3 ⊢
  obtain ⟨pe, kname, iname, r, hf⟩ := loadFromPe_ok h3
  -- image measurement
  have z4 := z3.trans (q4 tpm c w3)
  rcases measureImageIf_run env tpm c w3 with h4 | ⟨h4, img, t4, himg⟩
  · left
    have hs : Stuck env := Or.inr (Or.inr (Or.inl ⟨_, _, _, h4⟩))
    rw [RM.bind_run]
    generalize measureImageIf env tpm c w3 = x at h4 z4
    obtain ⟨rx, wx⟩ := x
    simp only at h4
    subst h4
    exact ⟨rfl, z4, hs⟩
  rw [RM.bind_run]
  rcases hx : measureImageIf env tpm c w3 with ⟨rx, w4⟩
  rw [hx] at h4 t4 z4
  simp only at h4 t4 z4
  subst h4
  simp only
  -- features
  have z5 := z4.trans (q5 w4)
  have m5 := (n5 w4).trace
  rw [RM.bind_run]
  rcases h5 : result (getLoaderFeatures env) w4 with ⟨r5, w5⟩
  rw [h5] at z5 m5
  simp only at z5 m5
  have p5 : r5 = .panic ∨ ∃ a, r5 = .ok a := by
    have := result_cases (getLoaderFeatures env) w4
    rw [h5] at this
    exact this
  rcases p5 with rfl | ⟨a5, rfl⟩
  · left; exact ⟨rfl, z5, Or.inr (Or.inr (Or.inr (Or.inl ⟨_, by rw [h5]⟩)))⟩
  simp only
  obtain ⟨ev5, t5, p5⟩ := m5
  -- exported variables
  have z6 := z5.trans (q6 w5)
  have m6 := (n6 w5).trace
  rw [RM.bind_run]
  rcases h6 : result (exportEfiVariables env) w5 with ⟨r6, w6⟩
  rw [h6] at z6 m6
  simp only at z6 m6
  have p6 : r6 = .panic ∨ ∃ a, r6 = .ok a := by
    have := result_cases (exportEfiVariables env) w5
    rw [h6] at this
    exact this
  rcases p6 with rfl | ⟨a6, rfl⟩
  · left; exact ⟨rfl, z6, Or.inr (Or.inr (Or.inr (Or.inr (Or.inl ⟨_, by rw [h6]⟩))))⟩
  simp only
  obtain ⟨ev6, t6, p6⟩ := m6
  -- companions
  have z7 := z6.trans (q7 tpm w6)
  rcases companionBlock_run env tpm w6 with h7 | ⟨cs, comp, h7, t7, hfound, hcomp⟩
  · left
    have hs : Stuck env := Or.inr (Or.inr (Or.inr (Or.inr (Or.inr ⟨_, _, h7⟩))))
    rw [RM.bind_run]
    generalize companionBlock env tpm w6 = x at h7 z7
    obtain ⟨rx, wx⟩ := x
    simp only at h7
    subst h7
    exact ⟨rfl, z7, hs⟩
  right
  rw [RM.bind_run]
  rcases hx : companionBlock env tpm w6 with ⟨rx, w7⟩
  rw [hx] at h7 t7 z7
  simp only at h7 t7 z7
  subst h7
  refine ⟨w7, c, cs, pe, kname, iname, r, img, ev5 ++ ev6, comp, ?_, rfl⟩
  refine ⟨hf.parsed, hf.verified, hf.kernelName, hf.initrdName, hf.cmdline, hf.volume, z7, ?_, ?_, ?_,
    hfound, ?_⟩
  · rw [t7, t6, t5, t4, hf.trace, t2, t1, htpm]
    simp
  · rw [htpm]
    cases tpm with
    | false => simpa using himg
    | true =>
      rw [if_pos rfl] at himg ⊢
      exact ⟨w3, himg⟩
  · intro e he
    rcases List.mem_append.1 he with h | h
    · exact p5 e h
    · exact p6 e h
  · rw [htpm]; exact hcomp

theorem main_shape (env : Env) (w : World) :
    ((main env w).1 = .panic ∧ Quiet NoStart LoaderKey w (main env w).2) ∨
    ∃ w1 c cs pe kname iname r img mid comp, Ready env w w1 c cs pe kname iname r img mid comp ∧
      main env w = bootLinux env c (cs.map fun c => c.cpio.buffer) w1 := by
  rcases main_shape' env w with ⟨h1, h2, -⟩ | h
  · exact Or.inl ⟨h1, h2⟩
  · exact Or.inr h

/-! ## The command line -/

/-- The description in the event log. -/
def cmdlineDescription : Str := lit "Custom user provided kernel cmdline"

/-- The outcomes of `get_cmdline`. -/
theorem getCmdline_run (env : Env) (embedded : Str16) (w : World) :
    ∃ r cmd w2 m, getCmdline env embedded w = (.ok cmd, w2) ∧
      r = (match env.getFault w.tick with
        | some st => .err st
        | none => lookup w.vars secureBootVar 1) ∧
      Quiet NoStart (fun _ => False) w w2 ∧
      w2.trace = w.trace ++ (.readVar secureBootVar r :: m) ∧
      ((cmd = optionsOf embedded ∧ (m = [] ∨ SaysOff r ∧ ∃ passed o t,
          m = [.measure 4 passed cmdlineDescription o] ∧ o = outcomeAt env t ∧
            (o = .notBuilt ∨ o = .rejected))) ∨
       (cmd ≠ optionsOf embedded ∧ SaysOff r ∧ w.loaded.options = some cmd ∧ ∃ o t,
          m = [.measure 4 cmd cmdlineDescription o] ∧ o = outcomeAt env t ∧
            (o = .extended ∨ o = .noTpm))) := by
  have hopt : leBytes16 (embedded ++ [0]) = optionsOf embedded := rfl
  obtain ⟨r, hr, hreq⟩ := getSecureBootStatus_run env w
  unfold getCmdline
  rw [RM.bind_run, hr]
  simp only
  have q1 : Quiet NoStart (fun _ => False) w
      { w with tick := w.tick + 1, trace := w.trace ++ [.readVar secureBootVar r] } :=
    ⟨⟨[.readVar secureBootVar r], rfl, by simpa using noStart_readVar _ _⟩, fun _ _ => rfl, rfl, rfl,
      rfl, rfl⟩
  by_cases hd : decodeSecureBoot r = true
  · rw [if_pos hd]
    exact ⟨r, _, _, [], rfl, hreq, q1, rfl, Or.inl ⟨hopt, Or.inl rfl⟩⟩
  · rw [if_neg hd]
    have hoff : SaysOff r := (decodeSecureBoot_false r).1 (by simpa using hd)
    -- load options
    have hlo : ∀ w : World, ∃ o, getLoadOptions env w = (.ok o, { w with tick := w.tick + 1 }) ∧
        (o = none ∨ o = w.loaded.options) := by
      intro w
      unfold getLoadOptions
      have hol : ∃ r, openLoadedImage env w = (r, { w with tick := w.tick + 1 }) ∧ r ≠ .panic ∧
          (r = .ok w.loaded ∨ ∀ a, r ≠ .ok a) := by
        unfold openLoadedImage
        simp only [RM.bind_run, next]
        cases env.openLoadedImageFault w.tick with
        | none => exact ⟨.ok w.loaded, by simp [failIf], by simp, Or.inl rfl⟩
        | some st => exact ⟨.err st, by simp [failIf], by simp, Or.inr (by simp)⟩
      obtain ⟨r, e, np, hr⟩ := hol
      rw [bind_result_run _ _ _ (by rw [e]; exact np), e]
      simp only
      cases r with
      | panic => exact absurd rfl np
      | ok l =>
        rcases hr with h | h
        · rw [Res.ok.injEq] at h; subst h; exact ⟨_, rfl, Or.inr rfl⟩
        · exact absurd rfl (h l)
      | err st => exact ⟨_, rfl, Or.inl rfl⟩
    obtain ⟨o, ho, hoo⟩ := hlo { w with tick := w.tick + 1, trace := w.trace ++ [.readVar secureBootVar r] }
    rw [RM.bind_run, ho]
    simp only at hoo ⊢
    have q2 : Quiet NoStart (fun _ => False) w
        { w with tick := w.tick + 1 + 1, trace := w.trace ++ [.readVar secureBootVar r] } :=
      ⟨⟨[.readVar secureBootVar r], rfl, by simpa using noStart_readVar _ _⟩, fun _ _ => rfl, rfl, rfl,
        rfl, rfl⟩
    cases o with
    | none => exact ⟨r, _, _, [], rfl, hreq, q2, rfl, Or.inl ⟨hopt, Or.inl rfl⟩⟩
    | some passed =>
      simp only
      have hpassed : w.loaded.options = some passed := by
        rcases hoo with h | h
        · simp at h
        · exact h.symm
      by_cases hsame : passed = leBytes16 (embedded ++ [0])
      · rw [if_pos hsame]
        exact ⟨r, _, _, [], rfl, hreq, q2, rfl, Or.inl ⟨hsame.trans hopt, Or.inl rfl⟩⟩
      · rw [if_neg hsame]
        obtain ⟨rm, em, npm, okm⟩ := tpmLogEvent_run env 4 passed cmdlineDescription
          { w with tick := w.tick + 1 + 1, trace := w.trace ++ [.readVar secureBootVar r] } (by decide)
        have em' : measureBootLoader env passed (lit "Custom user provided kernel cmdline")
          { w with tick := w.tick + 1 + 1, trace := w.trace ++ [.readVar secureBootVar r] } = _ := em
        rw [bind_result_run _ _ _ (by rw [em']; exact npm), em']
        simp only at okm ⊢
        have q3 : Quiet NoStart (fun _ => False) w
            { w with
              tick := w.tick + 1 + 1 + 1
              trace := w.trace ++ [.readVar secureBootVar r] ++
                [.measure 4 passed cmdlineDescription (outcomeAt env (w.tick + 1 + 1))] } := by
          refine ⟨⟨[.readVar secureBootVar r] ++ [.measure 4 passed cmdlineDescription
            (outcomeAt env (w.tick + 1 + 1))], by simp, ?_⟩, fun _ _ => rfl, rfl, rfl, rfl, rfl⟩
          intro e he
          rcases List.mem_append.1 he with h | h
          · rw [List.mem_singleton.1 h]; exact noStart_readVar _ _
          · rw [List.mem_singleton.1 h]; exact noStart_measure _ _ _ _
        by_cases hok : rm.isOk = true
        · rw [if_pos hok]
          refine ⟨r, passed, _, [.measure 4 passed cmdlineDescription (outcomeAt env (w.tick + 1 + 1))],
            rfl, hreq, q3, by simp, Or.inr ⟨fun h => hsame (h.trans hopt.symm), hoff, hpassed,
              _, _, rfl, rfl, okm.1 hok⟩⟩
        · rw [if_neg hok]
          refine ⟨r, _, _, [.measure 4 passed cmdlineDescription (outcomeAt env (w.tick + 1 + 1))],
            rfl, hreq, q3, by simp, Or.inl ⟨hopt, Or.inr ⟨hoff, passed, _, _, rfl, rfl, ?_⟩⟩⟩
          have hn := fun h => hok (okm.2 h)
          cases ho : outcomeAt env (w.tick + 1 + 1) with
          | noTpm => exact absurd (Or.inr ho) hn
          | extended => exact absurd (Or.inl ho) hn
          | notBuilt => exact Or.inl rfl
          | rejected => exact Or.inr rfl

/-! ## Starting the kernel -/

/-- The world in which the kernel gets control, and the state after it has returned. -/
structure Ran (env : Env) (kernel cmdline initrd : Bytes) (w : World) (s : Started) (wk : World) :
    Prop where
  trace : wk.trace = w.trace ++ [.start s]
  image : ∃ kpe, env.parseFile kernel = some kpe ∧ IsLoaded kpe kernel s.image s.entry
  options : s.options = cmdline
  initrd : s.initrd = some initrd
  vars : wk.vars = w.vars

theorem expect_open_live {env : Env} (w : World) (h : env.openLoadedImageFault w.tick = none) :
    expect (openLoadedImage env) w = (.ok w.loaded, { w with tick := w.tick + 1 }) := by
  unfold expect openLoadedImage
  simp [RM.bind_run, next, failIf, h]

/-- What can keep a kernel from being started. -/
def Blocked (env : Env) (kernel cmdline : Bytes) : Prop :=
  (∃ w, ∀ img, (Image.load env kernel w).1 ≠ .ok img) ∨ (∃ t, env.openLoadedImageFault t ≠ none) ∨
    cmdline.length > u32Max ∨ ∃ t, env.installFault t ≠ none

theorem bootLinuxUnchecked_run' (env : Env) (kernel cmdline initrd : Bytes) (w : World) :
    let x := bootLinuxUnchecked env kernel cmdline initrd w
    (Blocked env kernel cmdline ∧ x.2.trace = w.trace ∧ x.2.loaded = w.loaded ∧ x.2.vars = w.vars ∧
      (x.1 = .panic ∨ ∃ st, x.1 = .err st ∧ (∃ t, env.installFault t = some st) ∧ (x.2.protos = w.protos ∨
        x.2.protos = w.protos ++ [.initrdDevicePath]) ∧
        ∃ b, x.2.pages = w.pages ++ [b])) ∨
    ∃ s wk, Ran env kernel cmdline initrd w s wk ∧ x.2.trace = w.trace ++ [.start s] ∧
      ((x.1 = .panic ∧ ∃ t, env.freeFault t ≠ none ∨ env.uninstallFault t ≠ none) ∨
        (x.2.loaded = w.loaded ∧ x.2.protos.Perm w.protos ∧ x.2.vars = (env.kernel wk).vars ∧
          x.2.pages.Perm (w.pages ++ (env.kernel wk).morePages) ∧
          (x.1 = if (env.kernel wk).status = .success then .ok () else .err (env.kernel wk).status))) := by
  intro x
  have hx : x = bootLinuxUnchecked env kernel cmdline initrd w := rfl
  unfold bootLinuxUnchecked at hx
  obtain ⟨r1, w1, e1, np1, t1, v1, l1, p1, h1⟩ := load_run env kernel w
  cases r1 with
  | panic => exact absurd rfl np1
  | err st =>
    have ex : expect (Image.load env kernel) w = (.panic, w1) := by unfold expect; rw [e1]
    rw [RM.bind_run, ex] at hx
    left; rw [hx]; exact ⟨Or.inl ⟨w, by rw [e1]; simp⟩, t1, l1, v1, Or.inl rfl⟩
  | ok img =>
    have ex : expect (Image.load env kernel) w = (.ok img, w1) := by unfold expect; rw [e1]
    rw [RM.bind_run, ex] at hx
    simp only at hx
    rcases h1 with ⟨-, -, hno⟩ | ⟨base, len, hpages, hlen, hmem, hok⟩
    · exact absurd rfl (hno img)
    obtain ⟨hb, hl, kpe, hkpe, hloaded⟩ := hok img rfl
    -- the initrd protocol
    rw [RM.bind_run] at hx
    unfold InitrdLoader.new at hx
    simp only [RM.bind_run, installProtocol, next] at hx
    cases hi1 : env.installFault w1.tick with
    | some st =>
      rw [hi1] at hx
      simp only [RM.throw_run] at hx
      left
      rw [hx]
      exact ⟨Or.inr (Or.inr (Or.inr ⟨_, by rw [hi1]; simp⟩)), t1, l1, v1, Or.inr ⟨st, rfl, ⟨_, hi1⟩, Or.inl p1, _, hpages⟩⟩
    | none =>
      rw [hi1] at hx
      simp only [RM.modify_run] at hx
      cases hi2 : env.installFault (w1.tick + 1) with
      | some st =>
        rw [hi2] at hx
        simp only [RM.throw_run] at hx
        left
        rw [hx]
        exact ⟨Or.inr (Or.inr (Or.inr ⟨_, by rw [hi2]; simp⟩)), t1, l1, v1, Or.inr ⟨st, rfl, ⟨_, hi2⟩, Or.inr (by simp [p1]), _, hpages⟩⟩
      | none =>
        rw [hi2] at hx
        simp only [RM.modify_run] at hx
        -- start
        have hwx : ∃ w3 : World, w3 = { w1 with
            tick := w1.tick + 1 + 1
            protos := w1.protos ++ [Proto.initrdDevicePath] ++ [Proto.loadFile2 initrd] } := ⟨_, rfl⟩
        obtain ⟨w3, hw3⟩ := hwx
        rw [← hw3] at hx
        have f1 : w3.trace = w.trace := by rw [hw3]; exact t1
        have f2 : w3.loaded = w.loaded := by rw [hw3]; exact l1
        have f3 : w3.vars = w.vars := by rw [hw3]; exact v1
        have f4 : w3.protos = w.protos ++ [Proto.initrdDevicePath] ++ [Proto.loadFile2 initrd] := by
          rw [hw3, ← p1]
        have f5 : w3.mem = w1.mem := by rw [hw3]
        have f6 : w3.pages = w.pages ++ [(base, bytesToPages len)] := by rw [hw3]; exact hpages
        clear hw3
        unfold Image.start at hx
        rcases expect_cases (openLoadedImage env) w3 with h3 | ⟨ours, w4, h3, h3'⟩
        · have hq : Quiet (fun _ => False) (fun _ => False) w3 (openLoadedImage env w3).2 :=
            QuietM.openLoadedImage w3
          rw [RM.bind_run, h3] at hx
          left
          rw [hx]
          obtain ⟨evs, ht, hf⟩ := hq.trace
          have : evs = [] := by
            cases evs with
            | nil => rfl
            | cons e _ => exact (hf e (by simp)).elim
          rw [this, List.append_nil] at ht
          refine ⟨Or.inr (Or.inl ⟨w3.tick, fun hf => ?_⟩), ht.trans f1, hq.loaded.trans f2, (funext fun k => hq.vars k (by simp)).trans f3,
            Or.inl rfl⟩
          rw [expect_open_live w3 hf] at h3
          simp at h3
        · rw [RM.bind_run, h3'] at hx
          simp only at hx
          have h4 : ours = w3.loaded ∧ w4 = { w3 with tick := w3.tick + 1 } := by
            unfold openLoadedImage at h3
            simp only [RM.bind_run, next] at h3
            cases hf : env.openLoadedImageFault w3.tick with
            | none => rw [hf] at h3; simp [failIf] at h3; exact ⟨h3.1.symm, h3.2.symm⟩
            | some st => rw [hf] at h3; simp [failIf] at h3
          obtain ⟨rfl, rfl⟩ := h4
          by_cases hbig : cmdline.length > u32Max
          · rw [if_pos hbig] at hx
            left
            rw [hx]
            exact ⟨Or.inr (Or.inr (Or.inl hbig)), f1, f2, f3, Or.inl rfl⟩
          · rw [if_neg hbig] at hx
            simp only [RM.bind_run, RM.modify_run, RM.get_run, emit, next] at hx
            right
            obtain ⟨wl, hwl⟩ : ∃ wl : World, wl = { w3 with
              tick := w3.tick + 1
              loaded := { base := img.base, size := img.len, options := some cmdline } } := ⟨_, rfl⟩
            obtain ⟨wk, hwk⟩ : ∃ wk : World, wk = { wl with
              trace := wl.trace ++ [Event.start (startedRecord wl img cmdline)] } := ⟨_, rfl⟩
            have hran : Ran env kernel cmdline initrd w (startedRecord wl img cmdline) wk := by
              refine ⟨?_, ⟨kpe, hkpe, ?_⟩, rfl, ?_, ?_⟩
              · rw [hwk, hwl, ← f1]
              · have : (startedRecord wl img cmdline).image = readMem w1.mem base len := by
                  rw [hwl, ← hb, ← hl, ← f5]; rfl
                rw [this]
                exact hloaded
              · unfold startedRecord
                simp only
                rw [hwl]
                simp only
                rw [f4, List.filterMap_append]
                simp
              · rw [hwk, hwl]; exact f3
            have ht : wk.trace = w.trace ++ [.start (startedRecord wl img cmdline)] := hran.trace
            refine ⟨startedRecord wl img cmdline, wk, hran, ?_⟩
            have hwk2 : wk = {
                tick := w3.tick + 1
                trace := w3.trace ++ [Event.start (startedRecord wl img cmdline)]
                vars := w3.vars
                mem := w3.mem
                pages := w3.pages
                loaded := { base := img.base, size := img.len, options := some cmdline }
                protos := w3.protos } := by rw [hwk, hwl]
            rw [← hwl, ← hwk2] at hx
            have ht3 : w3.trace ++ [Event.start (startedRecord wl img cmdline)] =
                w.trace ++ [Event.start (startedRecord wl img cmdline)] := by rw [f1]
            cases hff : env.freeFault (w3.tick + 1) with
            | some st =>
              rw [hff] at hx
              simp only [RM.panic_run] at hx
              rw [hx]
              exact ⟨ht3, Or.inl ⟨rfl, _, Or.inl (by rw [hff]; simp)⟩⟩
            | none =>
              rw [hff] at hx
              simp only [RM.bind_run, RM.modify_run, RM.pure_run] at hx
              generalize hst : (env.kernel wk).status = st at hx
              unfold InitrdLoader.uninstallAndDrop expect uninstallProtocol at hx
              simp only [RM.bind_run, next] at hx
              cases hu1 : env.uninstallFault (w3.tick + 1 + 1) with
              | some st' =>
                rw [hu1] at hx
                simp only [RM.throw_run] at hx
                rw [hx]
                exact ⟨ht3, Or.inl ⟨rfl, _, Or.inr (by rw [hu1]; simp)⟩⟩
              | none =>
                rw [hu1] at hx
                simp only [RM.modify_run] at hx
                cases hu2 : env.uninstallFault (w3.tick + 1 + 1 + 1) with
                | some st' =>
                  rw [hu2] at hx
                  simp only [RM.throw_run] at hx
                  rw [hx]
                  exact ⟨ht3, Or.inl ⟨rfl, _, Or.inr (by rw [hu2]; simp)⟩⟩
                | none =>
                  rw [hu2] at hx
                  simp only [RM.modify_run] at hx
                  have hres : ∀ w : World, statusToResult st w =
                      (if st = .success then .ok () else .err st, w) := by
                    intro w
                    unfold statusToResult
                    split <;> rfl
                  rw [hres] at hx
                  rw [hx]
                  refine ⟨ht3, Or.inr ⟨f2, ?_, rfl, ?_, rfl⟩⟩
                  · simp only
                    rw [f4]
                    have p1 : (w.protos ++ [Proto.initrdDevicePath] ++ [Proto.loadFile2 initrd]).Perm
                        (Proto.initrdDevicePath :: Proto.loadFile2 initrd :: w.protos) := by
                      rw [List.append_assoc]
                      exact List.perm_append_comm
                    have p2 := (p1.erase Proto.initrdDevicePath).erase (Proto.loadFile2 initrd)
                    simpa using p2
                  · simp only
                    rw [f6, hb, hl]
                    have p1 : (w.pages ++ [(base, bytesToPages len)] ++ (env.kernel wk).morePages).Perm
                        ((base, bytesToPages len) :: (w.pages ++ (env.kernel wk).morePages)) := by
                      rw [List.append_assoc, List.singleton_append]
                      exact List.perm_middle
                    have p2 := p1.erase (base, bytesToPages len)
                    rw [List.erase_cons_head] at p2
                    exact p2

theorem bootLinuxUnchecked_run (env : Env) (kernel cmdline initrd : Bytes) (w : World) :
    let x := bootLinuxUnchecked env kernel cmdline initrd w
    (x.2.trace = w.trace ∧ x.2.loaded = w.loaded ∧ x.2.vars = w.vars ∧
      (x.1 = .panic ∨ ∃ st, x.1 = .err st ∧ (∃ t, env.installFault t = some st) ∧ (x.2.protos = w.protos ∨
        x.2.protos = w.protos ++ [.initrdDevicePath]) ∧
        ∃ b, x.2.pages = w.pages ++ [b])) ∨
    ∃ s wk, Ran env kernel cmdline initrd w s wk ∧ x.2.trace = w.trace ++ [.start s] ∧
      ((x.1 = .panic ∧ ∃ t, env.freeFault t ≠ none ∨ env.uninstallFault t ≠ none) ∨
        (x.2.loaded = w.loaded ∧ x.2.protos.Perm w.protos ∧ x.2.vars = (env.kernel wk).vars ∧
          x.2.pages.Perm (w.pages ++ (env.kernel wk).morePages) ∧
          (x.1 = if (env.kernel wk).status = .success then .ok () else .err (env.kernel wk).status))) := by
  intro x
  rcases bootLinuxUnchecked_run' env kernel cmdline initrd w with ⟨-, h⟩ | h
  · exact Or.inl h
  · exact Or.inr h

end Verif.Stub
