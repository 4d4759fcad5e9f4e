import Verif.Model.TempDir
import Verif.Props.Path
import Verif.Lemmas.Run
import Verif.Lemmas.SampleInstall
/-!
# C63: temporary files do not interfere, are private and are removed
-/
namespace Verif.Tool
open Verif Generation

/-! ### Numbers and the command line -/

theorem hexVal_hexDigit (n : Nat) : Objcopy.hexVal (hexDigit n) = some (n % 16) := by
  have key : ∀ k : Fin 16, Objcopy.hexVal
      (if k.val < 10 then Char.ofNat (0x30 + k.val) else Char.ofNat (0x57 + k.val)) = some k.val := by
    decide
  exact key ⟨n % 16, Nat.mod_lt _ (by decide)⟩

theorem hexFrom_append (a b : Str) (acc : Nat) :
    Objcopy.hexFrom acc (a ++ b) = (Objcopy.hexFrom acc a).bind fun n => Objcopy.hexFrom n b := by
  induction a generalizing acc with
  | nil => rfl
  | cons c cs ih =>
    simp only [List.cons_append, Objcopy.hexFrom]
    cases Objcopy.hexVal c with
    | none => rfl
    | some d => exact ih _

theorem toHex_eq (n : Nat) : toHex n = if n < 16 then [hexDigit n] else toHex (n / 16) ++ [hexDigit n] := by
  rw [toHex]

theorem toHex_ne_nil (n : Nat) : toHex n ≠ [] := by
  rw [toHex_eq]; split <;> simp

theorem hexFrom_toHex (n : Nat) : Objcopy.hexFrom 0 (toHex n) = some n := by
  induction n using Nat.strongRecOn with
  | ind n ih =>
    rw [toHex_eq]
    split
    · next h =>
      simp only [Objcopy.hexFrom, hexVal_hexDigit, Nat.zero_mul, Nat.zero_add]
      rw [Nat.mod_eq_of_lt h]
    · next h =>
      rw [hexFrom_append, ih (n / 16) (by omega)]
      simp only [Option.bind_some, Objcopy.hexFrom, hexVal_hexDigit]
      congr 1
      omega

theorem number_toHex (n : Nat) : Objcopy.number (lit "0x" ++ toHex n) = some n := by
  have h := hexFrom_toHex n
  cases hs : toHex n with
  | nil => exact absurd hs (toHex_ne_nil n)
  | cons c cs => rw [hs] at h; exact h

theorem parse_section (s : SectionFile) (hs : '=' ∉ s.name) (rest : List Str) :
    Objcopy.parse (s.toObjcopy ++ rest) = (Objcopy.parse rest).map fun i =>
      { i with sections := (s.name, s.filePath) :: i.sections
               addresses := (s.name, s.offset.toNat) :: i.addresses } := by
  have h1 : splitOnce ['='] (s.name ++ lit "=" ++ s.filePath) = some (s.name, s.filePath) := by
    have := splitOnce_append (p := '=') (pat := []) hs s.filePath
    simpa [lit] using this
  have h2 : splitOnce ['='] (s.name ++ lit "=" ++ (lit "0x" ++ toHex s.offset.toNat)) =
      some (s.name, lit "0x" ++ toHex s.offset.toNat) := by
    have := splitOnce_append (p := '=') (pat := []) hs (lit "0x" ++ toHex s.offset.toNat)
    simpa [lit] using this
  have h3 : lit "--change-section-vma" ≠ lit "--add-section" := by decide
  simp only [SectionFile.toObjcopy, List.cons_append, List.nil_append, Objcopy.parse, if_true, h1,
    if_neg h3, h2, number_toHex]
  cases Objcopy.parse rest <;> rfl

theorem parse_files {a b : Str} (ha : a.head? = some '/') :
    Objcopy.parse [a, b] = some { files := [a, b] } := by
  have h : ∀ {x : Str}, x.head? = some '/' → x ≠ lit "--add-section" ∧ x ≠ lit "--change-section-vma" := by
    intro x hx
    constructor <;> (rintro rfl; revert hx; decide)
  simp [Objcopy.parse, h ha]

/-- The command line means what it is meant to mean. -/
theorem parse_command (l : List SectionFile) (hl : ∀ s ∈ l, '=' ∉ s.name) {a b : Str}
    (ha : a.head? = some '/') :
    Objcopy.parse (l.flatMap SectionFile.toObjcopy ++ [a, b]) =
      some ⟨l.map fun s => (s.name, s.filePath), l.map fun s => (s.name, s.offset.toNat), [a, b]⟩ := by
  induction l with
  | nil => exact parse_files ha
  | cons s l ih =>
    rw [List.flatMap_cons, List.append_assoc, parse_section s (hl s (by simp)),
      ih (fun s hs => hl s (by simp [hs]))]
    rfl

/-! ### Files -/

theorem contentAt_put (p q : Str) (d : Bytes) (l : List TempFile) :
    contentAt (putFile p d l) q = if p = q then some d else contentAt l q := by
  induction l with
  | nil => simp [putFile, contentAt]
  | cons f l ih =>
    simp only [putFile]
    split
    · rename_i h
      simp only [contentAt]
      by_cases hq : p = q
      · simp [hq]
      · simp [hq, show ¬ f.path = q from h ▸ hq]
    · rename_i h
      simp only [contentAt, ih]
      by_cases hq : f.path = q
      · have : ¬ p = q := fun e => h (hq.trans e.symm)
        simp [hq, this]
      · simp [hq]

/-- The names are drawn from different ones. -/
def TempEnv.Distinct (te : TempEnv) : Prop := ∀ i j, te.names i = te.names j → i = j

/-- An ordinary path outside of the temporary directory. -/
def Outside (te : TempEnv) (p : Path) : Prop :=
  (∀ c ∈ p, Component c) ∧ ¬ (te.dir ++ ['/']) <+: pathText p

def TempEnv.path (te : TempEnv) (i : Nat) : Str := te.dir ++ ['/'] ++ te.names i

/-- What is always true: the files in the directory have names that were drawn, and the programs creating
them asked for mode 0600. -/
structure TInv (te : TempEnv) (t : TState) : Prop where
  names : ∀ p d, contentAt t.files p = some d → ∃ i, i < t.drawn ∧ p = te.path i

/-- Secret files are private. -/
def Private (te : TempEnv) (t : TState) : Prop :=
  ∀ c ∈ t.created, (te.dir ++ ['/']) <+: c.1 ∧ (c.2 = .installer 0o600 ∨ c.2 = .objcopy)

theorem TempEnv.Distinct.path {te : TempEnv} (h : te.Distinct) {i j : Nat} (e : te.path i = te.path j) :
    i = j := h i j (List.append_cancel_left e)

theorem TInv.fresh {te : TempEnv} {t : TState} (hi : TInv te t) (hd : te.Distinct) :
    contentAt t.files (te.path t.drawn) = none := by
  cases hc : contentAt t.files (te.path t.drawn) with
  | none => rfl
  | some d =>
    obtain ⟨i, hlt, e⟩ := hi.names _ _ hc
    exact absurd (hd.path e) (by omega)

theorem components_pathText {p : Path} (h : ∀ c ∈ p, Component c) : components (pathText p) = p := by
  have h1 : components (pathText p) = components (joinWith ['/'] p) := by
    unfold components pathText
    rw [show splitOn '/' ('/' :: joinWith ['/'] p) = [] :: splitOn '/' (joinWith ['/'] p) by
      simp [splitOn]]
    simp
  rw [h1, components_joinWith p h]

theorem TInv.outside {te : TempEnv} {t : TState} (h : TInv te t) {p : Path} (hp : Outside te p) :
    t.src (pathText p) = .store p := by
  unfold TState.src
  cases hc : contentAt t.files (pathText p) with
  | none => simp only [components_pathText hp.1]
  | some d =>
    obtain ⟨i, -, e⟩ := h.names _ _ hc
    exact absurd (by rw [e]; exact List.prefix_append _ _) hp.2

/-! ### Simulation -/

/-- The operation `m` with temporary files does the same as `m'` with their contents. -/
def Sim {α β : Type} (te : TempEnv) (m : T α) (m' : M β) (t : TState) (R : α → β → TState → Prop) : Prop :=
  match m' t.st with
  | (.ok b, s) => ∃ a t', m t = (.ok a, t') ∧ t'.st = s ∧ Private te t' ∧ TInv te t' ∧ R a b t'
  | (.err e, s) => ∃ t', m t = (.err e, t') ∧ t'.st = s ∧ Private te t'
  | (.panic, s) => ∃ t', m t = (.panic, t') ∧ t'.st = s ∧ Private te t'

section
variable {te : TempEnv} {env : Env} {cfg : Config}

theorem Sim.bind {α β γ δ : Type} {m : T α} {m' : M β} {t : TState} {R : α → β → TState → Prop}
    {f : α → T γ} {f' : β → M δ} {R' : γ → δ → TState → Prop} (h : Sim te m m' t R)
    (hf : ∀ a b t', Private te t' → TInv te t' → R a b t' → Sim te (f a) (f' b) t' R') :
    Sim te (m >>= f) (m' >>= f') t R' := by
  unfold Sim at h ⊢
  simp only [RM.bind_run]
  cases hm : m' t.st with
  | mk r s =>
    rw [hm] at h
    cases r with
    | ok b =>
      obtain ⟨a, t', e, rfl, hp, hi, hr⟩ := h
      have := hf a b t' hp hi hr
      simp only [e]
      exact this
    | err e =>
      obtain ⟨t', e, rfl, hp⟩ := h
      exact ⟨t', by rw [e], rfl, hp⟩
    | panic =>
      obtain ⟨t', e, rfl, hp⟩ := h
      exact ⟨t', by rw [e], rfl, hp⟩

theorem Sim.pure {α β : Type} {a : α} {b : β} {t : TState} {R : α → β → TState → Prop}
    (hp : Private te t) (hi : TInv te t) (h : R a b t) :
    Sim te (Pure.pure a) (Pure.pure b) t R := ⟨a, t, rfl, rfl, hp, hi, h⟩

/-- Returning something else in the end. -/
theorem Sim.end {α β γ : Type} {m : T α} {m' : M β} {t : TState} {c : γ} {R : γ → β → TState → Prop}
    (h : Sim te m m' t fun _ b t' => R c b t') : Sim te (m >>= fun _ => Pure.pure c) m' t R := by
  unfold Sim at h ⊢
  simp only [RM.bind_run]
  cases hm : m' t.st with
  | mk r s =>
    rw [hm] at h
    cases r with
    | ok b =>
      obtain ⟨a, t', e, h1, hp, hi, h2⟩ := h
      exact ⟨c, t', by rw [e]; rfl, h1, hp, hi, h2⟩
    | err e =>
      obtain ⟨t', e, rfl, hp⟩ := h
      exact ⟨t', by rw [e], rfl, hp⟩
    | panic =>
      obtain ⟨t', e, rfl, hp⟩ := h
      exact ⟨t', by rw [e], rfl, hp⟩

theorem Sim.mono {α β : Type} {m : T α} {m' : M β} {t : TState} {R R' : α → β → TState → Prop}
    (h : Sim te m m' t R) (hr : ∀ a b t', R a b t' → R' a b t') : Sim te m m' t R' := by
  unfold Sim at h ⊢
  cases hm : m' t.st with
  | mk r s =>
    rw [hm] at h
    cases r with
    | ok b =>
      obtain ⟨a, t', e, h1, hp, hi, h2⟩ := h
      exact ⟨a, t', e, h1, hp, hi, hr _ _ _ h2⟩
    | err e => exact h
    | panic => exact h

/-- The same files. -/
def Same (t t' : TState) : Prop := t'.files = t.files ∧ t'.drawn = t.drawn

theorem Same.trans {a b c : TState} (h : Same a b) (h' : Same b c) : Same a c :=
  ⟨h'.1.trans h.1, h'.2.trans h.2⟩

theorem Same.src {t t' : TState} (h : Same t t') (p : Str) : t'.src p = t.src p := by
  unfold TState.src; rw [h.1]

theorem sim_lift {α : Type} (m : M α) {t : TState} (hp : Private te t) (hi : TInv te t) :
    Sim te (lift m) m t fun a b t' => a = b ∧ Same t t' := by
  unfold Sim
  cases hm : m t.st with
  | mk r s =>
    have e : lift m t = (r, { t with st := s }) := by simp only [lift, hm]
    have hi' : TInv te { t with st := s } := ⟨hi.names⟩
    cases r with
    | ok a => exact ⟨a, _, e, rfl, hp, hi', rfl, rfl, rfl⟩
    | err x => exact ⟨_, e, rfl, hp⟩
    | panic => exact ⟨_, e, rfl, hp⟩

theorem sim_withSrc {α : Type} {p : Str} {src : Src} (f : Src → M α) {t : TState} (hs : t.src p = src)
    (hp : Private te t) (hi : TInv te t) :
    Sim te (withSrc p f) (f src) t fun a b t' => a = b ∧ Same t t' := by
  have := sim_lift (te := te) (f src) hp hi
  unfold Sim at this ⊢
  simp only [withSrc, hs]
  exact this

/-- The file `p` has the content `d`. -/
def Holds (t : TState) (p : Str) (d : Bytes) : Prop :=
  contentAt t.files p = some d

theorem Holds.src {t : TState} {p : Str} {d : Bytes} (h : Holds t p d) : t.src p = .temp d := by
  unfold TState.src; rw [h]

theorem Same.holds {t t' : TState} (h : Same t t') {p : Str} {d : Bytes} (hh : Holds t p d) : Holds t' p d := by
  unfold Holds; rw [h.1]; exact hh

/-- All files there were are still there. -/
def Grows (t t' : TState) : Prop := ∀ p d, Holds t p d → Holds t' p d

theorem Same.grows {t t' : TState} (h : Same t t') : Grows t t' := fun _ _ => h.holds

theorem Grows.trans {a b c : TState} (h : Grows a b) (h' : Grows b c) : Grows a c :=
  fun p d hh => h' p d (h p d hh)

theorem sim_writeSecureFile (hd : te.Distinct) (c : Bytes) {t : TState} (hp : Private te t)
    (hi : TInv te t) : Sim te (writeSecureFileT te env c) (writeSecureFile env c) t
      fun a b t' => b = c ∧ Holds t' a c ∧ Grows t t' := by
  unfold Sim writeSecureFile writeSecureFileT
  simp only [RM.bind_run, tempPath, lift]
  cases hg : guarded env.os t.st with
  | mk r s =>
    cases r with
    | ok u =>
      simp only [RM.pure_run, createTemp]
      have hfresh := hi.fresh hd
      refine ⟨te.path t.drawn, _, rfl, rfl, ?_, ⟨?_⟩, trivial, ?_, ?_⟩
      · intro e he
        have hfresh' : contentAt t.files (te.dir ++ ['/'] ++ te.names t.drawn) = none := hfresh
        simp only [hfresh', Option.isSome_none, Bool.false_eq_true, if_false, List.mem_append,
          List.mem_singleton] at he
        rcases he with he | rfl
        · exact hp e he
        · exact ⟨List.prefix_append _ _, Or.inl rfl⟩
      · intro p d h
        simp only [contentAt_put] at h
        split at h
        · rename_i e; exact ⟨t.drawn, by simp, e.symm⟩
        · obtain ⟨i, hlt, e⟩ := hi.names _ _ h
          exact ⟨i, by simp only; omega, e⟩
      · simp only [Holds, contentAt_put]; exact if_pos rfl
      · intro p d h
        simp only [Holds, contentAt_put] at h ⊢
        rw [if_neg]
        · exact h
        · rintro rfl
          have : contentAt t.files (te.dir ++ ['/'] ++ te.names t.drawn) = none := hfresh
          rw [this] at h; cases h
    | err e => exact ⟨_, rfl, rfl, hp⟩
    | panic => exact ⟨_, rfl, rfl, hp⟩

theorem sim_fileSize {p : Str} {d : Bytes} {t : TState} (h : Holds t p d) (hp : Private te t)
    (hi : TInv te t) : Sim te (fileSizeT env p) (fileSize env d) t fun a b t' => a = b ∧ Same t t' := by
  have := sim_withSrc (te := te) (fun src => do
    guarded env.os
    let d ← ofOption (env.content src)
    Pure.pure (UInt64.ofNat d.length)) h.src hp hi
  exact this

theorem sim_hash {p : Str} {src : Src} {t : TState} (h : t.src p = src) (hp : Private te t)
    (hi : TInv te t) : Sim te (hashT env p) (hashSrc env src) t fun a b t' => a = b ∧ Same t t' :=
  sim_withSrc (hashSrc env) h hp hi

/-! ### objcopy -/

/-- A section and its content. -/
abbrev Filled := SectionFile × Bytes

def Filled.added (x : Filled) : Added := ⟨x.1.name, x.2, x.1.offset⟩

theorem find_address {l : List Filled} (h : (l.map (·.1.name)).Nodup) {x : Filled} (hx : x ∈ l) :
    ((l.map (·.1)).map fun s => (s.name, s.offset.toNat)).find? (fun a => a.1 == x.1.name) =
      some (x.1.name, x.1.offset.toNat) := by
  induction l with
  | nil => cases hx
  | cons y l ih =>
    simp only [List.map_cons, List.nodup_cons] at h
    simp only [List.map_cons, List.find?_cons]
    rcases List.mem_cons.mp hx with rfl | hx
    · simp
    · have hne : y.1.name ≠ x.1.name := fun e => h.1 (e ▸ List.mem_map.mpr ⟨x, hx, rfl⟩)
      have hb : (y.1.name == x.1.name) = false := by simpa using hne
      simp only [hb]
      exact ih h.2 hx

theorem addedSections_eq {t : TState} {A : List (Str × Nat)} {l : List Filled}
    (hc : ∀ x ∈ l, Holds t x.1.filePath x.2)
    (hA : ∀ x ∈ l, A.find? (fun a => a.1 == x.1.name) = some (x.1.name, x.1.offset.toNat)) :
    addedSections env t A ((l.map (·.1)).map fun s => (s.name, s.filePath)) =
      some (l.map Filled.added) := by
  induction l with
  | nil => rfl
  | cons x l ih =>
    have h1 := (hc x (by simp)).src
    have h2 := hA x (by simp)
    have h3 := ih (fun y hy => hc y (by simp [hy])) (fun y hy => hA y (by simp [hy]))
    simp only [List.map_cons, addedSections, h1, h2, h3, Env.content, Filled.added,
      UInt64.ofNat_toNat]

theorem sim_objcopyEnd {t : TState} {A : List (Str × Nat)} {l : List Filled} {n : Nat} {stub : Bytes}
    {out : Str} (hc : ∀ x ∈ l, Holds t x.1.filePath x.2)
    (hA : ∀ x ∈ l, A.find? (fun a => a.1 == x.1.name) = some (x.1.name, x.1.offset.toNat))
    (hout : ∃ i, i < t.drawn ∧ out = te.path i) (hfresh : contentAt t.files out = none)
    (hp : Private te t) (hi : TInv te t) :
    Sim te (do
      let t ← RM.get
      match addedSections env t A ((l.map (·.1)).map fun s => (s.name, s.filePath)) with
      | none => RM.throw ()
      | some added => match env.objcopy n stub added with
        | none => RM.throw ()
        | some image => createTemp out .objcopy image)
      (ofOption (env.objcopy n stub (l.map Filled.added))) t
      fun _ b t' => Holds t' out b ∧ Grows t t' := by
  have e := addedSections_eq (env := env) hc hA
  unfold Sim
  cases ho : env.objcopy n stub (l.map Filled.added) with
  | none =>
    simp only [ofOption, RM.throw_run, RM.bind_run, RM.get_run, e, ho]
    exact ⟨t, rfl, rfl, hp⟩
  | some image =>
    simp only [ofOption, RM.pure_run, RM.bind_run, RM.get_run, e, ho, createTemp]
    refine ⟨(), _, rfl, rfl, ?_, ⟨?_⟩, ?_, ?_⟩
    · intro c hcr
      simp only [hfresh, Option.isSome_none, Bool.false_eq_true, if_false, List.mem_append,
        List.mem_singleton] at hcr
      rcases hcr with hcr | rfl
      · exact hp c hcr
      · obtain ⟨i, -, rfl⟩ := hout
        exact ⟨List.prefix_append _ _, Or.inr rfl⟩
    · intro p d h
      simp only [contentAt_put] at h
      split at h
      · rename_i e'; exact e' ▸ hout
      · exact hi.names _ _ h
    · simp only [Holds, contentAt_put, if_true]
    · intro p d h
      simp only [Holds, contentAt_put] at h ⊢
      rw [if_neg]
      · exact h
      · rintro rfl
        rw [hfresh] at h; cases h

theorem sim_wrapInPe {t : TState} {l : List Filled} {stub : Path} {out : Str}
    (hs : Outside te stub) (hn : (l.map (·.1.name)).Nodup) (heq : ∀ x ∈ l, '=' ∉ x.1.name)
    (hc : ∀ x ∈ l, Holds t x.1.filePath x.2)
    (hout : ∃ i, i < t.drawn ∧ out = te.path i) (hfresh : contentAt t.files out = none)
    (hp : Private te t) (hi : TInv te t) :
    Sim te (wrapInPeT env (pathText stub) (l.map (·.1)) out)
      (do
        let d ← readSrc env (.store stub)
        wrapInPe env d (l.map Filled.added)) t
      fun _ b t' => Holds t' out b ∧ Grows t t' := by
  have hparse := parse_command (l.map (·.1)) (a := pathText stub) (b := out)
    (by intro s hs; obtain ⟨x, hx, rfl⟩ := List.mem_map.mp hs; exact heq x hx) rfl
  unfold wrapInPeT runObjcopy
  rw [hparse]
  refine Sim.bind (sim_withSrc (readSrc env) (hi.outside hs) hp hi) ?_
  rintro d _ t1 hp1 hi1 ⟨rfl, s1⟩
  unfold wrapInPe
  refine Sim.bind (sim_lift (guarded env.os) hp1 hi1) ?_
  rintro _ _ t2 hp2 hi2 ⟨-, s2⟩
  refine Sim.bind (sim_lift next hp2 hi2) ?_
  rintro n _ t3 hp3 hi3 ⟨rfl, s3⟩
  have hf : t3.files = t.files := by rw [s3.1, s2.1, s1.1]
  have hd : t3.drawn = t.drawn := by rw [s3.2, s2.2, s1.2]
  refine Sim.mono (sim_objcopyEnd (te := te) (l := l)
    (fun x hx => ?_) (fun x hx => find_address hn hx) (hd ▸ hout) (hf ▸ hfresh) hp3 hi3) ?_
  · unfold Holds; rw [hf]; exact hc x hx
  · rintro _ b t' ⟨h1, h2⟩
    refine ⟨h1, fun p d h => h2 p d ?_⟩
    unfold Holds; rw [hf]; exact h

/-! ### The image -/

/-- The path stands for this source. -/
def Denotes (te : TempEnv) (t : TState) (p : Str) (src : Src) : Prop :=
  (∃ d, src = .temp d ∧ Holds t p d) ∨ ∃ q, src = .store q ∧ p = pathText q ∧ Outside te q

theorem Denotes.src {t : TState} {p : Str} {src : Src} (h : Denotes te t p src) (hi : TInv te t) :
    t.src p = src := by
  rcases h with ⟨d, rfl, h⟩ | ⟨q, rfl, rfl, h⟩
  · exact h.src
  · exact hi.outside h

theorem Denotes.grows {t t' : TState} {p : Str} {src : Src} (h : Denotes te t p src)
    (hg : Grows t t') : Denotes te t' p src := by
  rcases h with ⟨d, rfl, h⟩ | ⟨q, rfl, rfl, h⟩
  · exact Or.inl ⟨d, rfl, hg _ _ h⟩
  · exact Or.inr ⟨q, rfl, rfl, h⟩

/-- The same parameters, with a path for the initrd. -/
structure SameParameters (te : TempEnv) (t : TState) (p : StubParametersT) (q : StubParameters) :
    Prop where
  stub : p.lanzabooteStorePath = q.lanzabooteStorePath
  cmdline : p.kernelCmdline = q.kernelCmdline
  osRelease : p.osReleaseContents = q.osReleaseContents
  kernel : p.kernelStorePath = q.kernelStorePath
  initrd : Denotes te t p.initrdStorePath q.initrdStorePath
  kernelAt : p.kernelPathAtEsp = q.kernelPathAtEsp
  initrdAt : p.initrdPathAtEsp = q.initrdPathAtEsp

theorem sim_tempPath {α β : Type} {f : Str → T α} {m : M β} {t : TState} {R : α → β → TState → Prop}
    (h : Sim te (f (te.path t.drawn)) m { t with drawn := t.drawn + 1 } R) :
    Sim te (tempPath te >>= f) m t R := h

theorem sim_lanzabooteImage (hd : te.Distinct) {p : StubParametersT} {q : StubParameters} {t : TState}
    (hs : Outside te q.lanzabooteStorePath) (hk : Outside te q.kernelStorePath)
    (h : SameParameters te t p q) (hp : Private te t) (hi : TInv te t) :
    Sim te (lanzabooteImageT te env p) (lanzabooteImage env q) t
      fun a b t' => Holds t' a b := by
  unfold lanzabooteImageT lanzabooteImage
  rw [h.cmdline, h.kernelAt, h.initrdAt, h.kernel, h.osRelease, h.stub]
  refine Sim.bind (sim_writeSecureFile hd _ hp hi) ?_
  rintro cmdline _ t1 hp hi ⟨rfl, w1, g1⟩
  refine Sim.bind (sim_writeSecureFile hd _ hp hi) ?_
  rintro kernelPath _ t2 hp hi ⟨rfl, w2, g2⟩
  refine Sim.bind (sim_hash (hi.outside hk) hp hi) ?_
  rintro kh _ t3 hp hi ⟨rfl, s3⟩
  refine Sim.bind (sim_writeSecureFile hd _ hp hi) ?_
  rintro kernelHash _ t4 hp hi ⟨rfl, w4, g4⟩
  refine Sim.bind (sim_writeSecureFile hd _ hp hi) ?_
  rintro initrdPath _ t5 hp hi ⟨rfl, w5, g5⟩
  have hini : Denotes te t5 p.initrdStorePath q.initrdStorePath :=
    h.initrd.grows (g1.trans (g2.trans (s3.grows.trans (g4.trans g5))))
  refine Sim.bind (sim_hash (hini.src hi) hp hi) ?_
  rintro ih _ t6 hp hi ⟨rfl, s6⟩
  refine Sim.bind (sim_writeSecureFile hd _ hp hi) ?_
  rintro initrdHash _ t7 hp hi ⟨rfl, w7, g7⟩
  refine Sim.bind (sim_writeSecureFile hd _ hp hi) ?_
  rintro osRelease _ t8 hp hi ⟨rfl, w8, g8⟩
  -- the files written so far
  have k7 := g8 _ _ w7
  have k5 := (s6.grows.trans (g7.trans g8)) _ _ w5
  have k4 := (g5.trans (s6.grows.trans (g7.trans g8))) _ _ w4
  have k2 := (s3.grows.trans (g4.trans (g5.trans (s6.grows.trans (g7.trans g8))))) _ _ w2
  have k1 := (g2.trans (s3.grows.trans (g4.trans (g5.trans (s6.grows.trans (g7.trans g8)))))) _ _ w1
  clear w1 w2 w4 w5 w7 g1 g2 g4 g5 g7 g8 s3 s6
  refine Sim.bind (sim_withSrc (readSrc env) (hi.outside hs) hp hi) ?_
  rintro stub _ t9 hp hi ⟨rfl, s9⟩
  refine Sim.bind (sim_lift (ofRes (stubOffset env stub)) hp hi) ?_
  rintro off _ t10 hp hi ⟨rfl, s10⟩
  have s := s9.trans s10
  refine Sim.bind (sim_fileSize (s.holds w8) hp hi) ?_
  rintro z0 _ t11 hp hi ⟨rfl, s11⟩
  have s := s.trans s11
  refine Sim.bind (sim_fileSize (s.holds k1) hp hi) ?_
  rintro z1 _ t12 hp hi ⟨rfl, s12⟩
  have s := s.trans s12
  refine Sim.bind (sim_fileSize (s.holds k5) hp hi) ?_
  rintro z2 _ t13 hp hi ⟨rfl, s13⟩
  have s := s.trans s13
  refine Sim.bind (sim_fileSize (s.holds k2) hp hi) ?_
  rintro z3 _ t14 hp hi ⟨rfl, s14⟩
  have s := s.trans s14
  refine Sim.bind (sim_fileSize (s.holds k7) hp hi) ?_
  rintro z4 _ t15 hp hi ⟨rfl, s15⟩
  have s := s.trans s15
  clear s9 s10 s11 s12 s13 s14 s15
  have k1 := s.holds k1
  have k2 := s.holds k2
  have k4 := s.holds k4
  have k5 := s.holds k5
  have k7 := s.holds k7
  have k8 := s.holds w8
  have fresh : contentAt t15.files (te.path t15.drawn) = none := hi.fresh hd
  refine sim_tempPath ?_
  refine Sim.end ?_
  refine Sim.mono (sim_wrapInPe (te := te) (l := [
      (⟨lit ".osrel", osRelease, off⟩, _),
      (⟨lit ".cmdline", cmdline, off + z0⟩, _),
      (⟨lit ".initrd", initrdPath, off + z0 + z1⟩, _),
      (⟨lit ".linux", kernelPath, off + z0 + z1 + z2⟩, _),
      (⟨lit ".initrdh", initrdHash, off + z0 + z1 + z2 + z3⟩, _),
      (⟨lit ".linuxh", kernelHash, off + z0 + z1 + z2 + z3 + z4⟩, _)])
    hs ?_ ?_ ?_ ⟨_, Nat.lt_succ_self _, rfl⟩ fresh hp ⟨fun p d h => ?_⟩) ?_
  · exact (by decide : [lit ".osrel", lit ".cmdline", lit ".initrd", lit ".linux", lit ".initrdh",
      lit ".linuxh"].Nodup)
  · intro x hx
    have hn : ∀ n ∈ [lit ".osrel", lit ".cmdline", lit ".initrd", lit ".linux", lit ".initrdh",
      lit ".linuxh"], '=' ∉ n := by decide
    refine hn x.1.name ?_
    simp only [List.mem_cons, List.not_mem_nil, or_false] at hx
    rcases hx with rfl | rfl | rfl | rfl | rfl | rfl <;> simp
  · intro x hx
    simp only [List.mem_cons, List.not_mem_nil, or_false] at hx
    rcases hx with rfl | rfl | rfl | rfl | rfl | rfl
    · exact k8
    · exact k1
    · exact k5
    · exact k2
    · exact k7
    · exact k4
  · obtain ⟨i, hlt, e⟩ := hi.names _ _ h
    exact ⟨i, Nat.lt_succ_of_lt hlt, e⟩
  · rintro _ b t' ⟨h1, -⟩
    exact h1

/-! ### Installing a generation -/

theorem sim_appendInitrdSecrets {t : TState} {script : Path} {p : Str} {d : Bytes}
    (h : Holds t p d) (hp : Private te t) (hi : TInv te t) :
    Sim te (appendInitrdSecretsT env script p) (appendInitrdSecrets env script d) t
      fun _ b t' => Holds t' p b := by
  unfold appendInitrdSecretsT appendInitrdSecrets
  refine Sim.bind (sim_lift (guarded env.os) hp hi) ?_
  rintro _ _ t1 hp1 hi1 ⟨-, s1⟩
  refine Sim.bind (sim_lift next hp1 hi1) ?_
  rintro n _ t2 hp2 hi2 ⟨rfl, s2⟩
  have h2 : Holds t2 p d := (s1.trans s2).holds h
  unfold Sim
  cases hs : env.secrets n script d with
  | none =>
    simp only [ofOption, RM.throw_run, RM.bind_run, RM.get_run, h2.src, Env.content, hs]
    exact ⟨t2, rfl, rfl, hp2⟩
  | some d' =>
    simp only [ofOption, RM.pure_run, RM.bind_run, RM.get_run, h2.src, Env.content, hs, createTemp]
    have h2' : contentAt t2.files p = some d := h2
    refine ⟨(), _, rfl, rfl, ?_, ⟨?_⟩, ?_⟩
    · intro c hc
      simp only [h2', Option.isSome_some, if_true] at hc
      exact hp2 c hc
    · intro q x hq
      simp only [contentAt_put] at hq
      split at hq
      · rename_i e; exact e ▸ hi2.names _ _ h2'
      · exact hi2.names _ _ hq
    · simp only [Holds, contentAt_put, if_true]

theorem sim_initrdLocation (hd : te.Distinct) {b : BootSpec}
    (hb : ∀ p, b.initrd = some p → Outside te p) {t : TState} (hp : Private te t) (hi : TInv te t) :
    Sim te (initrdLocationT te env b) (initrdLocation env b) t fun a b t' => Denotes te t' a b := by
  unfold initrdLocationT initrdLocation
  cases b.initrdSecrets with
  | some script =>
    simp only
    cases hini : b.initrd with
    | none => exact ⟨t, rfl, rfl, hp⟩
    | some p =>
      refine Sim.bind (R := fun a b t' => a = p ∧ b = p) ⟨p, t, rfl, rfl, hp, hi, rfl, rfl⟩ ?_
      rintro _ _ t1 hp hi ⟨rfl, rfl⟩
      refine Sim.bind (sim_withSrc (readSrc env) (hi.outside (hb _ hini)) hp hi) ?_
      rintro d _ t2 hp hi ⟨rfl, -⟩
      refine Sim.bind (sim_writeSecureFile hd _ hp hi) ?_
      rintro q _ t3 hp hi ⟨rfl, w, -⟩
      refine Sim.bind (sim_appendInitrdSecrets w hp hi) ?_
      rintro _ d' t4 hp hi w
      exact Sim.pure hp hi (Or.inl ⟨d', rfl, w⟩)
  | none =>
    simp only
    cases hini : b.initrd with
    | none => exact ⟨t, rfl, rfl, hp⟩
    | some p =>
      refine Sim.bind (R := fun a b t' => a = p ∧ b = p) ⟨p, t, rfl, rfl, hp, hi, rfl, rfl⟩ ?_
      rintro _ _ t1 hp hi ⟨rfl, rfl⟩
      exact Sim.pure hp hi (Or.inr ⟨_, rfl, rfl, hb _ hini⟩)

theorem sim_stubParameters {g : Gen} {initrd : Str} {src : Src} {k i : Path} {t : TState}
    (h : Denotes te t initrd src) (hp : Private te t) (hi : TInv te t) :
    Sim te (stubParametersT cfg g initrd k i) (stubParameters cfg g src k i) t
      fun a b t' => SameParameters te t' a b ∧ b.lanzabooteStorePath = cfg.lanzabooteStub ∧
        b.kernelStorePath = g.spec.kernel := by
  unfold stubParametersT stubParameters
  refine Sim.bind (sim_lift (ofOption (espRelativeUefiPath cfg.esp k)) hp hi) ?_
  rintro ka _ t1 hp hi ⟨rfl, s1⟩
  refine Sim.bind (sim_lift (ofOption (espRelativeUefiPath cfg.esp i)) hp hi) ?_
  rintro ia _ t2 hp hi ⟨rfl, s2⟩
  exact Sim.pure hp hi ⟨⟨rfl, rfl, rfl, rfl, h.grows (s1.trans s2).grows, rfl, rfl⟩, rfl, rfl⟩

theorem sim_measureImage {g : Gen} {p : Str} {d : Bytes} {t : TState} (h : Holds t p d)
    (hp : Private te t) (hi : TInv te t) :
    Sim te (measureImageT env cfg g p) (measureImage env cfg g d) t fun _ _ t' => Same t t' := by
  unfold measureImageT measureImage
  cases cfg.pcrlock with
  | none => exact Sim.pure hp hi ⟨rfl, rfl⟩
  | some q =>
    refine Sim.bind (sim_withSrc (fun src => lockPe env src (q.lanzabooteMeasurement g.versionTag))
      h.src hp hi) ?_
    rintro _ _ t1 hp hi ⟨-, s1⟩
    exact Sim.mono (sim_lift (extendRoots [q.lanzabooteMeasurement g.versionTag]) hp hi)
      fun _ _ _ h => s1.trans h.2

/-- Kernel and initrd of a generation are not in the temporary directory. -/
def OutsideGen (te : TempEnv) (g : Gen) : Prop :=
  Outside te g.spec.kernel ∧ ∀ p, g.spec.initrd = some p → Outside te p

theorem sim_installInTempDir (hd : te.Distinct) (hs : Outside te cfg.lanzabooteStub) {g : Gen}
    (hg : OutsideGen te g) {t : TState} (hp : Private te t) (hi : TInv te t) :
    Sim te (installInTempDir te env cfg g) (do
      let version ← ofOption (kernelVersion g.spec.kernel)
      let kernelTarget ← installNixosCa env cfg (.store g.spec.kernel) (lit "kernel-" ++ version)
      let initrd ← initrdLocation env g.spec
      let initrdTarget ← installNixosCa env cfg initrd (lit "initrd-" ++ version)
      let parameters ← stubParameters cfg g initrd kernelTarget initrdTarget
      let image ← lanzabooteImage env parameters
      measureImage env cfg g image
      let key ← cfg.signer.getPublicKey env
      let stubTarget := cfg.paths.linux.join (StubName.stubName env.sha g key cfg.tries)
      extendRoots [stubTarget]
      installSigned env cfg.signer (.temp image) stubTarget) t fun _ _ _ => True := by
  unfold installInTempDir
  refine Sim.bind (sim_lift (ofOption (kernelVersion g.spec.kernel)) hp hi) ?_
  rintro v _ t1 hp hi ⟨rfl, -⟩
  refine Sim.bind (sim_withSrc (fun src => installNixosCa env cfg src (lit "kernel-" ++ v))
    (hi.outside hg.1) hp hi) ?_
  rintro k _ t2 hp hi ⟨rfl, -⟩
  refine Sim.bind (sim_initrdLocation hd hg.2 hp hi) ?_
  rintro ip src t3 hp hi den
  refine Sim.bind (sim_withSrc (fun src => installNixosCa env cfg src (lit "initrd-" ++ v))
    (den.src hi) hp hi) ?_
  rintro i _ t4 hp hi ⟨rfl, s4⟩
  refine Sim.bind (sim_stubParameters (den.grows s4.grows) hp hi) ?_
  rintro p q t5 hp hi ⟨hpq, e1, e2⟩
  refine Sim.bind (sim_lanzabooteImage hd (e1 ▸ hs) (e2 ▸ hg.1) hpq hp hi) ?_
  rintro image d t6 hp hi w
  refine Sim.bind (sim_measureImage w hp hi) ?_
  rintro _ _ t7 hp hi s7
  refine Sim.bind (sim_lift (cfg.signer.getPublicKey env) hp hi) ?_
  rintro key _ t8 hp hi ⟨rfl, s8⟩
  refine Sim.bind (sim_lift (extendRoots _) hp hi) ?_
  rintro _ _ t9 hp hi ⟨-, s9⟩
  exact Sim.mono (sim_withSrc (fun src => installSigned env cfg.signer src _)
    (((s7.trans s8).trans s9).holds w).src hp hi) fun _ _ _ _ => trivial

theorem sim_withTempDir {α β : Type} {m : T α} {m' : M β} {t : TState} {R : α → β → TState → Prop}
    (h : Sim te m m' { t with files := [] } R) :
    Sim te (withTempDir m) m' t fun _ _ _ => True := by
  unfold Sim at h ⊢
  simp only at h
  cases hm : m' t.st with
  | mk r s =>
    rw [hm] at h
    cases r with
    | ok b =>
      obtain ⟨a, t', e, rfl, hp, hi, -⟩ := h
      refine ⟨a, { t' with files := [] }, ?_, rfl, hp, ⟨fun _ _ h => ?_⟩, trivial⟩
      · simp only [withTempDir, e]
      · cases h
    | err e =>
      obtain ⟨t', e, rfl, hp⟩ := h
      exact ⟨{ t' with files := [] }, by simp only [withTempDir, e], rfl, hp⟩
    | panic =>
      obtain ⟨t', e, rfl, hp⟩ := h
      exact ⟨{ t' with files := [] }, by simp only [withTempDir, e], rfl, hp⟩

theorem sim_installGeneration (hd : te.Distinct) (hs : Outside te cfg.lanzabooteStub) {g : Gen}
    (hg : OutsideGen te g) {t : TState} (hp : Private te t) (hi : TInv te t) :
    Sim te (installGenerationT te env cfg g) (installGeneration env cfg g) t fun _ _ _ => True := by
  unfold installGenerationT installGeneration
  refine Sim.bind (sim_lift (registerInstalledGeneration env cfg g) hp hi) ?_
  rintro b _ t1 hp hi ⟨rfl, -⟩
  cases b with
  | true => exact Sim.pure hp hi trivial
  | false =>
    simp only [Bool.false_eq_true, if_false]
    unfold installNewGenerationT installNewGeneration
    refine Sim.bind (sim_lift (guarded env.os) hp hi) ?_
    rintro _ _ t2 hp hi -
    exact sim_withTempDir (sim_installInTempDir hd hs hg hp ⟨fun _ _ h => nomatch h⟩)

theorem sim_installAll (hd : te.Distinct) (hs : Outside te cfg.lanzabooteStub) (gs : List Gen)
    (hg : ∀ g ∈ gs, OutsideGen te g) {t : TState} (hp : Private te t) (hi : TInv te t) :
    Sim te (installAllT te env cfg gs) (installAll env cfg gs) t fun _ _ _ => True := by
  induction gs generalizing t with
  | nil => exact Sim.pure hp hi trivial
  | cons g gs ih =>
    refine Sim.bind (sim_installGeneration hd hs (hg g (by simp)) hp hi) ?_
    rintro _ _ t1 hp hi -
    exact ih (fun g hg' => hg g (by simp [hg'])) hp hi

theorem sim_run (hd : te.Distinct) (hs : Outside te cfg.lanzabooteStub)
    (hg : ∀ g, Considers env cfg g → OutsideGen te g) {t : TState} (hp : Private te t)
    (hi : TInv te t) : Sim te (runT te env cfg) (run env cfg) t fun _ _ _ => True := by
  unfold runT run
  cases hl : cfg.considered env with
  | none => exact ⟨t, rfl, rfl, hp⟩
  | some links =>
    refine Sim.bind (R := fun a b _ => a = links ∧ b = links) ⟨links, t, rfl, rfl, hp, hi, rfl, rfl⟩ ?_
    intro x y t1 hp hi hxy
    rw [hxy.1, hxy.2]
    refine Sim.bind (R := fun _ _ _ => True) ?_ ?_
    · unfold installGenerationsFromLinksT installGenerationsFromLinks
      obtain ⟨gens, n, b, he, hmem, -⟩ := readGenerations_spec env links t1.st
      refine Sim.bind (R := fun x y _ => x = gens ∧ y = gens) ?_ ?_
      · unfold Sim
        rw [he]
        exact ⟨gens, { t1 with st := { t1.st with tick := n, broken := b } },
          by simp only [lift, he], rfl, hp, ⟨hi.names⟩, rfl, rfl⟩
      · rintro _ _ t2 hp hi ⟨rfl, rfl⟩
        split
        · exact ⟨t2, rfl, rfl, hp⟩
        · refine Sim.bind (sim_installAll hd hs _ ?_ hp hi) ?_
          · intro g hgm
            obtain ⟨x, hx, hgx⟩ := List.mem_flatMap.mp hgm
            obtain ⟨link, hlink, j, hj, rfl⟩ := hmem x hx
            exact hg g ⟨links, link, j, hl, hlink, hj, hgx⟩
          · rintro _ _ t3 hp hi -
            exact Sim.mono (sim_lift (syncFs env.os cfg.esp) hp hi) fun _ _ _ _ => trivial
    · rintro _ _ t2 hp hi -
      refine Sim.bind (sim_lift (installSystemdBoot env cfg) hp hi) ?_
      rintro _ _ t3 hp hi -
      exact Sim.mono (sim_lift (collect env cfg) hp hi) fun _ _ _ _ => trivial

/-! ### Nothing is left -/

/-- Leaves nothing behind in the temporary directory. -/
def Clean {α : Type} (m : T α) : Prop := ∀ t, t.files = [] → (m t).2.files = []

theorem Clean.bind {α β : Type} {m : T α} {f : α → T β} (h : Clean m) (hf : ∀ a, Clean (f a)) :
    Clean (m >>= f) := by
  intro t ht
  have h1 := h t ht
  simp only [RM.bind_run]
  split
  · rename_i a t' e; rw [e] at h1; exact hf a t' h1
  · rename_i e; rw [e] at h1; exact h1
  · rename_i e; rw [e] at h1; exact h1

theorem Clean.lift {α : Type} (m : M α) : Clean (lift m) := fun _ ht => ht

theorem Clean.pure {α : Type} (a : α) : Clean (Pure.pure a) := fun _ ht => ht

theorem Clean.throw {α : Type} : Clean (RM.throw () : T α) := fun _ ht => ht

theorem Clean.withTempDir {α : Type} (m : T α) : Clean (withTempDir m) := fun _ _ => rfl

theorem clean_installAll (gs : List Gen) : Clean (installAllT te env cfg gs) := by
  induction gs with
  | nil => exact Clean.pure _
  | cons g gs ih =>
    refine Clean.bind (Clean.bind (Clean.lift _) fun b => ?_) fun _ => ih
    cases b
    · exact Clean.bind (Clean.lift _) fun _ => Clean.withTempDir _
    · exact Clean.pure _

theorem clean_run : Clean (runT te env cfg) := by
  refine Clean.bind (Clean.lift _) fun links => Clean.bind ?_ fun _ =>
    Clean.bind (Clean.lift _) fun _ => Clean.lift _
  refine Clean.bind (Clean.lift _) fun gens => ?_
  split
  · exact Clean.throw
  · exact Clean.bind (clean_installAll _) fun _ => Clean.lift _

end

/-! ### The theorems -/

/-- C63: a run that puts everything it passes between programs into named files in a temporary directory,
and hands objcopy its command line, has the same result and does exactly the same to the file systems
as one in which these contents are passed directly. The temporary names must be different, and the
inputs must not be in the temporary directory. -/
theorem C63_same_as_contents (te : TempEnv) (env : Env) (cfg : Config) (fs : Fs)
    (distinct : ∀ i j, te.names i = te.names j → i = j)
    (stub_outside : Outside te cfg.lanzabooteStub)
    (outside : ∀ g, Considers env cfg g → Outside te g.spec.kernel ∧
      ∀ p, g.spec.initrd = some p → Outside te p) :
    (runT te env cfg (startT cfg fs)).1 = (run env cfg (start cfg fs)).1 ∧
    (runT te env cfg (startT cfg fs)).2.st = (run env cfg (start cfg fs)).2 := by
  have h := sim_run (te := te) (env := env) (cfg := cfg) distinct stub_outside outside
    (t := startT cfg fs) (fun _ h => nomatch h) ⟨fun _ _ h => nomatch h⟩
  unfold Sim at h
  have e : (startT cfg fs).st = start cfg fs := rfl
  rw [e] at h
  cases hr : run env cfg (start cfg fs) with
  | mk r s =>
    rw [hr] at h
    cases r with
    | ok b =>
      obtain ⟨a, t', e, rfl, -⟩ := h
      exact ⟨by rw [e], by rw [e]⟩
    | err e =>
      obtain ⟨t', e, rfl, -⟩ := h
      exact ⟨by rw [e], by rw [e]⟩
    | panic =>
      obtain ⟨t', e, rfl, -⟩ := h
      exact ⟨by rw [e], by rw [e]⟩

/-- C63: every file in the temporary directory is created by objcopy, or by the installer with mode
0600, before anything is written to it. The script that appends secrets creates none: it gets a file
that exists already. -/
theorem C63_private (te : TempEnv) (env : Env) (cfg : Config) (fs : Fs)
    (distinct : ∀ i j, te.names i = te.names j → i = j)
    (stub_outside : Outside te cfg.lanzabooteStub)
    (outside : ∀ g, Considers env cfg g → Outside te g.spec.kernel ∧
      ∀ p, g.spec.initrd = some p → Outside te p) :
    ∀ c ∈ (runT te env cfg (startT cfg fs)).2.created,
      (te.dir ++ ['/']) <+: c.1 ∧ (c.2 = .installer 0o600 ∨ c.2 = .objcopy) := by
  have h := sim_run (te := te) (env := env) (cfg := cfg) distinct stub_outside outside
    (t := startT cfg fs) (fun _ h => nomatch h) ⟨fun _ _ h => nomatch h⟩
  unfold Sim at h
  split at h
  · obtain ⟨a, t', e, -, hp, -⟩ := h
    rw [e]; exact hp
  · obtain ⟨t', e, -, hp⟩ := h
    rw [e]; exact hp
  · obtain ⟨t', e, -, hp⟩ := h
    rw [e]; exact hp

/-- C63: whatever happens, success, an error or a panic, no temporary file is left. -/
theorem C63_nothing_left (te : TempEnv) (env : Env) (cfg : Config) (fs : Fs) :
    (runT te env cfg (startT cfg fs)).2.files = [] := clean_run _ rfl

/-- C63: the command line for objcopy means exactly the sections and the addresses that are intended. -/
theorem C63_objcopy_arguments (sections : List SectionFile) (stub : Path) (output : Str)
    (h : ∀ s ∈ sections, '=' ∉ s.name) :
    Objcopy.parse (sections.flatMap SectionFile.toObjcopy ++ [pathText stub, output]) = some {
      sections := sections.map fun s => (s.name, s.filePath)
      addresses := sections.map fun s => (s.name, s.offset.toNat)
      files := [pathText stub, output] } :=
  parse_command sections h rfl

namespace Sample

/-- Names that are all different. -/
def temp : TempEnv where
  dir := lit "/tmp/.tmpAbCdEf"
  names := fun n => List.replicate n 'x'

theorem temp_distinct (i j : Nat) (h : temp.names i = temp.names j) : i = j := by
  have := congrArg List.length h
  simpa [temp] using this

instance (p : Path) : Decidable (Outside temp p) := by unfold Outside Component; infer_instance

theorem temp_outside : Outside temp cfg.lanzabooteStub ∧ ∀ g, Considers good cfg g →
    Outside temp g.spec.kernel ∧ ∀ p, g.spec.initrd = some p → Outside temp p := by
  refine ⟨by decide +kernel, fun g hg => ?_⟩
  have h : ((allOf good cfg).all fun g => decide (Outside temp g.spec.kernel) &&
      (match g.spec.initrd with
        | some p => decide (Outside temp p)
        | none => true)) = true := by decide +kernel
  have h1 := List.all_eq_true.mp h g (considers_iff.mp hg)
  simp only [Bool.and_eq_true, decide_eq_true_eq] at h1
  refine ⟨h1.1, fun p hp => ?_⟩
  have h2 := h1.2
  rw [hp] at h2
  simpa using h2

/-- The hypotheses can be met by a run that installs two systems and a specialisation. -/
example : (runT temp good cfg (startT cfg disk)).1 = .ok () ∧
    (runT temp good cfg (startT cfg disk)).2.st = (run good cfg (start cfg disk)).2 := by
  have h := C63_same_as_contents temp good cfg disk temp_distinct temp_outside.1 temp_outside.2
  exact ⟨h.1.trans good_ok, h.2⟩

/-- If the same name is drawn twice, a wrong image may get installed. -/
theorem C63_needs_distinct_names :
    (runT { temp with names := fun _ => lit "x" } good cfg (startT cfg disk)).2.st.fs ≠
      (run good cfg (start cfg disk)).2.fs := by decide +kernel

end Sample

end Verif.Tool
