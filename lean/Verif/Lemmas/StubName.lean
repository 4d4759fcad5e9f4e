import Verif.Model.StubName
import Verif.Lemmas.Text
/-! Lemmas about base 32, JSON and stub names. -/
namespace Verif.StubName
open Verif Generation

theorem utf8Decode_utf8 (s : Str) : utf8Decode (utf8 s) = some s := by
  unfold utf8Decode utf8
  have : (s.flatMap String.utf8EncodeChar).toByteArray.utf8Decode? = some s.toArray :=
    List.utf8Decode?_utf8Encode
  rw [this]; simp

theorem utf8_injective {a b : Str} (h : utf8 a = utf8 b) : a = b := by
  have := utf8Decode_utf8 a
  rw [h, utf8Decode_utf8] at this
  exact (Option.some.inj this).symm

/-! ### Base 32 -/

theorem b32Char_inj_fin : ∀ a b : Fin 32, b32Alphabet.getD a.val 'a' = b32Alphabet.getD b.val 'a' → a = b := by
  decide

theorem b32Char_inj {a b : Nat} (h : b32Char a = b32Char b) : a % 32 = b % 32 := by
  have := b32Char_inj_fin ⟨a % 32, Nat.mod_lt _ (by decide)⟩ ⟨b % 32, Nat.mod_lt _ (by decide)⟩ h
  exact congrArg Fin.val this

theorem b32Digits_length (k m : Nat) : (b32Digits k m).length = k := by
  induction k generalizing m with
  | zero => rfl
  | succ k ih => simp [b32Digits, ih]

theorem b32Digits_inj {k a b : Nat} (ha : a < 32 ^ k) (hb : b < 32 ^ k)
    (h : b32Digits k a = b32Digits k b) : a = b := by
  induction k generalizing a b with
  | zero => simp at ha hb; omega
  | succ k ih =>
    simp only [b32Digits] at h
    have h' := List.append_inj' h rfl
    have h1 : a / 32 = b / 32 := by
      apply ih _ _ h'.1
      · rw [Nat.pow_succ] at ha; omega
      · rw [Nat.pow_succ] at hb; omega
    have h2 : a % 32 = b % 32 := b32Char_inj (by simpa using h'.2)
    omega

theorem beValue_foldl (b : Bytes) (acc : Nat) :
    b.foldl (fun a x => a * 256 + x.toNat) acc = acc * 256 ^ b.length + beValue b := by
  induction b generalizing acc with
  | nil => simp [beValue]
  | cons x xs ih =>
    have := ih (0 * 256 + x.toNat)
    simp only [beValue, List.foldl_cons] at this ⊢
    rw [ih, this]
    simp only [List.length_cons, Nat.pow_succ, Nat.zero_mul, Nat.zero_add, Nat.add_mul]
    rw [Nat.mul_assoc, Nat.mul_comm 256, Nat.add_assoc]
    rfl

theorem beValue_cons (x : UInt8) (xs : Bytes) :
    beValue (x :: xs) = x.toNat * 256 ^ xs.length + beValue xs := by
  have := beValue_foldl xs (0 * 256 + x.toNat)
  simp only [Nat.zero_mul, Nat.zero_add] at this
  simpa [beValue] using this

theorem beValue_lt (b : Bytes) : beValue b < 256 ^ b.length := by
  induction b with
  | nil => simp [beValue]
  | cons x xs ih =>
    rw [beValue_cons, List.length_cons, Nat.pow_succ]
    have hx := x.toNat_lt
    calc x.toNat * 256 ^ xs.length + beValue xs
        < x.toNat * 256 ^ xs.length + 256 ^ xs.length := by omega
      _ = (x.toNat + 1) * 256 ^ xs.length := by rw [Nat.add_mul, Nat.one_mul]
      _ ≤ 256 * 256 ^ xs.length := Nat.mul_le_mul_right _ (by omega)
      _ = 256 ^ xs.length * 256 := Nat.mul_comm _ _

theorem beValue_inj {a b : Bytes} (hl : a.length = b.length) (h : beValue a = beValue b) : a = b := by
  induction a generalizing b with
  | nil => cases b with
    | nil => rfl
    | cons y ys => simp at hl
  | cons x xs ih =>
    cases b with
    | nil => simp at hl
    | cons y ys =>
      simp only [List.length_cons, Nat.add_right_cancel_iff] at hl
      rw [beValue_cons, beValue_cons, hl] at h
      have h1 := beValue_lt xs
      have h2 := beValue_lt ys
      rw [hl] at h1
      have hpos : 0 < 256 ^ ys.length := Nat.pow_pos (by decide)
      have hx : x.toNat = y.toNat := by
        have e1 : (x.toNat * 256 ^ ys.length + beValue xs) / 256 ^ ys.length = x.toNat := by
          rw [Nat.mul_comm, Nat.mul_add_div hpos, Nat.div_eq_of_lt h1, Nat.add_zero]
        have e2 : (y.toNat * 256 ^ ys.length + beValue ys) / 256 ^ ys.length = y.toNat := by
          rw [Nat.mul_comm, Nat.mul_add_div hpos, Nat.div_eq_of_lt h2, Nat.add_zero]
        rw [← e1, ← e2, h]
      rw [hx] at h
      rw [UInt8.toNat.inj hx, ih hl (by omega)]

theorem base32_len {b : Bytes} (h : b.length = 32) : (base32 b).length = 52 := by
  simp [base32, b32Digits_length, h]

theorem base32_inj {a b : Bytes} (ha : a.length = 32) (hb : b.length = 32)
    (h : base32 a = base32 b) : a = b := by
  unfold base32 at h
  simp only [ha, hb, Nat.reduceMul, Nat.reduceMod, Nat.reduceSub, Nat.reduceAdd, Nat.reduceDiv] at h
  have h1 := beValue_lt a
  have h2 := beValue_lt b
  rw [ha] at h1; rw [hb] at h2
  have := b32Digits_inj (by omega) (by omega) h
  exact beValue_inj (by rw [ha, hb]) (by omega)

/-- The last digit carries one bit of the hash, followed by four zero bits. -/
theorem base32_last {b : Bytes} (h : b.length = 32) :
    ∃ t c, base32 b = t ++ [c] ∧ (c = 'a' ∨ c = 'q') := by
  unfold base32
  simp only [h, Nat.reduceMul, Nat.reduceMod, Nat.reduceSub, Nat.reduceAdd, Nat.reduceDiv, b32Digits]
  refine ⟨_, _, rfl, ?_⟩
  unfold b32Char
  have : beValue b * 2 ^ 4 % 32 = 0 ∨ beValue b * 2 ^ 4 % 32 = 16 := by omega
  rcases this with h | h <;> rw [h]
  · exact Or.inl rfl
  · exact Or.inr rfl

theorem b32Char_mem_fin : ∀ a : Fin 32, b32Alphabet.getD a.val 'a' ∈ b32Alphabet := by decide

theorem b32Digits_mem (k m : Nat) : ∀ c ∈ b32Digits k m, c ∈ b32Alphabet := by
  induction k generalizing m with
  | zero => simp [b32Digits]
  | succ k ih =>
    intro c hc
    rcases List.mem_append.mp hc with hc | hc
    · exact ih _ c hc
    · simp only [List.mem_singleton] at hc
      subst hc
      exact b32Char_mem_fin ⟨m % 32, Nat.mod_lt _ (by decide)⟩

theorem base32_mem (b : Bytes) : ∀ c ∈ base32 b, c ∈ b32Alphabet := b32Digits_mem _ _

/-! ### JSON -/

theorem splitOn_joinWith {sep : Char} {l : List Str} (hne : l ≠ []) (h : ∀ x ∈ l, sep ∉ x) :
    splitOn sep (joinWith [sep] l) = l := by
  induction l with
  | nil => exact absurd rfl hne
  | cons x xs ih =>
    cases xs with
    | nil => simpa [joinWith] using splitOn_not_mem (h x (by simp))
    | cons y ys =>
      have : joinWith [sep] (x :: y :: ys) = x ++ sep :: joinWith [sep] (y :: ys) := by
        simp [joinWith]
      rw [this, splitOn_append (h x (by simp)), ih (by simp) (fun z hz => h z (by simp [hz]))]

theorem joinWith_mem {sep : Str} {l : List Str} {c : Char} (h : c ∈ joinWith sep l) :
    c ∈ sep ∨ ∃ x ∈ l, c ∈ x := by
  induction l with
  | nil => simp [joinWith] at h
  | cons x xs ih =>
    cases xs with
    | nil => exact Or.inr ⟨x, by simp, by simpa [joinWith] using h⟩
    | cons y ys =>
      simp only [joinWith, List.mem_append] at h
      rcases h with (h | h) | h
      · exact Or.inr ⟨x, by simp, h⟩
      · exact Or.inl h
      · rcases ih (by simpa [joinWith] using h) with h | ⟨z, hz, hc⟩
        · exact Or.inl h
        · exact Or.inr ⟨z, by simp [hz], hc⟩

theorem joinWith_ne_nil {sep : Str} {l : List Str} (hl : l ≠ []) (h : ∀ x ∈ l, x ≠ []) :
    joinWith sep l ≠ [] := by
  cases l with
  | nil => exact absurd rfl hl
  | cons x xs =>
    have := h x (by simp)
    cases xs with
    | nil => simpa [joinWith] using this
    | cons y ys => simp [joinWith, this]

theorem bytesMap_inj {a b : Bytes} (h : a.map (fun x => toDec x.toNat) = b.map fun x => toDec x.toNat) :
    a = b := by
  induction a generalizing b with
  | nil => cases b with
    | nil => rfl
    | cons y ys => simp at h
  | cons x xs ih =>
    cases b with
    | nil => simp at h
    | cons y ys =>
      simp only [List.map_cons, List.cons.injEq] at h
      rw [UInt8.toNat.inj (toDec_injective h.1), ih h.2]

def decList (b : Bytes) : Str := joinWith [','] (b.map fun x => toDec x.toNat)

theorem decList_not_mem {c : Char} (h1 : isDigitC c = false) (h2 : c ≠ ',') (b : Bytes) :
    c ∉ decList b := by
  intro h
  rcases joinWith_mem h with h | ⟨x, hx, hc⟩
  · simp at h; exact h2 h
  · obtain ⟨y, -, rfl⟩ := List.mem_map.mp hx
    exact not_mem_toDec h1 _ hc

theorem decList_inj {a b : Bytes} (h : decList a = decList b) : a = b := by
  have hsep : ∀ (l : Bytes), ∀ x ∈ l.map (fun x => toDec x.toNat), ',' ∉ x := by
    intro l x hx
    obtain ⟨y, -, rfl⟩ := List.mem_map.mp hx
    exact not_mem_toDec (by decide) _
  have hnn : ∀ (l : Bytes), ∀ x ∈ l.map (fun x => toDec x.toNat), x ≠ [] := by
    intro l x hx
    obtain ⟨y, -, rfl⟩ := List.mem_map.mp hx
    exact toDec_ne_nil _
  by_cases ha : a = []
  · subst ha
    by_cases hb : b = []
    · exact hb.symm
    · exact absurd h.symm (joinWith_ne_nil (by simpa using hb) (hnn b))
  · by_cases hb : b = []
    · subst hb
      exact absurd h (joinWith_ne_nil (by simpa using ha) (hnn a))
    · have h1 := splitOn_joinWith (by simpa using ha) (hsep a)
      have h2 := splitOn_joinWith (by simpa using hb) (hsep b)
      unfold decList at h
      rw [h, h2] at h1
      exact bytesMap_inj h1.symm

/-- A separator that occurs in neither part splits a string uniquely. -/
theorem append_sep_inj {sep : Char} {a a' b b' : Str} (h : a ++ sep :: b = a' ++ sep :: b')
    (ha : sep ∉ a) (ha' : sep ∉ a') : a = a' ∧ b = b' := by
  induction a generalizing a' with
  | nil =>
    cases a' with
    | nil => simpa using h
    | cons c cs => simp at h; exact absurd (by simp [h.1]) ha'
  | cons c cs ih =>
    cases a' with
    | nil => simp at h; exact absurd (by simp [h.1]) ha
    | cons d ds =>
      simp only [List.cons_append, List.cons.injEq] at h
      simp only [List.mem_cons, not_or] at ha ha'
      have := ih h.2 ha.2 ha'.2
      exact ⟨by rw [h.1, this.1], this.2⟩

theorem stubInputs_inj {t k t' k' : Bytes} (h : stubInputs t k = stubInputs t' k') :
    t = t' ∧ k = k' := by
  have e : ∀ t k, stubInputs t k = lit "[[\"toplevel\",[" ++ (decList t ++
      ']' :: (lit "],[\"public_key\",[" ++ (decList k ++ ']' :: lit "]]"))) := by
    intro t k
    simp [stubInputs, jsonBytes, decList, lit]
  rw [e, e] at h
  have h1 := List.append_cancel_left h
  have h2 := append_sep_inj h1 (decList_not_mem (by decide) (by decide) _)
    (decList_not_mem (by decide) (by decide) _)
  have h3 := List.append_cancel_left h2.2
  have h4 := append_sep_inj h3 (decList_not_mem (by decide) (by decide) _)
    (decList_not_mem (by decide) (by decide) _)
  exact ⟨decList_inj h2.1, decList_inj h4.1⟩

/-! ### Prefixes -/

/-- Appending to a string that ends in a character outside `P` a string of characters in `P` can
be undone. -/
theorem append_class_inj {P : Char → Prop} {a a' b b' : Str} {c c' : Char}
    (h : (a ++ [c]) ++ b = (a' ++ [c']) ++ b') (hc : ¬ P c) (hc' : ¬ P c')
    (hb : ∀ x ∈ b, P x) (hb' : ∀ x ∈ b', P x) : a ++ [c] = a' ++ [c'] ∧ b = b' := by
  rcases List.append_eq_append_iff.mp h with ⟨z, h1, h2⟩ | ⟨z, h1, h2⟩
  · rcases List.eq_nil_or_concat z with rfl | ⟨z', d, rfl⟩
    · simp at h1 h2; exact ⟨by simp [h1], h2⟩
    · exfalso
      rw [List.concat_eq_append, ← List.append_assoc] at h1
      have := (List.append_inj' h1 rfl).2
      simp only [List.cons.injEq, and_true] at this
      subst this
      exact hc' (hb _ (by rw [h2]; simp))
  · rcases List.eq_nil_or_concat z with rfl | ⟨z', d, rfl⟩
    · simp at h1 h2; exact ⟨by simp [h1], h2.symm⟩
    · exfalso
      rw [List.concat_eq_append, ← List.append_assoc] at h1
      have := (List.append_inj' h1 rfl).2
      simp only [List.cons.injEq, and_true] at this
      subst this
      exact hc (hb' _ (by rw [h2]; simp))

/-- The hash part of a stub name. -/
def hashPart (sha : Sha) (g : Gen) (key : Bytes) : Str :=
  base32 (sha.hash (utf8 (stubInputs g.spec.toplevel key)))

/-- The part of a stub name between the version and the hash. -/
def specPart (g : Gen) : Str :=
  match g.specialisationName with
  | some s => lit "specialisation-" ++ s ++ lit "-"
  | none => []

theorem stubPrefix_eq (sha : Sha) (g : Gen) (key : Bytes) :
    stubPrefix sha g key = lit "nixos-generation-" ++ (toDec g.version ++
      '-' :: (specPart g ++ hashPart sha g key)) := by
  unfold stubPrefix specPart hashPart
  cases g.specialisationName <;> simp [lit]

theorem stubPrefix_last (sha : Sha) (g : Gen) (key : Bytes) :
    ∃ t c, stubPrefix sha g key = t ++ [c] ∧ (c = 'a' ∨ c = 'q') := by
  obtain ⟨t, c, ht, hc⟩ := base32_last (sha.len (utf8 (stubInputs g.spec.toplevel key)))
  refine ⟨lit "nixos-generation-" ++ (toDec g.version ++ '-' :: (specPart g ++ t)), c, ?_, hc⟩
  rw [stubPrefix_eq, hashPart, ht]
  simp

theorem specPart_inj {g g' : Gen} (h : specPart g = specPart g') :
    g.specialisationName = g'.specialisationName := by
  unfold specPart at h
  cases h1 : g.specialisationName with
  | none => cases h2 : g'.specialisationName with
    | none => rfl
    | some s => rw [h1, h2] at h; simp [lit] at h
  | some s => cases h2 : g'.specialisationName with
    | none => rw [h1, h2] at h; simp [lit] at h
    | some s' =>
      rw [h1, h2] at h
      simp only at h
      have := List.append_cancel_left (List.append_cancel_right h)
      rw [this]

theorem stubPrefix_inj {sha : Sha} {g g' : Gen} {k k' : Bytes}
    (h : stubPrefix sha g k = stubPrefix sha g' k') :
    g.version = g'.version ∧ g.specialisationName = g'.specialisationName ∧
      sha.hash (utf8 (stubInputs g.spec.toplevel k)) =
        sha.hash (utf8 (stubInputs g'.spec.toplevel k')) := by
  rw [stubPrefix_eq, stubPrefix_eq] at h
  have h1 := List.append_cancel_left h
  have h2 := append_sep_inj h1 (not_mem_toDec (by decide) _) (not_mem_toDec (by decide) _)
  have h3 := List.append_inj' h2.2 (by
    unfold hashPart; rw [base32_len (sha.len _), base32_len (sha.len _)])
  exact ⟨toDec_injective h2.1, specPart_inj h3.1, base32_inj (sha.len _) (sha.len _) h3.2⟩

end Verif.StubName
