import Verif.Model.Text
/-! Lemmas about the text functions. -/
namespace Verif

theorem digitVal_digitChar_fin : ∀ k : Fin 10, digitVal (Char.ofNat (0x30 + k.val)) = some k.val := by
  decide

theorem digitVal_digitChar (n : Nat) : digitVal (digitChar n) = some (n % 10) := by
  exact digitVal_digitChar_fin ⟨n % 10, Nat.mod_lt _ (by decide)⟩

theorem digitsFrom_append (a b : Str) (acc : Nat) :
    digitsFrom acc (a ++ b) = (digitsFrom acc a).bind fun n => digitsFrom n b := by
  induction a generalizing acc with
  | nil => rfl
  | cons c cs ih =>
    simp only [List.cons_append, digitsFrom]
    cases digitVal c with
    | none => rfl
    | some d => exact ih _

theorem toDec_eq (n : Nat) :
    toDec n = if n < 10 then [digitChar n] else toDec (n / 10) ++ [digitChar n] := by
  rw [toDec]

theorem toDec_ne_nil (n : Nat) : toDec n ≠ [] := by
  rw [toDec_eq]; split <;> simp

theorem digitsFrom_toDec (n : Nat) : digitsFrom 0 (toDec n) = some n := by
  induction n using Nat.strongRecOn with
  | ind n ih =>
    rw [toDec_eq]
    split
    · next h =>
      simp only [digitsFrom, digitVal_digitChar]
      congr 1; omega
    · next h =>
      rw [digitsFrom_append, ih (n / 10) (by omega)]
      simp only [Option.bind_some, digitsFrom, digitVal_digitChar]
      congr 1; omega

theorem digits_toDec (n : Nat) : digits (toDec n) = some n := by
  have h := digitsFrom_toDec n
  have hne := toDec_ne_nil n
  cases hs : toDec n with
  | nil => exact absurd hs hne
  | cons c cs => rw [hs] at h; exact h

theorem toDec_injective {m n : Nat} (h : toDec m = toDec n) : m = n := by
  have h1 := digits_toDec m
  rw [h, digits_toDec] at h1
  exact (Option.some.inj h1).symm

/-- ASCII digit. -/
def isDigitC (c : Char) : Bool := (digitVal c).isSome

theorem toDec_digits (n : Nat) : ∀ c ∈ toDec n, isDigitC c = true := by
  induction n using Nat.strongRecOn with
  | ind n ih =>
    rw [toDec_eq]
    split
    · intro c hc
      simp only [List.mem_singleton] at hc
      subst hc
      simp [isDigitC, digitVal_digitChar]
    · intro c hc
      rcases List.mem_append.mp hc with hc | hc
      · exact ih (n / 10) (by omega) c hc
      · simp only [List.mem_singleton] at hc
        subst hc
        simp [isDigitC, digitVal_digitChar]

theorem isDigitC_of {c : Char} (h : isDigitC c = true) : 0x30 ≤ c.toNat ∧ c.toNat ≤ 0x39 := by
  unfold isDigitC digitVal at h
  split at h
  · assumption
  · simp at h

/-- Decimal numbers contain no character that is not a digit. -/
theorem not_mem_toDec {c : Char} (h : isDigitC c = false) (n : Nat) : c ∉ toDec n := by
  intro hc
  have := toDec_digits n c hc
  rw [h] at this
  simp at this

theorem toDec_head (n : Nat) : ∃ c cs, toDec n = c :: cs ∧ isDigitC c = true := by
  cases hs : toDec n with
  | nil => exact absurd hs (toDec_ne_nil n)
  | cons c cs => exact ⟨c, cs, rfl, toDec_digits n c (by simp [hs])⟩

theorem parseUnsigned_toDec {max n : Nat} (h : n ≤ max) : parseUnsigned max (toDec n) = some n := by
  obtain ⟨c, cs, hc, hd⟩ := toDec_head n
  have hne : c ≠ '+' := by rintro rfl; revert hd; decide
  have hdig := digits_toDec n
  unfold parseUnsigned
  rw [hc] at hdig ⊢
  split
  · next r heq =>
    split at heq
    · next r' h' => simp only [List.cons.injEq] at h'; exact absurd h'.1 hne
    · rw [hdig] at heq
      simp only [Option.some.injEq] at heq
      subst heq
      simp [h]
  · next heq =>
    split at heq
    · next r' h' => simp only [List.cons.injEq] at h'; exact absurd h'.1 hne
    · rw [hdig] at heq; simp at heq

theorem parseUnsigned_le {max n : Nat} {s : Str} (h : parseUnsigned max s = some n) : n ≤ max := by
  unfold parseUnsigned at h
  split at h
  · split at h
    · next hle => simp only [Option.some.injEq] at h; omega
    · simp at h
  · simp at h

theorem parseI32_toDec {n : Nat} (h : n ≤ 2 ^ 31 - 1) : parseI32 (toDec n) = some (n : Int) := by
  obtain ⟨c, cs, hc, hd⟩ := toDec_head n
  have hne : c ≠ '+' := by rintro rfl; revert hd; decide
  have hne' : c ≠ '-' := by rintro rfl; revert hd; decide
  have hdig := digits_toDec n
  rw [hc] at hdig ⊢
  unfold parseI32
  split
  · next h' => simp only [List.cons.injEq] at h'; exact absurd h'.1 hne'
  · next h' => simp only [List.cons.injEq] at h'; exact absurd h'.1 hne
  · rw [hdig]; simp only [h, if_true]

/-! ### split -/

theorem splitOn_ne_nil (sep : Char) (s : Str) : splitOn sep s ≠ [] := by
  cases s with
  | nil => simp [splitOn]
  | cons b r =>
    simp only [splitOn]
    split
    · simp
    · split <;> simp

theorem splitOn_not_mem {sep : Char} {a : Str} (h : sep ∉ a) : splitOn sep a = [a] := by
  induction a with
  | nil => rfl
  | cons c cs ih =>
    simp only [List.mem_cons, not_or] at h
    simp only [splitOn, if_neg (Ne.symm h.1), ih h.2]

theorem splitOn_append {sep : Char} {a : Str} (h : sep ∉ a) (b : Str) :
    splitOn sep (a ++ sep :: b) = a :: splitOn sep b := by
  induction a with
  | nil => simp [splitOn]
  | cons c cs ih =>
    simp only [List.mem_cons, not_or] at h
    simp only [List.cons_append, splitOn, if_neg (Ne.symm h.1), ih h.2]

theorem splitOn_mem_no {sep c : Char} {s x : Str} (h : c ∉ s) (hx : x ∈ splitOn sep s) : c ∉ x := by
  induction s generalizing x with
  | nil => simp [splitOn] at hx; subst hx; simp
  | cons a s ih =>
    simp only [List.mem_cons, not_or] at h
    unfold splitOn at hx
    split at hx
    · rcases List.mem_cons.1 hx with rfl | hx
      · simp
      · exact ih h.2 hx
    · split at hx
      · simp at hx; subst hx; simpa using h.1
      · next p ps hp =>
        rcases List.mem_cons.1 hx with rfl | hx
        · have := ih h.2 (x := p) (by rw [hp]; simp)
          simp [this, h.1]
        · exact ih h.2 (by rw [hp]; simp [hx])

theorem splitOnce_spec {pat s a b : Str} (h : splitOnce pat s = some (a, b)) :
    s = a ++ pat ++ b := by
  induction s generalizing a b with
  | nil =>
    simp only [splitOnce] at h
    split at h
    · next hp => simp only [Option.some.injEq, Prod.mk.injEq] at h; simp [← h.1, ← h.2, hp]
    · simp at h
  | cons c cs ih =>
    simp only [splitOnce] at h
    split at h
    · next hp =>
      simp only [Option.some.injEq, Prod.mk.injEq] at h
      obtain ⟨rfl, rfl⟩ := h
      obtain ⟨t, ht⟩ := List.isPrefixOf_iff_prefix.mp hp
      rw [← ht]; simp
    · split at h
      · next a' b' heq =>
        simp only [Option.some.injEq, Prod.mk.injEq] at h
        obtain ⟨rfl, rfl⟩ := h
        simp [ih heq]
      · simp at h

/-- If the pattern's first character does not occur in `a`, the split is right behind `a`. -/
theorem splitOnce_append {p : Char} {pat a : Str} (h : p ∉ a) (b : Str) :
    splitOnce (p :: pat) (a ++ (p :: pat) ++ b) = some (a, b) := by
  induction a with
  | nil =>
    simp only [List.nil_append, List.cons_append, splitOnce]
    have : (p :: pat).isPrefixOf (p :: (pat ++ b)) = true := by
      simp
    simp [this]
  | cons c cs ih =>
    simp only [List.mem_cons, not_or] at h
    have hnp : (p :: pat).isPrefixOf (c :: (cs ++ (p :: pat) ++ b)) = false := by
      have : (p == c) = false := by simpa using h.1
      simp only [List.isPrefixOf, this, Bool.false_and]
    simp only [List.cons_append] at hnp ih ⊢
    simp only [splitOnce, hnp, ih h.2]
    simp

theorem splitOnce_none {p : Char} {pat a : Str} (h : p ∉ a) : splitOnce (p :: pat) a = none := by
  induction a with
  | nil => simp [splitOnce]
  | cons c cs ih =>
    simp only [List.mem_cons, not_or] at h
    have hnp : (p :: pat).isPrefixOf (c :: cs) = false := by
      have : (p == c) = false := by simpa using h.1
      simp only [List.isPrefixOf, this, Bool.false_and]
    simp [splitOnce, hnp, ih h.2]

end Verif
