import Verif.Spec.Names
import Verif.Lemmas.StubName
/-!
# The names of the model are spelled as specified
-/
namespace Verif.Spelling
open Verif StubName Generation

/-! ### Decimal numbers -/

theorem digitChar_eq : ∀ k : Fin 10, Verif.digitChar k.val = Nat.digitChar k.val := by decide

theorem toDec_eq_decimal (n : Nat) : toDec n = decimal n := by
  unfold decimal
  induction n using Nat.strongRecOn with
  | ind n ih =>
    rw [toDec_eq]
    split
    · next h => rw [Nat.toDigits_of_lt_base h]; exact congrArg (fun c => [c]) (digitChar_eq ⟨n, h⟩)
    · next h =>
      rw [Nat.toDigits_of_base_le (by decide) (by omega), ih (n / 10) (by omega)]
      have e : Verif.digitChar n = Verif.digitChar (n % 10) := by simp [Verif.digitChar]
      rw [e]
      congr 2
      exact digitChar_eq ⟨n % 10, by omega⟩

/-! ### Base 32 -/

theorem bits_length (k n : Nat) : (bits k n).length = k := by
  induction k generalizing n with
  | zero => rfl
  | succ k ih => simp [bits, ih]

theorem bits_add (a b n : Nat) : bits (a + b) n = bits a (n / 2 ^ b) ++ bits b n := by
  induction b generalizing n with
  | zero => simp [bits]
  | succ b ih =>
    rw [← Nat.add_assoc]
    show bits (a + b) (n / 2) ++ _ = _ ++ (bits b (n / 2) ++ _)
    rw [ih, Nat.div_div_eq_div_mul, List.append_assoc, Nat.pow_succ, Nat.mul_comm 2]

theorem bits_mod (k n : Nat) : bits k (n % 2 ^ k) = bits k n := by
  induction k generalizing n with
  | zero => rfl
  | succ k ih =>
    show bits k (n % 2 ^ (k + 1) / 2) ++ [decide (n % 2 ^ (k + 1) % 2 = 1)] = bits k (n / 2) ++ [decide (n % 2 = 1)]
    have e1 : n % 2 ^ (k + 1) / 2 = n / 2 % 2 ^ k := by
      rw [Nat.pow_succ, Nat.mul_comm, Nat.mod_mul_right_div_self]
    have e2 : n % 2 ^ (k + 1) % 2 = n % 2 := by
      rw [Nat.pow_succ]
      exact Nat.mod_mul_left_mod _ _ _
    rw [e1, e2, ih]

theorem bits_inj {k m n : Nat} (hm : m < 2 ^ k) (hn : n < 2 ^ k) (h : bits k m = bits k n) : m = n := by
  induction k generalizing m n with
  | zero => simp at hm hn; omega
  | succ k ih =>
    have h' := List.append_inj' (h : bits k (m / 2) ++ _ = bits k (n / 2) ++ _) rfl
    have e1 := ih (by rw [Nat.pow_succ] at hm; omega) (by rw [Nat.pow_succ] at hn; omega) h'.1
    have e2 := h'.2
    simp only [List.cons.injEq, and_true, decide_eq_decide] at e2
    omega

theorem bits_zeros (k : Nat) : bits k 0 = List.replicate k false := by
  induction k with
  | zero => rfl
  | succ k ih => rw [List.replicate_succ']; simp [bits, ih]

theorem bits_shift (k p n : Nat) : bits (k + p) (n * 2 ^ p) = bits k n ++ List.replicate p false := by
  rw [bits_add, Nat.mul_div_cancel _ (Nat.pow_pos (by decide))]
  congr 1
  rw [← bits_mod, Nat.mul_mod_left, bits_zeros p]

theorem alphabet_idx : ∀ k : Fin 32, alphabet.idxOf (b32Alphabet.getD k.val 'a') = k.val := by decide

theorem b32Char_bits (m : Nat) : bits 5 (alphabet.idxOf (b32Char m)) = bits 5 m := by
  have := alphabet_idx ⟨m % 32, Nat.mod_lt _ (by decide)⟩
  unfold b32Char
  rw [this]
  exact bits_mod 5 m

theorem b32Digits_bits (k m : Nat) :
    (b32Digits k m).flatMap (fun c => bits 5 (alphabet.idxOf c)) = bits (5 * k) m := by
  induction k generalizing m with
  | zero => rfl
  | succ k ih =>
    simp only [b32Digits, List.flatMap_append, List.flatMap_cons, List.flatMap_nil, List.append_nil, ih, b32Char_bits]
    rw [Nat.mul_add, bits_add]

theorem bitsOf_eq (b : Bytes) : bitsOf b = bits (8 * b.length) (beValue b) := by
  induction b with
  | nil => rfl
  | cons x xs ih =>
    rw [beValue_cons]
    have hlt := beValue_lt xs
    have e : 8 * (x :: xs).length = 8 + 8 * xs.length := by simp; omega
    have hp : (256 : Nat) ^ xs.length = 2 ^ (8 * xs.length) := by rw [Nat.pow_mul]
    rw [e, bits_add, ← hp, Nat.mul_comm, Nat.mul_add_div (Nat.pow_pos (by decide)), Nat.div_eq_of_lt hlt,
      Nat.add_zero, ← bits_mod (8 * xs.length), ← hp, Nat.mul_add_mod, Nat.mod_eq_of_lt hlt, ← ih]
    rfl

/-- The model's encoding is base 32. -/
theorem base32_spec (b : Bytes) : Base32 b (base32 b) := by
  refine ⟨fun c hc => base32_mem b c hc, (5 - 8 * b.length % 5) % 5, Nat.mod_lt _ (by decide), ?_⟩
  unfold base32
  rw [b32Digits_bits]
  have e : 5 * ((8 * b.length + (5 - 8 * b.length % 5) % 5) / 5) = 8 * b.length + (5 - 8 * b.length % 5) % 5 := by
    omega
  rw [e, bits_shift, bitsOf_eq]

theorem alphabet_idx_lt : ∀ c ∈ alphabet, alphabet.idxOf c < 32 := by decide
theorem alphabet_idx_inj : ∀ c ∈ alphabet, ∀ d ∈ alphabet, alphabet.idxOf c = alphabet.idxOf d → c = d := by decide

theorem flatMap_bits_length (s : Str) :
    (s.flatMap (fun c => bits 5 (alphabet.idxOf c))).length = 5 * s.length := by
  induction s with
  | nil => rfl
  | cons c s ih => simp only [List.flatMap_cons, List.length_append, List.length_cons, bits_length, ih]; omega

theorem flatMap_bits_inj {s t : Str} (hs : ∀ c ∈ s, c ∈ alphabet) (ht : ∀ c ∈ t, c ∈ alphabet)
    (h : s.flatMap (fun c => bits 5 (alphabet.idxOf c)) = t.flatMap (fun c => bits 5 (alphabet.idxOf c))) :
    s = t := by
  induction s generalizing t with
  | nil =>
    have := congrArg List.length h
    simp only [flatMap_bits_length, List.length_nil] at this
    exact (List.length_eq_zero_iff.1 (by omega)).symm
  | cons c s ih =>
    cases t with
    | nil =>
      have := congrArg List.length h
      simp only [flatMap_bits_length, List.length_nil, List.length_cons] at this
      omega
    | cons d t =>
      simp only [List.flatMap_cons] at h
      have h' := List.append_inj h (by simp [bits_length])
      have hc := hs c (by simp)
      have hd := ht d (by simp)
      have e := alphabet_idx_inj c hc d hd (bits_inj (alphabet_idx_lt c hc) (alphabet_idx_lt d hd) h'.1)
      rw [e, ih (fun x hx => hs x (by simp [hx])) (fun x hx => ht x (by simp [hx])) h'.2]

/-- The number of bits of a text in base 32, and therefore its length, is determined by the bytes. -/
theorem Base32.unique {b : Bytes} {s t : Str} (hs : Base32 b s) (ht : Base32 b t) : s = t := by
  obtain ⟨h1, z, hz, e⟩ := hs
  obtain ⟨h2, z', hz', e'⟩ := ht
  refine flatMap_bits_inj h1 h2 ?_
  have l := congrArg List.length e
  have l' := congrArg List.length e'
  simp only [flatMap_bits_length, List.length_append, List.length_replicate] at l l'
  have : z = z' := by omega
  rw [e, e', this]

theorem bitsOf_length (b : Bytes) : (bitsOf b).length = 8 * b.length := by
  rw [bitsOf_eq, bits_length]

theorem bitsOf_inj {a b : Bytes} (hl : a.length = b.length) (h : bitsOf a = bitsOf b) : a = b := by
  rw [bitsOf_eq, bitsOf_eq, hl] at h
  refine beValue_inj hl (bits_inj ?_ ?_ h)
  · have := beValue_lt a; rw [hl] at this; rw [Nat.pow_mul]; exact this
  · have := beValue_lt b; rw [Nat.pow_mul]; exact this

/-- A text in base 32 stands for one byte string. -/
theorem Base32.decodes {a b : Bytes} {s : Str} (ha : Base32 a s) (hb : Base32 b s) : a = b := by
  obtain ⟨-, z, hz, e⟩ := ha
  obtain ⟨-, z', hz', e'⟩ := hb
  rw [e] at e'
  have l := congrArg List.length e'
  simp only [List.length_append, List.length_replicate, bitsOf_length] at l
  have hl : a.length = b.length := by omega
  exact bitsOf_inj hl (List.append_inj e' (by simp [bitsOf_length, hl])).1

/-! ### Names -/

theorem joinWith_eq (sep : Str) (l : List Str) : joinWith sep l = List.intercalate sep l := by
  induction l with
  | nil => simp [joinWith]
  | cons x xs ih =>
    cases xs with
    | nil => simp [joinWith]
    | cons y ys => simp [joinWith, ih]

theorem stubInputs_eq (a b : Bytes) : stubInputs a b = document a b := by
  have h : (fun x : UInt8 => toDec x.toNat) = fun x => decimal x.toNat := funext fun x => toDec_eq_decimal _
  unfold stubInputs document jsonBytes byteArray
  rw [h, joinWith_eq, joinWith_eq]
  unfold lit
  rfl

/-- What the model hashes is the specified document. -/
theorem hashed_eq (g : Gen) (key : Bytes) : hashed g key = utf8 (stubInputs g.spec.toplevel key) := by
  rw [hashed, stubInputs_eq]

end Verif.Spelling
