import Verif.Spec.Calendar
/-!
# The date of a day: the computation against counting days
-/
namespace Verif.Calendar
open Verif Generation

/-- Year that begins in March. -/
def marchYear (n : Int) : Int :=
  let z := n + 719468
  let inEra := (z % 146097).toNat
  let century := min (inEra / 36524) 3
  let inCentury := inEra - 36524 * century
  let inFour := inCentury % 1461
  400 * (z / 146097) + (100 * century + 4 * (inCentury / 1461) + min (inFour / 365) 3 : Nat)

/-- Day in the year that begins in March. -/
def marchDay (n : Int) : Nat :=
  let inEra := ((n + 719468) % 146097).toNat
  let inCentury := inEra - 36524 * min (inEra / 36524) 3
  let inFour := inCentury % 1461
  inFour - 365 * min (inFour / 365) 3

/-- Month and day of a day in a year that begins in March, and the number of years to add. -/
def parts (k : Nat) : Nat × Nat × Nat :=
  let month := (5 * k + 2) / 153
  (if month < 10 then 0 else 1, if month < 10 then month + 3 else month - 9, k - (153 * month + 2) / 5 + 1)

/-- Put together. -/
def assemble (y : Int) (k : Nat) : Date :=
  { year := y + (parts k).1, month := (parts k).2.1, day := (parts k).2.2 }

theorem dateOfDay_eq (n : Int) : dateOfDay n = assemble (marchYear n) (marchDay n) := by
  unfold dateOfDay assemble parts
  simp only [Date.mk.injEq]
  refine ⟨?_, rfl, rfl⟩
  show (if (5 * marchDay n + 2) / 153 < 10 then marchYear n else marchYear n + 1) = _
  split <;> simp

/-- The length of a year that begins in March. -/
def yearLength (y : Int) : Nat := if Leap (y + 1) then 366 else 365

theorem leap_iff (y : Int) : Leap y ↔ y % 4 = 0 ∧ (y % 100 = 0 → y % 400 = 0) := by
  unfold Leap; omega

/-- The last year of four is long, but for the last one of the first three centuries. -/
def LeapRow (c f o : Nat) : Prop :=
  ((100 * c + 4 * f + o + 1) % 4 = 0 ∧
    ((100 * c + 4 * f + o + 1) % 100 = 0 → (100 * c + 4 * f + o + 1) % 400 = 0)) ↔
      o = 3 ∧ (f = 24 → c = 3)

instance (c f o : Nat) : Decidable (LeapRow c f o) := by unfold LeapRow; infer_instance

theorem leap_table : ∀ c, c < 4 → ∀ f, f < 25 → ∀ o, o < 4 → LeapRow c f o := by
  decide +kernel

/-- In the 400 year cycle: every fourth year is long, but for the last one of the first three centuries. -/
theorem yearLength_cycle (e : Int) {c f o : Nat} (hc : c ≤ 3) (hf : f ≤ 24) (ho : o ≤ 3) :
    yearLength (400 * e + (100 * c + 4 * f + o : Nat)) = if o = 3 ∧ (f = 24 → c = 3) then 366 else 365 := by
  unfold yearLength
  have h := leap_table c (by omega) f (by omega) o (by omega)
  unfold LeapRow at h
  have : Leap (400 * e + (100 * c + 4 * f + o : Nat) + 1) ↔ o = 3 ∧ (f = 24 → c = 3) := by
    rw [leap_iff, ← h]
    generalize 100 * c + 4 * f + o = m
    have h1 : (400 * e + (m : Int) + 1) % 4 = ((m + 1) % 4 : Nat) := by omega
    have h2 : (400 * e + (m : Int) + 1) % 100 = ((m + 1) % 100 : Nat) := by omega
    have h3 : (400 * e + (m : Int) + 1) % 400 = ((m + 1) % 400 : Nat) := by omega
    rw [h1, h2, h3]
    omega
  simp only [this]

/-- The count of days of a year in a cycle of 400 years. -/
theorem cycle (e : Nat) (he : e < 146097) :
    ∃ c f o k : Nat, c ≤ 3 ∧ f ≤ 24 ∧ o ≤ 3 ∧ k ≤ 365 ∧ e = 36524 * c + 1461 * f + 365 * o + k ∧
      (k = 365 → o = 3 ∧ (f = 24 → c = 3)) ∧
      c = min (e / 36524) 3 ∧ f = (e - 36524 * c) / 1461 ∧
      o = min ((e - 36524 * c) % 1461 / 365) 3 ∧ k = (e - 36524 * c) % 1461 - 365 * o := by
  refine ⟨_, _, _, _, ?_, ?_, ?_, ?_, ?_, ?_, rfl, rfl, rfl, rfl⟩ <;> omega

theorem march_cycle (n : Int) : ∃ c f o k : Nat, c ≤ 3 ∧ f ≤ 24 ∧ o ≤ 3 ∧ k ≤ 365 ∧
    (k = 365 → o = 3 ∧ (f = 24 → c = 3)) ∧
    ((n + 719468) % 146097).toNat = 36524 * c + 1461 * f + 365 * o + k ∧
    marchYear n = 400 * ((n + 719468) / 146097) + (100 * c + 4 * f + o : Nat) ∧ marchDay n = k := by
  obtain ⟨c, f, o, k, h1, h2, h3, h4, h5, h6, hc, hf, ho, hk⟩ :=
    cycle ((n + 719468) % 146097).toNat (by omega)
  refine ⟨c, f, o, k, h1, h2, h3, h4, h6, h5, ?_, ?_⟩
  · unfold marchYear
    simp only [← hc, ← hf, ← ho]
  · unfold marchDay
    simp only [← hc, ← ho, ← hk]

theorem marchDay_lt (n : Int) : marchDay n < yearLength (marchYear n) := by
  obtain ⟨c, f, o, k, h1, h2, h3, h4, h5, h6, hy, hk⟩ := march_cycle n
  rw [hy, hk, yearLength_cycle _ h1 h2 h3]
  split <;> omega

theorem march_unique {c f o k c' f' o' k' : Nat} (h1 : c ≤ 3) (h2 : f ≤ 24) (h3 : o ≤ 3) (h4 : k ≤ 365)
    (h5 : k = 365 → o = 3 ∧ (f = 24 → c = 3)) (h1' : c' ≤ 3) (h2' : f' ≤ 24) (h3' : o' ≤ 3) (h4' : k' ≤ 365)
    (h5' : k' = 365 → o' = 3 ∧ (f' = 24 → c' = 3))
    (h : 36524 * c + 1461 * f + 365 * o + k = 36524 * c' + 1461 * f' + 365 * o' + k') :
    c = c' ∧ f = f' ∧ o = o' ∧ k = k' := by
  have hc : c = c' := by omega
  subst hc
  have hf : f = f' := by omega
  subst hf
  have ho : o = o' := by omega
  subst ho
  omega

theorem march_succ (n : Int) :
    (marchDay n + 1 < yearLength (marchYear n) → marchYear (n + 1) = marchYear n ∧
      marchDay (n + 1) = marchDay n + 1) ∧
    (marchDay n + 1 = yearLength (marchYear n) → marchYear (n + 1) = marchYear n + 1 ∧
      marchDay (n + 1) = 0) := by
  obtain ⟨c, f, o, k, h1, h2, h3, h4, h5, h6, hy, hk⟩ := march_cycle n
  obtain ⟨c', f', o', k', h1', h2', h3', h4', h5', h6', hy', hk'⟩ := march_cycle (n + 1)
  rw [hy, hk, hy', hk', yearLength_cycle _ h1 h2 h3]
  clear hy hk hy' hk'
  constructor
  · intro hl
    have e : 36524 * c' + 1461 * f' + 365 * o' + k' = 36524 * c + 1461 * f + 365 * o + (k + 1) ∧
        (n + 1 + 719468) / 146097 = (n + 719468) / 146097 := by
      split at hl <;> omega
    obtain ⟨e1, e2⟩ := e
    have u := march_unique h1' h2' h3' h4' h5' h1 h2 h3 (k' := k + 1)
      (by split at hl <;> omega) (by split at hl <;> omega) e1
    obtain ⟨rfl, rfl, rfl, rfl⟩ := u
    rw [e2]
    exact ⟨rfl, rfl⟩
  · intro hl
    by_cases ho : o < 3
    · have e : 36524 * c' + 1461 * f' + 365 * o' + k' = 36524 * c + 1461 * f + 365 * (o + 1) + 0 ∧
        (n + 1 + 719468) / 146097 = (n + 719468) / 146097 := by
        split at hl <;> omega
      obtain ⟨e1, e2⟩ := e
      obtain ⟨rfl, rfl, rfl, rfl⟩ := march_unique h1' h2' h3' h4' h5' h1 h2 (o' := o + 1) (by omega)
        (k' := 0) (by omega) (by omega) e1
      rw [e2]; omega
    · have ho' : o = 3 := by omega
      subst ho'
      by_cases hf : f < 24
      · have e : 36524 * c' + 1461 * f' + 365 * o' + k' = 36524 * c + 1461 * (f + 1) + 365 * 0 + 0 ∧
          (n + 1 + 719468) / 146097 = (n + 719468) / 146097 := by
          split at hl <;> omega
        obtain ⟨e1, e2⟩ := e
        obtain ⟨rfl, rfl, rfl, rfl⟩ := march_unique h1' h2' h3' h4' h5' h1 (f' := f + 1) (by omega)
          (o' := 0) (by omega) (k' := 0) (by omega) (by omega) e1
        rw [e2]; omega
      · have hf' : f = 24 := by omega
        subst hf'
        by_cases hc : c < 3
        · have e : 36524 * c' + 1461 * f' + 365 * o' + k' = 36524 * (c + 1) + 1461 * 0 + 365 * 0 + 0 ∧
            (n + 1 + 719468) / 146097 = (n + 719468) / 146097 := by
            split at hl <;> omega
          obtain ⟨e1, e2⟩ := e
          obtain ⟨rfl, rfl, rfl, rfl⟩ := march_unique h1' h2' h3' h4' h5' (c' := c + 1) (by omega)
            (f' := 0) (by omega) (o' := 0) (by omega) (k' := 0) (by omega) (by omega) e1
          rw [e2]; omega
        · have hc' : c = 3 := by omega
          subst hc'
          have e : 36524 * c' + 1461 * f' + 365 * o' + k' = 36524 * 0 + 1461 * 0 + 365 * 0 + 0 ∧
            (n + 1 + 719468) / 146097 = (n + 719468) / 146097 + 1 := by
            split at hl <;> omega
          obtain ⟨e1, e2⟩ := e
          obtain ⟨rfl, rfl, rfl, rfl⟩ := march_unique h1' h2' h3' h4' h5' (c' := 0) (by omega)
            (f' := 0) (by omega) (o' := 0) (by omega) (k' := 0) (by omega) (by omega) e1
          rw [e2]; omega

/-- The number of days of a month, from whether it is in a leap year. -/
def lengthIn (leap : Bool) (m : Nat) : Nat :=
  if m = 2 then (if leap then 29 else 28)
  else if m = 4 ∨ m = 6 ∨ m = 9 ∨ m = 11 then 30
  else 31

/-- What is to be checked for a day in a year that begins in March. -/
def Row (b : Bool) (k : Nat) : Prop :=
    ((parts k).1 = 0 ∨ (parts k).1 = 1) ∧ ((parts k).1 = 0 → (parts k).2.1 ≠ 2) ∧
    1 ≤ (parts k).2.1 ∧ (parts k).2.1 ≤ 12 ∧ 1 ≤ (parts k).2.2 ∧
    (k < (if b = true then 366 else 365) → (parts k).2.2 ≤ lengthIn b (parts k).2.1) ∧
    (k + 1 < (if b = true then 366 else 365) → parts (k + 1) =
      if (parts k).2.2 < lengthIn b (parts k).2.1 then ((parts k).1, (parts k).2.1, (parts k).2.2 + 1)
      else if (parts k).2.1 < 12 then ((parts k).1, (parts k).2.1 + 1, 1)
      else ((parts k).1 + 1, 1, 1)) ∧
    (k + 1 = (if b = true then 366 else 365) → (parts k).1 = 1 ∧ (parts k).2.1 = 2 ∧
      ¬ (parts k).2.2 < lengthIn b 2)

instance (b : Bool) (k : Nat) : Decidable (Row b k) := by unfold Row; infer_instance

/-- The table of the 366 days. -/
theorem parts_table : ∀ b : Bool, ∀ k, k < 366 → Row b k := by
  intro b
  cases b <;> decide +kernel

theorem monthLength_parts (y : Int) {k : Nat} (hk : k < 366) :
    monthLength (y + (parts k).1) (parts k).2.1 = lengthIn (decide (Leap (y + 1))) (parts k).2.1 := by
  obtain ⟨h1, h2, -⟩ := parts_table true k hk
  unfold monthLength lengthIn
  rcases h1 with h1 | h1
  · rw [if_neg (h2 h1), if_neg (h2 h1)]
  · rw [h1]; simp

theorem yearLength_bool (y : Int) :
    yearLength y = if (decide (Leap (y + 1))) = true then 366 else 365 := by
  unfold yearLength; simp

theorem assemble_exists (y : Int) {k : Nat} (hk : k < yearLength y) : Exists (assemble y k) := by
  have hk' : k < 366 := by unfold yearLength at hk; split at hk <;> omega
  obtain ⟨-, -, h3, h4, h5, h6, -⟩ := parts_table (decide (Leap (y + 1))) k hk'
  refine ⟨⟨h3, h4⟩, h5, ?_⟩
  show (parts k).2.2 ≤ monthLength (y + (parts k).1) (parts k).2.1
  rw [monthLength_parts y hk']
  exact h6 (by rw [← yearLength_bool]; exact hk)

theorem tomorrow_assemble (y : Int) {k : Nat} (hk : k < yearLength y) :
    tomorrow (assemble y k) = if k + 1 < yearLength y then assemble y (k + 1) else assemble (y + 1) 0 := by
  have hk' : k < 366 := by unfold yearLength at hk; split at hk <;> omega
  obtain ⟨-, -, -, -, -, -, h7, h8⟩ := parts_table (decide (Leap (y + 1))) k hk'
  rw [← yearLength_bool] at h7 h8
  have hm := monthLength_parts y hk'
  split
  · next hl =>
    have h7 := h7 hl
    unfold tomorrow
    show (if (parts k).2.2 < monthLength (y + (parts k).1) (parts k).2.1 then _ else
      if (parts k).2.1 < 12 then _ else _) = assemble y (k + 1)
    rw [hm]
    unfold assemble
    rw [h7]
    split
    · simp
    · split
      · simp
      · simp; omega
  · next hl =>
    obtain ⟨a1, a2, a3⟩ := h8 (by omega)
    unfold tomorrow
    show (if (parts k).2.2 < monthLength (y + (parts k).1) (parts k).2.1 then _ else
      if (parts k).2.1 < 12 then _ else _) = assemble (y + 1) 0
    rw [hm, a2, if_neg a3, if_pos (by omega)]
    unfold assemble
    rw [a1, a2]
    simp [parts]

/-- The computation follows the calendar from day to day. -/
theorem dateOfDay_succ (n : Int) : dateOfDay (n + 1) = tomorrow (dateOfDay n) := by
  rw [dateOfDay_eq, dateOfDay_eq, tomorrow_assemble _ (marchDay_lt n)]
  have h := march_succ n
  have hl := marchDay_lt n
  split
  · next h1 => rw [(h.1 h1).1, (h.1 h1).2]
  · next h1 => rw [(h.2 (by omega)).1, (h.2 (by omega)).2]

theorem dateOfDay_exists (n : Int) : Exists (dateOfDay n) := by
  rw [dateOfDay_eq]; exact assemble_exists _ (marchDay_lt n)

theorem dateOfDay_epoch : dateOfDay 0 = { year := 1970, month := 1, day := 1 } := by decide +kernel

theorem one_le_monthLength (y : Int) (m : Nat) : 28 ≤ monthLength y m ∧ monthLength y m ≤ 31 := by
  unfold monthLength; split <;> (try split) <;> omega

/-- Two days with the same next day are the same. -/
theorem tomorrow_inj {d e : Date} (hd : Exists d) (he : Exists e) (h : tomorrow d = tomorrow e) : d = e := by
  obtain ⟨y, m, k⟩ := d
  obtain ⟨y', m', k'⟩ := e
  obtain ⟨⟨m1, m2⟩, k1, k2⟩ := hd
  obtain ⟨⟨m1', m2'⟩, k1', k2'⟩ := he
  simp only at m1 m2 k1 k2 m1' m2' k1' k2'
  unfold tomorrow at h
  simp only at h
  split at h <;> split at h <;> (try split at h) <;> (try split at h) <;>
    simp only [Date.mk.injEq] at h ⊢ <;> first
    | omega
    | (obtain ⟨h1, h2, -⟩ := h
       have : m = m' := by omega
       have : y = y' := by omega
       subst_vars
       omega)

theorem dateOf_dateOfDay_nat (n : Nat) : DateOf (n : Int) (dateOfDay n) := by
  induction n with
  | zero => rw [Int.natCast_zero, dateOfDay_epoch]; exact .epoch
  | succ n ih =>
    rw [Int.natCast_succ, dateOfDay_succ]
    exact .after ih

theorem dateOf_dateOfDay_neg (n : Nat) : DateOf (-(n : Int)) (dateOfDay (-(n : Int))) := by
  induction n with
  | zero => exact dateOf_dateOfDay_nat 0
  | succ n ih =>
    refine .before (dateOfDay_exists _) ?_
    rw [← dateOfDay_succ]
    have : -((n + 1 : Nat) : Int) + 1 = -(n : Int) := by omega
    rw [this]
    exact ih

theorem dateOf_dateOfDay (n : Int) : DateOf n (dateOfDay n) := by
  rcases Int.eq_nat_or_neg n with ⟨k, rfl | rfl⟩
  · exact dateOf_dateOfDay_nat k
  · exact dateOf_dateOfDay_neg k

/-- The date of a day by counting is the computed one. -/
theorem dateOf_iff (n : Int) (d : Date) : DateOf n d ↔ d = dateOfDay n := by
  constructor
  · intro h
    induction h with
    | epoch => exact dateOfDay_epoch.symm
    | after _ ih => rw [dateOfDay_succ, ih]
    | before hd _ ih => exact tomorrow_inj hd (dateOfDay_exists _) (by rw [ih, dateOfDay_succ])
  · rintro rfl
    exact dateOf_dateOfDay n

theorem inDay_iff (t : Int) (d : Date) : InDay t d ↔ d = dateOfDay (t / 86400) := by
  unfold InDay
  constructor
  · rintro ⟨n, hn, h1, h2⟩
    have : n = t / 86400 := by omega
    subst this
    exact (dateOf_iff _ _).1 hn
  · rintro rfl
    exact ⟨t / 86400, dateOf_dateOfDay _, by omega, by omega⟩

end Verif.Calendar
