import Verif.Model.Version
import Verif.Spec.Version
import Verif.Lemmas.Text
/-!
# C43, C44: systemd versions
-/
namespace Verif.Version
open Verif Spec

/-! ### digits -/

theorem digitVal_spec (c : Char) :
    digitVal c = if '0' ≤ c ∧ c ≤ '9' then some (c.toNat - '0'.toNat) else none := by
  unfold digitVal
  have : ('0' ≤ c ∧ c ≤ '9') ↔ (0x30 ≤ c.toNat ∧ c.toNat ≤ 0x39) := by
    constructor
    · rintro ⟨h1, h2⟩; exact ⟨h1, h2⟩
    · rintro ⟨h1, h2⟩; exact ⟨h1, h2⟩
  simp only [this]
  rfl

theorem digitsFrom_spec (s : Str) (acc n : Nat) :
    digitsFrom acc s = some n ↔
      (∀ c ∈ s, '0' ≤ c ∧ c ≤ '9') ∧
        s.foldl (fun acc c => acc * 10 + (c.toNat - '0'.toNat)) acc = n := by
  induction s generalizing acc with
  | nil => simp [digitsFrom]
  | cons c cs ih =>
    simp only [digitsFrom, digitVal_spec, List.foldl_cons, List.mem_cons, forall_eq_or_imp]
    by_cases h : '0' ≤ c ∧ c ≤ '9'
    · simp only [h, and_self, if_true, ih, true_and]
    · simp [h]

theorem digits_spec (s : Str) (n : Nat) : digits s = some n ↔ IsDigits s ∧ value s = n := by
  cases s with
  | nil => simp [digits, IsDigits]
  | cons c cs =>
    have : digits (c :: cs) = digitsFrom 0 (c :: cs) := rfl
    rw [this, digitsFrom_spec]
    simp [IsDigits, value]

theorem isDigits_not_mem {ds : Str} (h : IsDigits ds) {c : Char} (hc : ¬('0' ≤ c ∧ c ≤ '9')) :
    c ∉ ds := fun hm => hc (h.2 c hm)

theorem parseUnsigned_spec (s : Str) (n : Nat) : parseUnsigned u32Max s = some n ↔ U32 s n := by
  have hle : (2 : Nat) ^ 32 = u32Max + 1 := by decide
  constructor
  · intro h
    unfold parseUnsigned at h
    split at h
    · next m heq =>
      split at h
      · next hm =>
        simp only [Option.some.injEq] at h
        subst h
        split at heq
        · next r => exact ⟨r, Or.inr rfl, ((digits_spec _ _).mp heq).1, ((digits_spec _ _).mp heq).2, by omega⟩
        · exact ⟨s, Or.inl rfl, ((digits_spec _ _).mp heq).1, ((digits_spec _ _).mp heq).2, by omega⟩
      · simp at h
    · simp at h
  · rintro ⟨ds, hs, hd, hv, hlt⟩
    have hdig := (digits_spec ds n).mpr ⟨hd, hv⟩
    have hn : n ≤ u32Max := by omega
    rcases hs with rfl | rfl
    · unfold parseUnsigned
      split
      · next m heq =>
        split at heq
        · next r => exact absurd (hd.2 '+' (by simp)) (by decide)
        · rw [hdig] at heq; simp only [Option.some.injEq] at heq; subst heq; simp [hn]
      · next heq =>
        split at heq
        · next r => exact absurd (hd.2 '+' (by simp)) (by decide)
        · rw [hdig] at heq; simp at heq
    · simp [parseUnsigned, hdig, hn]

theorem parseI32_spec (s : Str) (i : Int) : parseI32 s = some i ↔ I32 s i := by
  constructor
  · intro h
    unfold parseI32 at h
    split at h
    · next r =>
      split at h
      · next n heq =>
        obtain ⟨hd, hv⟩ := (digits_spec _ _).mp heq
        split at h
        · next hn =>
          simp only [Option.some.injEq] at h
          exact ⟨r, hd, Or.inr ⟨rfl, by rw [hv, h], by omega⟩⟩
        · simp at h
      · simp at h
    · next r =>
      split at h
      · next n heq =>
        obtain ⟨hd, hv⟩ := (digits_spec _ _).mp heq
        split at h
        · next hn =>
          simp only [Option.some.injEq] at h
          exact ⟨r, hd, Or.inl ⟨Or.inr rfl, by rw [hv, h], by omega⟩⟩
        · simp at h
      · simp at h
    · split at h
      · next n heq =>
        obtain ⟨hd, hv⟩ := (digits_spec _ _).mp heq
        split at h
        · next hn =>
          simp only [Option.some.injEq] at h
          exact ⟨s, hd, Or.inl ⟨Or.inl rfl, by rw [hv, h], by omega⟩⟩
        · simp at h
      · simp at h
  · rintro ⟨ds, hd, h⟩
    have hdig := (digits_spec ds _).mpr ⟨hd, rfl⟩
    rcases h with ⟨hs, hi, hlt⟩ | ⟨rfl, hi, hle⟩
    · have hn : value ds ≤ 2 ^ 31 - 1 := by omega
      rcases hs with rfl | rfl
      · unfold parseI32
        split
        · exact absurd (hd.2 '-' (by simp)) (by decide)
        · exact absurd (hd.2 '+' (by simp)) (by decide)
        · rw [hdig]; simp only [hn, if_true]; rw [hi]
      · unfold parseI32
        simp only [hdig, hn, if_true, hi]
    · have hn : value ds ≤ 2 ^ 31 := by omega
      unfold parseI32
      simp only [hdig, hn, if_true, hi]

/-! ### C44 -/

theorem u32_chars {s : Str} {n : Nat} (h : U32 s n) : ∀ c ∈ s, c = '+' ∨ ('0' ≤ c ∧ c ≤ '9') := by
  obtain ⟨ds, hs, hd, -, -⟩ := h
  intro c hc
  rcases hs with rfl | rfl
  · exact Or.inr (hd.2 c hc)
  · rcases List.mem_cons.mp hc with rfl | hc
    · exact Or.inl rfl
    · exact Or.inr (hd.2 c hc)

theorem i32_chars {s : Str} {i : Int} (h : I32 s i) :
    ∀ c ∈ s, c = '+' ∨ c = '-' ∨ ('0' ≤ c ∧ c ≤ '9') := by
  obtain ⟨ds, hd, h⟩ := h
  intro c hc
  rcases h with ⟨rfl | rfl, -, -⟩ | ⟨rfl, -, -⟩
  · exact Or.inr (Or.inr (hd.2 c hc))
  · rcases List.mem_cons.mp hc with rfl | hc
    · exact Or.inl rfl
    · exact Or.inr (Or.inr (hd.2 c hc))
  · rcases List.mem_cons.mp hc with rfl | hc
    · exact Or.inr (Or.inl rfl)
    · exact Or.inr (Or.inr (hd.2 c hc))

theorem splitOnce_none_of_not_mem {pat s : Str} {c : Char} (hc : c ∈ pat) (hs : c ∉ s) :
    splitOnce pat s = none := by
  cases h : splitOnce pat s with
  | none => rfl
  | some ab =>
    obtain ⟨a, b⟩ := ab
    have := splitOnce_spec h
    exact absurd (this ▸ by simp [hc] : c ∈ s) hs

theorem u32_no {s : Str} {n : Nat} (h : U32 s n) {c : Char} (h1 : c ≠ '+')
    (h2 : ¬('0' ≤ c ∧ c ≤ '9')) : c ∉ s := by
  intro hm
  rcases u32_chars h c hm with h' | h'
  · exact h1 h'
  · exact h2 h'

/-- **C44** (grammar). The parser accepts exactly the strings `N-rcK`, `N.M`, `N`, with `N`, `K`
32-bit numbers and `M` a signed 32-bit number, and gives them the intended components. Everything
else is rejected. -/
theorem C44_version_grammar (s : Str) (v : SystemdVersion) :
    fromStr s = some v ↔
      (∃ a b, s = a ++ lit "-rc" ++ b ∧ U32 a v.major ∧ v.minor = -1 ∧ U32 b v.patch) ∨
      (∃ a b, s = a ++ lit "." ++ b ∧ U32 a v.major ∧ I32 b v.minor ∧ v.patch = 0) ∨
      (U32 s v.major ∧ v.minor = 0 ∧ v.patch = 0) := by
  constructor
  · intro h
    unfold fromStr at h
    split at h
    · next a b hs =>
      refine Or.inl ⟨a, b, splitOnce_spec hs, ?_⟩
      split at h
      · next ma hma =>
        split at h
        · next p hp =>
          simp only [Option.some.injEq] at h
          subst h
          exact ⟨(parseUnsigned_spec _ _).mp hma, rfl, (parseUnsigned_spec _ _).mp hp⟩
        · simp at h
      · simp at h
    · split at h
      · next a b hs =>
        refine Or.inr (Or.inl ⟨a, b, splitOnce_spec hs, ?_⟩)
        split at h
        · next ma hma =>
          split at h
          · next p hp =>
            simp only [Option.some.injEq] at h
            subst h
            exact ⟨(parseUnsigned_spec _ _).mp hma, (parseI32_spec _ _).mp hp, rfl⟩
          · simp at h
        · simp at h
      · split at h
        · next ma hma =>
          simp only [Option.some.injEq] at h
          subst h
          exact Or.inr (Or.inr ⟨(parseUnsigned_spec _ _).mp hma, rfl, rfl⟩)
        · simp at h
  · obtain ⟨ma, mi, pa⟩ := v
    rintro (⟨a, b, rfl, ha, hm, hb⟩ | ⟨a, b, rfl, ha, hb, hp⟩ | ⟨hs, hm, hp⟩)
    · simp only at hm; subst hm
      have hno : '-' ∉ a := u32_no ha (by decide) (by decide)
      have hsp : splitOnce (lit "-rc") (a ++ lit "-rc" ++ b) = some (a, b) :=
        splitOnce_append (p := '-') (pat := ['r', 'c']) hno b
      unfold fromStr
      rw [hsp]
      simp only [(parseUnsigned_spec _ _).mpr ha, (parseUnsigned_spec _ _).mpr hb]
    · simp only at hp; subst hp
      have hnr : 'r' ∉ a ++ lit "." ++ b := by
        intro hm
        simp only [List.mem_append] at hm
        rcases hm with (hm | hm) | hm
        · exact u32_no ha (by decide) (by decide) hm
        · revert hm; decide
        · rcases i32_chars hb _ hm with h | h | h <;> revert h <;> decide
      have h1 : splitOnce (lit "-rc") (a ++ lit "." ++ b) = none :=
        splitOnce_none_of_not_mem (c := 'r') (by decide) hnr
      have hnd : '.' ∉ a := u32_no ha (by decide) (by decide)
      have h2 : splitOnce (lit ".") (a ++ lit "." ++ b) = some (a, b) :=
        splitOnce_append (p := '.') (pat := []) hnd b
      unfold fromStr
      rw [h1, h2]
      simp only [(parseUnsigned_spec _ _).mpr ha, (parseI32_spec _ _).mpr hb]
    · simp only at hm hp; subst hm hp
      have h1 : splitOnce (lit "-rc") s = none :=
        splitOnce_none_of_not_mem (c := '-') (by decide) (u32_no hs (by decide) (by decide))
      have h2 : splitOnce (lit ".") s = none :=
        splitOnce_none_of_not_mem (c := '.') (by decide) (u32_no hs (by decide) (by decide))
      unfold fromStr
      rw [h1, h2]
      simp only [(parseUnsigned_spec _ _).mpr hs]

theorem u32_toDec {n : Nat} (h : n < 2 ^ 32) : U32 (toDec n) n :=
  (parseUnsigned_spec _ _).mp (parseUnsigned_toDec (by have : u32Max = 2 ^ 32 - 1 := by decide
                                                       omega))

theorem i32_toDec {n : Nat} (h : n < 2 ^ 31) : I32 (toDec n) n :=
  (parseI32_spec _ _).mp (parseI32_toDec (by omega))

/-- The version the release must parse to. -/
def intended : Release → SystemdVersion
  | .rc n k => ⟨n, -1, k⟩
  | .full n => ⟨n, 0, 0⟩
  | .stable n m => ⟨n, m, 0⟩

/-- **C44** (all releases). Every release's canonical spelling is accepted. -/
theorem C44_version_parses (r : Release) (h : Fits r) : fromStr (written r) = some (intended r) := by
  rw [C44_version_grammar]
  cases r with
  | rc n k => exact Or.inl ⟨_, _, rfl, u32_toDec h.1, rfl, u32_toDec h.2⟩
  | full n => exact Or.inr (Or.inr ⟨u32_toDec h, rfl, rfl⟩)
  | stable n m => exact Or.inr (Or.inl ⟨_, _, rfl, u32_toDec h.1, i32_toDec h.2.2, rfl⟩)

/-- **C44** (distinctness). Different releases parse to different versions. -/
theorem C44_version_distinct (r r' : Release) (h : Fits r) (h' : Fits r')
    (heq : fromStr (written r) = fromStr (written r')) : r = r' := by
  rw [C44_version_parses r h, C44_version_parses r' h'] at heq
  simp only [Option.some.injEq] at heq
  cases r <;> cases r' <;> simp only [intended, SystemdVersion.mk.injEq] at heq <;>
    simp only [Fits] at h h' <;>
    simp only [Release.rc.injEq, Release.full.injEq, Release.stable.injEq, reduceCtorEq] <;> omega

example : Fits (.rc 255 2) ∧ Fits (.full 255) ∧ Fits (.stable 254 10) := by simp [Fits]
/-- A curiosity of the accepted grammar: a negative minor number collides with a release candidate. -/
example : fromStr (lit "252.-1") = fromStr (lit "252-rc0") := by decide
example : fromStr (lit "255-rc2") = some ⟨255, -1, 2⟩ := by decide
example : fromStr (lit "254.10") = some ⟨254, 10, 0⟩ := by decide
/-- Spellings other projects use are rejected rather than misread. -/
example : fromStr (lit "255~rc1") = none ∧ fromStr (lit "") = none ∧ fromStr (lit "v255") = none := by
  decide

/-! ### C43 -/

/-- **C43** (agreement). For any two releases the tool considers the first newer than the second
exactly if the second is older. -/
theorem C43_version_order (r r' : Release) (h : Fits r) (h' : Fits r') (v v' : SystemdVersion)
    (hv : fromStr (written r) = some v) (hv' : fromStr (written r') = some v') :
    gt v v' = true ↔ Older r' r := by
  rw [C44_version_parses r h] at hv
  rw [C44_version_parses r' h'] at hv'
  simp only [Option.some.injEq] at hv hv'
  subst hv hv'
  constructor
  · intro hg
    cases r with
    | rc n k =>
      cases r' with
      | rc n' k' =>
        by_cases e : n = n'
        · subst e; simp [gt, intended] at hg; exact .rc_rc hg
        · simp [gt, intended, e] at hg; exact .rc_major hg (Or.inr (Or.inl ⟨_, rfl⟩))
      | full n' =>
        by_cases e : n = n'
        · subst e; simp [gt, intended] at hg
        · simp [gt, intended, e] at hg; exact .full_major hg (Or.inr (Or.inl ⟨_, rfl⟩))
      | stable n' m' =>
        by_cases e : n = n'
        · subst e; simp only [Fits] at h'
          have : ¬ (-1 : Int) = (m' : Int) := by omega
          simp [gt, intended, this] at hg; omega
        · simp [gt, intended, e] at hg; exact .stable_major hg (Or.inr (Or.inl ⟨_, rfl⟩))
    | full n =>
      cases r' with
      | rc n' k' =>
        by_cases e : n = n'
        · subst e; exact .rc_full
        · simp [gt, intended, e] at hg; exact .rc_major hg (Or.inl rfl)
      | full n' =>
        by_cases e : n = n'
        · subst e; simp [gt, intended] at hg
        · simp [gt, intended, e] at hg; exact .full_major hg (Or.inl rfl)
      | stable n' m' =>
        by_cases e : n = n'
        · subst e; simp only [Fits] at h'
          have : ¬ (0 : Int) = (m' : Int) := by omega
          simp [gt, intended, this] at hg; omega
        · simp [gt, intended, e] at hg; exact .stable_major hg (Or.inl rfl)
    | stable n m =>
      cases r' with
      | rc n' k' =>
        by_cases e : n = n'
        · subst e; exact .rc_stable
        · simp [gt, intended, e] at hg; exact .rc_major hg (Or.inr (Or.inr ⟨_, rfl⟩))
      | full n' =>
        by_cases e : n = n'
        · subst e; exact .full_stable
        · simp [gt, intended, e] at hg; exact .full_major hg (Or.inr (Or.inr ⟨_, rfl⟩))
      | stable n' m' =>
        by_cases e : n = n'
        · subst e
          refine .stable_stable ?_
          by_cases em : m = m'
          · subst em; simp [gt, intended] at hg
          · have : ¬ (m : Int) = (m' : Int) := by omega
            simp [gt, intended, this] at hg; omega
        · simp [gt, intended, e] at hg; exact .stable_major hg (Or.inr (Or.inr ⟨_, rfl⟩))
  · intro ho
    have key : ∀ (a b : SystemdVersion), a.major > b.major → gt a b = true := by
      intro a b hab
      have : ¬ a.major = b.major := by omega
      simp [gt, this, hab]
    cases ho with
    | rc_rc hk => simp [gt, intended, hk]
    | rc_full => simp [gt, intended]
    | rc_stable => rename_i n k m; have : ¬ (m : Int) = -1 := by omega
                   simp [gt, intended, this]; omega
    | full_stable => rename_i n m; simp only [Fits] at h
                     have : ¬ (m : Int) = 0 := by omega
                     simp [gt, intended]; omega
    | stable_stable hm => rename_i n m m'; have : ¬ (m' : Int) = (m : Int) := by omega
                          simp [gt, intended, this]; omega
    | rc_major hn hb => rcases hb with rfl | ⟨_, rfl⟩ | ⟨_, rfl⟩ <;> exact key _ _ hn
    | full_major hn hb => rcases hb with rfl | ⟨_, rfl⟩ | ⟨_, rfl⟩ <;> exact key _ _ hn
    | stable_major hn hb => rcases hb with rfl | ⟨_, rfl⟩ | ⟨_, rfl⟩ <;> exact key _ _ hn

/-- **C43** (order laws). Comparison of arbitrary version triples is a strict total order. -/
theorem C43_version_total_order :
    (∀ v, gt v v = false) ∧
    (∀ u v w, gt u v = true → gt v w = true → gt u w = true) ∧
    (∀ v w, gt v w = true → gt w v = false) ∧
    (∀ v w, v ≠ w → gt v w = true ∨ gt w v = true) := by
  have key : ∀ v w : SystemdVersion, gt v w = true ↔
      w.major < v.major ∨ (v.major = w.major ∧ (w.minor < v.minor ∨
        (v.minor = w.minor ∧ w.patch < v.patch))) := by
    intro v w
    unfold gt
    by_cases h1 : v.major = w.major
    · by_cases h2 : v.minor = w.minor
      · simp [h1, h2]
      · simp [h1, h2]
    · simp [h1]
  refine ⟨?_, ?_, ?_, ?_⟩
  · intro v; simp [gt]
  · intro u v w h1 h2
    rw [key] at *
    omega
  · intro v w h
    cases hg : gt w v with
    | false => rfl
    | true => rw [key] at h hg; omega
  · intro v w hne
    rw [key, key]
    obtain ⟨a, b, c⟩ := v
    obtain ⟨a', b', c'⟩ := w
    simp only [ne_eq, SystemdVersion.mk.injEq] at hne ⊢
    by_cases h1 : a = a'
    · by_cases h2 : b = b'
      · have : ¬ c = c' := fun h3 => hne ⟨h1, h2, h3⟩
        omega
      · omega
    · omega

example : Older (.rc 255 4) (.full 255) ∧ Older (.full 255) (.stable 255 1) ∧
    Older (.stable 254 20) (.rc 255 1) :=
  ⟨.rc_full, .full_stable, .stable_major (by decide) (Or.inr (Or.inl ⟨_, rfl⟩))⟩

end Verif.Version
