import Verif.Spec.SystemdBoot
import Verif.Props.Considered
import Verif.Props.SecureBoot
/-!
# C84: the boot menu as systemd-boot reads and sorts it
-/
namespace Verif.Menu
open Verif Generation Version.Spec

/-! ## Reading -/

theorem lines_cons {c : Char} {cs l : Str} {ls : List Str} (h1 : c ≠ '\n') (h2 : c ≠ '\r')
    (h : lines cs = l :: ls) : lines (c :: cs) = (c :: l) :: ls := by
  rw [lines, if_neg (by simp [h1, h2]), h]

theorem lines_line : ∀ (l rest : Str), OnOneLine l → lines (l ++ '\n' :: rest) = l :: lines rest
  | [], rest, _ => by rw [List.nil_append, lines, if_pos (.inl rfl)]
  | c :: l, rest, h => by
    obtain ⟨h1, h2, h3⟩ := h
    simp only [List.mem_cons, not_or] at h1 h2 h3
    exact lines_cons (Ne.symm h1.1) (Ne.symm h2.1) (lines_line l rest ⟨h1.2, h2.2, h3.2⟩)

theorem takeWhile_noNul {s : Str} (h : '\x00' ∉ s) : s.takeWhile (· ≠ '\x00') = s := by
  have := List.takeWhile_append_of_pos (p := fun x => decide (x ≠ '\x00')) (l₁ := s) (l₂ := []) (by
    intro c hc
    simp only [decide_eq_true_eq]
    rintro rfl
    exact h hc)
  simpa using this

theorem dropWhile_head {p : Char → Bool} {s : Str} (h : ∀ c ∈ s.head?, p c = false) : s.dropWhile p = s := by
  cases s with
  | nil => rfl
  | cons c s => rw [List.dropWhile_cons, h c rfl]; rfl

theorem strip_eq {l : Str} (h1 : l.head? ≠ some ' ') (h2 : l.head? ≠ some '\t')
    (h3 : l.getLast? ≠ some ' ') (h4 : l.getLast? ≠ some '\t') : strip l = l := by
  have aux : ∀ {o : Option Char}, o ≠ some ' ' → o ≠ some '\t' →
      ∀ c ∈ o, (c == ' ' || c == '\t') = false := by
    rintro o h1 h2 c hc
    rw [Option.mem_def] at hc
    subst hc
    simp_all
  unfold strip
  dsimp only
  rw [dropWhile_head (aux h1 h2), dropWhile_head, List.reverse_reverse]
  rw [List.head?_reverse]
  exact aux h3 h4

theorem getLast_tail {l v : Str} {c : Char} (h : c ≠ '=') (hv : v.getLast? ≠ some c) :
    (l ++ '=' :: v).getLast? ≠ some c := by
  rw [List.getLast?_append, List.getLast?_cons]
  cases hh : v.getLast? with
  | none => simpa using Ne.symm h
  | some x => rw [hh] at hv; simpa using hv

theorem assignment_eq {k v : Str} {c : Char} {ks : Str} (ek : k = c :: ks) (h1 : c ≠ ' ') (h2 : c ≠ '\t')
    (h3 : c ≠ '#') (h4 : '=' ∉ k) (v1 : v.head? ≠ some '=') (v2 : v.getLast? ≠ some ' ')
    (v3 : v.getLast? ≠ some '\t') (v4 : ¬ (v.head? = some '"' ∧ v.getLast? = some '"')) :
    assignment (k ++ '=' :: v) = some (k, v) := by
  unfold assignment
  dsimp only
  rw [strip_eq (by subst ek; simpa using h1) (by subst ek; simpa using h2)
    (getLast_tail (by decide) v2) (getLast_tail (by decide) v3)]
  rw [if_neg (by subst ek; simpa using h3)]
  have hk : ∀ x ∈ k, decide (x ≠ '=') = true := by
    intro x hx
    simp only [decide_eq_true_eq]
    rintro rfl
    exact h4 hx
  rw [List.dropWhile_append_of_pos hk, List.takeWhile_append_of_pos hk]
  have e1 : ('=' :: v).dropWhile (fun x => decide (x ≠ '=')) = '=' :: v := rfl
  have e2 : ('=' :: v).takeWhile (fun x => decide (x ≠ '=')) = [] := rfl
  have e3 : ('=' :: v).dropWhile (fun x => decide (x = '=')) = v := by
    show v.dropWhile _ = v
    refine dropWhile_head ?_
    intro x hx
    rw [Option.mem_def] at hx
    rw [hx] at v1
    simpa using v1
  rw [e1, e2, List.append_nil]
  dsimp only
  rw [e3]
  unfold unquote
  rw [if_neg v4]

theorem oneLine_append {a b : Str} (ha : OnOneLine a) (hb : OnOneLine b) : OnOneLine (a ++ b) := by
  obtain ⟨a1, a2, a3⟩ := ha
  obtain ⟨b1, b2, b3⟩ := hb
  exact ⟨by simp [a1, b1], by simp [a2, b2], by simp [a3, b3]⟩

theorem oneLine_of {a : Str} (h : ∀ c ∈ a, c.toNat ≥ 32) : OnOneLine a := by
  refine ⟨fun hc => ?_, fun hc => ?_, fun hc => ?_⟩ <;> exact absurd (h _ hc) (by decide)

theorem digits_ge {s : Str} (h : IsDigits s) : ∀ c ∈ s, c.toNat ≥ 32 := by
  intro c hc
  have := (h.2 c hc).1
  have h' : '0'.toNat ≤ c.toNat := this
  have : '0'.toNat = 48 := rfl
  omega

theorem dateText_ge {d : Option Date} {s : Str} (h : DateText d s) : ∀ c ∈ s, c.toNat ≥ 32 := by
  cases d with
  | none => cases h; decide
  | some d =>
    obtain ⟨y, m, dd, ⟨a, b, c, e, hy, hyd, _⟩, ⟨_, _, _, hm, _⟩, ⟨_, _, _, hd, _⟩, rfl⟩ := h
    intro x hx
    simp only [List.mem_append] at hx
    rcases hx with (((hx | hx) | hx) | hx) | hx
    · rcases hy with ⟨_, rfl⟩ | ⟨_, rfl⟩
      · exact digits_ge hyd x hx
      · rcases List.mem_cons.1 hx with rfl | hx
        · decide
        · exact digits_ge hyd x hx
    · revert x; decide
    · exact digits_ge hm x hx
    · revert x; decide
    · exact digits_ge hd x hx

theorem toDec_ge (n : Nat) : ∀ c ∈ toDec n, c.toNat ≥ 32 := by
  intro c hc
  have := (isDigitC_of (toDec_digits n c hc)).1
  omega

theorem described_oneLine {g : Gen} {d : Str} (h : Fits g) (hd : Description g d) : OnOneLine d := by
  obtain ⟨date, hdate, rfl⟩ := hd
  unfold described
  have l1 : OnOneLine (lit "Generation ") := oneLine_of (by decide)
  have l2 : OnOneLine (lit ", ") := oneLine_of (by decide)
  have l3 : OnOneLine (lit "-") := oneLine_of (by decide)
  refine oneLine_append (oneLine_append (oneLine_append (oneLine_append l1 (oneLine_of (toDec_ge _))) ?_) l2)
    (oneLine_of (dateText_ge hdate))
  cases hn : g.specialisationName with
  | none => exact oneLine_of (by simp)
  | some n => exact oneLine_append l3 (h.name n hn)

/-- A description ends with a letter or a digit. -/
theorem described_last {g : Gen} {d : Str} (hd : Description g d) :
    d.getLast? ≠ some ' ' ∧ d.getLast? ≠ some '\t' := by
  obtain ⟨date, hdate, rfl⟩ := hd
  unfold described
  rw [List.getLast?_append]
  cases hb : g.buildTime with
  | none =>
    rw [hb] at hdate
    cases hdate
    have e : (lit "Unknown").getLast? = some 'n' := by decide
    rw [e]
    exact ⟨by simp, by simp⟩
  | some dd =>
    rw [hb] at hdate
    obtain ⟨y, m, dd, _, _, ⟨a, b, e, hi, _⟩, rfl⟩ := hdate
    have hb := (hi.2 b (by rw [e]; simp)).1
    subst e
    have e : (y ++ lit "-" ++ m ++ lit "-" ++ [a, b]).getLast? = some b := by
      rw [List.getLast?_append]; rfl
    rw [e]
    constructor <;>
    · intro hc
      simp only [Option.some_or, Option.some.injEq] at hc
      subst hc
      exact absurd hb (by decide)

theorem sortKey_ok {g : Gen} (h : Fits g) : ∀ s, s = g.spec.sortKey.getD (lit "lanzaboote") →
    OnOneLine s ∧ s.head? ≠ some '=' ∧ s.getLast? ≠ some ' ' ∧
    s.getLast? ≠ some '\t' ∧ ¬ (s.head? = some '"' ∧ s.getLast? = some '"') := by
  rintro s rfl
  cases hs : g.spec.sortKey with
  | none => exact ⟨oneLine_of (by decide), by decide, by decide, by decide, by decide⟩
  | some s => exact h.sortKey s hs

/-- The text of os-release. -/
theorem display_eq (k₁ v₁ k₂ v₂ k₃ v₃ : Str) : OsRelease.display [(k₁, v₁), (k₂, v₂), (k₃, v₃)] =
    (k₁ ++ '=' :: v₁) ++ '\n' :: ((k₂ ++ '=' :: v₂) ++ '\n' :: ((k₃ ++ '=' :: v₃) ++ '\n' :: [])) := by
  simp [OsRelease.display, lit]

theorem fields_eq {l₁ l₂ l₃ : Str} {a₁ a₂ a₃ : Str × Str} (h₁ : OnOneLine l₁) (h₂ : OnOneLine l₂)
    (h₃ : OnOneLine l₃) (e₁ : assignment l₁ = some a₁) (e₂ : assignment l₂ = some a₂)
    (e₃ : assignment l₃ = some a₃) (key : Str) :
    field (l₁ ++ '\n' :: (l₂ ++ '\n' :: (l₃ ++ '\n' :: []))) key =
      (([a₁, a₂, a₃].filter fun a => a.1 = key).getLast?).map (·.2) := by
  unfold field
  rw [takeWhile_noNul]
  · dsimp only
    rw [lines_line _ _ h₁, lines_line _ _ h₂, lines_line _ _ h₃]
    have e : lines [] = [[]] := rfl
    have e' : assignment [] = none := rfl
    rw [e, List.filterMap_cons_some e₁, List.filterMap_cons_some e₂, List.filterMap_cons_some e₃,
      List.filterMap_cons_none e', List.filterMap_nil]
  · simp only [List.mem_append, List.mem_cons, List.not_mem_nil, or_false, not_or]
    exact ⟨h₁.2.2, by decide, h₂.2.2, by decide, h₃.2.2, by decide⟩

/-- C84: in the boot menu a generation has the title, the version and the sort key it should have. -/
theorem C84_item (g : Gen) (h : Fits g) : ∃ d, Description g d ∧ ∀ id exhausted,
    itemOf (OsRelease.display (osRelease g)) id exhausted = itemFor g d id exhausted := by
  refine ⟨g.describe, describe_spec g h.date, fun id exhausted => ?_⟩
  have hd := describe_spec g h.date
  generalize hdd : g.describe = d at hd
  obtain ⟨s1, s2, s3, s4, s5⟩ := sortKey_ok h _ rfl
  have o := described_oneLine h hd
  have last := described_last hd
  have l1 : OnOneLine (g.spec.label ++ lit " (" ++ d ++ lit ")") :=
    oneLine_append (oneLine_append (oneLine_append h.label (oneLine_of (by decide))) o)
      (oneLine_of (by decide))
  have head : (g.spec.label ++ lit " (" ++ d ++ lit ")").head? ≠ some '=' := by
    have := h.label_start
    cases hl : g.spec.label with
    | nil => simp [lit]
    | cons c cs => rw [hl] at this; simpa using this
  have lastT : (g.spec.label ++ lit " (" ++ d ++ lit ")").getLast? = some ')' := by
    rw [List.getLast?_append]; rfl
  have headD : d.head? = some 'G' := by
    obtain ⟨date, _, rfl⟩ := hd
    rfl
  have key : ∀ k : Str, (∀ c ∈ k, c.toNat ≥ 32) → ∀ v, OnOneLine v → OnOneLine (k ++ '=' :: v) := by
    intro k hk v hv
    exact oneLine_append (oneLine_of hk) (oneLine_append (a := ['=']) (oneLine_of (by decide)) hv)
  have F := fields_eq (key (lit "ID") (by decide) _ s1) (key (lit "PRETTY_NAME") (by decide) _ l1)
    (key (lit "VERSION_ID") (by decide) _ o)
    (assignment_eq (k := lit "ID") rfl (by decide) (by decide) (by decide) (by decide) s2 s3 s4 s5)
    (assignment_eq (k := lit "PRETTY_NAME") rfl (by decide) (by decide) (by decide) (by decide) head
      (by rw [lastT]; decide) (by rw [lastT]; decide) (by rw [lastT]; simp))
    (assignment_eq (k := lit "VERSION_ID") rfl (by decide) (by decide) (by decide) (by decide)
      (by rw [headD]; decide) last.1 last.2 (by rw [headD]; simp))
  have E := osRelease_eq g
  rw [hdd] at E
  rw [E, display_eq]
  unfold itemOf itemFor
  simp only [F]
  congr 1

/-- C84: the images the installer signs are shown that way. -/
theorem C84_shown {i : Item} {g : Gen} (h : StandsFor i g) (hg : Fits g) :
    ∃ d, Description g d ∧ i = itemFor g d i.id i.exhausted := by
  obtain ⟨env, cfg, data, hf, ⟨-, v, kernel, initrd, image, -, -, hi, hs⟩, text, h1, h2⟩ := h
  have h3 := hi.sections hf hs _ (List.Mem.head _)
  have e := StubName.utf8_injective (h1.unique h3)
  obtain ⟨d, hd, he⟩ := C84_item g hg
  rw [e, he] at h2
  exact ⟨d, hd, h2⟩

/-! ## Sorting -/

theorem value_toDec (n : Nat) : value (toDec n) = n := by
  induction n using Nat.strongRecOn with
  | ind n ih =>
    rw [toDec_eq]
    split
    · next h =>
      show 0 * 10 + ((digitChar n).toNat - '0'.toNat) = n
      rw [(digitChar_spec n).2.2]; omega
    · next h =>
      have e : value (toDec (n / 10) ++ [digitChar n]) =
          value (toDec (n / 10)) * 10 + ((digitChar n).toNat - '0'.toNat) := by
        simp [value]
      rw [e, ih (n / 10) (by omega), (digitChar_spec n).2.2]
      omega

theorem toDec_isDigit (n : Nat) : ∀ c ∈ toDec n, isDigit c = true := by
  intro c hc
  obtain ⟨h1, h2⟩ := isDigitC_of (toDec_digits n c hc)
  simp [isDigit, h1, h2]

theorem textCmp_self : ∀ s : Str, textCmp s s = .eq
  | [] => rfl
  | c :: s => by rw [textCmp, textCmp_self s]; simp

theorem mark_none {c : Char} {a b : Str} {k : Str → Str → Ordering} (ha : a.head? ≠ some c)
    (hb : b.head? ≠ some c) : mark c a b k = k a b := by
  rw [mark, if_neg ha, if_neg hb]

/-- Two texts that start with a word and two that start with a number. -/
theorem cmp_number (n : Nat) {a b : Nat} {r r' : Str} (hr : ∀ c ∈ r.head?, isDigit c = false)
    (hr' : ∀ c ∈ r'.head?, isDigit c = false) {w : Str} (hw : ∀ c ∈ w, versionChar c = false) :
    versionCmpUpTo (n + 1) (w ++ (toDec a ++ r)) (w ++ (toDec b ++ r')) =
      (compare a b).then (versionCmpUpTo n r r') := by
  have skip : ∀ (x : Nat) (r : Str), (w ++ (toDec x ++ r)).dropWhile (!versionChar ·) = toDec x ++ r := by
    intro x r
    rw [List.dropWhile_append_of_pos (by intro c hc; rw [hw c hc]; rfl)]
    refine dropWhile_head fun c hc => ?_
    cases hx : toDec x with
    | nil => exact absurd hx (toDec_ne_nil x)
    | cons y ys =>
      rw [hx] at hc
      have := toDec_isDigit x y (by rw [hx]; simp)
      cases hc
      simp [versionChar, this]
  have head : ∀ (x : Nat) (r : Str), ∃ c, (toDec x ++ r).head? = some c ∧ isDigit c = true := by
    intro x r
    cases hx : toDec x with
    | nil => exact absurd hx (toDec_ne_nil x)
    | cons y ys => exact ⟨y, rfl, toDec_isDigit x y (by rw [hx]; simp)⟩
  have take : ∀ (x : Nat) (r : Str), (∀ c ∈ r.head?, isDigit c = false) →
      (toDec x ++ r).takeWhile isDigit = toDec x ∧ (toDec x ++ r).dropWhile isDigit = r := by
    intro x r hr
    rw [List.takeWhile_append_of_pos (toDec_isDigit x), List.dropWhile_append_of_pos (toDec_isDigit x)]
    refine ⟨?_, dropWhile_head hr⟩
    cases r with
    | nil => simp
    | cons c r => simp [hr c rfl]
  obtain ⟨c, c1, c2⟩ := head a r
  obtain ⟨c', c1', c2'⟩ := head b r'
  have no : ∀ x, isDigit x = true → x ≠ '~' ∧ x ≠ '-' ∧ x ≠ '^' ∧ x ≠ '.' := by
    intro x hx
    refine ⟨?_, ?_, ?_, ?_⟩ <;> · rintro rfl; exact absurd hx (by decide)
  obtain ⟨n1, n2, n3, n4⟩ := no c c2
  obtain ⟨m1, m2, m3, m4⟩ := no c' c2'
  have ne : ∀ {s : Str} {x : Char}, s.head? = some x → s ≠ [] := by rintro s x h rfl; cases h
  rw [versionCmpUpTo, skip, skip, mark_none (by rw [c1]; simpa using n1) (by rw [c1']; simpa using m1),
    if_neg (by simp only [not_or]; exact ⟨ne c1, ne c1'⟩),
    mark_none (by rw [c1]; simpa using n2) (by rw [c1']; simpa using m2),
    mark_none (by rw [c1]; simpa using n3) (by rw [c1']; simpa using m3),
    mark_none (by rw [c1]; simpa using n4) (by rw [c1']; simpa using m4)]
  rw [c1, c1', if_pos (by simp [c2]), if_pos (by simp [c2, c2']), (take a r hr).1, (take a r hr).2,
    (take b r' hr').1, (take b r' hr').2, value_toDec, value_toDec]

theorem cmp_word (n : Nat) (a b : Str) :
    versionCmpUpTo (n + 1) (lit "Generation " ++ a) (lit "Generation " ++ b) =
      versionCmpUpTo n ([' '] ++ a) ([' '] ++ b) := by
  have e : ∀ x : Str, (lit "Generation " ++ x).dropWhile (!versionChar ·) = lit "Generation " ++ x :=
    fun x => dropWhile_head (by rintro c ⟨⟩; decide)
  have h : ∀ x : Str, (lit "Generation " ++ x).head? = some 'G' := fun x => rfl
  have t : ∀ x : Str, (lit "Generation " ++ x).takeWhile isAlpha = lit "Generation" := fun x => rfl
  have d : ∀ x : Str, (lit "Generation " ++ x).dropWhile isAlpha = [' '] ++ x := fun x => rfl
  rw [versionCmpUpTo, e, e, mark_none (by rw [h]; decide) (by rw [h]; decide),
    if_neg (by simp [lit]), mark_none (by rw [h]; decide) (by rw [h]; decide),
    mark_none (by rw [h]; decide) (by rw [h]; decide), mark_none (by rw [h]; decide) (by rw [h]; decide),
    h, h, if_neg (by decide), t, t, d, d, textCmp_self]
  rfl

/-- What follows the number in a description. -/
def afterNumber (name : Option Str) (date : Str) : Str :=
  (match name with
    | none => []
    | some name => lit "-" ++ name) ++ lit ", " ++ date

theorem described_eq (g : Gen) (date : Str) :
    described g date = lit "Generation " ++ (toDec g.version ++ afterNumber g.specialisationName date) := by
  unfold described afterNumber
  cases g.specialisationName <;> simp

theorem afterNumber_head (name : Option Str) (date : Str) :
    ∀ c ∈ (afterNumber name date).head?, isDigit c = false := by
  cases name <;> (rintro c ⟨⟩; decide)

/-- Descriptions are compared by their numbers first. -/
theorem versionCmp_described (g g' : Gen) (date date' : Str) : ∃ n,
    versionCmp (described g date) (described g' date') = (compare g.version g'.version).then
      (versionCmpUpTo (n + 1) (afterNumber g.specialisationName date)
        (afterNumber g'.specialisationName date')) := by
  refine ⟨(described g date).length + (described g' date').length - 2, ?_⟩
  have hl : 2 ≤ (described g date).length + (described g' date').length := by
    rw [described_eq]
    have : (lit "Generation ").length = 11 := by decide
    simp only [List.length_append, this]
    omega
  unfold versionCmp
  have e : (described g date).length + (described g' date').length + 1 =
      ((described g date).length + (described g' date').length - 2) + 1 + 1 + 1 := by omega
  rw [e, described_eq, described_eq, cmp_word, cmp_number]
  · exact afterNumber_head _ _
  · exact afterNumber_head _ _
  · decide

/-- The date of a main system starts with a digit or a letter, if the year is not negative. -/
theorem date_head {d : Option Date} {s : Str} (h : DateText d s) (hy : ∀ x ∈ d, 0 ≤ x.year) :
    ∃ c cs, s = c :: cs ∧ versionChar c = true ∧ c ≠ '-' ∧ c ≠ '~' := by
  cases d with
  | none => cases h; exact ⟨'U', lit "nknown", rfl, by decide, by decide, by decide⟩
  | some d =>
    obtain ⟨y, m, dd, ⟨a, b, c, e, hyy, hyd, _⟩, _, _, rfl⟩ := h
    rcases hyy with ⟨_, rfl⟩ | ⟨hneg, _⟩
    · have ha := hyd.2 a (by simp)
      have h1 : '0'.toNat ≤ a.toNat := ha.1
      have h2 : a.toNat ≤ '9'.toNat := ha.2
      have e1 : '0'.toNat = 0x30 := rfl
      have e2 : '9'.toNat = 0x39 := rfl
      have hd : isDigit a = true := by simp [isDigit]; omega
      refine ⟨a, _, rfl, by simp [versionChar, hd], ?_, ?_⟩ <;>
      · rintro rfl
        exact absurd hd (by decide)
    · have := hy d rfl
      omega

theorem cmp_specialisation (n : Nat) {d : Option Date} {date name date' : Str} (h : DateText d date)
    (hy : ∀ x ∈ d, 0 ≤ x.year) :
    versionCmpUpTo (n + 1) (afterNumber none date) (afterNumber (some name) date') = .gt ∧
    versionCmpUpTo (n + 1) (afterNumber (some name) date') (afterNumber none date) = .lt := by
  obtain ⟨c, cs, rfl, c1, c2, c3⟩ := date_head h hy
  have e1 : (afterNumber none (c :: cs)).dropWhile (!versionChar ·) = c :: cs := by
    show (c :: cs).dropWhile (!versionChar ·) = c :: cs
    exact dropWhile_head (by rintro x ⟨⟩; simp [c1])
  have e2 : (afterNumber (some name) date').dropWhile (!versionChar ·) = '-' :: (name ++ lit ", " ++ date') := by
    have : afterNumber (some name) date' = '-' :: (name ++ lit ", " ++ date') := by
      simp [afterNumber, lit]
    rw [this]
    exact dropWhile_head (by rintro x ⟨⟩; decide)
  have h1 : (c :: cs).head? ≠ some '-' := by simpa using c2
  have h2 : (c :: cs).head? ≠ some '~' := by simpa using c3
  have h3 : ('-' :: (name ++ lit ", " ++ date')).head? ≠ some '~' := by simp
  have h4 : ('-' :: (name ++ lit ", " ++ date')).head? = some '-' := rfl
  constructor
  · rw [versionCmpUpTo, e1, e2, mark_none h2 h3, if_neg (by simp), mark, if_neg h1, if_pos h4]
  · rw [versionCmpUpTo, e1, e2, mark_none h3 h2, if_neg (by simp), mark, if_pos h4, if_neg h1]

theorem menuCmp_itemFor {g g' : Gen} {d d' id id' : Str} {ex : Bool}
    (hk : g.spec.sortKey.getD (lit "lanzaboote") = g'.spec.sortKey.getD (lit "lanzaboote")) :
    menuCmp (itemFor g d id ex) (itemFor g' d' id' ex) = (versionCmp d' d).then (versionCmp id' id) := by
  unfold menuCmp itemFor
  simp only [hk, textCmp_self, Option.isNone_some, Option.getD_some]
  cases ex <;> rfl

theorem versionCmp_precedes {g g' : Gen} {d d' : Str} (hd : Description g d) (hd' : Description g' d')
    (h : Precedes g g') : versionCmp d' d = .lt ∧ versionCmp d d' = .gt := by
  obtain ⟨date, h1, rfl⟩ := hd
  obtain ⟨date', h1', rfl⟩ := hd'
  obtain ⟨n, e⟩ := versionCmp_described g g' date date'
  obtain ⟨m, e'⟩ := versionCmp_described g' g date' date
  rw [e, e']
  rcases h.2 with hv | ⟨hv, hn, hn', hy⟩
  · rw [Nat.compare_eq_lt.2 hv, Nat.compare_eq_gt.2 hv]
    exact ⟨rfl, rfl⟩
  · rw [hv, hn]
    obtain ⟨name, hname⟩ := Option.ne_none_iff_exists'.1 hn'
    rw [hname]
    simp only [Nat.compare_eq_eq.2 rfl, Ordering.then]
    exact ⟨(cmp_specialisation m h1 hy).2, (cmp_specialisation n h1 hy).1⟩

theorem menuCmp_precedes {i i' : Item} {g g' : Gen} (h : StandsFor i g) (h' : StandsFor i' g')
    (hg : Fits g) (hg' : Fits g') (hx : i.exhausted = i'.exhausted) (hp : Precedes g g') :
    menuCmp i i' = .lt ∧ menuCmp i' i = .gt := by
  obtain ⟨d, hd, e⟩ := C84_shown h hg
  obtain ⟨d', hd', e'⟩ := C84_shown h' hg'
  obtain ⟨v1, v2⟩ := versionCmp_precedes hd hd' hp
  rw [e, e', hx, menuCmp_itemFor hp.1, menuCmp_itemFor hp.1.symm, v1, v2]
  exact ⟨rfl, rfl⟩

theorem split_two {α : Type} {l : List α} {x y : α} (hx : x ∈ l) (hy : y ∈ l) (hne : x ≠ y) :
    (∃ a b c, l = a ++ x :: (b ++ y :: c)) ∨ ∃ a b c, l = a ++ y :: (b ++ x :: c) := by
  obtain ⟨a, b, rfl⟩ := List.append_of_mem hx
  rcases List.mem_append.1 hy with h | h
  · obtain ⟨a1, a2, rfl⟩ := List.append_of_mem h
    exact .inr ⟨a1, a2, b, by simp⟩
  · rcases List.mem_cons.1 h with h | h
    · exact absurd h.symm hne
    · obtain ⟨b1, b2, rfl⟩ := List.append_of_mem h
      exact .inl ⟨a, b1, b2, rfl⟩

theorem above_of {l : List Item} (hl : IsMenu l) {i i' : Item} (hi : i ∈ l) (hi' : i' ∈ l)
    (h : menuCmp i i' = .lt ∧ menuCmp i' i = .gt) : Above l i i' := by
  have hne : i ≠ i' := by rintro rfl; rw [h.1] at h; simp at h
  rcases split_two hi hi' hne with h' | ⟨a, b, c, rfl⟩
  · exact h'
  · have := (List.pairwise_append.1 hl).2.1
    exact absurd h.2 ((List.pairwise_cons.1 this).1 i (by simp))

/-- C84: in every menu, whatever else is in it, newer generations are above older ones, and the main
system of a generation is above its specialisations, as long as they have the same sort key and both
have tries left. -/
theorem C84_newest_first {l : List Item} (hl : IsMenu l) {i i' : Item} (hi : i ∈ l) (hi' : i' ∈ l)
    {g g' : Gen} (h : StandsFor i g) (h' : StandsFor i' g') (hg : Fits g) (hg' : Fits g')
    (hx : i.exhausted = i'.exhausted) (hp : Precedes g g') : Above l i i' :=
  above_of hl hi hi' (menuCmp_precedes h h' hg hg' hx hp)

theorem menuCmp_exhausted {i i' : Item} (h : i.exhausted = false) (h' : i'.exhausted = true) :
    menuCmp i i' = .lt ∧ menuCmp i' i = .gt := by
  unfold menuCmp
  rw [h, h']
  exact ⟨rfl, rfl⟩

/-- C84: if the entry of the newest generation's main system has tries left, it is at the top of the
menu: the one that is started if nothing else is chosen. -/
theorem C84_default {l : List Item} (hl : IsMenu l) {i : Item} (hi : i ∈ l) {g : Gen}
    (h : StandsFor i g) (hg : Fits g) (hx : i.exhausted = false)
    (hall : ∀ i' ∈ l, i' ≠ i → i'.exhausted = true ∨ ∃ g', StandsFor i' g' ∧ Fits g' ∧ Precedes g g') :
    l.head? = some i := by
  cases l with
  | nil => cases hi
  | cons x xs =>
    by_cases e : x = i
    · rw [e]; rfl
    · have hmem : i ∈ xs := by
        rcases List.mem_cons.1 hi with h | h
        · exact absurd h.symm e
        · exact h
      have hle := (List.pairwise_cons.1 hl).1 i hmem
      refine absurd ?_ hle
      cases hex : x.exhausted with
      | true => exact (menuCmp_exhausted hx hex).2
      | false =>
        rcases hall x (by simp) e with h1 | ⟨g', h1, h2, h3⟩
        · rw [hex] at h1; cases h1
        · exact (menuCmp_precedes h h1 hg h2 (by rw [hx, hex]) h3).2

/-! ## What goes wrong with other texts -/

/-- C84, finding: a label with a line break changes the other fields. -/
theorem C84_finding_line_break (g : Gen) (h : g.spec.label = lit "NixOS\nIMAGE_ID=aaa\nIMAGE_VERSION=9")
    (hk : g.spec.sortKey = none) (hn : g.specialisationName = none) (hb : g.buildTime = none)
    (hv : g.version = 12) :
    ∀ id exhausted, itemOf (OsRelease.display (osRelease g)) id exhausted =
      { title := some (lit "NixOS"), version := some (lit "9 (Generation 12, Unknown)"),
        sortKey := some (lit "aaa"), id := id, exhausted := exhausted } := by
  intro id exhausted
  have e : OsRelease.display (osRelease g) = OsRelease.display [(lit "ID", lit "lanzaboote"),
      (lit "PRETTY_NAME", lit "NixOS\nIMAGE_ID=aaa\nIMAGE_VERSION=9 (Generation 12, Unknown)"),
      (lit "VERSION_ID", lit "Generation 12, Unknown")] := by
    rw [osRelease_eq, h, hk]
    have : g.describe = lit "Generation 12, Unknown" := by
      unfold Gen.describe Gen.describeSpecialisation
      rw [hn, hb, hv]
      decide +kernel
    rw [this]
    rfl
  rw [e]
  unfold itemOf
  congr 1

/-! ## Examples -/

/-- The examples of the UAPI specification of version numbers. -/
example : versionCmp (lit "122.1") (lit "123") = .lt ∧ versionCmp (lit "123~rc1-1") (lit "123") = .lt ∧
    versionCmp (lit "123") (lit "123-a") = .lt ∧ versionCmp (lit "123-a") (lit "123-a.1") = .lt ∧
    versionCmp (lit "123-a.1") (lit "123-1") = .lt ∧ versionCmp (lit "123-1") (lit "123-1.1") = .lt ∧
    versionCmp (lit "123-1.1") (lit "123^post1") = .lt ∧ versionCmp (lit "123^post1") (lit "123.a-1") = .lt ∧
    versionCmp (lit "123.a-1") (lit "123.1-1") = .lt ∧ versionCmp (lit "123.1-1") (lit "123a-1") = .lt ∧
    versionCmp (lit "123a-1") (lit "124-1") = .lt ∧ versionCmp (lit "11") (lit "11") = .eq ∧
    versionCmp (lit "systemd-123") (lit "systemd-123") = .eq ∧ versionCmp (lit "bar-123") (lit "foo-123") = .lt ∧
    versionCmp (lit "12_3") (lit "123") = .lt ∧ versionCmp (lit "0.1") (lit "0.001") = .eq ∧
    versionCmp (lit "A") (lit "a") = .lt ∧ versionCmp (lit "1_") (lit "1") = .eq := by decide +kernel

end Verif.Menu

namespace Verif.Tool.Sample.InMenu
open Verif Generation StubName Menu

/-- The main system of generation 2 and the specialisation `foo` of generation 1. -/
def newGen : Gen := (fromBootJson ⟨2, link2, some ⟨2025, 1, 31⟩⟩ ⟨spec2, []⟩).1
def fooGen : Gen := ((fromBootJson ⟨1, link1, some ⟨2025, 1, 31⟩⟩ ⟨spec1, [(lit "foo", spec1s)]⟩).2).headD someGen

def addedFor (g : Gen) (v : Str) (kernel initrd : Bytes) : List Added :=
  (entrySections good g v kernel initrd).map fun s => { name := s.1, content := s.2, vma := 0 }
def imageFor (g : Gen) (v : Str) (kernel initrd : Bytes) : Bytes := (objcopy stub (addedFor g v kernel initrd)).getD []
def signedFor (g : Gen) (v : Str) (kernel initrd : Bytes) : Bytes := (sbsign (imageFor g v kernel initrd)).getD []

theorem signedEntryFor {g : Gen} {v : Str} {kernel initrd : Bytes} (hg : g ∈ allOf good cfg)
    (hk : good.store g.spec.kernel = some kernel) (hi : InitrdOf good g.spec initrd)
    (h1 : objcopy stub (addedFor g v kernel initrd) = some (imageFor g v kernel initrd))
    (h2 : sbsign (imageFor g v kernel initrd) = some (signedFor g v kernel initrd)) :
    SignedEntry good cfg g (signedFor g v kernel initrd) := by
  refine ⟨considers_iff.2 hg, v, kernel, initrd, imageFor g v kernel initrd, hk, hi,
    ⟨stub, 0, addedFor g v kernel initrd, by decide +kernel, ?_, h1⟩, ⟨0, h2⟩⟩
  unfold addedFor
  rw [List.map_map]
  exact List.map_id _

/-- The item for a generation. -/
def itemIn (g : Gen) (id : Str) : Item := itemOf (OsRelease.display (osRelease g)) id false

theorem standsFor {g : Gen} {v : Str} {kernel initrd : Bytes} {id : Str}
    (h : SignedEntry good cfg g (signedFor g v kernel initrd))
    (hs : readSectionData good (signedFor g v kernel initrd) (lit ".osrel") =
      .ok (some (utf8 (OsRelease.display (osRelease g))))) : StandsFor (itemIn g id) g :=
  ⟨good, cfg, _, faithful _, h, _, (readSectionData_iff _ _ _ _).1 hs, rfl⟩

theorem standsNew : StandsFor (itemIn newGen (lit "nixos-generation-2-x.efi")) newGen :=
  standsFor (v := lit "6.2") (kernel := kernel2) (initrd := initrd2 ++ [115])
    (signedEntryFor (by decide +kernel) (by decide +kernel)
      ⟨storePath "bbb-initrd", initrd2, by decide +kernel, by decide +kernel, 0, by decide +kernel⟩
      (by decide +kernel) (by decide +kernel)) (by decide +kernel)

theorem standsOld : StandsFor (itemIn someGen (lit "nixos-generation-1-x.efi")) someGen :=
  standsFor (v := lit "6.1") (kernel := kernel1) (initrd := initrd1)
    (signedEntryFor (by decide +kernel) (by decide +kernel) someInitrd
      (by decide +kernel) (by decide +kernel)) (by decide +kernel)

theorem standsFoo : StandsFor (itemIn fooGen (lit "nixos-generation-1-specialisation-foo-x.efi")) fooGen :=
  standsFor (v := lit "6.1") (kernel := kernel1) (initrd := initrd1)
    (signedEntryFor (by decide +kernel) (by decide +kernel)
      ⟨storePath "aaa-initrd", initrd1, by decide +kernel, by decide +kernel, rfl⟩
      (by decide +kernel) (by decide +kernel)) (by decide +kernel)

theorem fits_of {g : Gen} (h1 : ∀ c ∈ g.spec.label, c.toNat ≥ 32) (h2 : g.spec.label.head? ≠ some '=')
    (h3 : ∀ s ∈ g.specialisationName, ∀ c ∈ s, c.toNat ≥ 32) (h4 : g.spec.sortKey = none)
    (h5 : g.buildTime = some ⟨2025, 1, 31⟩) : Menu.Fits g where
  label := oneLine_of h1
  label_start := h2
  name := fun s hs => oneLine_of (h3 s hs)
  sortKey := by rw [h4]; rintro s ⟨⟩
  date := by rw [h5]; rintro d ⟨⟩; decide

theorem fitsNew : Menu.Fits newGen :=
  fits_of (by decide +kernel) (by decide +kernel) (by rintro s ⟨⟩) (by decide +kernel) (by decide +kernel)
theorem fitsOld : Menu.Fits someGen :=
  fits_of (by decide +kernel) (by decide +kernel) (by rintro s ⟨⟩) (by decide +kernel) (by decide +kernel)
theorem fitsFoo : Menu.Fits fooGen :=
  fits_of (by decide +kernel) (by decide +kernel) (by rintro s ⟨⟩; decide) (by decide +kernel) (by decide +kernel)

/-- The menu of the sample installation, with another operating system. -/
def sampleMenu : List Item :=
  [{ title := some (lit "Arch Linux"), version := some (lit "1"), sortKey := some (lit "arch"),
     id := lit "arch.efi", exhausted := false },
   itemIn newGen (lit "nixos-generation-2-x.efi"), itemIn someGen (lit "nixos-generation-1-x.efi"),
   itemIn fooGen (lit "nixos-generation-1-specialisation-foo-x.efi")]

theorem sampleMenu_eq : sampleMenu =
    [{ title := some (lit "Arch Linux"), version := some (lit "1"), sortKey := some (lit "arch"),
       id := lit "arch.efi", exhausted := false },
     { title := some (lit "NixOS 2 (Generation 2, 2025-01-31)"),
       version := some (lit "Generation 2, 2025-01-31"), sortKey := some (lit "lanzaboote"),
       id := lit "nixos-generation-2-x.efi", exhausted := false },
     { title := some (lit "NixOS 1 (Generation 1, 2025-01-31)"),
       version := some (lit "Generation 1, 2025-01-31"), sortKey := some (lit "lanzaboote"),
       id := lit "nixos-generation-1-x.efi", exhausted := false },
     { title := some (lit "NixOS 1 (Generation 1-foo, 2025-01-31)"),
       version := some (lit "Generation 1-foo, 2025-01-31"), sortKey := some (lit "lanzaboote"),
       id := lit "nixos-generation-1-specialisation-foo-x.efi", exhausted := false }] := by
  decide +kernel

theorem sampleMenu_isMenu : IsMenu sampleMenu := by rw [sampleMenu_eq]; unfold IsMenu; decide +kernel

theorem newPrecedes : Precedes newGen someGen ∧ Precedes newGen fooGen ∧ Precedes someGen fooGen :=
  ⟨⟨by decide +kernel, .inl (by decide +kernel)⟩, ⟨by decide +kernel, .inl (by decide +kernel)⟩,
    by decide +kernel, .inr ⟨by decide +kernel, by decide +kernel, by decide +kernel, by rintro d ⟨⟩; decide⟩⟩

theorem itemIn_exhausted (g : Gen) (id : Str) : (itemIn g id).exhausted = false := rfl

example : Above sampleMenu (itemIn newGen (lit "nixos-generation-2-x.efi"))
      (itemIn someGen (lit "nixos-generation-1-x.efi")) ∧
    Above sampleMenu (itemIn someGen (lit "nixos-generation-1-x.efi"))
      (itemIn fooGen (lit "nixos-generation-1-specialisation-foo-x.efi")) :=
  ⟨C84_newest_first sampleMenu_isMenu (.tail _ (.head _)) (.tail _ (.tail _ (.head _))) standsNew standsOld
      fitsNew fitsOld ((itemIn_exhausted _ _).trans (itemIn_exhausted _ _).symm) newPrecedes.1,
    C84_newest_first sampleMenu_isMenu (.tail _ (.tail _ (.head _))) (.tail _ (.tail _ (.tail _ (.head _))))
      standsOld standsFoo fitsOld fitsFoo ((itemIn_exhausted _ _).trans (itemIn_exhausted _ _).symm)
      newPrecedes.2.2⟩

/-- Without the other system the newest generation is the default. -/
example : (sampleMenu.tail).head? = some (itemIn newGen (lit "nixos-generation-2-x.efi")) := by
  refine C84_default (l := sampleMenu.tail) (List.pairwise_cons.1 sampleMenu_isMenu).2 (.head _)
    standsNew fitsNew (itemIn_exhausted _ _) ?_
  intro i hi hne
  have hi : i ∈ [itemIn newGen (lit "nixos-generation-2-x.efi"), itemIn someGen (lit "nixos-generation-1-x.efi"),
    itemIn fooGen (lit "nixos-generation-1-specialisation-foo-x.efi")] := hi
  simp only [List.mem_cons, List.not_mem_nil, or_false] at hi
  rcases hi with rfl | rfl | rfl
  · exact absurd rfl hne
  · exact .inr ⟨someGen, standsOld, fitsOld, newPrecedes.1⟩
  · exact .inr ⟨fooGen, standsFoo, fitsFoo, newPrecedes.2.1⟩

/-- What is shown. -/
example : (itemIn fooGen (lit "a.efi")).title = some (lit "NixOS 1 (Generation 1-foo, 2025-01-31)") := by
  decide +kernel

/-- Another sort key puts a generation above all newer ones. -/
example : menuCmp (itemFor { someGen with spec := { spec1 with sortKey := some (lit "aaa") } } [] [] false)
    (itemFor newGen [] [] false) = .lt := by decide +kernel

end Verif.Tool.Sample.InMenu
