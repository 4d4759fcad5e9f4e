import Verif.Lemmas.Spelling
import Verif.Spec.BootCounting
import Verif.Spec.Names
/-!
# C26, C27: stub file names
-/
namespace Verif.StubName
open Verif Generation BootCounting

/-- Characters of a boot counter. -/
def CounterChar (uni : Char → Bool) (c : Char) : Prop :=
  isRegexDigit uni c = true ∨ c = '+' ∨ c = '-'

theorem not_counterChar (uni : Char → Bool) {c : Char} (h : c = 'a' ∨ c = 'q') :
    ¬ CounterChar uni c := by
  rcases h with rfl | rfl <;> simp [CounterChar, isRegexDigit]

theorem toDec_counterChar (uni : Char → Bool) (n : Nat) : ∀ c ∈ toDec n, CounterChar uni c := by
  intro c hc
  have := isDigitC_of (toDec_digits n c hc)
  refine Or.inl ?_
  simp [isRegexDigit, this.1, this.2]

theorem text_counterChar (uni : Char → Bool) (c : Counter) : ∀ x ∈ c.text, CounterChar uni x := by
  intro x hx
  cases c with
  | none => simp [Counter.text] at hx
  | left n =>
    rcases List.mem_append.mp hx with h | h
    · exact Or.inr (Or.inl (by simpa using h))
    · exact toDec_counterChar uni n x h
  | leftDone n d =>
    simp only [Counter.text, List.mem_append] at hx
    rcases hx with ((h | h) | h) | h
    · exact Or.inr (Or.inl (by simpa using h))
    · exact toDec_counterChar uni n x h
    · exact Or.inr (Or.inr (by simpa using h))
    · exact toDec_counterChar uni d x h

/-- The counter of a freshly installed entry. -/
def initialCounter (tries : Nat) : Counter := if tries > 0 then .left tries else .none

theorem stubName_eq (sha : Sha) (g : Gen) (k : Bytes) (t : Nat) :
    stubName sha g k t = entryName (stubPrefix sha g k) (initialCounter t) := by
  unfold stubName initialCounter
  split <;> simp [entryName, Counter.text, lit]

theorem prefix_counter_inj (uni : Char → Bool) {sha : Sha} {g g' : Gen} {k k' : Bytes} {s s' : Str}
    (hs : ∀ x ∈ s, CounterChar uni x) (hs' : ∀ x ∈ s', CounterChar uni x)
    (h : stubPrefix sha g k ++ s = stubPrefix sha g' k' ++ s') :
    stubPrefix sha g k = stubPrefix sha g' k' ∧ s = s' := by
  obtain ⟨t, c, ht, hc⟩ := stubPrefix_last sha g k
  obtain ⟨t', c', ht', hc'⟩ := stubPrefix_last sha g' k'
  rw [ht, ht'] at h ⊢
  exact append_class_inj h (not_counterChar uni hc) (not_counterChar uni hc') hs hs'

theorem same_or_collision {sha : Sha} {g g' : Gen} {k k' : Bytes}
    (h : stubPrefix sha g k = stubPrefix sha g' k') :
    SameEntry g g' k k' ∨ Collision sha (hashed g k) (hashed g' k') := by
  obtain ⟨h1, h2, h3⟩ := stubPrefix_inj h
  rw [Spelling.hashed_eq, Spelling.hashed_eq]
  by_cases he : utf8 (stubInputs g.spec.toplevel k) = utf8 (stubInputs g'.spec.toplevel k')
  · have := stubInputs_inj (utf8_injective he)
    exact Or.inl ⟨h1, h2, this.1, this.2⟩
  · exact Or.inr ⟨he, h3⟩

/-- **C26**. Two boot entries get the same file name only if version, specialisation, toplevel and
key all agree (and so does the configured number of tries), or two different inputs with the same
SHA-256 hash are at hand. -/
theorem C26_stub_name_injective (sha : Sha) (g g' : Gen) (k k' : Bytes) (t t' : Nat)
    (h : stubName sha g k t = stubName sha g' k' t') :
    t = t' ∧ (SameEntry g g' k k' ∨ Collision sha (hashed g k) (hashed g' k')) := by
  rw [stubName_eq, stubName_eq] at h
  have h1 := List.append_cancel_right h
  have h2 := prefix_counter_inj (fun _ => false) (text_counterChar _ _) (text_counterChar _ _) h1
  refine ⟨?_, same_or_collision h2.1⟩
  have h3 := h2.2
  unfold initialCounter at h3
  by_cases ht : t > 0 <;> by_cases ht' : t' > 0 <;> simp [ht, ht', Counter.text] at h3
  · exact toDec_injective h3
  · omega

/-- The converse: the name depends on nothing but these inputs. -/
theorem C26_stub_name_determined (sha : Sha) (g g' : Gen) (k k' : Bytes) (t : Nat)
    (h : SameEntry g g' k k') : stubName sha g k t = stubName sha g' k' t := by
  obtain ⟨h1, h2, h3, h4⟩ := h
  simp only [stubName, stubPrefix, h1, h2, h3, h4]

/-! ### C27 -/

theorem takeWhile_append_dropWhile_all {p : Char → Bool} {d r : Str} (hd : ∀ x ∈ d, p x = true)
    (hr : ∀ x ∈ r.head?, p x = false) :
    (d ++ r).takeWhile p = d ∧ (d ++ r).dropWhile p = r := by
  induction d with
  | nil =>
    cases r with
    | nil => simp
    | cons c cs =>
      have := hr c (by simp)
      simp [this]
  | cons c cs ih =>
    have hc := hd c (by simp)
    have := ih (fun x hx => hd x (by simp [hx]))
    simp [hc, this.1, this.2]

theorem mem_takeWhile {p : Char → Bool} {l : Str} {x : Char} (h : x ∈ l.takeWhile p) :
    p x = true := by
  induction l with
  | nil => simp at h
  | cons c cs ih =>
    rw [List.takeWhile_cons] at h
    split at h
    · next hc =>
      rcases List.mem_cons.mp h with rfl | h
      · exact hc
      · exact ih h
    · simp at h

/-- A matching suffix is a counter text followed by `.efi`. -/
theorem matchSuffix_form {uni : Char → Bool} {r : Str} (h : matchSuffix uni r = true) :
    ∃ s, r = s ++ lit ".efi" ∧ ∀ x ∈ s, CounterChar uni x := by
  unfold matchSuffix at h
  split at h
  · next r' =>
    simp only [Bool.and_eq_true] at h
    obtain ⟨-, h⟩ := h
    have hr := List.takeWhile_append_dropWhile (p := isRegexDigit uni) (l := r')
    have hall : ∀ x ∈ r'.takeWhile (isRegexDigit uni), CounterChar uni x :=
      fun x hx => Or.inl (mem_takeWhile hx)
    split at h
    · next r'' hrest =>
      simp only [Bool.and_eq_true, decide_eq_true_eq] at h
      have hr2 := List.takeWhile_append_dropWhile (p := isRegexDigit uni) (l := r'')
      rw [h.2] at hr2
      refine ⟨'+' :: (r'.takeWhile (isRegexDigit uni) ++ '-' :: r''.takeWhile (isRegexDigit uni)),
        ?_, ?_⟩
      · rw [hrest] at hr
        rw [List.cons_append, List.append_assoc, List.cons_append, hr2, hr]
      · intro x hx
        simp only [List.mem_cons, List.mem_append] at hx
        rcases hx with h | h | h | h
        · exact Or.inr (Or.inl h)
        · exact hall x h
        · exact Or.inr (Or.inr h)
        · exact Or.inl (mem_takeWhile h)
    · simp only [decide_eq_true_eq] at h
      rw [h] at hr
      refine ⟨'+' :: r'.takeWhile (isRegexDigit uni), by rw [List.cons_append, hr], ?_⟩
      intro x hx
      rcases List.mem_cons.mp hx with h | h
      · exact Or.inr (Or.inl h)
      · exact hall x h
  · simp only [decide_eq_true_eq] at h
    exact ⟨[], by simp [h], by simp⟩

theorem digits_regex (uni : Char → Bool) (n : Nat) : ∀ x ∈ toDec n, isRegexDigit uni x = true := by
  intro c hc
  have := isDigitC_of (toDec_digits n c hc)
  simp [isRegexDigit, this.1, this.2]

theorem matchSuffix_text (uni : Char → Bool) (c : Counter) :
    matchSuffix uni (c.text ++ lit ".efi") = true := by
  cases c with
  | none => rfl
  | left n =>
    have h := takeWhile_append_dropWhile_all (p := isRegexDigit uni) (d := toDec n)
      (r := lit ".efi") (digits_regex uni n) (by simp [lit, isRegexDigit])
    have : Counter.text (.left n) ++ lit ".efi" = '+' :: (toDec n ++ lit ".efi") := by
      simp [Counter.text]
    rw [this]
    simp only [matchSuffix, h.1, h.2]
    simp [toDec_ne_nil, lit]
  | leftDone n d =>
    have h2 := takeWhile_append_dropWhile_all (p := isRegexDigit uni) (d := toDec d)
      (r := lit ".efi") (digits_regex uni d) (by simp [lit, isRegexDigit])
    have h := takeWhile_append_dropWhile_all (p := isRegexDigit uni) (d := toDec n)
      (r := '-' :: (toDec d ++ lit ".efi")) (digits_regex uni n) (by simp [isRegexDigit])
    have : Counter.text (.leftDone n d) ++ lit ".efi" =
        '+' :: (toDec n ++ '-' :: (toDec d ++ lit ".efi")) := by
      simp [Counter.text]
    rw [this]
    simp only [matchSuffix, h.1, h.2, h2.1, h2.2]
    simp [toDec_ne_nil]

theorem isMatch_entryName (uni : Char → Bool) (p : Str) (c : Counter) :
    isMatch uni p (entryName p c) = true := by
  unfold isMatch entryName
  have : p ++ c.text ++ ['.', 'e', 'f', 'i'] = p ++ (c.text ++ lit ".efi") := by simp [lit]
  rw [this, List.drop_left, matchSuffix_text]
  simp [List.isPrefixOf_iff_prefix]

theorem isMatch_form {uni : Char → Bool} {p n : Str} (h : isMatch uni p n = true) :
    ∃ s, n = p ++ s ++ lit ".efi" ∧ ∀ x ∈ s, CounterChar uni x := by
  unfold isMatch at h
  simp only [Bool.and_eq_true] at h
  obtain ⟨z, rfl⟩ := List.isPrefixOf_iff_prefix.mp h.1
  rw [List.drop_left] at h
  obtain ⟨s, rfl, hs⟩ := matchSuffix_form h.2
  exact ⟨s, by simp, hs⟩

theorem counterStep_some {c c' : Counter} (h : CounterStep c c') : ∃ t, c.text = '+' :: t := by
  cases h <;> exact ⟨_, rfl⟩

theorem plus_once (c : Counter) {x t : Str} (h : c.text = x ++ '+' :: t) : x = [] := by
  have hno : ∀ n, '+' ∉ toDec n := fun n => not_mem_toDec (by decide) n
  cases c with
  | none => simp [Counter.text] at h
  | left n =>
    cases x with
    | nil => rfl
    | cons y ys =>
      simp only [Counter.text, List.cons_append, List.nil_append, List.cons.injEq] at h
      exact absurd (h.2 ▸ by simp : '+' ∈ toDec n) (hno n)
  | leftDone n d =>
    cases x with
    | nil => rfl
    | cons y ys =>
      simp only [Counter.text, List.cons_append, List.nil_append, List.append_assoc,
        List.cons.injEq] at h
      have : '+' ∈ toDec n ++ '-' :: toDec d := by rw [h.2]; simp
      simp only [List.mem_append, List.mem_cons] at this
      rcases this with h | h | h
      · exact absurd h (hno n)
      · simp at h
      · exact absurd h (hno d)

/-- Renaming a counted stub keeps its base name. -/
theorem rename_keeps (sha : Sha) (g : Gen) (k : Bytes) (c : Counter) (n : Str)
    (h : Rename (entryName (stubPrefix sha g k) c) n) :
    ∃ c', n = entryName (stubPrefix sha g k) c' := by
  obtain ⟨b, c1, c2, h1, h2, rfl⟩ := h
  have h3 : stubPrefix sha g k ++ c.text = b ++ c1.text := by
    unfold entryName at h1
    exact List.append_cancel_right h1
  obtain ⟨t, ht⟩ := counterStep_some h2
  obtain ⟨z, d, hz, hd⟩ := stubPrefix_last sha g k
  rcases List.append_eq_append_iff.mp h3 with ⟨x, hx1, hx2⟩ | ⟨x, hx1, hx2⟩
  · rw [ht] at hx2
    have := plus_once c hx2
    subst this
    refine ⟨c2, ?_⟩
    rw [hx1]; simp
  · rcases List.eq_nil_or_concat x with rfl | ⟨x', e, rfl⟩
    · refine ⟨c2, ?_⟩
      rw [hx1]; simp
    · exfalso
      rw [List.concat_eq_append, ← List.append_assoc, hz] at hx1
      have := (List.append_inj' hx1 rfl).2
      simp only [List.cons.injEq, and_true] at this
      subst this
      exact not_counterChar (fun _ => false) hd
        (text_counterChar (fun _ => false) c1 _ (by rw [hx2]; simp))

theorem renames_keeps (sha : Sha) (g : Gen) (k : Bytes) (t : Nat) (n : Str)
    (h : Renames (stubName sha g k t) n) : ∃ c, n = entryName (stubPrefix sha g k) c := by
  generalize hs : stubName sha g k t = s at h
  induction h with
  | refl => exact ⟨initialCounter t, by rw [← hs, stubName_eq]⟩
  | step h1 h2 ih =>
    obtain ⟨c, rfl⟩ := ih
    exact rename_keeps sha g k c _ h2

/-- **C27** (found). Whatever boot counting does to the name of an installed entry, the lookup for
its generation still recognises it. -/
theorem C27_stub_lookup_finds (uni : Char → Bool) (sha : Sha) (g : Gen) (k : Bytes) (t : Nat)
    (n : Str) (h : Renames (stubName sha g k t) n) :
    isMatch uni (stubPrefix sha g k) n = true := by
  obtain ⟨c, rfl⟩ := renames_keeps sha g k t n h
  exact isMatch_entryName uni _ c

/-- **C27** (exact). And the lookup for a generation recognises it only if it is the same entry, or
a SHA-256 collision is at hand. -/
theorem C27_stub_lookup_exact (uni : Char → Bool) (sha : Sha) (g g' : Gen) (k k' : Bytes) (t : Nat)
    (n : Str) (h : Renames (stubName sha g k t) n)
    (hm : isMatch uni (stubPrefix sha g' k') n = true) :
    SameEntry g g' k k' ∨ Collision sha (hashed g k) (hashed g' k') := by
  obtain ⟨c, rfl⟩ := renames_keeps sha g k t n h
  obtain ⟨s, hs, hs'⟩ := isMatch_form hm
  unfold entryName at hs
  have : stubPrefix sha g k ++ c.text = stubPrefix sha g' k' ++ s := by
    have : (lit ".efi" : Str) = ['.', 'e', 'f', 'i'] := by simp [lit]
    rw [this] at hs
    exact List.append_cancel_right hs
  exact same_or_collision (prefix_counter_inj uni (text_counterChar uni c) hs' this).1

theorem digit_iff (uni : Char → Bool) (c : Char) : isRegexDigit uni c = true ↔ Spelling.Digit uni c := by
  have key : (48 ≤ c.toNat ∧ c.toNat ≤ 57) ↔ c ∈ "0123456789".toList := by
    constructor
    · rintro ⟨h1, h2⟩
      have : ∀ k : Fin 10, Char.ofNat (48 + k.val) ∈ "0123456789".toList := by decide
      have h3 := this ⟨c.toNat - 48, by omega⟩
      have e : 48 + (c.toNat - 48) = c.toNat := by omega
      rw [e] at h3
      simpa using h3
    · intro h
      have : ∀ x ∈ "0123456789".toList, 48 ≤ x.toNat ∧ x.toNat ≤ 57 := by decide
      exact this c h
  unfold isRegexDigit Spelling.Digit
  rw [← key]
  simp

theorem number_iff (uni : Char → Bool) (d : Str) :
    Spelling.Number (Spelling.Digit uni) d ↔ d ≠ [] ∧ ∀ x ∈ d, isRegexDigit uni x = true := by
  unfold Spelling.Number
  simp only [digit_iff]

theorem matchSuffix_iff (uni : Char → Bool) (r : Str) : matchSuffix uni r = true ↔
    ∃ s, Spelling.CounterText (Spelling.Digit uni) s ∧ r = s ++ lit ".efi" := by
  constructor
  · intro h
    unfold matchSuffix at h
    split at h
    · next r' =>
      simp only [Bool.and_eq_true, decide_eq_true_eq] at h
      obtain ⟨h0, h⟩ := h
      have hr := List.takeWhile_append_dropWhile (p := isRegexDigit uni) (l := r')
      have hl : Spelling.Number (Spelling.Digit uni) (r'.takeWhile (isRegexDigit uni)) :=
        (number_iff _ _).2 ⟨h0, fun x hx => mem_takeWhile hx⟩
      split at h
      · next r'' hrest =>
        simp only [Bool.and_eq_true, decide_eq_true_eq] at h
        have hr2 := List.takeWhile_append_dropWhile (p := isRegexDigit uni) (l := r'')
        rw [h.2] at hr2
        have hd : Spelling.Number (Spelling.Digit uni) (r''.takeWhile (isRegexDigit uni)) :=
          (number_iff _ _).2 ⟨h.1, fun x hx => mem_takeWhile hx⟩
        refine ⟨_, .leftDone hl hd, ?_⟩
        rw [hrest] at hr
        have e : "+".toList ++ r'.takeWhile (isRegexDigit uni) ++ "-".toList ++ r''.takeWhile (isRegexDigit uni) ++
            lit ".efi" = '+' :: (r'.takeWhile (isRegexDigit uni) ++ '-' :: (r''.takeWhile (isRegexDigit uni) ++
            lit ".efi")) := by simp
        rw [e, hr2, hr]
      · simp only [decide_eq_true_eq] at h
        rw [h] at hr
        exact ⟨_, .left hl, by
          have e : "+".toList ++ r'.takeWhile (isRegexDigit uni) ++ lit ".efi" =
            '+' :: (r'.takeWhile (isRegexDigit uni) ++ lit ".efi") := by simp
          rw [e, hr]⟩
    · simp only [decide_eq_true_eq] at h
      exact ⟨[], .none, by simp [h]⟩
  · rintro ⟨s, hs, rfl⟩
    cases hs with
    | none => rfl
    | @left l h =>
      obtain ⟨h0, h1⟩ := (number_iff _ _).1 h
      have h := takeWhile_append_dropWhile_all (p := isRegexDigit uni) (d := l)
        (r := lit ".efi") h1 (by simp [lit, isRegexDigit])
      have : "+".toList ++ l ++ lit ".efi" = '+' :: (l ++ lit ".efi") := by simp
      rw [this]
      simp only [matchSuffix, h.1, h.2]
      simp [h0, lit]
    | @leftDone l d h h' =>
      obtain ⟨h0, h1⟩ := (number_iff _ _).1 h
      obtain ⟨g0, g1⟩ := (number_iff _ _).1 h'
      have h2 := takeWhile_append_dropWhile_all (p := isRegexDigit uni) (d := d)
        (r := lit ".efi") g1 (by simp [lit, isRegexDigit])
      have h := takeWhile_append_dropWhile_all (p := isRegexDigit uni) (d := l)
        (r := '-' :: (d ++ lit ".efi")) h1 (by simp [isRegexDigit])
      have : "+".toList ++ l ++ "-".toList ++ d ++ lit ".efi" =
          '+' :: (l ++ '-' :: (d ++ lit ".efi")) := by simp
      rw [this]
      simp only [matchSuffix, h.1, h.2, h2.1, h2.2]
      simp [h0, g0]

/-- **C27** (lookup). The lookup for a generation recognises exactly the names of its boot entry, with
whatever boot counter. -/
theorem C27_lookup_iff (uni : Char → Bool) (sha : Sha) (g : Gen) (key : Bytes) (n : Str) :
    isMatch uni (stubPrefix sha g key) n = true ↔ IsNameOf uni sha g key n := by
  have e : ∀ digits c, Spelling.Base32 (sha.hash (hashed g key)) digits →
      "nixos-generation-".toList ++ Spelling.decimal g.version ++
      (match g.specialisationName with
        | none => []
        | some s => "-specialisation-".toList ++ s) ++
      "-".toList ++ digits ++ c ++ ".efi".toList = stubPrefix sha g key ++ (c ++ lit ".efi") := by
    intro digits c hd
    rw [hd.unique (Spelling.base32_spec _), Spelling.hashed_eq, ← Spelling.toDec_eq_decimal]
    unfold stubPrefix
    cases g.specialisationName <;> simp [lit]
  constructor
  · intro h
    unfold isMatch at h
    simp only [Bool.and_eq_true] at h
    obtain ⟨z, rfl⟩ := List.isPrefixOf_iff_prefix.mp h.1
    rw [List.drop_left] at h
    obtain ⟨s, hs, rfl⟩ := (matchSuffix_iff _ _).1 h.2
    exact ⟨_, s, Spelling.base32_spec _, hs, (e _ _ (Spelling.base32_spec _)).symm⟩
  · rintro ⟨digits, c, hd, hc, h⟩
    rw [h]
    refine Eq.trans (congrArg _ (e digits c hd)) ?_
    unfold isMatch
    rw [List.drop_left, (matchSuffix_iff _ _).2 ⟨c, hc, rfl⟩]
    simp [List.isPrefixOf_iff_prefix]

theorem IsNameOf.isMatch {uni : Char → Bool} {sha : Sha} {g : Gen} {key : Bytes} {n : Str}
    (h : IsNameOf uni sha g key n) : isMatch uni (stubPrefix sha g key) n = true := (C27_lookup_iff _ _ _ _ _).2 h

theorem isNameOf {uni : Char → Bool} {sha : Sha} {g : Gen} {key : Bytes} {n : Str}
    (h : isMatch uni (stubPrefix sha g key) n = true) : IsNameOf uni sha g key n := (C27_lookup_iff _ _ _ _ _).1 h

/-! Non-vacuity. -/

/-- A stand-in for SHA-256 with 32-byte results. -/
def toySha : Sha where
  hash b := UInt8.ofNat b.length :: (b.take 31 ++ List.replicate (31 - (b.take 31).length) 0)
  len b := by simp only [List.length_cons, List.length_append, List.length_replicate,
                List.length_take]; omega

def sampleSpec : BootSpec where
  label := lit "NixOS"
  kernel := [lit "nix", lit "store", lit "abc-linux-6.1", lit "bzImage"]
  kernelParams := [lit "quiet"]
  init := [lit "nix", lit "store", lit "toplevel", lit "init"]
  initrd := some [lit "nix", lit "store", lit "initrd", lit "initrd"]
  initrdSecrets := none
  toplevel := utf8 (lit "/nix/store/toplevel")
  sortKey := none

def sampleGen : Gen := ⟨42, some ⟨2024, 1, 2⟩, some (lit "laptop"), sampleSpec⟩

/-- An entry with three tries that was tried twice and then blessed. -/
example (k : Bytes) : Renames (stubName toySha sampleGen k 3) (stubName toySha sampleGen k 0) := by
  rw [stubName_eq, stubName_eq]
  refine .step (.step (.step .refl ⟨_, .left 3, .leftDone 2 1, rfl, .try_first, rfl⟩)
    ⟨_, .leftDone 2 1, .leftDone 1 2, rfl, .try_again, rfl⟩) ⟨_, .leftDone 1 2, .none, rfl, .bless, rfl⟩

/-- A name of an entry with two tries left after one, and one that is none: a counter without a number. -/
example (k : Bytes) : IsNameOf (fun _ => false) toySha sampleGen k
    (stubPrefix toySha sampleGen k ++ lit "+2-1.efi") := isNameOf (by
  unfold isMatch
  rw [List.drop_left, show matchSuffix (fun _ => false) (lit "+2-1.efi") = true by decide]
  simp [List.isPrefixOf_iff_prefix])

example (k : Bytes) : ¬ IsNameOf (fun _ => false) toySha sampleGen k
    (stubPrefix toySha sampleGen k ++ lit "+.efi") := fun h => by
  have := h.isMatch
  unfold isMatch at this
  rw [List.drop_left, show matchSuffix (fun _ => false) (lit "+.efi") = false by decide] at this
  simp at this

example (k : Bytes) : ¬ SameEntry sampleGen { sampleGen with specialisationName := none } k k := by
  simp [SameEntry, sampleGen]

example (k : Bytes) :
    stubName toySha sampleGen k 3 ≠ stubName toySha { sampleGen with version := 43 } k 3 := by
  intro h
  rw [stubName_eq, stubName_eq] at h
  have h1 := prefix_counter_inj (fun _ => false) (text_counterChar _ _)
    (text_counterChar _ _) (List.append_cancel_right h)
  have h2 := (stubPrefix_inj h1.1).1
  exact absurd h2 (by decide)

end Verif.StubName
