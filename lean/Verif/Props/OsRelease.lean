import Verif.Model.OsRelease
import Verif.Spec.OsRelease
import Verif.Lemmas.Text
/-!
# C45, C46: os-release files
-/
namespace Verif.OsRelease
open Verif Spec

/-! ### Maps -/

theorem get_insert (k v k' : Str) (m : Map) :
    (m.insert k v).get k' = if k' = k then some v else m.get k' := by
  induction m with
  | nil => simp [Map.insert, Map.get]
  | cons e m ih =>
    obtain ⟨a, b⟩ := e
    simp only [Map.insert]
    by_cases h1 : k = a
    · subst h1
      by_cases h2 : k' = k <;> simp [Map.get, h2]
    · by_cases h3 : k < a
      · simp only [h1, if_false, h3, if_true, Map.get]
      · simp only [h1, if_false, h3, Map.get, ih]
        by_cases h2 : k' = a
        · subst h2
          have : ¬ k' = k := fun h => h1 h.symm
          simp [this]
        · simp [h2]

/-! ### Parsing lines -/

theorem isNewline_iff (c : Char) : isNewline c = true ↔ Newline c := by
  simp only [isNewline, Newline, Bool.or_eq_true, beq_iff_eq]; exact or_comm

theorem isBlank_iff (c : Char) : isBlank c = true ↔ Blank c := by
  simp only [isBlank, Blank, Bool.or_eq_true, beq_iff_eq]
  constructor
  · rintro (((h | h) | h) | h) <;> simp [h]
  · rintro (h | h | h | h) <;> simp [h]

theorem isNewline_false {c : Char} (h : ¬ Newline c) : isNewline c = false := by
  cases hc : isNewline c with
  | false => rfl
  | true => exact absurd ((isNewline_iff c).mp hc) h

theorem isBlank_false {c : Char} (h : ¬ Blank c) : isBlank c = false := by
  cases hc : isBlank c with
  | false => rfl
  | true => exact absurd ((isBlank_iff c).mp hc) h

theorem run_blanks (b : Str) (h : ∀ c ∈ b, Blank c) (m : Map) :
    b.foldl step ⟨m, .preKey, [], []⟩ = ⟨m, .preKey, [], []⟩ := by
  induction b with
  | nil => rfl
  | cons c cs ih =>
    have hb := h c (by simp)
    have hc : isCommentChar c = false := by
      rcases hb with rfl | rfl | rfl | rfl <;> rfl
    have : step ⟨m, .preKey, [], []⟩ c = ⟨m, .preKey, [], []⟩ := by
      simp [step, hc, (isBlank_iff c).mpr hb]
    rw [List.foldl_cons, this]
    exact ih fun c hc => h c (by simp [hc])

theorem run_comment (t : Str) (h : ∀ c ∈ t, ¬ Newline c) (m : Map) (st : PState)
    (hst : st = .comment ∨ st = .commentEscape) :
    (t ++ ['\n']).foldl step ⟨m, st, [], []⟩ = ⟨m, .preKey, [], []⟩ := by
  induction t generalizing st with
  | nil => rcases hst with rfl | rfl <;> rfl
  | cons c cs ih =>
    have hc := isNewline_false (h c (by simp))
    have h' : ∀ c ∈ cs, ¬ Newline c := fun c hc => h c (by simp [hc])
    rw [List.cons_append, List.foldl_cons]
    rcases hst with rfl | rfl
    · by_cases he : c = '\\'
      · have : step ⟨m, .comment, [], []⟩ c = ⟨m, .commentEscape, [], []⟩ := by simp [step, he]
        rw [this]; exact ih h' _ (Or.inr rfl)
      · have : step ⟨m, .comment, [], []⟩ c = ⟨m, .comment, [], []⟩ := by simp [step, he, hc]
        rw [this]; exact ih h' _ (Or.inl rfl)
    · have : step ⟨m, .commentEscape, [], []⟩ c = ⟨m, .comment, [], []⟩ := by simp [step, hc]
      rw [this]; exact ih h' _ (Or.inl rfl)

theorem run_key_tail (cs : Str) (h : ∀ x ∈ cs, ¬ Newline x ∧ x ≠ '=') (m : Map) (k : Str) :
    cs.foldl step ⟨m, .key, k, []⟩ = ⟨m, .key, k ++ cs, []⟩ := by
  induction cs generalizing k with
  | nil => simp
  | cons c cs ih =>
    have hc := h c (by simp)
    have : step ⟨m, .key, k, []⟩ c = ⟨m, .key, k ++ [c], []⟩ := by
      simp [step, isNewline_false hc.1, hc.2]
    rw [List.foldl_cons, this, ih (fun x hx => h x (by simp [hx]))]
    simp

theorem run_key (k : Str) (h : KeyText k) (m : Map) :
    k.foldl step ⟨m, .preKey, [], []⟩ = ⟨m, .key, k, []⟩ := by
  obtain ⟨c, cs, rfl, h1, h2, h3, h4⟩ := h
  have hc : isCommentChar c = false := by simp [isCommentChar, h2, h3]
  have : step ⟨m, .preKey, [], []⟩ c = ⟨m, .key, [c], []⟩ := by
    simp [step, hc, isBlank_false h1]
  rw [List.foldl_cons, this, run_key_tail cs h4]
  simp

theorem run_value_blanks (b : Str) (h : Blanks b) (m : Map) (k v : Str) :
    b.foldl step ⟨m, .preValue, k, v⟩ = ⟨m, .preValue, k, v⟩ := by
  induction b with
  | nil => rfl
  | cons c cs ih =>
    have hb := h c (by simp)
    have : step ⟨m, .preValue, k, v⟩ c = ⟨m, .preValue, k, v⟩ := by
      rcases hb with rfl | rfl <;> rfl
    rw [List.foldl_cons, this]
    exact ih fun c hc => h c (by simp [hc])

theorem run_single (t : Str) (h : '\'' ∉ t) (m : Map) (k v : Str) :
    t.foldl step ⟨m, .singleQuoteValue, k, v⟩ = ⟨m, .singleQuoteValue, k, v ++ t⟩ := by
  induction t generalizing v with
  | nil => simp
  | cons c cs ih =>
    simp only [List.mem_cons, not_or] at h
    have : step ⟨m, .singleQuoteValue, k, v⟩ c = ⟨m, .singleQuoteValue, k, v ++ [c]⟩ := by
      simp [step, Ne.symm h.1]
    rw [List.foldl_cons, this, ih h.2]
    simp

theorem run_dqItem (i : DqItem) (h : i.Ok) (m : Map) (k v : Str) :
    i.render.foldl step ⟨m, .doubleQuoteValue, k, v⟩ =
      ⟨m, .doubleQuoteValue, k, v ++ i.meaning⟩ := by
  cases i with
  | char c => simp [DqItem.render, DqItem.meaning, step, h.1, h.2]
  | escape c =>
    have : needsEscape c = true := by rcases h with h | h | h | h <;> subst h <;> rfl
    simp [DqItem.render, DqItem.meaning, step, this]
  | other c =>
    obtain ⟨h1, h2, h3, h4, h5⟩ := h
    have : needsEscape c = false := by simp [needsEscape, h1, h2, h3, h4]
    simp [DqItem.render, DqItem.meaning, step, this, h5]
  | continuation => simp [DqItem.render, DqItem.meaning, step, needsEscape]

theorem run_dqItems (is : List DqItem) (h : ∀ i ∈ is, i.Ok) (m : Map) (k v : Str) :
    (is.flatMap DqItem.render).foldl step ⟨m, .doubleQuoteValue, k, v⟩ =
      ⟨m, .doubleQuoteValue, k, v ++ is.flatMap DqItem.meaning⟩ := by
  induction is generalizing v with
  | nil => simp
  | cons i is ih =>
    simp only [List.flatMap_cons, List.foldl_append]
    rw [run_dqItem i (h i (by simp)), ih (fun i hi => h i (by simp [hi]))]
    simp

theorem run_quoted (q : Quoted) (h : q.Ok) (m : Map) (k v : Str) :
    q.render.foldl step ⟨m, .preValue, k, v⟩ = ⟨m, .preValue, k, v ++ q.meaning⟩ := by
  cases q with
  | single b t =>
    simp only [Quoted.render, List.foldl_append]
    rw [run_value_blanks b h.1]
    have : (['\''] : Str).foldl step ⟨m, .preValue, k, v⟩ = ⟨m, .singleQuoteValue, k, v⟩ := rfl
    rw [this, run_single t h.2]
    rfl
  | double b is =>
    simp only [Quoted.render, List.foldl_append]
    rw [run_value_blanks b h.1]
    have : (['"'] : Str).foldl step ⟨m, .preValue, k, v⟩ = ⟨m, .doubleQuoteValue, k, v⟩ := rfl
    rw [this, run_dqItems is h.2]
    rfl

theorem run_quoteds (qs : List Quoted) (h : ∀ q ∈ qs, q.Ok) (m : Map) (k v : Str) :
    (qs.flatMap Quoted.render).foldl step ⟨m, .preValue, k, v⟩ =
      ⟨m, .preValue, k, v ++ qs.flatMap Quoted.meaning⟩ := by
  induction qs generalizing v with
  | nil => simp
  | cons q qs ih =>
    simp only [List.flatMap_cons, List.foldl_append]
    rw [run_quoted q (h q (by simp)), ih (fun q hq => h q (by simp [hq]))]
    simp

theorem run_escape (c : Char) (m : Map) (k v : Str) :
    step ⟨m, .valueEscape, k, v⟩ c = ⟨m, .value, k, v ++ (Item.escape c).meaning⟩ := by
  by_cases h : c = '\n' ∨ c = '\r'
  · have : isNewline c = true := (isNewline_iff c).mpr h
    simp [step, this, Item.meaning, h]
  · have : isNewline c = false := isNewline_false h
    simp [step, this, Item.meaning, h]

theorem run_item (i : Item) (h : i.Ok) (m : Map) (k v : Str) :
    i.render.foldl step ⟨m, .value, k, v⟩ = ⟨m, .value, k, v ++ i.meaning⟩ := by
  cases i with
  | char c => simp [Item.render, Item.meaning, step, isNewline_false h.1, h.2]
  | escape c =>
    have : step ⟨m, .value, k, v⟩ '\\' = ⟨m, .valueEscape, k, v⟩ := rfl
    simp only [Item.render, List.foldl_cons, List.foldl_nil, this, run_escape]

theorem run_items (is : List Item) (h : ∀ i ∈ is, i.Ok) (m : Map) (k v : Str) :
    (is.flatMap Item.render).foldl step ⟨m, .value, k, v⟩ =
      ⟨m, .value, k, v ++ is.flatMap Item.meaning⟩ := by
  induction is generalizing v with
  | nil => simp
  | cons i is ih =>
    simp only [List.flatMap_cons, List.foldl_append]
    rw [run_item i (h i (by simp)), ih (fun i hi => h i (by simp [hi]))]
    simp

theorem run_first (i : Item) (h : i.OkFirst) (m : Map) (k v : Str) :
    i.render.foldl step ⟨m, .preValue, k, v⟩ = ⟨m, .value, k, v ++ i.meaning⟩ := by
  cases i with
  | char c =>
    obtain ⟨h1, h2, h3, h4⟩ := h
    have hn : ¬ Newline c := fun hn => h1 (by rcases hn with h | h <;> simp [Blank, h])
    simp [Item.render, Item.meaning, step, isNewline_false hn, h2, h3, h4, isBlank_false h1]
  | escape c =>
    have : step ⟨m, .preValue, k, v⟩ '\\' = ⟨m, .valueEscape, k, v⟩ := rfl
    simp only [Item.render, List.foldl_cons, List.foldl_nil, this, run_escape]

/-- The white space that is trimmed is that of Unicode. -/
theorem isWhitespace_iff (c : Char) : isWhitespace c = true ↔ c.toNat ∈ whiteSpace := by
  unfold isWhitespace whiteSpace
  simp only [Bool.or_eq_true, Bool.and_eq_true, decide_eq_true_eq, beq_iff_eq, List.mem_cons,
    List.not_mem_nil, or_false]
  omega

theorem isWhitespace_false_iff (c : Char) : isWhitespace c = false ↔ c.toNat ∉ whiteSpace := by
  rw [← isWhitespace_iff]; simp

theorem trim_eq : trim = trimEnd := by
  funext s
  unfold trim trimEnd
  have : (fun c : Char => decide (c.toNat ∈ whiteSpace)) = isWhitespace := by
    funext c
    rw [Bool.eq_iff_iff, isWhitespace_iff, decide_eq_true_eq]
  rw [this]

theorem run_line (l : Line) (h : l.Ok) (m : Map) :
    l.render.foldl step ⟨m, .preKey, [], []⟩ =
      ⟨l.assigns.foldl (fun m a => m.insert a.1 a.2) m, .preKey, [], []⟩ := by
  cases l with
  | comment b mk t =>
    obtain ⟨h1, h2, h3⟩ := h
    have : (b ++ [mk] ++ t ++ ['\n'] : Str) = b ++ ([mk] ++ (t ++ ['\n'])) := by simp
    simp only [Line.render, this, List.foldl_append (l := b), List.foldl_append (l := [mk]),
      run_blanks b h1]
    have hm : ([mk] : Str).foldl step ⟨m, .preKey, [], []⟩ = ⟨m, .comment, [], []⟩ := by
      rcases h2 with rfl | rfl <;> rfl
    rw [hm, run_comment t h3 m _ (Or.inl rfl)]
    rfl
  | blank b =>
    simp only [Line.render, List.foldl_append, run_blanks b h]
    rfl
  | junk b t =>
    simp only [Line.render, List.foldl_append, run_blanks b h.1, run_key t h.2]
    rfl
  | assign b k q b' r =>
    obtain ⟨h1, h2, h3, h4, h5, h6⟩ := h
    simp only [Line.render, List.foldl_append, run_blanks b h1, run_key k h2]
    have he : (['='] : Str).foldl step ⟨m, .key, k, []⟩ = ⟨m, .preValue, k, []⟩ := rfl
    rw [he, run_quoteds q h3, run_value_blanks b' h4]
    cases r with
    | nil =>
      simp only [Line.assigns, List.flatMap_nil, List.foldl_nil, List.append_nil, if_true,
        List.foldl_cons, List.nil_append]
      rw [trim_eq]; rfl
    | cons i is =>
      have hi : i.OkFirst := h6 i (by simp)
      simp only [List.flatMap_cons, List.foldl_append]
      rw [run_first i hi, run_items is (fun i hi => h5 i (by simp [hi]))]
      simp only [Line.assigns, List.flatMap_cons, List.nil_append, reduceCtorEq, if_false,
        List.foldl_cons, List.foldl_nil, List.append_assoc]
      rw [trim_eq]; rfl

theorem run_lines (ls : List Line) (h : ∀ l ∈ ls, l.Ok) (m : Map) :
    (ls.flatMap Line.render).foldl step ⟨m, .preKey, [], []⟩ =
      ⟨(ls.flatMap Line.assigns).foldl (fun m a => m.insert a.1 a.2) m, .preKey, [], []⟩ := by
  induction ls generalizing m with
  | nil => rfl
  | cons l ls ih =>
    simp only [List.flatMap_cons, List.foldl_append]
    rw [run_line l (h l (by simp)), ih (fun l hl => h l (by simp [hl]))]

theorem get_foldl_insert (as : List (Str × Str)) (m : Map) (k : Str) :
    (as.foldl (fun m a => m.insert a.1 a.2) m).get k =
      as.foldl (fun acc a => if a.1 = k then some a.2 else acc) (m.get k) := by
  induction as generalizing m with
  | nil => rfl
  | cons a as ih =>
    rw [List.foldl_cons, ih, List.foldl_cons, get_insert]
    congr 1
    by_cases h : k = a.1
    · simp [h]
    · have : ¬ a.1 = k := fun h' => h h'.symm
      simp [h, this]

/-- **C46**. Parsing any file made of well-formed lines gives every key the value of its last
assignment; comments, blank lines and lines without `=` do not influence the result, quotes,
escapes and continuation lines mean what they mean in the shell. -/
theorem C46_osrelease_meaning (ls : List Line) (h : ∀ l ∈ ls, l.Ok) (k : Str) :
    (fromStr (ls.flatMap Line.render)).get k =
      lastValue k (ls.flatMap Line.assigns) := by
  unfold fromStr
  have := run_lines ls h []
  rw [show ({} : Parser) = ⟨[], .preKey, [], []⟩ from rfl, this]
  simp only [finish, get_foldl_insert]
  rfl

/-- **C46** (comments). A comment, blank or junk line may be inserted or removed anywhere between
lines. -/
theorem C46_osrelease_comments (a b : List Line) (c : Line) (ha : ∀ l ∈ a, l.Ok)
    (hb : ∀ l ∈ b, l.Ok) (hc : c.Ok) (hc' : c.assigns = []) (k : Str) :
    (fromStr ((a ++ c :: b).flatMap Line.render)).get k =
      (fromStr ((a ++ b).flatMap Line.render)).get k := by
  rw [C46_osrelease_meaning _ (by
        intro l hl
        rcases List.mem_append.mp hl with hl | hl
        · exact ha l hl
        · rcases List.mem_cons.mp hl with rfl | hl
          · exact hc
          · exact hb l hl),
    C46_osrelease_meaning _ (by
        intro l hl
        rcases List.mem_append.mp hl with hl | hl
        · exact ha l hl
        · exact hb l hl)]
  simp [hc']

/-- **C46** (comments, any text). A comment, blank or junk line after any number of well-formed lines does
not influence the result, whatever text follows. -/
theorem C46_osrelease_comments_anywhere (a : List Line) (c : Line) (t : Str) (ha : ∀ l ∈ a, l.Ok)
    (hc : c.Ok) (hc' : c.assigns = []) :
    fromStr (a.flatMap Line.render ++ c.render ++ t) = fromStr (a.flatMap Line.render ++ t) := by
  unfold fromStr
  simp only [List.foldl_append, run_lines a ha, run_line c hc, hc', List.foldl_nil]

/-- A line break ends an assignment the way the end of the text does. -/
theorem finish_newline (p : Parser) (h : p.state = .preKey ∨ p.state = .key ∨ p.state = .comment ∨
    p.state = .commentEscape ∨ p.state = .preValue ∨ p.state = .value) :
    finish (step p '\n') = finish p := by
  obtain ⟨m, st, k, v⟩ := p
  simp only at h
  rcases h with rfl | rfl | rfl | rfl | rfl | rfl <;> rfl

/-- A line that has ended leaves the parser between lines. -/
theorem state_of_newline (p : Parser) (h : (step p '\n').state = .preKey) :
    p.state = .preKey ∨ p.state = .key ∨ p.state = .comment ∨ p.state = .commentEscape ∨
      p.state = .preValue ∨ p.state = .value := by
  obtain ⟨m, st, k, v⟩ := p
  cases st <;> simp [step, isNewline, needsEscape] at h ⊢

theorem render_ends (l : Line) : ∃ t, l.render = t ++ ['\n'] := by
  cases l
  · exact ⟨_, rfl⟩
  · exact ⟨_, rfl⟩
  · exact ⟨_, rfl⟩
  · exact ⟨_, rfl⟩

/-- **C46** (end of the text). The last line counts whether or not the text ends in a line break. -/
theorem C46_osrelease_unterminated (a : List Line) (c : Line) (ha : ∀ l ∈ a, l.Ok) (hc : c.Ok) :
    fromStr (a.flatMap Line.render ++ c.render.dropLast) =
      fromStr (a.flatMap Line.render ++ c.render) := by
  obtain ⟨t, ht⟩ := render_ends c
  have h : ((a.flatMap Line.render ++ t ++ ['\n']).foldl step {}).state = .preKey := by
    rw [List.append_assoc, ← ht, show ({} : Parser) = ⟨[], .preKey, [], []⟩ from rfl,
      List.foldl_append, run_lines a ha, run_line c hc]
  rw [ht, List.dropLast_concat, ← List.append_assoc]
  unfold fromStr
  rw [List.foldl_append] at h
  rw [List.foldl_append (l := a.flatMap Line.render ++ t) (l' := ['\n'])]
  exact (finish_newline _ (state_of_newline _ h)).symm

/-- **C46** (last wins). -/
theorem C46_osrelease_last_wins (a : List Line) (b : Str) (k : Str) (q : List Quoted) (b' : Str)
    (r : List Item) (ha : ∀ l ∈ a, l.Ok) (hl : (Line.assign b k q b' r).Ok) :
    (fromStr ((a ++ [Line.assign b k q b' r]).flatMap Line.render)).get (trim k) =
      some (if r = [] then q.flatMap Quoted.meaning ++ r.flatMap Item.meaning
        else trim (q.flatMap Quoted.meaning ++ r.flatMap Item.meaning)) := by
  rw [C46_osrelease_meaning _ (by
        intro l hl'
        rcases List.mem_append.mp hl' with hl' | hl'
        · exact ha l hl'
        · simp only [List.mem_singleton] at hl'; subst hl'; exact hl)]
  simp [lastValue, Line.assigns, List.foldl_append]

/-- A file with a comment ending in a backslash, a blank line, a quoted and an unquoted assignment
and a reassignment. -/
def sampleLines : List Line :=
  [.comment [] '#' (lit " see \\"), .blank (lit "  "),
   .assign [] (lit "VERSION") [.double [] [.char '2', .escape '$', .continuation, .other 'n']] [] [],
   .assign (lit " ") (lit "NAME ") [] (lit " ") [.char 'a', .escape '\n', .char 'b', .char ' '],
   .junk [] (lit "nonsense"),
   .assign [] (lit "VERSION") [.single [] (lit "255")] [] []]

theorem sampleLines_ok : ∀ l ∈ sampleLines, l.Ok := by
  intro l hl
  simp only [sampleLines, List.mem_cons, List.not_mem_nil, or_false] at hl
  rcases hl with rfl | rfl | rfl | rfl | rfl | rfl
  · exact ⟨by simp, by simp, by unfold Newline; decide⟩
  · intro c hc; revert c; unfold Blank; decide
  · refine ⟨by simp, ⟨'V', lit "ERSION", rfl, by unfold Blank; decide, by decide, by decide,
      by unfold Newline; decide⟩, ?_, by simp [Blanks], by simp, by simp⟩
    intro x hx
    simp only [List.mem_singleton] at hx
    subst hx
    refine ⟨by simp [Blanks], ?_⟩
    intro i hi
    simp only [List.mem_cons, List.not_mem_nil, or_false] at hi
    rcases hi with rfl | rfl | rfl | rfl <;> simp [DqItem.Ok]
  · refine ⟨?_, ⟨'N', lit "AME ", rfl, by unfold Blank; decide, by decide, by decide,
      by unfold Newline; decide⟩, by simp, ?_, ?_, ?_⟩
    · unfold Blank; decide
    · unfold Blanks; decide
    · intro x hx
      simp only [List.mem_cons, List.not_mem_nil, or_false] at hx
      rcases hx with rfl | rfl | rfl | rfl <;> simp [Item.Ok, Newline]
    · simp [Item.OkFirst, Blank]
  · exact ⟨by simp, 'n', lit "onsense", rfl, by unfold Blank; decide, by decide, by decide,
      by unfold Newline; decide⟩
  · refine ⟨by simp, ⟨'V', lit "ERSION", rfl, by unfold Blank; decide, by decide, by decide,
      by unfold Newline; decide⟩, ?_, by simp [Blanks], by simp, by simp⟩
    intro x hx
    simp only [List.mem_singleton] at hx
    subst hx
    exact ⟨by simp [Blanks], by decide⟩

example : (fromStr (sampleLines.flatMap Line.render)).get (lit "VERSION") = some (lit "255") := by
  decide
example : (fromStr (sampleLines.flatMap Line.render)).get (lit "NAME") = some (lit "ab") := by
  decide

/-- A comment is dropped also before an unfinished assignment. -/
example : fromStr (sampleLines.flatMap Line.render ++ (Line.comment [] ';' (lit " A=1 '")).render ++
      lit "NAME=\"unfin") =
    fromStr (sampleLines.flatMap Line.render ++ lit "NAME=\"unfin") :=
  C46_osrelease_comments_anywhere sampleLines _ _ sampleLines_ok
    ⟨by simp, by simp, by unfold Newline; decide⟩ rfl

example : fromStr (sampleLines.flatMap Line.render ++ lit "ID=nixos") =
    fromStr (sampleLines.flatMap Line.render ++ lit "ID=nixos\n") :=
  C46_osrelease_unterminated sampleLines
    (.assign [] (lit "ID") [] [] [.char 'n', .char 'i', .char 'x', .char 'o', .char 's'])
    sampleLines_ok ⟨by simp, ⟨'I', ['D'], rfl, by simp [Newline, Blank]⟩,
      by simp [Blanks, Item.Ok, Item.OkFirst, Newline, Blank]⟩

/-! ### C45 -/

/-- `s` has no trailing white space. -/
def NoTrailing (s : Str) : Prop := ∀ c ∈ s.getLast?, c.toNat ∉ whiteSpace

theorem trimEnd_of_noTrailing {s : Str} (h : NoTrailing s) : trimEnd s = s := by
  unfold trimEnd
  rcases List.eq_nil_or_concat s with rfl | ⟨t, c, rfl⟩
  · rfl
  · have : isWhitespace c = false := (isWhitespace_false_iff c).2 (h c (by simp))
    simp [this]

/-- A key the plain format can carry. -/
def PlainKey (k : Str) : Prop := KeyText k ∧ NoTrailing k

/-- A value the plain format can carry: on one line, no backslash, not starting with a blank or a
quote, no trailing white space. -/
def PlainValue (v : Str) : Prop :=
  (∀ c ∈ v, ¬ Newline c ∧ c ≠ '\\') ∧ (∀ c ∈ v.head?, ¬ Blank c ∧ c ≠ '\'' ∧ c ≠ '"') ∧
    NoTrailing v

/-- Strictly ascending keys, as in every `BTreeMap`. -/
def Sorted (m : Map) : Prop := m.Pairwise fun a b => a.1 < b.1

theorem char_irrefl (a : Str) : ¬ a < a := List.lt_irrefl a

theorem insert_last (m : Map) (k v : Str) (h : ∀ e ∈ m, e.1 < k) : m.insert k v = m ++ [(k, v)] := by
  induction m with
  | nil => rfl
  | cons e m ih =>
    obtain ⟨a, b⟩ := e
    have ha : a < k := h (a, b) (by simp)
    have h1 : ¬ k = a := by rintro rfl; exact char_irrefl _ ha
    have h2 : ¬ k < a := fun h' => List.lt_asymm ha h'
    simp [Map.insert, h1, h2, ih (fun e he => h e (by simp [he]))]

theorem foldl_insert_sorted (acc m : Map) (h : Sorted (acc ++ m)) :
    m.foldl (fun m a => m.insert a.1 a.2) acc = acc ++ m := by
  induction m generalizing acc with
  | nil => simp
  | cons e m ih =>
    obtain ⟨k, v⟩ := e
    rw [List.foldl_cons, insert_last acc k v]
    · rw [ih (acc ++ [(k, v)])]
      · simp
      · simpa using h
    · intro e he
      have := List.pairwise_append.mp h
      exact this.2.2 e he (k, v) (by simp)

def plainLine (e : Str × Str) : Line := .assign [] e.1 [] [] (e.2.map Item.char)

theorem flatMap_char (v : Str) : (v.map Item.char).flatMap Item.render = v := by
  induction v with
  | nil => rfl
  | cons c cs ih => simp [List.flatMap_cons, Item.render] at ih ⊢; exact ih

theorem flatMap_char' (v : Str) : (v.map Item.char).flatMap Item.meaning = v := by
  induction v with
  | nil => rfl
  | cons c cs ih => simp [List.flatMap_cons, Item.meaning] at ih ⊢; exact ih

theorem display_eq (m : Map) : display m = (m.map plainLine).flatMap Line.render := by
  induction m with
  | nil => rfl
  | cons e m ih =>
    obtain ⟨k, v⟩ := e
    simp only [display, List.map_cons, List.flatMap_cons, ih, plainLine, Line.render,
      List.flatMap_nil, List.nil_append, List.append_nil, flatMap_char]
    simp [lit]

theorem plainLine_ok {e : Str × Str} (hk : PlainKey e.1) (hv : PlainValue e.2) : (plainLine e).Ok := by
  refine ⟨by simp, hk.1, by simp, by simp [Blanks], ?_, ?_⟩
  · intro x hx
    obtain ⟨c, hc, rfl⟩ := List.mem_map.mp hx
    exact hv.1 c hc
  · intro x hx
    rw [List.head?_map] at hx
    simp only [Option.mem_def, Option.map_eq_some_iff] at hx
    obtain ⟨c, hc, rfl⟩ := hx
    have := hv.2.1 c hc
    exact ⟨this.1, this.2.1, this.2.2, (hv.1 c (List.mem_of_head? hc)).2⟩

theorem plainLine_assigns {e : Str × Str} (hk : PlainKey e.1) (hv : PlainValue e.2) :
    (plainLine e).assigns = [e] := by
  obtain ⟨k, v⟩ := e
  simp only [plainLine, Line.assigns, List.flatMap_nil, List.nil_append, flatMap_char',
    trim_eq, trimEnd_of_noTrailing hk.2, trimEnd_of_noTrailing hv.2.2, ite_self]

/-- **C45** (partial). Reading back what the tool writes gives the same map, provided keys are
ordinary names and values are single lines without backslash, leading blank or quote and trailing
white space.

Missing: the claim for all values. It is false there, because values are written without quoting;
see `C45_osrelease_newline_injection` and the examples below it. -/
theorem C45_osrelease_roundtrip_partial (m : Map) (hs : Sorted m)
    (h : ∀ e ∈ m, PlainKey e.1 ∧ PlainValue e.2) : fromStr (display m) = m := by
  unfold fromStr
  rw [display_eq, show ({} : Parser) = ⟨[], .preKey, [], []⟩ from rfl, run_lines]
  · simp only [finish]
    have : (m.map plainLine).flatMap Line.assigns = m := by
      clear hs
      induction m with
      | nil => rfl
      | cons e m ih =>
        have he := h e (by simp)
        rw [List.map_cons, List.flatMap_cons, plainLine_assigns he.1 he.2,
          ih (fun e he => h e (by simp [he]))]
        rfl
    rw [this]
    have := foldl_insert_sorted [] m (by simpa using hs)
    simpa using this
  · intro l hl
    obtain ⟨e, he, rfl⟩ := List.mem_map.mp hl
    exact plainLine_ok (h e he).1 (h e he).2

theorem plainKey_of {k : Str} (h : PlainKey k) : trimEnd k = k := trimEnd_of_noTrailing h.2

/-! ### Exactly which maps survive

Writing and reading back loses characters or nothing. The weight of a text is the number of its characters
other than line feeds; a step of the parser never adds more weight than the character it reads has. -/

/-- Number of characters other than line feeds. -/
def weight (s : Str) : Nat := s.countP (· ≠ '\n')

@[simp] theorem weight_append (a b : Str) : weight (a ++ b) = weight a + weight b := by
  simp [weight]

theorem weight_nil : weight [] = 0 := rfl

theorem weight_pos {s : Str} {c : Char} (h : c ∈ s) (hc : c ≠ '\n') : 0 < weight s :=
  List.countP_pos_iff.mpr ⟨c, h, by simpa using hc⟩

theorem weight_one {c : Char} (hc : c ≠ '\n') : weight [c] = 1 := by simp [weight, hc]

theorem weight_le_one (c : Char) : weight [c] ≤ 1 := by
  have := List.countP_le_length (p := fun c => decide (c ≠ '\n')) (l := [c])
  simpa [weight] using this

/-- Weight of a map, counting the `=` of every assignment. -/
def mapWeight : Map → Nat
  | [] => 0
  | e :: m => weight e.1 + weight e.2 + 1 + mapWeight m

theorem mapWeight_insert (m : Map) (k v : Str) :
    mapWeight (m.insert k v) ≤ mapWeight m + (weight k + weight v + 1) := by
  induction m with
  | nil => simp [Map.insert, mapWeight]
  | cons e m ih =>
    obtain ⟨a, b⟩ := e
    simp only [Map.insert]
    split
    · rename_i h; subst h; simp only [mapWeight]; omega
    · split
      · simp only [mapWeight]; omega
      · simp only [mapWeight]; omega

theorem mem_insert {m : Map} {k v : Str} {e : Str × Str} (h : e ∈ m.insert k v) :
    e = (k, v) ∨ e ∈ m := by
  induction m with
  | nil => simpa [Map.insert] using h
  | cons a m ih =>
    obtain ⟨a, b⟩ := a
    simp only [Map.insert] at h
    split at h
    · rcases List.mem_cons.mp h with h | h
      · exact Or.inl h
      · exact Or.inr (by simp [h])
    · split at h
      · rcases List.mem_cons.mp h with h | h
        · exact Or.inl h
        · exact Or.inr h
      · rcases List.mem_cons.mp h with h | h
        · exact Or.inr (by simp [h])
        · rcases ih h with h | h
          · exact Or.inl h
          · exact Or.inr (by simp [h])

theorem weight_display (m : Map) : weight (display m) = mapWeight m := by
  induction m with
  | nil => rfl
  | cons e m ih =>
    have h1 : weight (lit "=") = 1 := by decide
    have h2 : weight (lit "\n") = 0 := by decide
    simp only [display, mapWeight, weight_append, ih, h1, h2]
    omega

/-- `trimEnd` only cuts. -/
theorem trimEnd_append (s : Str) : ∃ t, s = trimEnd s ++ t := by
  refine ⟨(s.reverse.takeWhile isWhitespace).reverse, ?_⟩
  unfold trimEnd
  rw [← List.reverse_append, List.takeWhile_append_dropWhile, List.reverse_reverse]

theorem weight_trimEnd (s : Str) : weight (trimEnd s) ≤ weight s := by
  obtain ⟨t, h⟩ := trimEnd_append s
  have := congrArg weight h
  rw [weight_append] at this
  omega

theorem noTrailing_of_weight {s : Str} (hs : '\n' ∉ s) (h : weight (trimEnd s) = weight s) :
    NoTrailing s ∧ trimEnd s = s := by
  have key : trimEnd s = s := by
    obtain ⟨t, ht⟩ := trimEnd_append s
    have hw := congrArg weight ht
    rw [weight_append] at hw
    cases t with
    | nil => rw [List.append_nil] at ht; exact ht.symm
    | cons c t =>
      have hc : c ≠ '\n' := by
        rintro rfl
        exact hs (by rw [ht]; simp)
      have := weight_pos (s := c :: t) (c := c) (by simp) hc
      omega
  refine ⟨?_, key⟩
  intro c hc
  rcases List.eq_nil_or_concat s with rfl | ⟨t, d, rfl⟩
  · simp at hc
  · have hcd : c = d := by simpa using hc.symm
    subst hcd
    cases hw : isWhitespace c with
    | false => exact (isWhitespace_false_iff c).1 hw
    | true =>
      exfalso
      have := congrArg List.length key
      unfold trimEnd at this
      simp only [List.concat_eq_append, List.reverse_append, List.reverse_cons, List.reverse_nil,
        List.nil_append, List.singleton_append, List.dropWhile_cons, hw, if_true,
        List.length_reverse, List.length_append, List.length_cons, List.length_nil] at this
      have := (List.dropWhile_sublist isWhitespace (l := t.reverse)).length_le
      simp only [List.length_reverse] at this
      omega

/-- Weight of what the parser has gathered. -/
def gathered (p : Parser) : Nat :=
  mapWeight p.map + weight p.key + weight p.value +
    (match p.state with
      | .preKey | .key | .comment | .commentEscape => 0
      | .preValue | .value | .valueEscape | .singleQuoteValue | .doubleQuoteValue => 1
      | .doubleQuoteValueEscape => 2)

theorem gathered_step (p : Parser) (c : Char) :
    gathered (step p c) ≤ gathered p + weight [c] := by
  obtain ⟨m, st, k, v⟩ := p
  have hk := weight_trimEnd k
  have hv := weight_trimEnd v
  have hi1 := mapWeight_insert m (trimEnd k) v
  have hi2 := mapWeight_insert m (trimEnd k) (trimEnd v)
  have he : weight ['\\', c] = 1 + weight [c] := by
    rw [show (['\\', c] : Str) = ['\\'] ++ [c] from rfl, weight_append]; rfl
  cases st <;> simp only [step]
  · split
    · simp only [gathered]; omega
    · split
      · simp only [gathered, weight_append]; omega
      · simp only [gathered]; omega
  · split
    · simp only [gathered, weight_nil]; omega
    · split
      · rename_i h; subst h
        have : weight ['='] = 1 := rfl
        simp only [gathered]; omega
      · simp only [gathered, weight_append]; omega
  · split
    · simp only [gathered, weight_nil]; omega
    · split
      · simp only [gathered]; omega
      · split
        · simp only [gathered]; omega
        · split
          · simp only [gathered]; omega
          · split
            · simp only [gathered, weight_append]; omega
            · simp only [gathered]; omega
  · split
    · simp only [gathered, weight_nil]; omega
    · split
      · simp only [gathered]; omega
      · simp only [gathered, weight_append]; omega
  · split
    · simp only [gathered, weight_append]; omega
    · simp only [gathered]; omega
  · split
    · simp only [gathered]; omega
    · simp only [gathered, weight_append]; omega
  · split
    · simp only [gathered]; omega
    · split
      · rename_i h; subst h
        have : weight ['\\'] = 1 := rfl
        simp only [gathered]; omega
      · simp only [gathered, weight_append]; omega
  · split
    · simp only [gathered, weight_append]; omega
    · split
      · simp only [gathered, weight_append, he]; omega
      · simp only [gathered]; omega
  · split
    · simp only [gathered]; omega
    · split <;> (simp only [gathered]; omega)
  · split <;> (simp only [gathered]; omega)

theorem gathered_run (s : Str) (p : Parser) : gathered (s.foldl step p) ≤ gathered p + weight s := by
  induction s generalizing p with
  | nil => simp [weight_nil]
  | cons c s ih =>
    have h1 := ih (step p c)
    have h2 := gathered_step p c
    rw [List.foldl_cons, show c :: s = [c] ++ s from rfl, weight_append]
    omega

/-- What has been gathered as long as nothing has been lost. -/
structure Plain (p : Parser) : Prop where
  map : ∀ e ∈ p.map, PlainKey e.1 ∧ PlainValue e.2
  state : match p.state with
    | .preKey => p.key = [] ∧ p.value = []
    | .key => KeyText p.key ∧ p.value = []
    | .preValue => KeyText p.key ∧ p.value = []
    | .value => KeyText p.key ∧ (∀ c ∈ p.value, ¬ Newline c ∧ c ≠ '\\') ∧
        ∃ c cs, p.value = c :: cs ∧ ¬ Blank c ∧ c ≠ '\'' ∧ c ≠ '"'
    | _ => False

theorem keyText_no_newline {k : Str} (h : KeyText k) : '\n' ∉ k := by
  obtain ⟨c, cs, rfl, h1, -, -, h4⟩ := h
  intro hm
  rcases List.mem_cons.mp hm with rfl | hm
  · exact h1 (by simp [Blank])
  · exact (h4 _ hm).1 (by simp [Newline])

theorem keyText_pos {k : Str} (h : KeyText k) : 0 < weight k := by
  obtain ⟨c, cs, rfl, h1, -⟩ := h
  exact weight_pos (c := c) (by simp) (by rintro rfl; exact h1 (by simp [Blank]))

theorem newline_of_isNewline {c : Char} (h : isNewline c = true) : Newline c := (isNewline_iff c).mp h

theorem not_newline_of {c : Char} (h : ¬ isNewline c = true) : ¬ Newline c :=
  fun hn => h ((isNewline_iff c).mpr hn)

theorem plain_insert {m : Map} {k v : Str} (hm : ∀ e ∈ m, PlainKey e.1 ∧ PlainValue e.2)
    (hk : PlainKey k) (hv : PlainValue v) : ∀ e ∈ m.insert k v, PlainKey e.1 ∧ PlainValue e.2 := by
  intro e he
  rcases mem_insert he with rfl | he
  · exact ⟨hk, hv⟩
  · exact hm e he

/-- A finished assignment that lost nothing is plain. -/
theorem plain_finished {m : Map} {k v : Str} (hk : KeyText k)
    (hv : (∀ c ∈ v, ¬ Newline c ∧ c ≠ '\\') ∧ ∀ c ∈ v.head?, ¬ Blank c ∧ c ≠ '\'' ∧ c ≠ '"')
    (hm : ∀ e ∈ m, PlainKey e.1 ∧ PlainValue e.2)
    (h : mapWeight m + weight k + weight v + 1 ≤ mapWeight (m.insert (trimEnd k) (trimEnd v))) :
    ∀ e ∈ m.insert (trimEnd k) (trimEnd v), PlainKey e.1 ∧ PlainValue e.2 := by
  have h1 := mapWeight_insert m (trimEnd k) (trimEnd v)
  have h2 := weight_trimEnd k
  have h3 := weight_trimEnd v
  obtain ⟨h4, h5⟩ := noTrailing_of_weight (keyText_no_newline hk) (by omega)
  have hvn : '\n' ∉ v := fun hc => (hv.1 _ hc).1 (by simp [Newline])
  obtain ⟨h6, h7⟩ := noTrailing_of_weight hvn (by omega)
  rw [h5, h7]
  exact plain_insert hm ⟨hk, h4⟩ ⟨hv.1, hv.2, h6⟩

theorem trimEnd_nil : trimEnd [] = [] := rfl

theorem plain_nil : (∀ c ∈ ([] : Str), ¬ Newline c ∧ c ≠ '\\') ∧
    ∀ c ∈ ([] : Str).head?, ¬ Blank c ∧ c ≠ '\'' ∧ c ≠ '"' := by simp

theorem not_nl {c : Char} (h : ¬ isBlank c = true) : c ≠ '\n' := by rintro rfl; exact h rfl

theorem plain_step {p : Parser} {c : Char} (hp : Plain p)
    (h : gathered p + weight [c] ≤ gathered (step p c)) : Plain (step p c) := by
  obtain ⟨m, st, k, v⟩ := p
  have hmap : ∀ e ∈ m, PlainKey e.1 ∧ PlainValue e.2 := hp.map
  have hst := hp.state
  cases st with
  | preKey =>
    obtain ⟨rfl, rfl⟩ := hst
    simp only [step] at h ⊢
    split
    · rename_i hc
      exfalso
      rw [if_pos hc] at h
      have : weight [c] = 1 := weight_one (by rintro rfl; simp [isCommentChar] at hc)
      simp only [gathered] at h; omega
    · rename_i hc
      rw [if_neg hc] at h
      split
      · rename_i hb
        simp only [Bool.not_eq_true', ← Bool.not_eq_true] at hb
        simp only [isCommentChar, Bool.or_eq_true, beq_iff_eq, not_or] at hc
        exact ⟨hmap, ⟨c, [], rfl, fun h => hb ((isBlank_iff c).mpr h), hc.1, hc.2, by simp⟩, rfl⟩
      · exact hp
  | key =>
    obtain ⟨hk, rfl⟩ := hst
    simp only [step] at h ⊢
    split
    · rename_i hc
      exfalso
      rw [if_pos hc] at h
      have : 0 < weight k := keyText_pos hk
      simp only [gathered, weight_nil] at h; omega
    · rename_i hc
      split
      · exact ⟨hmap, hk, rfl⟩
      · rename_i he
        obtain ⟨a, as, rfl, h1, h2, h3, h4⟩ := hk
        refine ⟨hmap, ⟨a, as ++ [c], rfl, h1, h2, h3, ?_⟩, rfl⟩
        intro x hx
        rcases List.mem_append.mp hx with hx | hx
        · exact h4 x hx
        · simp only [List.mem_singleton] at hx; subst hx
          exact ⟨not_newline_of hc, he⟩
  | preValue =>
    obtain ⟨hk, rfl⟩ := hst
    simp only [step] at h ⊢
    split
    · rename_i hc
      rw [if_pos hc] at h
      refine ⟨?_, rfl, rfl⟩
      have := plain_finished (v := []) hk plain_nil hmap (by
        simp only [gathered, weight_nil] at h
        rw [trimEnd_nil]
        simp only [weight_nil]
        omega)
      rw [trimEnd_nil] at this
      exact this
    · rename_i hc
      rw [if_neg hc] at h
      split
      · rename_i hq; subst hq; exfalso
        have : weight ['\''] = 1 := rfl
        simp only [if_true, gathered] at h; omega
      · rename_i h1
        rw [if_neg h1] at h
        split
        · rename_i hq; subst hq; exfalso
          have : weight ['"'] = 1 := rfl
          simp only [if_true, gathered] at h; omega
        · rename_i h2
          rw [if_neg h2] at h
          split
          · rename_i hq; subst hq; exfalso
            have : weight ['\\'] = 1 := rfl
            simp only [if_true, gathered] at h; omega
          · rename_i h3
            rw [if_neg h3] at h
            split
            · rename_i hb
              simp only [Bool.not_eq_true', ← Bool.not_eq_true] at hb
              refine ⟨hmap, hk, ?_, c, [], rfl, fun h => hb ((isBlank_iff c).mpr h), h1, h2⟩
              intro x hx
              simp only [List.nil_append, List.mem_singleton] at hx; subst hx
              exact ⟨not_newline_of hc, h3⟩
            · exact hp
  | value =>
    obtain ⟨hk, hv, a, as, rfl, ha⟩ := hst
    simp only [step] at h ⊢
    split
    · rename_i hc
      rw [if_pos hc] at h
      refine ⟨?_, rfl, rfl⟩
      exact plain_finished hk ⟨hv, by simpa using ha⟩ hmap (by
        simp only [gathered, weight_nil] at h; omega)
    · rename_i hc
      rw [if_neg hc] at h
      split
      · rename_i hq; subst hq; exfalso
        have : weight ['\\'] = 1 := rfl
        simp only [if_true, gathered] at h; omega
      · rename_i hb
        refine ⟨hmap, hk, ?_, a, as ++ [c], rfl, ha⟩
        intro x hx
        rcases List.mem_append.mp hx with hx | hx
        · exact hv x hx
        · simp only [List.mem_singleton] at hx; subst hx
          exact ⟨not_newline_of hc, hb⟩
  | valueEscape => exact hst.elim
  | singleQuoteValue => exact hst.elim
  | doubleQuoteValue => exact hst.elim
  | doubleQuoteValueEscape => exact hst.elim
  | comment => exact hst.elim
  | commentEscape => exact hst.elim

theorem plain_run {s : Str} {p : Parser} (hp : Plain p)
    (h : gathered p + weight s ≤ gathered (s.foldl step p)) : Plain (s.foldl step p) := by
  induction s generalizing p with
  | nil => exact hp
  | cons c s ih =>
    have h1 := gathered_run s (step p c)
    have h2 := gathered_step p c
    rw [List.foldl_cons] at h ⊢
    rw [show c :: s = [c] ++ s from rfl, weight_append] at h
    exact ih (plain_step hp (by omega)) (by omega)

theorem finish_weight (p : Parser) : mapWeight (finish p) ≤ gathered p := by
  obtain ⟨m, st, k, v⟩ := p
  have hk := weight_trimEnd k
  have hv := weight_trimEnd v
  have hi1 := mapWeight_insert m (trimEnd k) v
  have hi2 := mapWeight_insert m (trimEnd k) (trimEnd v)
  cases st <;> simp only [finish, gathered] <;> omega

theorem plain_finish {p : Parser} (hp : Plain p) (h : gathered p ≤ mapWeight (finish p)) :
    ∀ e ∈ finish p, PlainKey e.1 ∧ PlainValue e.2 := by
  obtain ⟨m, st, k, v⟩ := p
  have hmap : ∀ e ∈ m, PlainKey e.1 ∧ PlainValue e.2 := hp.map
  have hst := hp.state
  cases st with
  | preKey => exact hmap
  | key => exact hmap
  | preValue =>
    obtain ⟨hk, rfl⟩ := hst
    simp only [finish, gathered] at h ⊢
    have := plain_finished (v := []) hk plain_nil hmap (by
      rw [trimEnd_nil]; omega)
    rw [trimEnd_nil] at this
    exact this
  | value =>
    obtain ⟨hk, hv, a, as, rfl, ha⟩ := hst
    simp only [finish, gathered] at h ⊢
    exact plain_finished hk ⟨hv, by simpa using ha⟩ hmap (by omega)
  | valueEscape => exact hst.elim
  | singleQuoteValue => exact hst.elim
  | doubleQuoteValue => exact hst.elim
  | doubleQuoteValueEscape => exact hst.elim
  | comment => exact hst.elim
  | commentEscape => exact hst.elim

/-- **C45** (exactly when). A map is read back as it was written if and only if all its keys and values are
plain. -/
theorem C45_osrelease_roundtrip_iff (m : Map) (hs : Sorted m) :
    fromStr (display m) = m ↔ ∀ e ∈ m, PlainKey e.1 ∧ PlainValue e.2 := by
  refine ⟨fun h => ?_, C45_osrelease_roundtrip_partial m hs⟩
  have hw := weight_display m
  have h1 := finish_weight ((display m).foldl step {})
  have h2 := gathered_run (display m) {}
  have h0 : gathered ({} : Parser) = 0 := rfl
  have h3 : mapWeight (finish ((display m).foldl step {})) = mapWeight m := congrArg mapWeight h
  have hp : Plain ((display m).foldl step {}) :=
    plain_run ⟨by simp, rfl, rfl⟩ (by omega)
  have := plain_finish hp (by omega)
  rw [show finish ((display m).foldl step {}) = m from h] at this
  exact this

/-- The full claim of C45 fails: a line feed in any value smuggles in an assignment of the
attacker's choice to any key. -/
theorem C45_osrelease_newline_injection (key k v : Str) (val val' : Str) (hkey : PlainKey key)
    (hk : PlainKey k) (hval : PlainValue val) (hv : PlainValue v) (hval' : val' = val ++ lit "\n" ++ k ++ lit "=" ++ v) :
    (fromStr (display [(key, val')])).get k = some v := by
  have h : display [(key, val')] = ([(key, val), (k, v)].map plainLine).flatMap Line.render := by
    rw [← display_eq]
    subst hval'
    simp [display]
  rw [h, C46_osrelease_meaning]
  · simp only [List.map_cons, List.map_nil, List.flatMap_cons, List.flatMap_nil,
      plainLine_assigns (e := (key, val)) hkey hval, plainLine_assigns (e := (k, v)) hk hv]
    simp [lastValue]
  · intro l hl
    simp only [List.map_cons, List.map_nil, List.mem_cons, List.not_mem_nil, or_false] at hl
    rcases hl with rfl | rfl
    · exact plainLine_ok hkey hval
    · exact plainLine_ok hk hv

/-- The negation of the full claim: a map that is not read back. -/
theorem C45_osrelease_not_roundtrip :
    ∃ m : Map, Sorted m ∧ (∀ e ∈ m, PlainKey e.1) ∧ fromStr (display m) ≠ m := by
  refine ⟨[(lit "ID", lit "a\\b")], by simp [Sorted], ?_, by decide⟩
  intro e he
  simp only [List.mem_singleton] at he
  subst he
  exact ⟨⟨'I', lit "D", rfl, by unfold Blank; decide, by decide, by decide, by unfold Newline; decide⟩,
    by unfold NoTrailing; decide⟩

/-- Values that are changed by writing and reading: backslash, leading quote, surrounding blanks. -/
example : fromStr (display [(lit "N", lit "a\\b")]) = [(lit "N", lit "ab")] ∧
    fromStr (display [(lit "N", lit "'a'")]) = [(lit "N", lit "a")] ∧
    fromStr (display [(lit "N", lit " a ")]) = [(lit "N", lit "a")] := by decide

example : PlainKey (lit "PRETTY_NAME") ∧ PlainValue (lit "NixOS (Generation 1, 2024-01-02)") :=
  ⟨⟨⟨'P', lit "RETTY_NAME", rfl, by unfold Blank; decide, by decide, by decide,
      by unfold Newline; decide⟩, by unfold NoTrailing; decide⟩,
    by unfold Newline; decide, by unfold Blank; decide, by unfold NoTrailing; decide⟩

end Verif.OsRelease
