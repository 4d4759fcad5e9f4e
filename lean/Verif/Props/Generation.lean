import Verif.Lemmas.StubName
import Verif.Lemmas.Numbers
import Verif.Props.OsRelease
/-!
# C24, C25, C47: link names, configuration limit, titles
-/
namespace Verif.Generation
open Verif StubName

/-! ### C25 -/

/-- **C25** (valid names). A link called `<profile>-<n>-<anything>` with a dash-free profile name is
generation `n`, for every 64-bit `n`. -/
theorem C25_link_version (dir : Path) (profile suffix : Str) (n : Nat) (hp : '-' ∉ profile)
    (hn : n < 2 ^ 64) :
    parseVersion (dir ++ [profile ++ lit "-" ++ toDec n ++ lit "-" ++ suffix]) = some n := by
  have hne : profile ++ lit "-" ++ toDec n ++ lit "-" ++ suffix ≠ ['.', '.'] := by
    intro h
    have : '-' ∈ (['.', '.'] : Str) := h ▸ by simp [lit]
    revert this; decide
  have hs : splitOn '-' (profile ++ lit "-" ++ toDec n ++ lit "-" ++ suffix) =
      profile :: toDec n :: splitOn '-' suffix := by
    have : profile ++ lit "-" ++ toDec n ++ lit "-" ++ suffix =
        profile ++ '-' :: (toDec n ++ '-' :: suffix) := by simp [lit]
    rw [this, splitOn_append hp, splitOn_append (not_mem_toDec (by decide) n)]
  simp only [parseVersion, Path.fileName, List.getLast?_append, List.getLast?_singleton,
    Option.some_or, hne, if_false, hs, List.getElem?_cons_succ, List.getElem?_cons_zero]
  exact parseUnsigned_toDec (by unfold u64Max; omega)

/-- **C25** (distinct). Links with different numbers are different generations. -/
theorem C25_link_version_injective (dir dir' : Path) (profile profile' : Str) (n n' : Nat)
    (hp : '-' ∉ profile) (hp' : '-' ∉ profile') (hn : n < 2 ^ 64) (hn' : n' < 2 ^ 64)
    (h : parseVersion (dir ++ [profile ++ lit "-" ++ toDec n ++ lit "-" ++ lit "link"]) =
      parseVersion (dir' ++ [profile' ++ lit "-" ++ toDec n' ++ lit "-" ++ lit "link"])) :
    n = n' := by
  rw [C25_link_version _ _ _ _ hp hn, C25_link_version _ _ _ _ hp' hn'] at h
  exact Option.some.inj h

/-- **C25** (invalid names). A name without a dash, or whose second field is not a 64-bit number,
is rejected. -/
theorem C25_link_rejected (dir : Path) (name : Str) :
    ('-' ∉ name → parseVersion (dir ++ [name]) = none) ∧
    (∀ a f b, '-' ∉ a → '-' ∉ f → name = a ++ lit "-" ++ f ++ lit "-" ++ b →
      (∀ n, ¬ Writes64 f n) → parseVersion (dir ++ [name]) = none) := by
  constructor
  · intro h
    simp only [parseVersion, Path.fileName, List.getLast?_append, List.getLast?_singleton,
      Option.some_or]
    split
    · rw [splitOn_not_mem]
      · rfl
      · next n hn => split at hn
                     · simp at hn
                     · simp only [Option.some.injEq] at hn; subst hn; exact h
    · rfl
  · rintro a f b ha hf rfl hp
    have hs : splitOn '-' (a ++ lit "-" ++ f ++ lit "-" ++ b) = a :: f :: splitOn '-' b := by
      have : a ++ lit "-" ++ f ++ lit "-" ++ b = a ++ '-' :: (f ++ '-' :: b) := by simp [lit]
      rw [this, splitOn_append ha, splitOn_append hf]
    simp only [parseVersion, Path.fileName, List.getLast?_append, List.getLast?_singleton,
      Option.some_or]
    split
    · next n hn =>
      split at hn
      · simp at hn
      · simp only [Option.some.injEq] at hn
        subst hn
        simp only [hs, List.getElem?_cons_succ, List.getElem?_cons_zero]
        exact parseU64_none hp
    · rfl

/-- **C25** (rejection, two fields). The same for a name that ends with its second field. -/
theorem C25_link_rejected_two (dir : Path) {a f : Str} (ha : '-' ∉ a) (hf : '-' ∉ f)
    (hp : ∀ n, ¬ Writes64 f n) :
    parseVersion (dir ++ [a ++ lit "-" ++ f]) = none := by
  have hs : splitOn '-' (a ++ lit "-" ++ f) = [a, f] := by
    have : a ++ lit "-" ++ f = a ++ '-' :: f := by simp [lit]
    rw [this, splitOn_append ha, splitOn_not_mem hf]
  simp only [parseVersion, Path.fileName, List.getLast?_append, List.getLast?_singleton,
    Option.some_or]
  split
  · next n hn =>
    split at hn
    · simp at hn
    · simp only [Option.some.injEq] at hn
      subst hn
      simp only [hs, List.getElem?_cons_succ, List.getElem?_cons_zero]
      exact parseU64_none hp
  · rfl

/-- Instances of C25, also with a number that needs 64 bits. -/
example : parseVersion ([lit "nix", lit "profiles"] ++
    [lit "system" ++ lit "-" ++ toDec 18446744073709551615 ++ lit "-" ++ lit "link"]) =
    some 18446744073709551615 :=
  C25_link_version _ _ _ _ (by decide) (by decide)
example : parseVersion ([lit "profiles"] ++ [lit "system"]) = none :=
  (C25_link_rejected _ _).1 (by decide)
example : parseVersion ([lit "profiles"] ++ [lit "system" ++ lit "-" ++ lit "x1"]) = none :=
  C25_link_rejected_two _ (by decide) (by decide) (not_writes64 (by decide))

/-- The limits of the naming scheme: a profile name containing a dash is not understood. -/
example : parseVersion [lit "my-profile-7-link"] = none ∧ parseVersion [lit "a-1-7-link"] = some 1 := by
  decide
example : parseVersion [lit "nix", lit "profiles", lit "system-7-link"] = some 7 := by decide
example : parseVersion [lit "system-18446744073709551616-link"] = none := by decide

/-! ### C24 -/

theorem selectLinks_zero (links : List Link) :
    selectLinks 0 links = links.isort (fun a b => decide (a.version ≤ b.version)) := by
  simp [selectLinks]

theorem sorted_links (links : List Link) :
    (links.isort (fun a b => decide (a.version ≤ b.version))).Pairwise
      (fun a b => a.version ≤ b.version) := by
  have := List.pairwise_isort (le := fun a b : Link => decide (a.version ≤ b.version))
    (by intro a b c h1 h2; simp only [decide_eq_true_eq] at *; omega)
    (by intro a b; simp only [Bool.or_eq_true, decide_eq_true_eq]; omega) links
  exact this.imp (by simp)

/-- **C24** (limit). With a limit `n > 0` exactly the `min n (number of links)` newest links are
selected, oldest first; the links left out are not newer than any selected one. -/
theorem C24_limit (n : Nat) (hn : 0 < n) (links : List Link) :
    ∃ skipped, (skipped ++ selectLinks n links).Perm links ∧
      (selectLinks n links).length = min n links.length ∧
      (selectLinks n links).Pairwise (fun a b => a.version ≤ b.version) ∧
      ∀ a ∈ skipped, ∀ b ∈ selectLinks n links, a.version ≤ b.version := by
  generalize hs : links.isort (fun a b => decide (a.version ≤ b.version)) = s
  have hperm : s.Perm links := hs ▸ List.isort_perm links _
  have hsorted : s.Pairwise (fun a b => a.version ≤ b.version) := hs ▸ sorted_links links
  have hsel : selectLinks n links = s.drop (s.length - n) := by
    unfold selectLinks
    rw [hs, if_pos hn, List.take_reverse, List.reverse_reverse]
  refine ⟨s.take (s.length - n), ?_, ?_, ?_, ?_⟩
  · rw [hsel, List.take_append_drop]; exact hperm
  · rw [hsel, List.length_drop, ← hperm.length_eq]; omega
  · rw [hsel]; exact hsorted.drop
  · rw [hsel]
    have := List.take_append_drop (s.length - n) s
    rw [← this] at hsorted
    exact fun a ha b hb => (List.pairwise_append.mp hsorted).2.2 a ha b hb

/-- **C24** (no limit). Limit 0 selects all links, oldest first. -/
theorem C24_no_limit (links : List Link) :
    (selectLinks 0 links).Perm links ∧
      (selectLinks 0 links).Pairwise (fun a b => a.version ≤ b.version) := by
  rw [selectLinks_zero]
  exact ⟨List.isort_perm links _, sorted_links links⟩

/-- **C24** (order). Which versions are selected, and in which order they are processed, does not
depend on the order of the command line. -/
theorem C24_order_irrelevant (n : Nat) (links links' : List Link) (h : links.Perm links') :
    (selectLinks n links).map Link.version = (selectLinks n links').map Link.version := by
  have key : (links.isort (fun a b => decide (a.version ≤ b.version))).map Link.version =
      (links'.isort (fun a b => decide (a.version ≤ b.version))).map Link.version := by
    refine List.Perm.eq_of_pairwise (le := fun a b : Nat => a ≤ b) ?_ ?_ ?_ ?_
    · intro a b _ _ h1 h2; omega
    · exact List.pairwise_map.mpr (sorted_links links)
    · exact List.pairwise_map.mpr (sorted_links links')
    · exact (((List.isort_perm links _).trans h).trans (List.isort_perm links' _).symm).map _
  unfold selectLinks
  split
  · simp only [List.map_reverse, List.map_take, key]
  · exact key

example : ∃ skipped, skipped.length = 1 ∧
    (skipped ++ selectLinks 2 [⟨3, [], none⟩, ⟨1, [], none⟩, ⟨2, [], none⟩]).Perm
      [⟨3, [], none⟩, ⟨1, [], none⟩, ⟨2, [], none⟩] := by
  obtain ⟨s, h1, h2, -, -⟩ := C24_limit 2 (by decide) [⟨3, [], none⟩, ⟨1, [], none⟩, ⟨2, [], none⟩]
  refine ⟨s, ?_, h1⟩
  have := h1.length_eq
  simp only [List.length_append, h2, List.length_cons, List.length_nil] at this
  omega

/-! ### C47 -/

/-- Same version and same specialisation. -/
def SameTag (g g' : Gen) : Prop :=
  g.version = g'.version ∧ g.specialisationName = g'.specialisationName

/-- After a decimal number, a text that starts with no digit tells where it ends. -/
theorem toDec_append_inj {n n' : Nat} {r r' : Str} (h : toDec n ++ r = toDec n' ++ r')
    (hr : ∀ c ∈ r.head?, isDigitC c = false) (hr' : ∀ c ∈ r'.head?, isDigitC c = false) :
    n = n' ∧ r = r' := by
  rcases List.append_eq_append_iff.mp h with ⟨z, h1, h2⟩ | ⟨z, h1, h2⟩
  · cases z with
    | nil => simp at h1 h2; exact ⟨(toDec_injective h1).symm, h2⟩
    | cons c cs =>
      exfalso
      have hd := toDec_digits n' c (by rw [h1]; simp)
      have := hr c (by rw [h2]; simp)
      rw [hd] at this; simp at this
  · cases z with
    | nil => simp at h1 h2; exact ⟨toDec_injective h1, h2.symm⟩
    | cons c cs =>
      exfalso
      have hd := toDec_digits n c (by rw [h1]; simp)
      have := hr' c (by rw [h2]; simp)
      rw [hd] at this; simp at this

theorem describeSpec_head (g : Gen) (r : Str) (hr : ∀ c ∈ r.head?, isDigitC c = false) :
    ∀ c ∈ (g.describeSpecialisation ++ r).head?, isDigitC c = false := by
  unfold Gen.describeSpecialisation
  cases g.specialisationName with
  | none => simpa using hr
  | some s => simp [isDigitC, digitVal]

theorem describeSpec_inj {g g' : Gen} (h : g.describeSpecialisation = g'.describeSpecialisation) :
    g.specialisationName = g'.specialisationName := by
  unfold Gen.describeSpecialisation at h
  cases h1 : g.specialisationName <;> cases h2 : g'.specialisationName <;> simp [h1, h2] at h ⊢
  exact h

/-- **C47** (measurement files). Different generations or specialisations have different measurement
file names. -/
theorem C47_measurement_name_unique (g g' : Gen) (h : g.measurementName = g'.measurementName) :
    SameTag g g' := by
  have h1 := List.append_cancel_right h
  unfold Gen.versionTag at h1
  have := toDec_append_inj h1 (by simpa using describeSpec_head g [] (by simp))
    (by simpa using describeSpec_head g' [] (by simp))
  exact ⟨this.1, describeSpec_inj this.2⟩

/-- The date text. -/
def dateText (g : Gen) : Str :=
  match g.buildTime with
  | some d => d.display
  | none => lit "Unknown"

theorem pad2_not_mem {c : Char} (h : isDigitC c = false) (n : Nat) : c ∉ pad2 n := by
  unfold pad2
  split
  · intro hm
    rcases List.mem_cons.mp hm with rfl | hm
    · revert h; decide
    · exact not_mem_toDec h n hm
  · exact not_mem_toDec h n

theorem yearText_not_mem {c : Char} (h : isDigitC c = false) (h1 : c ≠ '-') (y : Int) : c ∉ yearText y := by
  have h0 : c ≠ '0' := by rintro rfl; revert h; decide
  have h4 : ∀ n, c ∉ pad4 n := by
    intro n
    unfold pad4
    (repeat' split) <;> simp [lit, h0, not_mem_toDec h n]
  unfold yearText
  split
  · simp [h1, h4]
  · exact h4 _

theorem dateText_not_mem (g : Gen) {c : Char} (h : isDigitC c = false) (h1 : c ≠ '-')
    (h2 : c ∉ lit "Unknown") : c ∉ dateText g := by
  unfold dateText
  split
  · intro hm
    simp only [Date.display, List.mem_append, List.mem_singleton] at hm
    rcases hm with (((hm | hm) | hm) | hm) | hm
    · exact yearText_not_mem h h1 _ hm
    · exact h1 hm
    · exact pad2_not_mem h _ hm
    · exact h1 hm
    · exact pad2_not_mem h _ hm
  · exact h2

theorem describe_eq (g : Gen) : g.describe = lit "Generation " ++ (toDec g.version ++
    (g.describeSpecialisation ++ (lit ", " ++ dateText g))) := by
  unfold Gen.describe dateText
  cases g.buildTime <;> simp [List.append_assoc]

/-- Splitting at the last occurrence of a character. -/
theorem append_sep_last_inj {sep : Char} {a a' b b' : Str} (h : a ++ sep :: b = a' ++ sep :: b')
    (hb : sep ∉ b) (hb' : sep ∉ b') : a = a' ∧ b = b' := by
  have h1 := congrArg List.reverse h
  simp only [List.reverse_append, List.reverse_cons, List.append_assoc, List.cons_append,
    List.nil_append] at h1
  have := append_sep_inj h1 (by simpa using hb) (by simpa using hb')
  exact ⟨List.reverse_inj.mp this.2, List.reverse_inj.mp this.1⟩

/-- **C47** (descriptions). Different generations or specialisations have different descriptions
(`VERSION_ID`), whatever the names of the specialisations and the build dates. -/
theorem C47_describe_unique (g g' : Gen) (h : g.describe = g'.describe) : SameTag g g' := by
  rw [describe_eq, describe_eq] at h
  have h1 := List.append_cancel_left h
  have h2 := toDec_append_inj h1 (describeSpec_head g _ (by simp [lit, isDigitC, digitVal]))
    (describeSpec_head g' _ (by simp [lit, isDigitC, digitVal]))
  have e : ∀ g : Gen, g.describeSpecialisation ++ (lit ", " ++ dateText g) =
      g.describeSpecialisation ++ ',' :: (' ' :: dateText g) := by intro g; simp [lit]
  rw [e, e] at h2
  have hno : ∀ g : Gen, ',' ∉ ' ' :: dateText g := by
    intro g hm
    rcases List.mem_cons.mp hm with hm | hm
    · revert hm; decide
    · exact dateText_not_mem g (by decide) (by decide) (by decide) hm
  have h3 := append_sep_last_inj h2.2 (hno g) (hno g')
  exact ⟨h2.1, describeSpec_inj h3.1⟩

/-- The title shown in the boot menu, as stored in the os-release section. -/
def title (g : Gen) : Option Str := (osRelease g).get (lit "PRETTY_NAME")

theorem title_eq (g : Gen) : title g = some (g.spec.label ++ lit " (" ++ g.describe ++ lit ")") := by
  simp only [title, osRelease, OsRelease.get_insert]
  rw [if_neg (by decide), if_pos trivial]

theorem osRelease_version_id (g : Gen) : (osRelease g).get (lit "VERSION_ID") = some g.describe := by
  simp only [osRelease, OsRelease.get_insert, if_true]

/-- **C47** (titles, partial). Titles of different generations or specialisations differ whatever
the labels and dates are, if no specialisation name contains an opening parenthesis.

Missing: the claim for all specialisation names, which is false, see `C47_title_not_unique`. -/
theorem C47_title_unique_partial (g g' : Gen) (hg : ∀ s ∈ g.specialisationName, '(' ∉ s)
    (hg' : ∀ s ∈ g'.specialisationName, '(' ∉ s) (h : title g = title g') : SameTag g g' := by
  rw [title_eq, title_eq] at h
  have h1 := List.append_cancel_right (Option.some.inj h)
  have e : ∀ g : Gen, g.spec.label ++ lit " (" ++ g.describe =
      (g.spec.label ++ [' ']) ++ '(' :: g.describe := by intro g; simp [lit]
  rw [e, e] at h1
  have hno : ∀ g : Gen, (∀ s ∈ g.specialisationName, '(' ∉ s) → '(' ∉ g.describe := by
    intro g hg hm
    rw [describe_eq] at hm
    simp only [List.mem_append] at hm
    rcases hm with hm | hm | hm | hm | hm
    · revert hm; decide
    · exact not_mem_toDec (by decide) _ hm
    · unfold Gen.describeSpecialisation at hm
      split at hm
      · next s hs =>
        rcases List.mem_cons.mp hm with hm | hm
        · revert hm; decide
        · exact hg s hs hm
      · simp at hm
    · revert hm; decide
    · exact dateText_not_mem g (by decide) (by decide) (by decide) hm
  exact C47_describe_unique g g' (append_sep_last_inj h1 (hno g hg) (hno g' hg')).2

/-- **C47** (titles, same label). Titles of different generations or specialisations differ whatever their
names are, if the labels are the same. -/
theorem C47_title_unique_same_label_partial (g g' : Gen) (hl : g.spec.label = g'.spec.label)
    (h : title g = title g') : SameTag g g' := by
  rw [title_eq, title_eq, hl] at h
  have h1 := List.append_cancel_right (Option.some.inj h)
  exact C47_describe_unique g g' (List.append_cancel_left h1)

def specWith (label : Str) : BootSpec :=
  { label := label, kernel := [], kernelParams := [], init := [], initrd := none,
    initrdSecrets := none, toplevel := [], sortKey := none }

/-- The full claim of C47 is false for titles: a specialisation name may contain text that looks
like the description of another generation. -/
theorem C47_title_not_unique : ∃ g g' : Gen, title g = title g' ∧ ¬ SameTag g g' := by
  refine ⟨⟨1, none, some (lit "a (Generation 2"), specWith (lit "N")⟩,
    ⟨2, none, none, specWith (lit "N (Generation 1-a")⟩, ?_, ?_⟩
  · rw [title_eq, title_eq]
    have e1 : toDec 1 = ['1'] := by rw [toDec_eq]; rfl
    have e2 : toDec 2 = ['2'] := by rw [toDec_eq]; rfl
    simp only [Gen.describe, Gen.describeSpecialisation, specWith, e1, e2]
    decide
  · intro h; exact absurd h.1 (by decide)

example : SameTag ⟨1, none, none, specWith []⟩ ⟨1, some ⟨2024, 1, 1⟩, none, specWith (lit "x")⟩ :=
  ⟨rfl, rfl⟩
example : ∀ s ∈ (⟨1, none, some (lit "gaming"), specWith []⟩ : Gen).specialisationName, '(' ∉ s := by
  decide

/-- Generation 12 and specialisation 2 of generation 1 are told apart. -/
example : (⟨12, none, none, specWith []⟩ : Gen).measurementName ≠
    (⟨1, none, some (lit "2"), specWith []⟩ : Gen).measurementName :=
  fun h => absurd (C47_measurement_name_unique _ _ h).1 (by decide)
example : title ⟨12, none, none, specWith (lit "NixOS 24.05")⟩ ≠
    title ⟨1, none, some (lit "gaming"), specWith (lit "NixOS 24.05 (Generation 12, Unknown)")⟩ :=
  fun h => absurd (C47_title_unique_partial _ _ (by decide) (by decide) h).1 (by decide)

end Verif.Generation
