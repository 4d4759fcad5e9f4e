import Verif.Lemmas.StubName
/-!
# C48: EFI paths
-/
namespace Verif
open StubName

/-- A path component: not empty, not `.`, without `/`. -/
def Component (c : Str) : Prop := c ≠ [] ∧ c ≠ ['.'] ∧ '/' ∉ c

theorem replaceChar_not_mem {a b : Char} {s : Str} (h : a ∉ s) : replaceChar a b s = s := by
  induction s with
  | nil => rfl
  | cons c cs ih =>
    simp only [List.mem_cons, not_or] at h
    have : ¬ c = a := fun e => h.1 e.symm
    simp only [replaceChar, List.map_cons, this, if_false]
    exact congrArg _ (ih h.2)

theorem replaceChar_append (a b : Char) (s t : Str) :
    replaceChar a b (s ++ t) = replaceChar a b s ++ replaceChar a b t := by
  simp [replaceChar]

theorem replaceChar_joinWith (a b : Char) (l : List Str) (h : ∀ x ∈ l, a ∉ x) :
    replaceChar a b (joinWith [a] l) = joinWith [b] l := by
  induction l with
  | nil => rfl
  | cons x xs ih =>
    cases xs with
    | nil => simpa [joinWith] using replaceChar_not_mem (h x (by simp))
    | cons y ys =>
      have e : ∀ c : Char, joinWith [c] (x :: y :: ys) = x ++ [c] ++ joinWith [c] (y :: ys) := by
        intro c; simp [joinWith]
      rw [e, e, replaceChar_append, replaceChar_append, ih (fun z hz => h z (by simp [hz])),
        replaceChar_not_mem (h x (by simp))]
      simp [replaceChar]

theorem components_joinWith (l : List Str) (h : ∀ x ∈ l, Component x) :
    components (joinWith ['/'] l) = l := by
  by_cases hl : l = []
  · subst hl; simp [joinWith, components, splitOn]
  · unfold components
    rw [splitOn_joinWith hl (fun x hx => (h x hx).2.2)]
    rw [List.filter_eq_self]
    intro x hx
    simp [(h x hx).1, (h x hx).2.1]

theorem join_relative (esp : Path) (l : List Str) (h : ∀ x ∈ l, Component x) :
    esp.join (joinWith ['/'] l) = esp ++ l := by
  have hc := components_joinWith l h
  unfold Path.join
  split
  · next t ht =>
    exfalso
    cases l with
    | nil => simp [joinWith] at ht
    | cons x xs =>
      have hx := h x (by simp)
      cases x with
      | nil => exact hx.1 rfl
      | cons c cs =>
        cases xs with
        | nil => simp [joinWith] at ht; exact hx.2.2 (by simp [ht.1])
        | cons y ys => simp [joinWith] at ht; exact hx.2.2 (by simp [ht.1])
  · rw [hc]

/-- **C48** (partial). The UEFI path stored for a file below the ESP resolves to that file.

Missing: files whose name contains a backslash, for which the claim is false (see
`C48_backslash`). -/
theorem C48_efi_path_roundtrip_partial (esp rel : Path)
    (h : ∀ c ∈ rel, Component c ∧ '\\' ∉ c) :
    ∃ u, espRelativeUefiPath esp (esp ++ rel) = some u ∧
      resolveEfiPath esp (utf8 u) = .ok (esp ++ rel) := by
  have hp : (esp : List Str).isPrefixOf (esp ++ rel) = true := by
    simp [List.isPrefixOf_iff_prefix]
  refine ⟨'\\' :: joinWith ['\\'] rel, ?_, ?_⟩
  · simp only [espRelativeUefiPath, Path.stripPrefix, hp, if_true, List.drop_left, uefiPath]
    rw [replaceChar_joinWith _ _ _ (fun x hx => (h x hx).1.2.2)]
  · have : utf8 ('\\' :: joinWith ['\\'] rel) = 0x5C :: utf8 (joinWith ['\\'] rel) := by
      simp only [utf8, List.flatMap_cons]
      rfl
    rw [this]
    simp only [resolveEfiPath, utf8Decode_utf8]
    rw [replaceChar_joinWith _ _ _ (fun x hx => (h x hx).2),
      join_relative esp rel (fun x hx => (h x hx).1)]

theorem not_mem_replaceChar {a b : Char} (h : b ≠ a) (s : Str) : a ∉ replaceChar a b s := by
  intro hm
  obtain ⟨c, -, hc⟩ := List.mem_map.mp hm
  split at hc
  · exact h hc
  · rename_i hne; exact hne hc

theorem not_mem_components {a : Char} {s : Str} (h : a ∉ s) : ∀ c ∈ components s, a ∉ c := by
  intro c hc
  exact splitOn_mem_no h (List.mem_filter.mp hc).1

/-- **C48** (exactly when). A path below the ESP survives the conversion if and only if no component of it
contains a backslash. -/
theorem C48_efi_path_roundtrip_iff (esp rel : Path) (h : ∀ c ∈ rel, Component c) :
    (∃ u, espRelativeUefiPath esp (esp ++ rel) = some u ∧
      resolveEfiPath esp (utf8 u) = .ok (esp ++ rel)) ↔ ∀ c ∈ rel, '\\' ∉ c := by
  constructor
  · rintro ⟨u, hu, hr⟩ c hc hb
    have hp : (esp : List Str).isPrefixOf (esp ++ rel) = true := by
      simp [List.isPrefixOf_iff_prefix]
    simp only [espRelativeUefiPath, Path.stripPrefix, hp, if_true, List.drop_left,
      Option.some.injEq] at hu
    subst hu
    have : utf8 ('\\' :: uefiPath rel) = 0x5C :: utf8 (uefiPath rel) := by
      simp only [utf8, List.flatMap_cons]
      rfl
    rw [this] at hr
    simp only [resolveEfiPath, utf8Decode_utf8, Res.ok.injEq] at hr
    have hno : '\\' ∉ replaceChar '\\' '/' (uefiPath rel) := not_mem_replaceChar (by decide) _
    have hcs := not_mem_components hno
    unfold Path.join at hr
    split at hr
    · rename_i t ht
      refine hcs c ?_ hb
      rw [hr]
      exact List.mem_append_right _ hc
    · refine hcs c ?_ hb
      rw [List.append_cancel_left hr]
      exact hc
  · intro hb
    exact C48_efi_path_roundtrip_partial esp rel fun c hc => ⟨h c hc, hb c hc⟩

/-- **C48** (outside). A path that is not below the ESP is refused. -/
theorem C48_efi_path_outside (esp path : Path) (h : ¬ ∃ rel, path = esp ++ rel) :
    espRelativeUefiPath esp path = none := by
  have : esp.isPrefixOf path = false := by
    cases hp : esp.isPrefixOf path with
    | false => rfl
    | true =>
      obtain ⟨r, hr⟩ := List.isPrefixOf_iff_prefix.mp hp
      exact absurd ⟨r, hr.symm⟩ h
  simp [espRelativeUefiPath, Path.stripPrefix, this]

/-- The full claim is false: a backslash in a file name comes back as a directory separator. -/
theorem C48_backslash : ∃ esp rel : Path, (∀ c ∈ rel, Component c) ∧
    ∃ u, espRelativeUefiPath esp (esp ++ rel) = some u ∧
      resolveEfiPath esp (utf8 u) = .ok (esp ++ [['a'], ['b']]) ∧ rel ≠ [['a'], ['b']] := by
  refine ⟨[lit "boot"], [lit "a\\b"], ?_, lit "\\a\\b", by decide, ?_, by decide⟩
  · intro c hc
    simp only [List.mem_singleton] at hc
    subst hc
    unfold Component; decide
  · have : utf8 (lit "\\a\\b") = 0x5C :: utf8 (lit "a\\b") := by
      simp only [utf8, lit]; rfl
    rw [this]
    simp only [resolveEfiPath, utf8Decode_utf8]
    decide

/-- An empty section makes the resolution panic, and an absolute remainder leaves the ESP. -/
example : resolveEfiPath [lit "boot"] [] = .panic := rfl
example : resolveEfiPath [lit "boot"] (utf8 (lit "\\\\etc\\shadow")) = .ok [lit "etc", lit "shadow"] := by
  have : utf8 (lit "\\\\etc\\shadow") = 0x5C :: utf8 (lit "\\etc\\shadow") := by
    simp only [utf8, lit]; rfl
  rw [this]
  simp only [resolveEfiPath, utf8Decode_utf8]
  decide

example : ∃ u, espRelativeUefiPath [lit "boot"] ([lit "boot"] ++ [lit "EFI", lit "nixos"]) = some u ∧
    resolveEfiPath [lit "boot"] (utf8 u) = .ok ([lit "boot"] ++ [lit "EFI", lit "nixos"]) :=
  (C48_efi_path_roundtrip_iff _ _ (by unfold Component; decide)).mpr (by decide)

example : ∀ c ∈ [lit "EFI", lit "nixos", lit "kernel-6.1-abc.efi"], Component c ∧ '\\' ∉ c := by
  unfold Component; decide

end Verif
