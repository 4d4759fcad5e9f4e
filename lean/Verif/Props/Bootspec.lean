import Verif.Spec.Bootspec
import Verif.Spec.Installer
/-!
# C69: from bootspec documents to generations
-/
namespace Verif.Bootspec
open Verif Generation Verif.Bootspec.Spec

/-! ### The sort key -/

theorem get_some {m : List (Str × Json)} {k : Str} {v : Json} (h : get m k = some v) : (k, v) ∈ m := by
  unfold get at h
  obtain ⟨⟨k', v'⟩, hf, rfl⟩ := Option.map_eq_some_iff.1 h
  have hk := List.find?_some hf
  simp only [decide_eq_true_eq] at hk
  subst hk
  exact List.mem_of_find?_eq_some hf

theorem get_of_mem {m : List (Str × Json)} {k : Str} {v : Json} (hm : (m.map (·.1)).Nodup) (h : (k, v) ∈ m) :
    get m k = some v := by
  induction m with
  | nil => cases h
  | cons p m ih =>
    obtain ⟨hp, hm⟩ := List.nodup_cons.1 hm
    unfold get
    rw [List.find?_cons]
    rcases List.mem_cons.1 h with rfl | h
    · simp
    · have : p.1 ≠ k := fun e => hp (List.mem_map.2 ⟨_, h, e.symm⟩)
      rw [show decide (p.1 = k) = false by simpa using this]
      exact ih hm h

theorem sortKeyFromValue_some {v : Json} {k : Str} (h : sortKeyFromValue v = some k) :
    (∃ m, v = .obj m ∧ (lit "sort_key", .str k) ∈ m) ∨ v = .arr [.str k] := by
  unfold sortKeyFromValue at h
  split at h
  · next m =>
    split at h
    · next s hg =>
      cases h
      exact Or.inl ⟨m, rfl, get_some hg⟩
    · cases h
  · next s => cases h; exact Or.inr rfl
  · cases h

theorem extension_iff {e : Extensions} (he : ProperKeys e) (k : Str) :
    ((get e (lit "org.nix-community.lanzaboote")).bind sortKeyFromValue) = some k ↔ SaysSortKey e k := by
  constructor
  · intro h
    obtain ⟨v, hv, hk⟩ := Option.bind_eq_some_iff.1 h
    have hm := get_some hv
    rcases sortKeyFromValue_some hk with ⟨m, rfl, h⟩ | rfl
    · exact .object hm h
    · exact .array hm
  · rintro (⟨h, hk⟩ | h)
    · rw [get_of_mem he.extensions h]
      simp only [Option.bind_some, sortKeyFromValue, get_of_mem (he.members _ _ h) hk]
    · rw [get_of_mem he.extensions h]
      rfl

theorem extensionFrom_iff {e : Extensions} (he : ProperKeys e) (k : Str) :
    extensionFrom e = k ↔ SortKey e k := by
  unfold extensionFrom SortKey
  cases h : (get e (lit "org.nix-community.lanzaboote")).bind sortKeyFromValue with
  | some k' =>
    have h' := (extension_iff he k').1 h
    constructor
    · rintro rfl; exact Or.inl h'
    · rintro (hk | ⟨hno, -⟩)
      · have := (extension_iff he k).2 hk
        rw [h] at this
        exact Option.some.inj this
      · exact absurd h' (hno _)
  | none =>
    have hno : ∀ k', ¬ SaysSortKey e k' := fun k' hk => by
      have := (extension_iff he k').2 hk
      rw [h] at this
      cases this
    constructor
    · rintro rfl; exact Or.inr ⟨hno, rfl⟩
    · rintro (hk | ⟨-, rfl⟩)
      · exact absurd hk (hno k)
      · rfl

/-! ### Documents -/

theorem join_boot (p : Path) : p.join (lit "boot.json") = p ++ [lit "boot.json"] := by
  have : components (lit "boot.json") = [lit "boot.json"] := by decide
  show p ++ components (lit "boot.json") = _
  rw [this]

/-- C69: the document of a link is its `boot.json`; if this cannot be read or parsed, a synthesised one. -/
theorem C69_document (src : Sources) (path : Path) (d : Document) :
    readDocument src path = some d ↔ DocumentFor src path d := by
  unfold readDocument
  rw [join_boot]
  constructor
  · intro h
    split at h
    · next d' hb =>
      cases h
      obtain ⟨raw, hr, hp⟩ := Option.bind_eq_some_iff.1 hb
      exact .file hr hp
    · next hb =>
      refine .synthesised (fun raw hr => ?_) h
      rw [hr] at hb
      exact hb
  · rintro (⟨hr, hp⟩ | ⟨hno, h⟩)
    · rw [hr, Option.bind_some, hp]
    · have : (src.read (path ++ [lit "boot.json"])).bind src.parse = none := by
        cases hr : src.read (path ++ [lit "boot.json"]) with
        | none => rfl
        | some raw => exact hno raw hr
      rw [this]
      exact h

theorem parseSpecialisations_eq (link : Link) (ss : List (Str × Specialisation)) :
    parseSpecialisations link ss = ss.map fun p => (p.1, parseSpecialisation link p.1 p.2) := by
  induction ss with
  | nil => simp [parseSpecialisations]
  | cons p ss ih => obtain ⟨n, s⟩ := p; simp [parseSpecialisations, ih]

theorem has_plain {v : Nat} {t : Option Date} {n : Option Str} {f : Fields} {e : Extensions}
    {ss : List (Str × Generation)} {g : Gen} (he : ProperKeys e) :
    g = (Generation.mk v t n f (extensionFrom e) ss).plain ↔
      g.version = v ∧ g.buildTime = t ∧ g.specialisationName = n ∧ Has g f e := by
  constructor
  · rintro rfl
    exact ⟨rfl, rfl, rfl, rfl, rfl, rfl, rfl, rfl, rfl, rfl, _, rfl, (extensionFrom_iff he _).1 rfl⟩
  · rintro ⟨h1, h2, h3, h⟩
    obtain ⟨k, hk, hs⟩ := h.sortKey
    have := (extensionFrom_iff he k).2 hs
    subst this
    obtain ⟨gv, gt, gn, b⟩ := g
    obtain ⟨b1, b2, b3, b4, b5, b6, b7, b8⟩ := b
    have a1 := h.label; have a2 := h.kernel; have a3 := h.kernelParams; have a4 := h.init
    have a5 := h.initrd; have a6 := h.initrdSecrets; have a7 := h.toplevel
    simp only at a1 a2 a3 a4 a5 a6 a7 h1 h2 h3 hk
    subst a1 a2 a3 a4 a5 a6 a7 h1 h2 h3 hk
    rfl

/-- C69: the generations installed for a link are exactly those its document describes. -/
theorem C69_installed_iff (src : Sources) (link : Link) (hd : ∀ d, DocumentFor src link.path d → ProperDocument d)
    (g : Gen) :
    (∃ t, fromLink src link = some t ∧ g ∈ installed t) ↔
      ∃ d, DocumentFor src link.path d ∧ Describes link d g := by
  have key : ∀ d t, ProperDocument d → parseBootJson link d = some t →
      (g ∈ installed t ↔ Describes link d g) := by
    intro d t hp ht
    unfold parseBootJson at ht
    split at ht
    · cases ht
    · next f ss hg =>
      cases ht
      unfold installed Generation.values
      rw [List.mem_cons, has_plain hp.main, parseSpecialisations_eq]
      constructor
      · rintro (⟨h1, h2, h3, h4⟩ | h)
        · exact .itself hg h1 h2 h3 h4
        · simp only [List.map_map, List.mem_map, Function.comp] at h
          obtain ⟨⟨n, s⟩, hm, h⟩ := h
          obtain ⟨f', nested, e⟩ := s
          rw [parseSpecialisation] at h
          obtain ⟨h1, h2, h3, h4⟩ := (has_plain (hp.specialisations f ss hg n f' nested e hm)).1 h.symm
          exact .specialisation hg hm h1 h2 h3 h4
      · intro h
        cases h with
        | itself h hv hd hn hs =>
          rw [hg] at h
          cases h
          exact Or.inl ⟨hv, hd, hn, hs⟩
        | @specialisation f2 ss2 name f' nested e h hm hv hd hn hs =>
          rw [hg] at h
          cases h
          right
          simp only [List.map_map, List.mem_map, Function.comp]
          refine ⟨(name, .mk f' nested e), hm, ?_⟩
          rw [parseSpecialisation]
          exact ((has_plain (hp.specialisations f ss hg name f' nested e hm)).2 ⟨hv, hd, hn, hs⟩).symm
  constructor
  · rintro ⟨t, ht, hg⟩
    obtain ⟨d, hr, hp⟩ := Option.bind_eq_some_iff.1 ht
    have hr := (C69_document src link.path d).1 hr
    exact ⟨d, hr, (key d t (hd d hr) hp).1 hg⟩
  · rintro ⟨d, hr, hg⟩
    have hgen : ∃ t, parseBootJson link d = some t := by
      unfold parseBootJson
      cases hg with
      | itself h => rw [h]; exact ⟨_, rfl⟩
      | specialisation h => rw [h]; exact ⟨_, rfl⟩
    obtain ⟨t, ht⟩ := hgen
    refine ⟨t, ?_, (key d t (hd d hr) ht).2 hg⟩
    unfold fromLink
    rw [(C69_document src link.path d).2 hr, Option.bind_some, ht]

/-- C69: a generation can be read exactly if there is a document of a known schema version: extensions
and specialisations, however malformed, never keep a generation from being installed. -/
theorem C69_readable_iff (src : Sources) (link : Link) :
    (fromLink src link).isSome = true ↔ ∃ d, DocumentFor src link.path d ∧ d.generation.isSome = true := by
  unfold fromLink
  constructor
  · intro h
    obtain ⟨t, ht⟩ := Option.isSome_iff_exists.1 h
    obtain ⟨d, hr, hp⟩ := Option.bind_eq_some_iff.1 ht
    refine ⟨d, (C69_document _ _ _).1 hr, ?_⟩
    unfold parseBootJson at hp
    split at hp
    · cases hp
    · next h => rw [h]; rfl
  · rintro ⟨d, hr, hg⟩
    rw [(C69_document _ _ _).2 hr, Option.bind_some]
    obtain ⟨⟨f, ss⟩, hg⟩ := Option.isSome_iff_exists.1 hg
    unfold parseBootJson
    rw [hg]
    rfl

/-! ### The installer -/

theorem fromLink_bootJson (src : Sources) (link : Link) :
    (fromLink src link).map (fun t => (t.plain, t.values.map Generation.plain)) =
      (bootJson src link.path).map (fromBootJson link) := by
  unfold fromLink bootJson
  cases readDocument src link.path with
  | none => rfl
  | some d =>
    simp only [Option.bind_some]
    unfold parseBootJson toBootJson
    cases d.generation with
    | none => rfl
    | some x =>
      obtain ⟨f, ss⟩ := x
      simp only [Option.map_some, fromBootJson, Generation.plain, Generation.values, parseSpecialisations_eq,
        Option.some.injEq, Prod.mk.injEq, List.map_map]
      refine ⟨rfl, ?_⟩
      apply List.map_congr_left
      rintro ⟨n, f', nested, e⟩ -
      simp only [Function.comp, parseSpecialisation, Generation.plain]
      rfl

/-- C69: reading a generation in the model of the installer is reading its document. -/
theorem C69_installer_reads (src : Sources) (env : Tool.Env) (he : env.bootJson = bootJson src) (link : Link)
    (s : Tool.State) (hf : env.os.fault s.tick = false) :
    Tool.readGeneration env link s = (.ok ((fromLink src link).map fun t =>
      (t.plain, t.values.map Generation.plain)), { s with tick := s.tick + 1 }) := by
  unfold Tool.readGeneration Tool.faulty
  simp only [RM.bind_run, Tool.next, hf, RM.pure_run, Bool.false_eq_true, if_false]
  rw [fromLink_bootJson, he]

/-- C69: the generations the installer considers are those described by the documents of the selected
links. -/
theorem C69_considered_iff (src : Sources) (env : Tool.Env) (he : env.bootJson = bootJson src)
    (cfg : Tool.Config) (hd : ∀ p d, DocumentFor src p d → ProperDocument d) (g : Gen) :
    Tool.Considers env cfg g ↔ ∃ links link d, cfg.considered env = some links ∧ link ∈ links ∧
      DocumentFor src link.path d ∧ Describes link d g := by
  have key : ∀ link, (∃ j, env.bootJson link.path = some j ∧
      g ∈ (fromBootJson link j).1 :: (fromBootJson link j).2) ↔ ∃ t, fromLink src link = some t ∧ g ∈ installed t := by
    intro link
    have h := fromLink_bootJson src link
    rw [he]
    cases ht : fromLink src link with
    | none =>
      rw [ht] at h
      cases hj : bootJson src link.path with
      | none => simp
      | some j => rw [hj] at h; cases h
    | some t =>
      rw [ht] at h
      cases hj : bootJson src link.path with
      | none => rw [hj] at h; cases h
      | some j =>
        rw [hj] at h
        simp only [Option.map_some, Option.some.injEq] at h
        simp only [Option.some.injEq, exists_eq_left']
        rw [← h]
        rfl
  constructor
  · rintro ⟨links, link, j, h1, h2, h3, h4⟩
    obtain ⟨d, hr, hg⟩ := (C69_installed_iff src link (fun d h => hd _ d h) g).1 ((key link).1 ⟨j, h3, h4⟩)
    exact ⟨links, link, d, h1, h2, hr, hg⟩
  · rintro ⟨links, link, d, h1, h2, hr, hg⟩
    obtain ⟨j, h3, h4⟩ := (key link).2 ((C69_installed_iff src link (fun d h => hd _ d h) g).2 ⟨d, hr, hg⟩)
    exact ⟨links, link, j, h1, h2, h3, h4⟩

/-! ### Examples -/

namespace Sample

def fields (label : String) : Fields where
  label := lit label
  kernel := [lit "nix", lit "k-6.1", lit "bzImage"]
  kernelParams := [lit "quiet"]
  init := [lit "nix", lit "init"]
  initrd := some [lit "nix", lit "initrd"]
  initrdSecrets := none
  toplevel := utf8 (lit label)

def ext (v : Json) : Extensions := [(lit "org.nix-community.lanzaboote", v), (lit "other", .null)]

/-- A document with a specialisation that has a sort key of its own and a specialisation, and one whose
extension is malformed. -/
def document : Document where
  generation := some (fields "main", [
    (lit "fast", .mk (fields "fast") [(lit "nested", .mk (fields "nested") [] [])]
      (ext (.obj [(lit "sort_key", .str (lit "b")), (lit "x", .bool true)]))),
    (lit "odd", .mk (fields "odd") [] (ext (.obj [(lit "sort_key", .num (lit "3"))])))])
  extensions := ext (.arr [.str (lit "a")])

/-- The file of the first link is missing, that of the second is not JSON, that of the third is read. -/
def sources : Sources where
  read p := if p = [lit "l1", lit "boot.json"] then none
    else if p = [lit "l2", lit "boot.json"] then some [1] else some [2]
  parse b := if b = [2] then some document else none
  synthesize p := if p = [lit "l1"] then some { generation := some (fields "synthesised", []), extensions := [] }
    else none

def link (n : Nat) (p : String) : Link := { version := n, path := [lit p], buildTime := none }

example : (fromLink sources (link 1 "l1")).map (fun t => (installed t).map fun g => (g.specialisationName, g.spec.label, g.spec.sortKey)) =
    some [(none, lit "synthesised", some (lit "lanzaboote"))] := by decide +kernel
example : (fromLink sources (link 2 "l2")).isSome = false := by decide +kernel
example : (fromLink sources (link 3 "l3")).map (fun t => (installed t).map fun g => (g.specialisationName, g.spec.label, g.spec.sortKey)) =
    some [(none, lit "main", some (lit "a")), (some (lit "fast"), lit "fast", some (lit "b")),
      (some (lit "odd"), lit "odd", some (lit "lanzaboote"))] := by decide +kernel

theorem ext_proper {v : Json} (hv : ∀ m, v = .obj m → (m.map (·.1)).Nodup) : ProperKeys (ext v) where
  extensions := by show ([lit "org.nix-community.lanzaboote", lit "other"] : List Str).Nodup; decide
  members n m h := by
    simp only [ext, List.mem_cons, Prod.mk.injEq, List.not_mem_nil, or_false] at h
    rcases h with ⟨-, h⟩ | ⟨-, h⟩
    · exact hv m h.symm
    · cases h

theorem proper (p : Path) (d : Document) (h : DocumentFor sources p d) : ProperDocument d := by
  cases h with
  | @file raw hr hp =>
    simp only [sources] at hp
    split at hp
    · cases hp
      refine ⟨ext_proper (by intro m h; cases h), ?_⟩
      intro f ss hg n f' nested e hm
      simp only [document, Option.some.injEq, Prod.mk.injEq] at hg
      obtain ⟨-, rfl⟩ := hg
      simp only [List.mem_cons, Prod.mk.injEq, Specialisation.mk.injEq, List.not_mem_nil, or_false] at hm
      rcases hm with ⟨-, -, -, rfl⟩ | ⟨-, -, -, rfl⟩
      · refine ext_proper fun m h => ?_
        cases h
        show ([lit "sort_key", lit "x"] : List Str).Nodup
        decide
      · refine ext_proper fun m h => ?_
        cases h
        show ([lit "sort_key"] : List Str).Nodup
        decide
    · cases hp
  | synthesised _ h =>
    simp only [sources] at h
    split at h
    · cases h
      refine ⟨⟨List.nodup_nil, by simp⟩, ?_⟩
      intro f ss hg n f' nested e hm
      simp only [Option.some.injEq, Prod.mk.injEq] at hg
      obtain ⟨-, rfl⟩ := hg
      cases hm
    · cases h

/-- The specialisation of the specialisation is not described, its parent is. -/
example : (∃ d g, DocumentFor sources [lit "l3"] d ∧ Describes (link 3 "l3") d g ∧
      g.specialisationName = some (lit "fast")) ∧
    ∀ d g, DocumentFor sources [lit "l3"] d → Describes (link 3 "l3") d g →
      g.specialisationName ≠ some (lit "nested") := by
  have names : (fromLink sources (link 3 "l3")).map (fun t => (installed t).map fun g => g.specialisationName) =
      some [none, some (lit "fast"), some (lit "odd")] := by decide +kernel
  obtain ⟨t, ht, hn⟩ := Option.map_eq_some_iff.1 names
  constructor
  · have : some (lit "fast") ∈ (installed t).map fun g => g.specialisationName := by rw [hn]; simp
    obtain ⟨g, hg, hs⟩ := List.mem_map.1 this
    obtain ⟨d, h1, h2⟩ := (C69_installed_iff sources (link 3 "l3") (fun d => proper _ d) g).1 ⟨t, ht, hg⟩
    exact ⟨d, g, h1, h2, hs⟩
  · intro d g h1 h2 hs
    obtain ⟨t', ht', hg⟩ := (C69_installed_iff sources (link 3 "l3") (fun d => proper _ d) g).2 ⟨d, h1, h2⟩
    rw [ht] at ht'
    cases ht'
    have : g.specialisationName ∈ (installed t).map fun g => g.specialisationName := List.mem_map.2 ⟨g, hg, rfl⟩
    rw [hn, hs] at this
    exact absurd this (by decide)

end Sample

end Verif.Bootspec
