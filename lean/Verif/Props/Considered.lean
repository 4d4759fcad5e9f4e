import Verif.Spec.Generations
import Verif.Spec.Installer
import Verif.Props.Generation
import Verif.Lemmas.Numbers
/-!
# C61, C62: which generations are installed, and what the boot menu says about them
-/
namespace Verif.Generation
open Verif Version Version.Spec

/-! ### Link names -/

/-- A text is its part in front of the first dash, or that part, the dash and the rest. -/
theorem cut (s : Str) : '-' ∉ s ∨ ∃ a b, '-' ∉ a ∧ s = a ++ '-' :: b := by
  induction s with
  | nil => exact .inl (by simp)
  | cons c cs ih =>
    by_cases hc : c = '-'
    · exact .inr ⟨[], cs, by simp, by simp [hc]⟩
    · rcases ih with h | ⟨a, b, ha, rfl⟩
      · exact .inl (by simp only [List.mem_cons, not_or]; exact ⟨fun e => hc e.symm, h⟩)
      · exact .inr ⟨c :: a, b, by simp only [List.mem_cons, not_or]; exact ⟨fun e => hc e.symm, ha⟩, rfl⟩

/-- **C25** (exact). The number of a link is what the second dash-separated field of its name writes, and
a link has no number exactly if that field is missing or writes no 64-bit number. -/
theorem C25_link_number (p : Path) (n : Nat) : parseVersion p = some n ↔ LinkNumber p n := by
  rcases List.eq_nil_or_concat p with rfl | ⟨dir, name, rfl⟩
  · constructor
    · intro h; simp [parseVersion, Path.fileName] at h
    · rintro ⟨dir, a, f, rest, h, -⟩; simp at h
  have hfields : (∃ f, (splitOn '-' name)[1]? = some f ∧ Writes64 f n) ↔
      LinkNumber (dir ++ [name]) n := by
    constructor
    · rintro ⟨f, hf, hw⟩
      rcases cut name with h | ⟨a, b, ha, rfl⟩
      · rw [splitOn_not_mem h] at hf; simp at hf
      · rw [splitOn_append ha] at hf
        rcases cut b with hb | ⟨f', r, hf', rfl⟩
        · rw [splitOn_not_mem hb] at hf
          simp only [List.getElem?_cons_succ, List.getElem?_cons_zero, Option.some.injEq] at hf
          subst hf
          exact ⟨dir, a, b, [], by simp, ha, hb, .inl rfl, hw⟩
        · rw [splitOn_append hf'] at hf
          simp only [List.getElem?_cons_succ, List.getElem?_cons_zero, Option.some.injEq] at hf
          subst hf
          exact ⟨dir, a, f', '-' :: r, by simp, ha, hf', .inr ⟨r, rfl⟩, hw⟩
    · rintro ⟨dir', a, f, rest, h, ha, hf, hr, hw⟩
      have he := List.append_inj' h rfl
      simp only [List.cons.injEq, and_true] at he
      rw [he.2, splitOn_append ha]
      refine ⟨f, ?_, hw⟩
      rcases hr with rfl | ⟨b, rfl⟩
      · rw [List.append_nil, splitOn_not_mem hf]; rfl
      · rw [splitOn_append hf]; rfl
  rw [List.concat_eq_append, ← hfields]
  by_cases hdd : name = ['.', '.']
  · subst hdd
    constructor
    · intro h; simp [parseVersion, Path.fileName] at h
    · rintro ⟨f, hf, -⟩; simp [splitOn] at hf
  · simp only [parseVersion, Path.fileName, List.getLast?_append, List.getLast?_singleton,
      Option.some_or, hdd, if_false]
    constructor
    · intro h
      split at h
      · next f hf => exact ⟨f, hf, (parseU64_spec f n).1 h⟩
      · simp at h
    · rintro ⟨f, hf, hw⟩
      rw [hf]
      exact (parseU64_spec f n).2 hw

/-! ### The selection -/

theorem saidBy_iff (link : Link) (j : BootJson) (g : Gen) :
    g ∈ (fromBootJson link j).1 :: (fromBootJson link j).2 ↔ SaidBy link.version link.buildTime j g := by
  constructor
  · intro h
    rcases List.mem_cons.1 h with rfl | h
    · exact .itself rfl rfl rfl rfl
    · simp only [fromBootJson, List.mem_map] at h
      obtain ⟨⟨name, b⟩, hm, rfl⟩ := h
      exact .specialisation hm rfl rfl rfl rfl
  · intro h
    cases h with
    | itself hv hd hn hs =>
      refine List.mem_cons.2 (.inl ?_)
      cases g; simp_all [fromBootJson]
    | @specialisation name b hm hv hd hn hs =>
      refine List.mem_cons.2 (.inr (List.mem_map.2 ⟨(name, b), hm, ?_⟩))
      cases g; simp_all

/-- A selected link has fewer than `limit` newer ones. -/
theorem selected_few_newer {limit : Nat} {links : List Link} {l : Link} (h : l ∈ selectLinks limit links) :
    l ∈ links ∧ (limit = 0 ∨ (links.map Link.version).countP (l.version < ·) < limit) := by
  by_cases hl : limit = 0
  · subst hl
    exact ⟨(C24_no_limit links).1.mem_iff.1 h, .inl rfl⟩
  · obtain ⟨skipped, hp, hlen, -, hle⟩ := C24_limit limit (by omega) links
    refine ⟨hp.mem_iff.1 (by simp [h]), .inr ?_⟩
    rw [List.countP_map, ← hp.countP_eq, List.countP_append]
    have h0 : List.countP ((fun x => decide (l.version < x)) ∘ Link.version) skipped = 0 := by
      rw [List.countP_eq_zero]
      intro a ha
      have := hle a ha l h
      simp; omega
    have h1 : List.countP ((fun x => decide (l.version < x)) ∘ Link.version) (selectLinks limit links) <
        (selectLinks limit links).length := by
      refine Nat.lt_of_le_of_ne List.countP_le_length fun e => ?_
      have := List.countP_eq_length.1 e l h
      simp at this
    omega

/-- A link with at most `limit` links that are not older, itself included, is selected. -/
theorem few_newer_selected {limit : Nat} {links : List Link} {l : Link} (hl : l ∈ links)
    (h : limit = 0 ∨ (links.map Link.version).countP (l.version ≤ ·) ≤ limit) :
    l ∈ selectLinks limit links := by
  by_cases h0 : limit = 0
  · subst h0
    exact (C24_no_limit links).1.mem_iff.2 hl
  · have h := h.resolve_left h0
    obtain ⟨skipped, hp, hlen, -, hle⟩ := C24_limit limit (by omega) links
    have := hp.mem_iff.2 hl
    rcases List.mem_append.1 this with hs | hs
    · exfalso
      rw [List.countP_map, ← hp.countP_eq, List.countP_append] at h
      have h1 : 0 < List.countP ((fun x => decide (l.version ≤ x)) ∘ Link.version) skipped :=
        List.countP_pos_iff.2 ⟨l, hs, by simp⟩
      have h2 : List.countP ((fun x => decide (l.version ≤ x)) ∘ Link.version) (selectLinks limit links) =
          (selectLinks limit links).length := by
        rw [List.countP_eq_length]
        intro b hb
        have := hle l hs b hb
        simpa using this
      have h3 := hp.length_eq
      have h4 : 0 < skipped.length := List.length_pos_of_mem hs
      rw [List.length_append] at h3
      omega
    · exact hs

end Verif.Generation

namespace Verif.Tool
open Verif Generation

variable {env : Env} {cfg : Config}

theorem parseLinks_numbers : ∀ {links : List Path} {ls : List Link}, parseLinks env links = some ls →
    (∀ l ∈ ls, l.path ∈ links ∧ LinkNumber l.path l.version ∧ l.buildTime = env.buildTime l.path) ∧
    (∀ p ∈ links, ∃ l ∈ ls, l.path = p) ∧
    ∀ num : Path → Nat, (∀ p ∈ links, LinkNumber p (num p)) → ls.map Link.version = links.map num := by
  intro links
  induction links with
  | nil =>
    intro ls h
    simp only [parseLinks, Option.some.injEq] at h
    subst h
    exact ⟨by simp, by simp, fun _ _ => rfl⟩
  | cons p rest ih =>
    intro ls h
    simp only [parseLinks, Link.fromPath] at h
    cases hv : parseVersion p with
    | none => simp [hv] at h
    | some v =>
      simp only [hv] at h
      cases hr : parseLinks env rest with
      | none => simp [hr] at h
      | some ls' =>
        simp only [hr, Option.some.injEq] at h
        subst h
        obtain ⟨h1, h2, h3⟩ := ih hr
        have hn := (C25_link_number p v).1 hv
        refine ⟨?_, ?_, fun num hnum => ?_⟩
        · intro l hl
          rcases List.mem_cons.1 hl with rfl | hl
          · exact ⟨by simp, hn, rfl⟩
          · exact ⟨List.mem_cons_of_mem _ (h1 l hl).1, (h1 l hl).2⟩
        · intro q hq
          rcases List.mem_cons.1 hq with rfl | hq
          · exact ⟨_, List.mem_cons_self, rfl⟩
          · obtain ⟨l, hl, e⟩ := h2 q hq
            exact ⟨l, List.mem_cons_of_mem _ hl, e⟩
        · have e1 := (C25_link_number p _).2 (hnum p (by simp))
          rw [hv] at e1
          simp only [List.map_cons, Option.some.inj e1,
            h3 num fun q hq => hnum q (List.mem_cons_of_mem _ hq)]

theorem parseLinks_some : ∀ {links : List Path}, (∀ p ∈ links, ∃ n, LinkNumber p n) →
    ∃ ls, parseLinks env links = some ls := by
  intro links
  induction links with
  | nil => intro _; exact ⟨[], rfl⟩
  | cons p rest ih =>
    intro h
    obtain ⟨n, hn⟩ := h p (by simp)
    obtain ⟨ls, hls⟩ := ih fun q hq => h q (List.mem_cons_of_mem _ hq)
    exact ⟨{ version := n, path := p, buildTime := env.buildTime p } :: ls, by
      simp only [parseLinks, Link.fromPath, (C25_link_number p n).2 hn, hls]⟩

/-- **C61** (only these). Whatever the installer installs is a generation, or a specialisation of one,
exactly as the name of a link on the command line and its bootspec say, and fewer than
`configurationLimit` of the links on the command line are newer. -/
theorem C61_considered_said {g : Gen} (hg : Considers env cfg g) (num : Path → Nat)
    (hnum : ∀ p ∈ cfg.links, LinkNumber p (num p)) :
    ∃ p j, p ∈ cfg.links ∧ env.bootJson p = some j ∧ SaidBy (num p) (env.buildTime p) j g ∧
      (cfg.configurationLimit = 0 ∨
        (cfg.links.map num).countP (num p < ·) < cfg.configurationLimit) := by
  obtain ⟨links, l, j, hc, hl, hj, hg⟩ := hg.ex
  unfold Config.considered at hc
  cases hp : parseLinks env cfg.links with
  | none => simp [hp] at hc
  | some ls =>
    simp only [hp, Option.map_some, Option.some.injEq] at hc
    subst hc
    obtain ⟨h1, -, h3⟩ := parseLinks_numbers hp
    obtain ⟨hm, hlim⟩ := selected_few_newer hl
    obtain ⟨hpath, hn, hb⟩ := h1 l hm
    have hv : l.version = num l.path := by
      have e1 := (C25_link_number _ _).2 hn
      rw [(C25_link_number _ _).2 (hnum _ hpath)] at e1
      exact (Option.some.inj e1).symm
    have hs := (saidBy_iff l j g).1 hg
    rw [hv, hb] at hs
    rw [h3 num hnum, hv] at hlim
    exact ⟨l.path, j, hpath, hj, hs, hlim⟩

/-- **C61** (all of these). If all links on the command line have numbers, every generation and
specialisation the bootspec of a link describes is considered, provided at most `configurationLimit` links
are not older than it, the link itself included. If no number occurs twice, this is the case exactly if
fewer than `configurationLimit` are newer. -/
theorem C61_said_considered {g : Gen} (num : Path → Nat) (hnum : ∀ p ∈ cfg.links, LinkNumber p (num p))
    {p : Path} {j : BootJson} (hp : p ∈ cfg.links) (hj : env.bootJson p = some j)
    (hs : SaidBy (num p) (env.buildTime p) j g)
    (hlim : cfg.configurationLimit = 0 ∨
      (cfg.links.map num).countP (num p ≤ ·) ≤ cfg.configurationLimit) : Considers env cfg g := by
  obtain ⟨ls, hls⟩ := parseLinks_some (env := env) fun p hp => ⟨num p, hnum p hp⟩
  obtain ⟨h1, h2, h3⟩ := parseLinks_numbers hls
  obtain ⟨l, hl, rfl⟩ := h2 p hp
  obtain ⟨-, hn, hb⟩ := h1 l hl
  have hv : l.version = num l.path := by
    have e1 := (C25_link_number _ _).2 hn
    rw [(C25_link_number _ _).2 (hnum _ hp)] at e1
    exact (Option.some.inj e1).symm
  refine ⟨_, l, j, by rw [Config.considered, hls, Option.map_some], few_newer_selected hl ?_, hj,
    (saidBy_iff l j g).2 (by rw [hv, hb]; exact hs)⟩
  rw [h3 num hnum, hv]
  exact hlim

/-- If no number occurs twice, a link is not older than itself and those that are newer. -/
theorem countP_not_older {ns : List Nat} (hd : ns.Nodup) {n : Nat} (hn : n ∈ ns) :
    ns.countP (n ≤ ·) = ns.countP (n < ·) + 1 := by
  induction ns with
  | nil => simp at hn
  | cons a as ih =>
    obtain ⟨ha, hd'⟩ := List.nodup_cons.1 hd
    rw [List.countP_cons, List.countP_cons]
    rcases List.mem_cons.1 hn with rfl | hn
    · have : ∀ (l : List Nat), n ∉ l → l.countP (n ≤ ·) = l.countP (n < ·) := by
        intro l hl
        refine List.countP_congr fun x hx => ?_
        have : x ≠ n := fun e => hl (e ▸ hx)
        simp; omega
      rw [this as ha]
      simp
    · have hne : a ≠ n := fun e => ha (e ▸ hn)
      rw [ih hd' hn]
      by_cases h : n ≤ a
      · have : n < a := by omega
        simp [h, this]
      · have : ¬ n < a := by omega
        simp [h, this]

/-- **C61** (exact). If no two links have the same number: exactly the generations and specialisations of
the `configurationLimit` newest links, of all links if the limit is 0, are considered, as their bootspecs
describe them. -/
theorem C61_considered_iff (num : Path → Nat) (hnum : ∀ p ∈ cfg.links, LinkNumber p (num p))
    (hd : (cfg.links.map num).Nodup) (g : Gen) :
    Considers env cfg g ↔ ∃ p j, p ∈ cfg.links ∧ env.bootJson p = some j ∧
      SaidBy (num p) (env.buildTime p) j g ∧ (cfg.configurationLimit = 0 ∨
        (cfg.links.map num).countP (num p < ·) < cfg.configurationLimit) := by
  constructor
  · exact fun h => C61_considered_said h num hnum
  · rintro ⟨p, j, hp, hj, hs, hlim⟩
    refine C61_said_considered num hnum hp hj hs (hlim.imp id fun h => ?_)
    rw [countP_not_older hd (List.mem_map.2 ⟨p, hp, rfl⟩)]
    omega

/-- **C61** (no number, no run). If some link has no number nothing is considered. -/
theorem C61_unnumbered {p : Path} (hp : p ∈ cfg.links) (h : ∀ n, ¬ LinkNumber p n) (g : Gen) :
    ¬ Considers env cfg g := by
  intro hg
  obtain ⟨links, l, j, hc, -⟩ := hg.ex
  unfold Config.considered at hc
  cases hls : parseLinks env cfg.links with
  | none => simp [hls] at hc
  | some ls =>
    obtain ⟨h1, h2, -⟩ := parseLinks_numbers hls
    obtain ⟨l, hl, rfl⟩ := h2 p hp
    exact h _ (h1 l hl).2.1

/-- Two numbered links with a limit of one: the older one is left out, the newer one considered. -/
example : let p1 : Path := [lit "profiles", lit "system-7-link"]
    let p2 : Path := [lit "profiles", lit "system-12-link"]
    let num : Path → Nat := fun p => if p = p1 then 7 else 12
    (∀ p ∈ [p1, p2], LinkNumber p (num p)) ∧ ([p1, p2].map num).Nodup ∧
      ([p1, p2].map num).countP (num p2 < ·) < 1 ∧ ¬ ([p1, p2].map num).countP (num p1 < ·) < 1 := by
  intro p1 p2 num
  refine ⟨?_, by decide, by decide, by decide⟩
  intro p hp
  simp only [List.mem_cons, List.not_mem_nil, or_false] at hp
  rcases hp with rfl | rfl <;> exact (C25_link_number _ _).1 (by decide)

end Verif.Tool

namespace Verif.Generation
open Verif Version Version.Spec OsRelease OsRelease.Spec

/-! ### C62 -/

theorem digitChar_spec (n : Nat) : '0' ≤ digitChar n ∧ digitChar n ≤ '9' ∧
    (digitChar n).toNat - '0'.toNat = n % 10 := by
  have := digitVal_digitChar n
  rw [digitVal_spec] at this
  split at this
  · next h => exact ⟨h.1, h.2, Option.some.inj this⟩
  · simp at this

theorem pad2_twoDigits {n : Nat} (h : n < 100) : twoDigits n (pad2 n) := by
  have two : ∀ a b : Nat, a < 10 → b < 10 → twoDigits (a * 10 + b) [digitChar a, digitChar b] := by
    intro a b ha hb
    obtain ⟨a1, a2, a3⟩ := digitChar_spec a
    obtain ⟨b1, b2, b3⟩ := digitChar_spec b
    refine ⟨_, _, rfl, ⟨by simp, ?_⟩, ?_⟩
    · intro c hc
      simp only [List.mem_cons, List.not_mem_nil, or_false] at hc
      rcases hc with rfl | rfl
      · exact ⟨a1, a2⟩
      · exact ⟨b1, b2⟩
    · simp only [value, List.foldl_cons, List.foldl_nil, a3, b3]
      omega
  unfold pad2
  split
  · next h1 =>
    have := two 0 n (by omega) h1
    have e : toDec n = [digitChar n] := by rw [toDec, if_pos h1]
    rw [e]
    have e0 : digitChar 0 = '0' := by decide
    rw [e0] at this
    simpa using this
  · next h1 =>
    have := two (n / 10) (n % 10) (by omega) (by omega)
    have e : toDec n = [digitChar (n / 10), digitChar (n % 10)] := by
      rw [toDec, if_neg h1, toDec, if_pos (by omega)]
      simp [digitChar]
    rw [e]
    have e2 : n / 10 * 10 + n % 10 = n := by omega
    rwa [e2] at this

theorem digitChar_mod (n : Nat) : digitChar (n % 10) = digitChar n := by simp [digitChar]

theorem pad4_eq {n : Nat} (h : n < 10000) :
    pad4 n = [digitChar (n / 1000), digitChar (n / 100), digitChar (n / 10), digitChar n] := by
  have e0 : digitChar 0 = '0' := by decide
  unfold pad4
  split
  · next h1 =>
    rw [show n / 1000 = 0 by omega, show n / 100 = 0 by omega, show n / 10 = 0 by omega, e0, toDec,
      if_pos h1]
    rfl
  · split
    · next h1 h2 =>
      rw [show n / 1000 = 0 by omega, show n / 100 = 0 by omega, e0, toDec, if_neg h1, toDec,
        if_pos (by omega)]
      rfl
    · split
      · next h1 h2 h3 =>
        rw [show n / 1000 = 0 by omega, e0, toDec, if_neg h1, toDec, if_neg (by omega), toDec,
          if_pos (by omega), show n / 10 / 10 = n / 100 by omega]
        rfl
      · next h1 h2 h3 =>
        rw [toDec, if_neg h1, toDec, if_neg (by omega), toDec, if_neg (by omega), toDec,
          if_pos (by omega), show n / 10 / 10 / 10 = n / 1000 by omega, show n / 10 / 10 = n / 100 by omega]
        rfl

theorem yearText_spec {y : Int} (h : y.natAbs < 10000) : YearText y (yearText y) := by
  have hd : IsDigits [digitChar (y.natAbs / 1000), digitChar (y.natAbs / 100), digitChar (y.natAbs / 10),
      digitChar y.natAbs] := by
    refine ⟨by simp, ?_⟩
    intro c hc
    simp only [List.mem_cons, List.not_mem_nil, or_false] at hc
    rcases hc with rfl | rfl | rfl | rfl <;> exact ⟨(digitChar_spec _).1, (digitChar_spec _).2.1⟩
  refine ⟨_, _, _, _, ?_, hd, ?_⟩
  · unfold yearText
    rw [pad4_eq h]
    split
    · next h0 => exact .inr ⟨h0, rfl⟩
    · next h0 => exact .inl ⟨by omega, rfl⟩
  · simp only [value, List.foldl_cons, List.foldl_nil, (digitChar_spec _).2.2]
    omega

/-- `describe` gives the description, whenever the date is a date. -/
theorem describe_spec (g : Gen)
    (hd : ∀ d ∈ g.buildTime, d.year.natAbs < 10000 ∧ d.month < 100 ∧ d.day < 100) :
    Description g g.describe := by
  unfold Gen.describe
  cases h : g.buildTime with
  | none =>
    refine ⟨lit "Unknown", by rw [h]; rfl, ?_⟩
    cases hs : g.specialisationName <;> simp [Gen.describeSpecialisation, described, hs, lit]
  | some d =>
    obtain ⟨hy, hm, hdd⟩ := hd d (by simp [h])
    refine ⟨d.display, ?_, ?_⟩
    · rw [h]
      exact ⟨_, _, _, yearText_spec hy, pad2_twoDigits hm, pad2_twoDigits hdd, by simp [Date.display, lit]⟩
    · cases hs : g.specialisationName <;> simp [Gen.describeSpecialisation, described, hs, lit]

theorem osRelease_eq (g : Gen) : osRelease g = [(lit "ID", g.spec.sortKey.getD (lit "lanzaboote")),
    (lit "PRETTY_NAME", g.spec.label ++ lit " (" ++ g.describe ++ lit ")"),
    (lit "VERSION_ID", g.describe)] := by
  simp only [osRelease, OsRelease.Map.insert, BootSpec.sortKeyOrDefault]
  rw [if_neg (by decide), if_neg (by decide)]
  simp only [OsRelease.Map.insert]
  rw [if_neg (by decide), if_neg (by decide), if_neg (by decide), if_neg (by decide)]

/-- Text that can be carried on a line of os-release: no line break, no backslash. -/
def OneLine (s : Str) : Prop := ∀ c ∈ s, ¬ Newline c ∧ c ≠ '\\'

/-- The generation has ordinary texts: a label on one line that starts with no blank or quote, a
one-line name, a sort key that can be carried, and a date with a year of four and a month and day of two
digits (as every date is that the installer finds, `C77_dates`). -/
structure OrdinaryTexts (g : Gen) : Prop where
  label : OneLine g.spec.label
  label_start : ∃ c cs, g.spec.label = c :: cs ∧ ¬ Blank c ∧ c ≠ '\'' ∧ c ≠ '"'
  name : ∀ s ∈ g.specialisationName, OneLine s
  sortKey : ∀ s ∈ g.spec.sortKey, PlainValue s
  date : ∀ d ∈ g.buildTime, d.year.natAbs < 10000 ∧ d.month < 100 ∧ d.day < 100

theorem oneLine_append {a b : Str} (ha : OneLine a) (hb : OneLine b) : OneLine (a ++ b) := by
  intro c hc
  rcases List.mem_append.1 hc with h | h
  · exact ha c h
  · exact hb c h

theorem oneLine_of_digits {s : Str} (h : ∀ c ∈ s, isDigitC c = true) : OneLine s := by
  intro c hc
  have := isDigitC_of (h c hc)
  refine ⟨?_, ?_⟩
  · rintro (rfl | rfl) <;> revert this <;> decide
  · rintro rfl; revert this; decide

theorem oneLine_toDec (n : Nat) : OneLine (toDec n) := oneLine_of_digits (toDec_digits n)

theorem oneLine_lit {s : Str} (h : s.all fun c => c != '\n' && c != '\r' && c != '\\') : OneLine s := by
  intro c hc
  have := List.all_eq_true.1 h c hc
  simp only [Bool.and_eq_true, bne_iff_ne] at this
  exact ⟨fun h => h.elim this.1.1 this.1.2, this.2⟩

theorem pad2_oneLine (n : Nat) : OneLine (pad2 n) := by
  unfold pad2
  split
  · exact oneLine_append (a := ['0']) (oneLine_lit (by decide)) (oneLine_toDec n)
  · exact oneLine_toDec n

theorem year_oneLine (y : Int) : OneLine (yearText y) := by
  have h4 : ∀ n, OneLine (pad4 n) := by
    intro n
    unfold pad4
    split
    · exact oneLine_append (oneLine_lit (by decide)) (oneLine_toDec n)
    · split
      · exact oneLine_append (oneLine_lit (by decide)) (oneLine_toDec n)
      · split
        · exact oneLine_append (a := ['0']) (oneLine_lit (by decide)) (oneLine_toDec n)
        · exact oneLine_toDec n
  unfold yearText
  split
  · exact oneLine_append (a := ['-']) (oneLine_lit (by decide)) (h4 _)
  · exact h4 _

theorem date_oneLine (d : Date) : OneLine d.display := by
  unfold Date.display
  exact oneLine_append (oneLine_append (oneLine_append (oneLine_append (year_oneLine _)
    (oneLine_lit (by decide))) (pad2_oneLine _)) (oneLine_lit (by decide))) (pad2_oneLine _)

theorem describe_oneLine {g : Gen} (h : ∀ s ∈ g.specialisationName, OneLine s) : OneLine g.describe := by
  unfold Gen.describe
  refine oneLine_append (oneLine_append (oneLine_append (oneLine_append (oneLine_lit (by decide))
    (oneLine_toDec _)) ?_) (oneLine_lit (by decide))) ?_
  · unfold Gen.describeSpecialisation
    cases hs : g.specialisationName with
    | none => exact oneLine_lit (by decide)
    | some s => exact oneLine_append (a := ['-']) (oneLine_lit (by decide)) (h s (by simp [hs]))
  · cases g.buildTime with
    | none => exact oneLine_lit (by decide)
    | some d => exact date_oneLine d

theorem getLast?_toDec (n : Nat) : ∃ c, (toDec n).getLast? = some c ∧ isWhitespace c = false := by
  cases h : (toDec n).getLast? with
  | none => exact absurd (List.getLast?_eq_none_iff.1 h) (toDec_ne_nil n)
  | some c =>
    refine ⟨c, rfl, ?_⟩
    have := isDigitC_of (toDec_digits n c (List.mem_of_getLast? h))
    have h1 : c.toNat ≤ 0x39 := this.2
    have h2 : 0x30 ≤ c.toNat := this.1
    simp only [isWhitespace, Bool.or_eq_false_iff, Bool.and_eq_false_iff, decide_eq_false_iff_not,
      beq_eq_false_iff_ne]
    omega

theorem pad2_last (n : Nat) : ∃ c, (pad2 n).getLast? = some c ∧ isWhitespace c = false := by
  unfold pad2
  obtain ⟨c, h, hc⟩ := getLast?_toDec n
  split
  · exact ⟨c, by rw [List.getLast?_cons, h]; rfl, hc⟩
  · exact ⟨c, h, hc⟩

theorem describe_noTrailing (g : Gen) : NoTrailing g.describe := by
  intro c hc
  unfold Gen.describe at hc
  cases h : g.buildTime with
  | none =>
    simp only [h, List.getLast?_append] at hc
    have : (lit "Unknown").getLast? = some 'n' := by decide
    rw [this] at hc
    simp only [Option.some_or, Option.mem_def, Option.some.injEq] at hc
    subst hc; decide
  | some d =>
    obtain ⟨x, hx, hw⟩ := pad2_last d.day
    simp only [h, List.getLast?_append, Date.display, hx, Option.some_or, Option.mem_def,
      Option.some.injEq] at hc
    subst hc; exact ((isWhitespace_false_iff _).1 hw)

theorem describe_head (g : Gen) : g.describe.head? = some 'G' := by
  simp [Gen.describe, lit]

theorem plainKey_id : PlainKey (lit "ID") :=
  ⟨⟨'I', lit "D", rfl, by unfold Blank; decide, by decide, by decide, by unfold Newline; decide⟩,
    by unfold NoTrailing; decide⟩
theorem plainKey_pretty_name : PlainKey (lit "PRETTY_NAME") :=
  ⟨⟨'P', lit "RETTY_NAME", rfl, by unfold Blank; decide, by decide, by decide,
    by unfold Newline; decide⟩, by unfold NoTrailing; decide⟩
theorem plainKey_version_id : PlainKey (lit "VERSION_ID") :=
  ⟨⟨'V', lit "ERSION_ID", rfl, by unfold Blank; decide, by decide, by decide,
    by unfold Newline; decide⟩, by unfold NoTrailing; decide⟩

/-- **C62**. What is read back from the text of the boot entry: the sort key as `ID`, the label and the
description as the title, and the description as the version. -/
theorem C62_menu_texts (g : Gen) (h : OrdinaryTexts g) :
    ∃ d, Description g d ∧ OsRelease.fromStr (display (osRelease g)) =
      [(lit "ID", g.spec.sortKey.getD (lit "lanzaboote")),
       (lit "PRETTY_NAME", g.spec.label ++ lit " (" ++ d ++ lit ")"), (lit "VERSION_ID", d)] := by
  refine ⟨g.describe, describe_spec g h.date, ?_⟩
  rw [osRelease_eq]
  refine C45_osrelease_roundtrip_partial _ ?_ ?_
  · simp only [Sorted, List.pairwise_cons, List.mem_cons, List.not_mem_nil, or_false, forall_eq_or_imp,
      forall_eq, List.Pairwise.nil, and_true, false_imp_iff, implies_true]
    decide
  · intro e he
    have hdesc := describe_oneLine h.name
    simp only [List.mem_cons, List.not_mem_nil, or_false] at he
    rcases he with rfl | rfl | rfl
    · refine ⟨plainKey_id, ?_⟩
      cases hk : g.spec.sortKey with
      | some s => exact h.sortKey s (by simp [hk])
      | none => exact ⟨by unfold Newline; decide, by unfold Blank; decide, by unfold NoTrailing; decide⟩
    · refine ⟨plainKey_pretty_name, ?_, ?_, ?_⟩
      · exact oneLine_append (oneLine_append (oneLine_append h.label (oneLine_lit (by decide))) hdesc)
          (oneLine_lit (by decide))
      · obtain ⟨c, cs, e, hb⟩ := h.label_start
        intro x hx
        simp only [e, List.cons_append, List.head?_cons, Option.mem_def, Option.some.injEq] at hx
        subst hx; exact hb
      · intro x hx
        have : (lit ")").getLast? = some ')' := by decide
        simp only [List.getLast?_append, this, Option.some_or, Option.mem_def, Option.some.injEq] at hx
        subst hx; decide
    · refine ⟨plainKey_version_id, hdesc, ?_, describe_noTrailing g⟩
      intro x hx
      rw [describe_head] at hx
      simp only [Option.mem_def, Option.some.injEq] at hx
      subst hx
      unfold Blank; decide

namespace Sample
/-- An ordinary specialisation. -/
def gaming : Gen where
  version := 12
  buildTime := some ⟨2024, 1, 31⟩
  specialisationName := some (lit "gaming")
  spec :=
    { label := lit "NixOS 24.05", kernel := [], kernelParams := [], init := [], initrd := none,
      initrdSecrets := none, toplevel := [], sortKey := none }
end Sample

/-- The hypotheses are met by an ordinary specialisation. -/
example : OrdinaryTexts Sample.gaming where
  label := oneLine_lit (by decide)
  label_start := ⟨'N', lit "ixOS 24.05", by decide, by unfold Blank; decide, by decide, by decide⟩
  name := by rintro s ⟨⟩; exact oneLine_lit (by decide)
  sortKey := by rintro s ⟨⟩
  date := by rintro d ⟨⟩; decide

example : OsRelease.fromStr (display (osRelease Sample.gaming)) = [(lit "ID", lit "lanzaboote"),
    (lit "PRETTY_NAME", lit "NixOS 24.05 (Generation 12-gaming, 2024-01-31)"),
    (lit "VERSION_ID", lit "Generation 12-gaming, 2024-01-31")] := by decide +kernel

end Verif.Generation
