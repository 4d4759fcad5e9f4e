import Verif.Lemmas.Calendar
import Verif.Props.Considered
import Verif.Lemmas.SampleInstall
/-!
# C77: the date in the boot menu
-/
namespace Verif.Calendar
open Verif Generation

theorem year_tomorrow (d : Date) : d.year ≤ (tomorrow d).year := by
  unfold tomorrow
  split
  · exact Int.le_refl _
  · split <;> simp; omega

theorem year_mono_nat (n : Int) (k : Nat) : (dateOfDay n).year ≤ (dateOfDay (n + k)).year := by
  induction k with
  | zero => simp
  | succ k ih =>
    rw [Int.natCast_succ, ← Int.add_assoc, dateOfDay_succ]
    exact Int.le_trans ih (year_tomorrow _)

theorem year_mono {n m : Int} (h : n ≤ m) : (dateOfDay n).year ≤ (dateOfDay m).year := by
  have := year_mono_nat n (m - n).toNat
  rwa [show n + ((m - n).toNat : Int) = m by omega] at this

/-- The times that can be represented are those in years of at most four digits. -/
theorem representable_iff (t : Int) : (-377705116800 ≤ t ∧ t ≤ 253402300799) ↔
    (dateOfDay (t / 86400)).year.natAbs ≤ 9999 := by
  have first : (dateOfDay (-4371587)).year = -9999 := by decide +kernel
  have before : (dateOfDay (-4371588)).year = -10000 := by decide +kernel
  have last : (dateOfDay 2932896).year = 9999 := by decide +kernel
  have after : (dateOfDay 2932897).year = 10000 := by decide +kernel
  constructor
  · rintro ⟨h1, h2⟩
    have a := year_mono (n := -4371587) (m := t / 86400) (by omega)
    have b := year_mono (n := t / 86400) (m := 2932896) (by omega)
    omega
  · intro h
    refine ⟨?_, ?_⟩
    · apply Int.not_lt.1
      intro hlt
      have a := year_mono (n := t / 86400) (m := -4371588) (by omega)
      omega
    · apply Int.not_lt.1
      intro hlt
      have a := year_mono (n := 2932897) (m := t / 86400) (by omega)
      omega

/-- The date that is found is a date that exists, with a year of at most four digits. -/
theorem readBuildTime_exists {times : Times} {d : Date} (h : readBuildTime times = some d) :
    Exists d ∧ d.year.natAbs ≤ 9999 := by
  unfold readBuildTime at h
  cases hl : times.link with
  | none => simp [hl] at h
  | some t =>
    simp only [hl, Option.bind_some, dateOfTimestamp] at h
    split at h
    · next hr =>
      cases h
      exact ⟨dateOfDay_exists _, (representable_iff t).1 hr⟩
    · cases h

/-- What is shown is the time at which the link was made. -/
theorem timeText_of_dateText {times : Times} {s : Str} (h : DateText (readBuildTime times) s) :
    TimeText times.link s := by
  unfold readBuildTime at h
  cases hl : times.link with
  | none => rw [hl] at h; exact h
  | some t =>
    rw [hl] at h
    refine ⟨dateOfDay (t / 86400), (inDay_iff _ _).2 rfl, ?_⟩
    simp only [Option.bind_some, dateOfTimestamp, representable_iff] at h
    split
    · next hr => rw [if_pos hr] at h; exact h
    · next hr => rw [if_neg hr] at h; exact h

theorem length_of_exists {d : Date} (h : Exists d) : d.month < 100 ∧ d.day < 100 := by
  have := one_le_monthLength d.year d.month
  obtain ⟨⟨_, _⟩, _, _⟩ := h
  omega

/-- **C77** (the calendar). The second `t` is in the day `d` exactly if `d` is what the installer computes for
it, given that the year has at most four digits; and every second is in exactly one day, which exists. -/
theorem C77_calendar (times : Times) (d : Date) :
    readBuildTime times = some d ↔ ∃ t, times.link = some t ∧ InDay t d ∧ d.year.natAbs ≤ 9999 := by
  constructor
  · intro h
    have he := readBuildTime_exists h
    unfold readBuildTime at h
    cases hl : times.link with
    | none => simp [hl] at h
    | some t =>
      simp only [hl, Option.bind_some, dateOfTimestamp] at h
      split at h
      · cases h; exact ⟨t, rfl, (inDay_iff _ _).2 rfl, he.2⟩
      · cases h
  · rintro ⟨t, ht, hd, hy⟩
    rw [inDay_iff] at hd
    subst hd
    simp only [readBuildTime, ht, Option.bind_some, dateOfTimestamp, representable_iff]
    rw [if_pos hy]

/-- **C77** (every second has its day). -/
theorem C77_one_day (t : Int) : ∃ d, InDay t d ∧ Exists d ∧ ∀ e, InDay t e → e = d :=
  ⟨_, (inDay_iff t _).2 rfl, dateOfDay_exists _, fun e he => (inDay_iff t e).1 he⟩

/-- A later date: the next day is after, and so on. -/
theorem before_tomorrow {d : Date} (h : Exists d) : Before d (tomorrow d) := by
  unfold Before tomorrow
  split
  · simp
  · split
    · simp
    · simp; omega

theorem Before.trans {a b c : Date} (h : Before a b) (h' : Before b c) : Before a c := by
  unfold Before at *; omega

theorem before_add (n : Int) (k : Nat) : Before (dateOfDay n) (dateOfDay (n + (k + 1 : Nat))) := by
  induction k with
  | zero =>
    show Before _ (dateOfDay (n + 1))
    rw [dateOfDay_succ]; exact before_tomorrow (dateOfDay_exists _)
  | succ k ih =>
    refine ih.trans ?_
    rw [show n + ((k + 1 + 1 : Nat) : Int) = n + ((k + 1 : Nat) : Int) + 1 by omega, dateOfDay_succ]
    exact before_tomorrow (dateOfDay_exists _)

/-- **C77** (later links do not have earlier dates). -/
theorem C77_chronological {t t' : Int} {d d' : Date} (hd : InDay t d) (hd' : InDay t' d') (h : t ≤ t') :
    d = d' ∨ Before d d' := by
  rw [inDay_iff] at hd hd'
  subst hd hd'
  by_cases e : t / 86400 = t' / 86400
  · exact .inl (by rw [e])
  · right
    have := before_add (t / 86400) (t' / 86400 - t / 86400 - 1).toNat
    rwa [show t / 86400 + (((t' / 86400 - t / 86400 - 1).toNat + 1 : Nat) : Int) = t' / 86400 by omega] at this

/-- The last second of a leap day, and the first one of the day after. -/
example : InDay 951868799 ⟨2000, 2, 29⟩ ∧ InDay 951868800 ⟨2000, 3, 1⟩ ∧ InDay (-1) ⟨1969, 12, 31⟩ ∧
    InDay 4107542400 ⟨2100, 3, 1⟩ ∧ InDay 4107542399 ⟨2100, 2, 28⟩ := by
  simp only [inDay_iff]
  decide +kernel

end Verif.Calendar

namespace Verif.Tool
open Verif Generation Calendar

variable {env : Env} {cfg : Config}

theorem considered_from {g : Gen} (hg : Considers env cfg g) :
    ∃ p ∈ cfg.links, LinkNumber p g.version ∧ g.buildTime = env.buildTime p := by
  obtain ⟨links, l, j, hc, hl, -, hg⟩ := hg.ex
  unfold Config.considered at hc
  cases hp : parseLinks env cfg.links with
  | none => simp [hp] at hc
  | some ls =>
    simp only [hp, Option.map_some, Option.some.injEq] at hc
    subst hc
    obtain ⟨h1, -, -⟩ := parseLinks_numbers hp
    obtain ⟨hpath, hn, hb⟩ := h1 l (selected_few_newer hl).1
    refine ⟨l.path, hpath, ?_⟩
    rw [← hb]
    cases (saidBy_iff l j g).1 hg with
    | itself hv hd _ _ => exact ⟨hv ▸ hn, hd⟩
    | specialisation _ hv hd _ _ => exact ⟨hv ▸ hn, hd⟩

/-- **C77** (dates). The dates of installed generations exist and can be written with a year of four digits
and a month and day of two. -/
theorem C77_dates {g : Gen} (hg : Considers env cfg g) :
    ∀ d ∈ g.buildTime, Exists d ∧ d.year.natAbs < 10000 ∧ d.month < 100 ∧ d.day < 100 := by
  obtain ⟨p, -, -, hb⟩ := considered_from hg
  intro d hd
  rw [hb] at hd
  obtain ⟨h1, h2⟩ := readBuildTime_exists hd
  exact ⟨h1, by omega, length_of_exists h1⟩

/-- **C77** (in the menu). For every generation and specialisation that is installed there is the link on the
command line with its number, and the version in the text of the boot entry is
`Generation <number>[-<name>], <date>`, and its title is the label and this in parentheses, where the date is
that of the second at which this link, not what it leads to, was last changed. -/
theorem C77_menu_date {g : Gen} (hg : Considers env cfg g) :
    ∃ p ∈ cfg.links, LinkNumber p g.version ∧ ∃ date, TimeText (env.times p).link date ∧
      (lit "VERSION_ID", described g date) ∈ osRelease g ∧
      (lit "PRETTY_NAME", g.spec.label ++ lit " (" ++ described g date ++ lit ")") ∈ osRelease g := by
  obtain ⟨p, hp, hn, hb⟩ := considered_from hg
  obtain ⟨date, hd, he⟩ := describe_spec g fun d h => (C77_dates hg d h).2
  rw [hb] at hd
  refine ⟨p, hp, hn, date, timeText_of_dateText hd, ?_⟩
  rw [← he, osRelease_eq]
  simp

/-- The sample generation's link was made at noon of 2025-01-31, the system it leads to has the time of all
things in the Nix store. -/
example : TimeText (Sample.good.times Sample.link1).link (lit "2025-01-31") ∧
    (Sample.good.times Sample.link1).target = some 1 :=
  ⟨⟨⟨2025, 1, 31⟩, (inDay_iff _ _).2 (by decide +kernel), by
    rw [if_pos (by decide)]
    exact ⟨_, _, _, yearText_spec (by decide), pad2_twoDigits (by decide), pad2_twoDigits (by decide),
      by decide +kernel⟩⟩, rfl⟩

/-- Its specialisation is installed, and its entry shows the same date. -/
example : ∃ g, Considers Sample.good Sample.cfg g ∧ g.specialisationName = some (lit "foo") ∧
    (lit "VERSION_ID", lit "Generation 1-foo, 2025-01-31") ∈ osRelease g :=
  ⟨⟨1, some ⟨2025, 1, 31⟩, some (lit "foo"), Sample.spec1s⟩,
    Sample.considers_iff.2 (by decide +kernel), rfl, by decide +kernel⟩

end Verif.Tool
