import Verif.Spec.Advice
import Verif.Lemmas.Calm
import Verif.Lemmas.StubName
import Verif.Props.Considered
import Verif.Props.Spelling
import Verif.Lemmas.SampleInstall
/-!
# C79: the advice about malformed generations
-/
namespace Verif.Tool
open Verif Generation Spelling

variable {env : Env} {cfg : Config} {fs : Fs}

/-! ### The text -/

theorem mem_insertSorted {n m : Nat} {l : List Nat} : m ∈ insertSorted n l ↔ m = n ∨ m ∈ l := by
  induction l with
  | nil => simp [insertSorted]
  | cons a as ih =>
    unfold insertSorted
    split
    · simp
    · split
      · next h => subst h; simp
      · simp only [List.mem_cons, ih]
        constructor
        · rintro (h | h | h)
          · exact .inr (.inl h)
          · exact .inl h
          · exact .inr (.inr h)
        · rintro (h | h | h)
          · exact .inr (.inl h)
          · exact .inl h
          · exact .inr (.inr h)

theorem insertSorted_sorted {n : Nat} {l : List Nat} (h : l.Pairwise (· < ·)) :
    (insertSorted n l).Pairwise (· < ·) := by
  induction l with
  | nil => simp [insertSorted]
  | cons a as ih =>
    obtain ⟨h1, h2⟩ := List.pairwise_cons.1 h
    unfold insertSorted
    split
    · next hlt =>
      refine List.pairwise_cons.2 ⟨fun x hx => ?_, h⟩
      rcases List.mem_cons.1 hx with rfl | hx
      · exact hlt
      · exact Nat.lt_trans hlt (h1 x hx)
    · split
      · exact h
      · refine List.pairwise_cons.2 ⟨fun x hx => ?_, ih h2⟩
        rcases mem_insertSorted.1 hx with rfl | hx
        · omega
        · exact h1 x hx

theorem brokenGens_spec (l : List Nat) :
    (brokenGens l).Pairwise (· < ·) ∧ ∀ n, n ∈ brokenGens l ↔ n ∈ l := by
  induction l with
  | nil => exact ⟨.nil, fun _ => .rfl⟩
  | cons a as ih =>
    refine ⟨insertSorted_sorted ih.1, fun n => ?_⟩
    show n ∈ insertSorted a (brokenGens as) ↔ _
    rw [mem_insertSorted, ih.2, List.mem_cons]

theorem warningText_eq (ns : List Nat) : warningText ns = adviceText ns := by
  unfold warningText adviceText
  rw [joinWith_eq, funext toDec_eq_decimal]
  rfl

theorem map_toDec_inj {a b : List Nat} (h : a.map toDec = b.map toDec) : a = b := by
  induction a generalizing b with
  | nil => cases b <;> simp_all
  | cons x xs ih =>
    cases b with
    | nil => simp at h
    | cons y ys =>
      simp only [List.map_cons, List.cons.injEq] at h
      rw [toDec_injective h.1, ih h.2]

/-- The message says which generations to delete. -/
theorem adviceText_injective {a b : List Nat} (h : adviceText a = adviceText b) : a = b := by
  rw [← warningText_eq, ← warningText_eq] at h
  unfold warningText at h
  have h := List.append_cancel_left (List.append_cancel_right h)
  have hs : ∀ (l : List Nat), ∀ x ∈ l.map toDec, ' ' ∉ x := by
    intro l x hx
    obtain ⟨n, -, rfl⟩ := List.mem_map.1 hx
    exact not_mem_toDec (by decide) n
  have hn : ∀ l : List Nat, l ≠ [] → joinWith [' '] (l.map toDec) ≠ [] := by
    intro l hl
    refine StubName.joinWith_ne_nil (by simpa using hl) ?_
    intro x hx
    obtain ⟨n, -, rfl⟩ := List.mem_map.1 hx
    exact toDec_ne_nil n
  by_cases ha : a = []
  · by_cases hb : b = []
    · rw [ha, hb]
    · subst ha
      exact absurd h.symm (hn b hb)
  · by_cases hb : b = []
    · subst hb
      exact absurd h (hn a ha)
    · refine map_toDec_inj ?_
      rw [← StubName.splitOn_joinWith (by simpa using ha) (hs a),
        ← StubName.splitOn_joinWith (by simpa using hb) (hs b), h]

/-! ### Which generations are listed -/

theorem readGenerations_broken (env : Env) (links : List Link) (s : State) :
    ∃ gens t b, readGenerations env links s = (.ok gens, { s with tick := t, broken := b }) ∧
      (∀ n ∈ b, n ∈ s.broken ∨ ∃ l ∈ links, l.version = n ∧ (Faultless env → env.bootJson l.path = none)) ∧
      (∀ n ∈ s.broken, n ∈ b) ∧ ∀ l ∈ links, env.bootJson l.path = none → l.version ∈ b := by
  induction links generalizing s with
  | nil => exact ⟨[], s.tick, s.broken, rfl, fun n h => .inl h, fun n h => h, by simp⟩
  | cons link links ih =>
    have bad : ∀ (hbad : Faultless env → env.bootJson link.path = none)
        (he : readGeneration env link s = (.ok none, { s with tick := s.tick + 1 })),
        ∃ gens t b, readGenerations env (link :: links) s = (.ok gens, { s with tick := t, broken := b }) ∧
          (∀ n ∈ b, n ∈ s.broken ∨ ∃ l ∈ link :: links, l.version = n ∧
            (Faultless env → env.bootJson l.path = none)) ∧
          (∀ n ∈ s.broken, n ∈ b) ∧ ∀ l ∈ link :: links, env.bootJson l.path = none → l.version ∈ b := by
      intro hbad he
      obtain ⟨gens, t, b, h1, h2, h3, h4⟩ :=
        ih { s with tick := s.tick + 1, broken := link.version :: s.broken }
      refine ⟨gens, t, b, ?_, ?_, ?_, ?_⟩
      · unfold readGenerations
        simp only [RM.bind_run, he, RM.modify_run]
        exact h1
      · intro n hn
        rcases h2 n hn with h | ⟨l, hl, h⟩
        · rcases List.mem_cons.1 h with rfl | h
          · exact .inr ⟨link, by simp, rfl, hbad⟩
          · exact .inl h
        · exact .inr ⟨l, by simp [hl], h⟩
      · intro n hn
        exact h3 n (List.mem_cons_of_mem _ hn)
      · intro l hl hj
        rcases List.mem_cons.1 hl with rfl | hl
        · exact h3 _ List.mem_cons_self
        · exact h4 l hl hj
    cases hf : env.os.fault s.tick with
    | true =>
      refine bad (fun h => ?_) ?_
      · rw [h] at hf; cases hf
      · simp [readGeneration, faulty, next, hf]
    | false =>
      cases hj : env.bootJson link.path with
      | none => exact bad (fun _ => hj) (by simp [readGeneration, faulty, next, hf, hj])
      | some j =>
        obtain ⟨gens, t, b, h1, h2, h3, h4⟩ := ih { s with tick := s.tick + 1 }
        refine ⟨fromBootJson link j :: gens, t, b, ?_, ?_, h3, ?_⟩
        · unfold readGenerations readGeneration faulty
          simp [next, hf, hj, h1]
        · intro n hn
          rcases h2 n hn with h | ⟨l, hl, h⟩
          · exact .inl h
          · exact .inr ⟨l, by simp [hl], h⟩
        · intro l hl h
          rcases List.mem_cons.1 hl with rfl | hl
          · rw [hj] at h; cases h
          · exact h4 l hl h

/-- What happens between reading the generations and garbage collection. -/
def afterReading (env : Env) (cfg : Config) (gens : List (Gen × List Gen)) : M Unit :=
  (if gens.isEmpty then RM.throw () else do
    installAll env cfg (gens.flatMap fun g => g.1 :: g.2)
    syncFs env.os cfg.esp) >>= fun _ => installSystemdBoot env cfg

theorem afterReading_calm (env : Env) (cfg : Config) (gens : List (Gen × List Gen)) :
    Calm (afterReading env cfg gens) :=
  .bind (.ite .throw (.bind (.installAll _ _ _) fun _ => .syncFs _ _)) fun _ => .installSystemdBoot _ _

/-- Which generations a run that succeeds could not read. -/
theorem run_broken (hok : (run env cfg (start cfg fs)).1 = .ok ()) :
    ∃ links, cfg.considered env = some links ∧
      (∀ n ∈ (run env cfg (start cfg fs)).2.broken,
        ∃ l ∈ links, l.version = n ∧ (Faultless env → env.bootJson l.path = none)) ∧
      (∀ l ∈ links, env.bootJson l.path = none → l.version ∈ (run env cfg (start cfg fs)).2.broken) ∧
      ((run env cfg (start cfg fs)).2.broken = [] ↔ .collecting ∈ (run env cfg (start cfg fs)).2.log) := by
  cases hl : cfg.considered env with
  | none =>
    have e : run env cfg (start cfg fs) = (.err (), start cfg fs) := by
      simp [run, hl, ofOption, RM.throw]
    rw [e] at hok; cases hok
  | some links =>
    obtain ⟨gens, t, b, h1, h2, -, h4⟩ := readGenerations_broken env links (start cfg fs)
    refine ⟨links, rfl, ?_⟩
    have hc := afterReading_calm env cfg gens
    have e : run env cfg (start cfg fs) =
        (afterReading env cfg gens >>= fun _ => collect env cfg)
          { start cfg fs with tick := t, broken := b } := by
      simp only [run, hl, ofOption, installGenerationsFromLinks, RM.bind_run, RM.pure_run, h1, afterReading]
      generalize (ite (gens.isEmpty = true) _ _ : M Unit) { start cfg fs with tick := t, broken := b } = x
      rcases x with ⟨r, s'⟩
      cases r <;> rfl
    rw [e] at hok ⊢
    revert hc hok
    generalize afterReading env cfg gens = m
    intro hok hc
    rw [RM.bind_run] at hok ⊢
    have hcs := hc { start cfg fs with tick := t, broken := b }
    rcases hm : m { start cfg fs with tick := t, broken := b } with ⟨r, s'⟩
    rw [hm] at hcs
    simp only [hm] at hok
    obtain ⟨hb, hlog⟩ := hcs
    have hb : s'.broken = b := hb
    have hnot : .collecting ∉ s'.log := by
      obtain ⟨l, h, h'⟩ := hlog
      have h : s'.log = l := h
      rw [h]; exact h'
    cases r with
    | err x => cases hok
    | panic => cases hok
    | ok u =>
      simp only at hok ⊢
      by_cases hbr : s'.broken = []
      · have e3 : collect env cfg s' = (do
            collectGarbage env.os cfg.paths.nixos
            collectGarbageWithFilter env.os cfg.paths.linux startsWithNixos
            collectMeasurements env cfg)
            { s' with fs := s'.fs.apply .collecting, log := s'.log ++ [Change.collecting] } := by
          simp [collect, RM.get, hbr, change]
        have hc3 : Calm (do
            collectGarbage env.os cfg.paths.nixos
            collectGarbageWithFilter env.os cfg.paths.linux startsWithNixos
            collectMeasurements env cfg) :=
          .bind (.collectGarbageWithFilter _ _ _) fun _ => .bind (.collectGarbageWithFilter _ _ _) fun _ =>
            .collectMeasurements _ _
        rw [e3]
        obtain ⟨k1, l, k2, -⟩ := hc3
          { s' with fs := s'.fs.apply .collecting, log := s'.log ++ [Change.collecting] }
        have k1 := k1.trans hb
        rw [k1, k2]
        refine ⟨fun n hn => (h2 n hn).resolve_left (by simp [start]), h4, ?_⟩
        exact ⟨fun _ => by simp, fun _ => by rw [← hb]; exact hbr⟩
      · have e3 : collect env cfg s' = (.ok (), s') := by simp [collect, RM.get, hbr]
        rw [e3]
        refine ⟨?_, ?_, ?_⟩
        · show ∀ n ∈ s'.broken, _
          rw [hb]
          intro n hn
          exact (h2 n hn).resolve_left (by simp [start])
        · show ∀ l ∈ links, _ → _ ∈ s'.broken
          rw [hb]; exact h4
        · exact ⟨fun h => absurd h hbr, fun h => absurd h hnot⟩

theorem link_number {num : Path → Nat} {p : Path} {n : Nat} (h : LinkNumber p (num p)) (h' : LinkNumber p n) :
    n = num p := by
  have e := (C25_link_number _ _).2 h'
  rw [(C25_link_number _ _).2 h] at e
  exact (Option.some.inj e).symm

theorem considered_newest {num : Path → Nat} (hnum : ∀ p ∈ cfg.links, LinkNumber p (num p))
    {links : List Link} (hc : cfg.considered env = some links) {l : Link} (hl : l ∈ links) :
    Newest cfg num l.path ∧ l.version = num l.path := by
  unfold Config.considered at hc
  cases hp : parseLinks env cfg.links with
  | none => simp [hp] at hc
  | some ls =>
    simp only [hp, Option.map_some, Option.some.injEq] at hc
    subst hc
    obtain ⟨h1, -, h3⟩ := parseLinks_numbers hp
    obtain ⟨hm, hlim⟩ := selected_few_newer hl
    obtain ⟨hpath, hn, -⟩ := h1 l hm
    have hv := link_number (hnum _ hpath) hn
    rw [h3 num hnum, hv] at hlim
    exact ⟨⟨hpath, hlim⟩, hv⟩

theorem newest_considered {num : Path → Nat} (hnum : ∀ p ∈ cfg.links, LinkNumber p (num p))
    {links : List Link} (hc : cfg.considered env = some links) {p : Path} (hp : p ∈ cfg.links)
    (hlim : cfg.configurationLimit = 0 ∨
      (cfg.links.map num).countP (num p ≤ ·) ≤ cfg.configurationLimit) :
    ∃ l ∈ links, l.path = p ∧ l.version = num p := by
  unfold Config.considered at hc
  cases hls : parseLinks env cfg.links with
  | none => simp [hls] at hc
  | some ls =>
    simp only [hls, Option.map_some, Option.some.injEq] at hc
    subst hc
    obtain ⟨h1, h2, h3⟩ := parseLinks_numbers hls
    obtain ⟨l, hl, rfl⟩ := h2 p hp
    have hv := link_number (hnum _ hp) (h1 l hl).2.1
    refine ⟨l, few_newer_selected hl ?_, rfl, hv⟩
    rw [h3 num hnum, hv]
    exact hlim

/-- If the run succeeds: what it warns of. -/
theorem warned_ok (hok : (run env cfg (start cfg fs)).1 = .ok ()) :
    warned env cfg fs = if (run env cfg (start cfg fs)).2.broken = [] then none
      else some (adviceText (brokenGens (run env cfg (start cfg fs)).2.broken)) := by
  unfold warned
  rcases h : run env cfg (start cfg fs) with ⟨r, s⟩
  rw [h] at hok
  cases hok
  simp only [warningText_eq]

theorem warned_some {t : Str} (hw : warned env cfg fs = some t) :
    (run env cfg (start cfg fs)).1 = .ok () := by
  unfold warned at hw
  rcases h : run env cfg (start cfg fs) with ⟨r, s⟩
  rw [h] at hw
  cases r with
  | ok u => rfl
  | err e => cases hw
  | panic => cases hw

/-- **C79** (warned or cleaned up). A run that succeeds either begins to collect garbage or warns the user,
and not both; a run that fails does not warn. -/
theorem C79_warned_or_collected :
    ((run env cfg (start cfg fs)).1 = .ok () →
      (warned env cfg fs = none ↔ .collecting ∈ (run env cfg (start cfg fs)).2.log)) ∧
    ((run env cfg (start cfg fs)).1 ≠ .ok () → warned env cfg fs = none) := by
  refine ⟨fun hok => ?_, fun h => ?_⟩
  · obtain ⟨links, -, -, -, h⟩ := run_broken hok
    rw [warned_ok hok, ← h]
    by_cases hb : (run env cfg (start cfg fs)).2.broken = [] <;> simp [hb]
  · cases hw : warned env cfg fs with
    | none => rfl
    | some t => exact absurd (warned_some hw) h

/-- **C79** (what the warning says). The warning is the fixed text with a list of generations, each number
once and in ascending order. Each belongs to one of the `configurationLimit` newest links. Each link the
installer must take into account whose bootspec is unreadable is listed, whatever else goes wrong. -/
theorem C79_warning {t : Str} (hw : warned env cfg fs = some t) (num : Path → Nat)
    (hnum : ∀ p ∈ cfg.links, LinkNumber p (num p)) :
    ∃ ns, t = adviceText ns ∧ ns ≠ [] ∧ ns.Pairwise (· < ·) ∧
      (∀ n ∈ ns, ∃ p, Newest cfg num p ∧ num p = n ∧ (Faultless env → env.bootJson p = none)) ∧
      ∀ p ∈ cfg.links, (cfg.configurationLimit = 0 ∨
        (cfg.links.map num).countP (num p ≤ ·) ≤ cfg.configurationLimit) →
        env.bootJson p = none → num p ∈ ns := by
  have hok := warned_some hw
  obtain ⟨links, hc, h1, h2, -⟩ := run_broken hok
  rw [warned_ok hok] at hw
  split at hw
  · cases hw
  · next hb =>
    obtain ⟨hs, hm⟩ := brokenGens_spec (run env cfg (start cfg fs)).2.broken
    refine ⟨_, (Option.some.inj hw).symm, ?_, hs, ?_, ?_⟩
    · intro e
      refine hb (List.eq_nil_iff_forall_not_mem.2 fun n hn => ?_)
      have := (hm n).2 hn
      rw [e] at this
      cases this
    · intro n hn
      obtain ⟨l, hl, rfl, hj⟩ := h1 n ((hm n).1 hn)
      obtain ⟨a, b⟩ := considered_newest hnum hc hl
      exact ⟨l.path, a, b.symm, hj⟩
    · intro p hp hlim hj
      obtain ⟨l, hl, rfl, e⟩ := newest_considered hnum hc hp hlim
      rw [← e]
      exact (hm _).2 (h2 l hl hj)

theorem Newest.not_older {num : Path → Nat} (hd : (cfg.links.map num).Nodup) {p : Path}
    (h : Newest cfg num p) : cfg.configurationLimit = 0 ∨
      (cfg.links.map num).countP (num p ≤ ·) ≤ cfg.configurationLimit := by
  refine h.2.imp id fun h' => ?_
  rw [countP_not_older hd (List.mem_map.2 ⟨p, h.1, rfl⟩)]
  omega

/-- **C79** (exact). If nothing fails and no two links have the same number, a run that succeeds lists
exactly those of the `configurationLimit` newest generations whose bootspec cannot be read, and warns
exactly if there are any. -/
theorem C79_exact (hok : (run env cfg (start cfg fs)).1 = .ok ()) (hf : Faultless env) (num : Path → Nat)
    (hnum : ∀ p ∈ cfg.links, LinkNumber p (num p)) (hd : (cfg.links.map num).Nodup) :
    ∃ ns, ns.Pairwise (· < ·) ∧
      (∀ n, n ∈ ns ↔ ∃ p, Newest cfg num p ∧ num p = n ∧ env.bootJson p = none) ∧
      warned env cfg fs = if ns = [] then none else some (adviceText ns) := by
  cases hw : warned env cfg fs with
  | none =>
    refine ⟨[], .nil, fun n => ⟨(fun h => by cases h), ?_⟩, rfl⟩
    rintro ⟨p, hp, -, hj⟩
    obtain ⟨links, hc, h1, h2, h3⟩ := run_broken hok
    obtain ⟨l, hl, rfl, e⟩ := newest_considered hnum hc hp.1 (hp.not_older hd)
    have := h2 l hl hj
    rw [h3.2 ((C79_warned_or_collected.1 hok).1 hw)] at this
    cases this
  | some t =>
    obtain ⟨ns, e, hne, hs, h1, h2⟩ := C79_warning hw num hnum
    refine ⟨ns, hs, fun n => ⟨fun h => ?_, ?_⟩, by rw [if_neg hne, e]⟩
    · obtain ⟨p, a, b, c⟩ := h1 n h
      exact ⟨p, a, b, c hf⟩
    · rintro ⟨p, a, rfl, c⟩
      exact h2 p a.1 (a.not_older hd) c

/-! ### Following the advice -/

theorem without_numbers {num : Path → Nat} (hnum : ∀ p ∈ cfg.links, LinkNumber p (num p)) (ns : List Nat) :
    ∀ p ∈ (cfg.without num ns).links, LinkNumber p (num p) :=
  fun p hp => hnum p (List.mem_filter.1 hp).1

/-- **C79** (the advice works). Without a configuration limit: once the generations the warning lists are
deleted, a run that succeeds and in which nothing fails does not warn again but collects the garbage. -/
theorem C79_advice_works {env' : Env} {fs' : Fs} {ns : List Nat}
    (hw : warned env cfg fs = some (adviceText ns)) (num : Path → Nat)
    (hnum : ∀ p ∈ cfg.links, LinkNumber p (num p)) (hl : cfg.configurationLimit = 0)
    (hf : Faultless env') (hj : env'.bootJson = env.bootJson)
    (hok : (run env' (cfg.without num ns) (start (cfg.without num ns) fs')).1 = .ok ()) :
    warned env' (cfg.without num ns) fs' = none ∧
      .collecting ∈ (run env' (cfg.without num ns) (start (cfg.without num ns) fs')).2.log := by
  have hn : warned env' (cfg.without num ns) fs' = none := by
    cases hw' : warned env' (cfg.without num ns) fs' with
    | none => rfl
    | some t =>
      obtain ⟨ns', -, hne, -, h1, -⟩ := C79_warning hw' num (without_numbers hnum ns)
      obtain ⟨ns₀, e, -, -, -, h2⟩ := C79_warning hw num hnum
      obtain rfl := adviceText_injective e
      obtain ⟨n, hn⟩ := List.exists_mem_of_ne_nil _ hne
      obtain ⟨p, hp, rfl, hj'⟩ := h1 n hn
      obtain ⟨hp1, hp2⟩ := List.mem_filter.1 hp.1
      have := h2 p hp1 (.inl hl) (by rw [← hj]; exact hj' hf)
      exact absurd this (by simpa using hp2)
  exact ⟨hn, (C79_warned_or_collected.1 hok).1 hn⟩

theorem num_inj {num : Path → Nat} {l : List Path} (hd : (l.map num).Nodup) {p q : Path} (hp : p ∈ l)
    (hq : q ∈ l) (h : num p = num q) : p = q := by
  induction l with
  | nil => cases hp
  | cons a as ih =>
    rw [List.map_cons] at hd
    obtain ⟨h1, h2⟩ := List.nodup_cons.1 hd
    rcases List.mem_cons.1 hp with e | hp'
    · rcases List.mem_cons.1 hq with e' | hq'
      · rw [e, e']
      · exact absurd (List.mem_map.2 ⟨q, hq', by rw [← h, e]⟩) h1
    · rcases List.mem_cons.1 hq with e' | hq'
      · exact absurd (List.mem_map.2 ⟨p, hp', by rw [h, e']⟩) h1
      · exact ih h2 hp' hq'

/-- **C79** (the advice is harmless). If nothing fails and no two links have the same number: deleting the
generations the warning lists takes nothing away from what is installed. Without a limit it also adds
nothing; with one, older generations can take the place of those that are deleted. -/
theorem C79_advice_harmless {ns : List Nat} (hw : warned env cfg fs = some (adviceText ns))
    (hf : Faultless env) (num : Path → Nat) (hnum : ∀ p ∈ cfg.links, LinkNumber p (num p))
    (hd : (cfg.links.map num).Nodup) (g : Gen) :
    (Considers env cfg g → Considers env (cfg.without num ns) g) ∧
      (cfg.configurationLimit = 0 → Considers env (cfg.without num ns) g → Considers env cfg g) := by
  have hsub : ((cfg.without num ns).links.map num).Sublist (cfg.links.map num) :=
    (List.filter_sublist (p := fun p => decide (num p ∉ ns))).map num
  rw [C61_considered_iff num hnum hd, C61_considered_iff num (without_numbers hnum ns) (hsub.nodup hd)]
  refine ⟨?_, ?_⟩
  · rintro ⟨p, j, hp, hj, hs, hlim⟩
    refine ⟨p, j, List.mem_filter.2 ⟨hp, ?_⟩, hj, hs, hlim.imp id fun h => ?_⟩
    · simp only [decide_eq_true_eq]
      intro hm
      obtain ⟨ns₀, e, -, -, h1, -⟩ := C79_warning hw num hnum
      obtain rfl := adviceText_injective e
      obtain ⟨q, hq, hqn, hqj⟩ := h1 _ hm
      obtain rfl := num_inj hd hq.1 hp hqn
      rw [hqj hf] at hj
      cases hj
    · exact Nat.lt_of_le_of_lt hsub.countP_le h
  · rintro hl ⟨p, j, hp, hj, hs, -⟩
    exact ⟨p, j, (List.mem_filter.1 hp).1, hj, hs, .inl hl⟩

/-- **C79** (the advice comes to an end). Each time the advice is followed fewer links are left. -/
theorem C79_advice_ends {ns : List Nat} (hw : warned env cfg fs = some (adviceText ns))
    (num : Path → Nat) (hnum : ∀ p ∈ cfg.links, LinkNumber p (num p)) :
    (cfg.without num ns).links.length < cfg.links.length := by
  obtain ⟨ns₀, e, hne, -, h1, -⟩ := C79_warning hw num hnum
  obtain rfl := adviceText_injective e
  obtain ⟨n, hn⟩ := List.exists_mem_of_ne_nil _ hne
  obtain ⟨p, hp, rfl, -⟩ := h1 n hn
  exact List.length_filter_lt_length_iff_exists.2 ⟨p, hp.1, by simpa using hn⟩

end Verif.Tool

namespace Verif.Tool.Sample
open Verif Generation

/-- The sample with a third link whose bootspec is unreadable. -/
def cfgMalformed : Config := { cfg with links := [link3, link2, link1], configurationLimit := 0 }

def num (p : Path) : Nat := (parseVersion p).getD 0

theorem num_links (links : List Path) (h : links.all (fun p => (parseVersion p).isSome) = true) :
    ∀ p ∈ links, LinkNumber p (num p) := by
  intro p hp
  refine (C25_link_number p _).1 ?_
  have := List.all_eq_true.1 h p hp
  unfold num
  cases e : parseVersion p with
  | none => rw [e] at this; cases this
  | some n => rfl

theorem faultless_good : Faultless good := fun _ => rfl

theorem bad_ok : (run good cfgMalformed (start cfgMalformed disk)).1 = .ok () := by decide +kernel
theorem bad_warned : warned good cfgMalformed disk = some (adviceText [3]) := by decide +kernel

/-- The warning, in full. -/
example : warned good cfgMalformed disk = some (lit "Garbage collection is disabled because you have malformed NixOS generations that do
not contain a readable bootspec document.

Remove the malformed generations to re-enable garbage collection with
`nix-env --delete-generations 3`
") := by rw [bad_warned]; decide +kernel

example : ∃ ns, ns.Pairwise (· < ·) ∧
    (∀ n, n ∈ ns ↔ ∃ p, Newest cfgMalformed num p ∧ num p = n ∧ good.bootJson p = none) ∧
    warned good cfgMalformed disk = if ns = [] then none else some (adviceText ns) :=
  C79_exact bad_ok faultless_good num (num_links _ (by decide +kernel)) (by decide +kernel)

/-- After the advice the garbage is collected, in whatever state the machine is by then. -/
example : warned good (cfgMalformed.without num [3]) disk = none ∧
    .collecting ∈ (run good (cfgMalformed.without num [3]) (start (cfgMalformed.without num [3]) disk)).2.log :=
  C79_advice_works bad_warned num (num_links _ (by decide +kernel)) rfl faultless_good rfl (by decide +kernel)

example : Considers good (cfgMalformed.without num [3]) (fromBootJson ⟨2, link2, good.buildTime link2⟩ ⟨spec2, []⟩).1 :=
  (C79_advice_harmless bad_warned faultless_good num (num_links _ (by decide +kernel)) (by decide +kernel) _).1
    (considers_iff.2 (by decide +kernel))

example : (cfgMalformed.without num [3]).links.length < cfgMalformed.links.length :=
  C79_advice_ends bad_warned num (num_links _ (by decide +kernel))

/-- Two links that are older than the newest one and unreadable. -/
def cfgTwo : Config :=
  { cfg with links := [link2, [lit "nix", lit "other-1-link"], [lit "nix", lit "other-0-link"]]
             configurationLimit := 2 }

end Verif.Tool.Sample

namespace Verif.Tool
open Sample

/-- **Finding.** With a configuration limit the promise of the warning can fail: with a limit of two,
generation 2 readable and generations 1 and 0 malformed, the installer says to delete generation 1. Once
that is done generation 0 takes its place, and again no garbage is collected. -/
theorem C79_finding_again :
    (∀ p ∈ cfgTwo.links, Generation.LinkNumber p (num p)) ∧ (cfgTwo.links.map num).Nodup ∧
    warned good cfgTwo disk = some (adviceText [1]) ∧
    warned good (cfgTwo.without num [1]) disk = some (adviceText [0]) ∧
    .collecting ∉ (run good (cfgTwo.without num [1]) (start (cfgTwo.without num [1]) disk)).2.log :=
  ⟨num_links _ (by decide +kernel), by decide +kernel, by decide +kernel, by decide +kernel,
    by decide +kernel⟩

/-- **Finding.** The advice can be wrong: if the second file that is read once fails to be read, the
installer calls the newest generation malformed and says to delete it, although its bootspec is fine. -/
theorem C79_finding_transient :
    warned (env (· = 1)) cfg disk = some (adviceText [2]) ∧
      ((env (· = 1)).bootJson link2).isSome ∧ num link2 = 2 ∧ warned good cfg disk = none := by
  refine ⟨by decide +kernel, by decide +kernel, by decide +kernel, by decide +kernel⟩

end Verif.Tool
