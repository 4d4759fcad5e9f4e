import Verif.Lemmas.LoaderPhase
import Verif.Lemmas.Measured
import Verif.Lemmas.Protect
import Verif.Spec.BootLoader
import Verif.Props.Version
import Verif.Props.OsRelease
/-!
# The files of the boot loader during a run
-/
namespace Verif.Tool
open Verif StubName Generation Version.Spec OsRelease.Spec

variable {env : Env} {cfg : Config} {ld : Scope} {fs : Fs}

/-! ### Changes and paths -/

theorem Fs.get_del_ne (f : Fs) {p q : Path} (h : q ≠ p) : (f.del p).get q = f.get q := by
  by_cases hq : q = []
  · simp [hq]
  · simp only [get, del, hq, if_false]
    have : (f.nodes.filter fun e => decide (e.1 ≠ p)).find? (fun e => e.1 == q) =
        f.nodes.find? (fun e => e.1 == q) := by
      induction f.nodes with
      | nil => rfl
      | cons e l ih =>
        by_cases h1 : e.1 = p
        · have h2 : (e.1 == q) = false := by simp [h1, Ne.symm h]
          rw [List.filter_cons_of_neg (by simp [h1]), List.find?_cons_of_neg (by simp [h2]), ih]
        · rw [List.filter_cons_of_pos (by simp [h1]), List.find?_cons, List.find?_cons, ih]
    rw [this]

theorem Fs.get_put_ne (f : Fs) {p q : Path} (n : Node) (h : q ≠ p) : (f.put p n).get q = f.get q := by
  have h1 := f.get_del_ne h
  by_cases hq : q = []
  · simp [hq]
  · rw [← h1]
    simp only [get, del, put, hq, if_false]
    rw [List.find?_cons_of_neg (by simp [Ne.symm h])]

/-- What a change does not touch stays. -/
theorem untouched {f : Fs} {c : Change} {q : Path} (h : ¬ Touches c q) :
    (f.apply c).get q = f.get q := by
  cases c with
  | mkdir p => exact f.get_put_ne _ (Ne.symm h)
  | create p => exact f.get_put_ne _ (Ne.symm h)
  | write p d => exact f.get_put_ne _ (Ne.symm h)
  | fsync p => rfl
  | rename a b d =>
    simp only [Touches, not_or] at h
    simp only [Fs.apply]
    split <;> simp [Fs.get_put_ne _ _ (Ne.symm h.2), Fs.get_del_ne _ (Ne.symm h.1)]
  | chmod p m => rfl
  | syncfs _ => rfl
  | unlink p => exact f.get_del_ne (Ne.symm h)
  | rmdir p => exact f.get_del_ne (Ne.symm h)
  | collecting => rfl

theorem untouched_file {f : Fs} {c : Change} {q : Path} (h : ¬ Touches c q) :
    (f.apply c).fileAt q = f.fileAt q := by
  unfold Fs.fileAt
  rw [untouched h]

theorem Replaces.touches {to : Path} {S : Bytes → Prop} {dur : Bool} {f : Fs} {c : Change}
    (h : Replaces to S dur f c) {q : Path} (ht : Touches c q) :
    q = tmpOf to ∨ q = to ∨ f.get q = none := by
  cases h with
  | mkdir a b c => cases ht; exact Or.inr (Or.inr b)
  | create a b => exact Or.inl ht.symm
  | write a => exact Or.inl ht.symm
  | fsync => exact ht.elim
  | rename a b c d e g => rcases ht with rfl | rfl <;> simp
  | chmod => exact Or.inr (Or.inl ht.symm)
  | bits => exact Or.inl ht.symm

theorem Outputs.touches {p : Path} {f : Fs} {c : Change} (h : Outputs p f c) {q : Path}
    (ht : Touches c q) : q = p ∨ f.get q = none := by
  cases h with
  | mkdir a b c => cases ht; exact Or.inr b
  | create a b => exact Or.inl ht.symm
  | write a => exact Or.inl ht.symm
  | chmod => exact Or.inl ht.symm

theorem GcAny.touches {roots : List Path} {f : Fs} {c : Change} (h : GcAny cfg roots f c) {q : Path}
    (ht : Touches c q) : ∃ d, DoomedAny cfg roots d ∧ d <+: q := by
  cases h with
  | nixos h => cases h with
    | unlink a b => cases ht; exact ⟨_, .nixos a, b⟩
    | rmdir a b => cases ht; exact ⟨_, .nixos a, b⟩
  | linux h => cases h with
    | unlink a b => cases ht; exact ⟨_, .linux a, b⟩
    | rmdir a b => cases ht; exact ⟨_, .linux a, b⟩
  | lock hp h => cases h with
    | unlink a b => cases ht; exact ⟨_, .lock hp a, b⟩
    | rmdir a b => cases ht; exact ⟨_, .lock hp a, b⟩

/-! ### The boot loader's paths -/

/-- The files of the boot loader: the two binaries and the two measurements. -/
inductive LoaderPath (cfg : Config) : Path → Prop
  | binary {q : Path} (h : IsLoader cfg q) : LoaderPath cfg q
  | next {p : Path} (hp : cfg.pcrlockDirectory = some p) : LoaderPath cfg (nextFile p)
  | current {p : Path} (hp : cfg.pcrlockDirectory = some p) : LoaderPath cfg (currentFile p)

theorem LoaderPath.lastTwo {q : Path} (h : LoaderPath cfg q) : ∃ d n, lastTwo q = some (d, n) ∧
    d ∈ [lit "BOOT", lit "systemd", lit "630-bootloader.pcrlock.d"] := by
  cases h with
  | binary h =>
    rcases h with rfl | rfl
    · exact ⟨_, _, fallbackFile_lastTwo cfg, by simp⟩
    · exact ⟨_, _, systemdFile_lastTwo cfg, by simp⟩
  | next hp => exact ⟨_, _, nextFile_lastTwo _, by simp⟩
  | current hp => exact ⟨_, _, currentFile_lastTwo _, by simp⟩

theorem LoaderPath.not_tmp {q : Path} (h : LoaderPath cfg q) : ¬ IsTmp q := by
  cases h with
  | binary h =>
    rcases h with rfl | rfl
    · exact fallback_not_tmp cfg
    · exact systemd_not_tmp cfg
  | next hp => exact isMeasurement_not_isTmp ⟨_, hp, Or.inr (Or.inl rfl)⟩
  | current hp => exact isMeasurement_not_isTmp ⟨_, hp, Or.inr (Or.inr rfl)⟩

theorem lastTwo_ne {q q' : Path} {d n d' n' : Str} (h : lastTwo q = some (d, n))
    (h' : lastTwo q' = some (d', n')) (hd : d ≠ d') : q ≠ q' := by
  rintro rfl
  rw [h] at h'
  simp at h'
  exact hd h'.1

/-- Installing generations and `loader.conf` does not replace the boot loader. -/
theorem Target.ne_loader {dur : Bool} {to q : Path} (hl : ¬ ld.loader) (h : Target env cfg ld dur to)
    (hq : LoaderPath cfg q) : q ≠ to := by
  obtain ⟨d, n, e, hd⟩ := hq.lastTwo
  have hd1 : d ≠ lit "nixos" := by rintro rfl; exact absurd hd (by decide)
  have hd2 : d ≠ lit "Linux" := by rintro rfl; exact absurd hd (by decide)
  have hd3 : d ≠ lit "loader" := by rintro rfl; exact absurd hd (by decide)
  cases h with
  | kernel _ _ _ _ h => rw [h]; exact lastTwo_ne e (caFile_lastTwo _ _ _) hd1
  | initrd _ _ _ _ h => rw [h]; exact lastTwo_ne e (caFile_lastTwo _ _ _) hd1
  | entry _ _ _ h => rw [h]; exact lastTwo_ne e (entryFile_lastTwo _ _) hd2
  | loader h => exact absurd h hl
  | conf h => rw [h]; exact lastTwo_ne e (confFile_lastTwo _) hd3

theorem InstallStep.touches_loader (hs : SafeInput env cfg) (hl : ¬ ld.loader) {f : Fs} {c : Change}
    (h : InstallStep env cfg ld f c) {q : Path} (hq : LoaderPath cfg q) (ht : Touches c q) :
    f.get q = none := by
  cases h with
  | replace t r =>
    rcases r.touches ht with e | e | e
    · exact absurd (e ▸ (t.tmp hs).1) hq.not_tmp
    · exact absurd e (t.ne_loader hl hq)
    · exact e
  | @measured g p hg ho hp o =>
    rcases o.touches ht with e | e
    · obtain ⟨d, n, e', hd⟩ := hq.lastTwo
      have hd1 : d ≠ lit "635-lanzaboote.pcrlock.d" := by rintro rfl; exact absurd hd (by decide)
      exact absurd e (lastTwo_ne e' (measurementFile_lastTwo _ _) hd1)
    · exact e
  | next h => exact absurd h hl
  | current h => exact absurd h hl
  | sync _ e => subst e; exact ht.elim

/-- The configuration of the boot loader. -/
theorem conf_touches_loader (hs : SafeInput env cfg) {S : Bytes → Prop} {dur : Bool} {f : Fs} {c : Change}
    (r : Replaces (confFile cfg) S dur f c) {q : Path} (hq : LoaderPath cfg q) (ht : Touches c q) :
    f.get q = none := by
  have t : Target env cfg .conf true (confFile cfg) := .conf rfl
  rcases r.touches ht with e | e | e
  · exact absurd (e ▸ (t.tmp hs).1) hq.not_tmp
  · exact absurd e (t.ne_loader id hq)
  · exact e

theorem bootDir_root (cfg : Config) (fs : Fs) : cfg.esp ++ [lit "EFI", lit "BOOT"] ∈ (start cfg fs).roots := by
  have : cfg.esp ++ [lit "EFI", lit "BOOT"] = cfg.paths.efiFallbackDir := by
    show _ = (cfg.esp.join (lit "EFI")).join (lit "BOOT")
    rw [join_plain _ (.of_length (by decide) (by decide)),
      join_plain _ (.of_length (by decide) (by decide))]
    simp
  rw [this]
  simp [start, EspPaths.iter]

theorem systemdDir_root (cfg : Config) (fs : Fs) :
    cfg.esp ++ [lit "EFI", lit "systemd"] ∈ (start cfg fs).roots := by
  have : cfg.esp ++ [lit "EFI", lit "systemd"] = cfg.paths.systemd := by
    show _ = (cfg.esp.join (lit "EFI")).join (lit "systemd")
    rw [join_plain _ (.of_length (by decide) (by decide)),
      join_plain _ (.of_length (by decide) (by decide))]
    simp
  rw [this]
  simp [start, EspPaths.iter]

theorem fallback_root (cfg : Config) (fs : Fs) : fallbackFile cfg ∈ (start cfg fs).roots := by
  rw [← fallback_target]; simp [start, EspPaths.iter]

theorem systemd_root (cfg : Config) (fs : Fs) : systemdFile cfg ∈ (start cfg fs).roots := by
  rw [← systemd_target]; simp [start, EspPaths.iter]

/-- A directory below the ESP is not above the measurements. -/
theorem below_esp_not_above (hsep : Separate cfg) {p : Path} (hp : cfg.pcrlockDirectory = some p)
    {d n : Str} (hd : d = lit "nixos" ∨ d = lit "Linux") (hn : n ≠ d) :
    ¬ cfg.esp ++ [lit "EFI", d] <+: p ++ [lit "630-bootloader.pcrlock.d", n] := by
  intro h
  rw [show p ++ [lit "630-bootloader.pcrlock.d", n] =
    (p ++ [lit "630-bootloader.pcrlock.d"]) ++ [n] by simp] at h
  have e' : cfg.esp ++ [lit "EFI", d] = (cfg.esp ++ [lit "EFI"]) ++ [d] := by simp
  rcases prefix_snoc_iff.1 h with h | h
  · rcases prefix_snoc_iff.1 h with h | h
    · rcases hd with rfl | rfl
      · exact (hsep _ hp).2.1 h
      · exact (hsep _ hp).2.2 h
    · rw [e'] at h
      have := (List.cons_eq_cons.1 (List.append_inj' h rfl).2).1
      rcases hd with rfl | rfl <;> exact absurd this (by decide)
  · rw [e'] at h
    exact hn (List.cons_eq_cons.1 (List.append_inj' h rfl).2).1.symm

theorem not_doomed_bootloader (hsep : Separate cfg) {R : List Path} {p : Path}
    (hp : cfg.pcrlockDirectory = some p) {n : Str} (hn : n = lit "next.pcrlock" ∨ n = lit "current.pcrlock")
    {q : Path} (hq : q <+: p ++ [lit "630-bootloader.pcrlock.d", n]) : ¬ DoomedAny cfg R q := by
  have hn1 : n ≠ lit "nixos" := by rcases hn with rfl | rfl <;> decide
  have hn2 : n ≠ lit "Linux" := by rcases hn with rfl | rfl <;> decide
  intro h
  cases h with
  | nixos h => exact below_esp_not_above hsep hp (Or.inl rfl) hn1 (h.below.trans hq)
  | linux h => exact below_esp_not_above hsep hp (Or.inr rfl) hn2 (h.below.trans hq)
  | @lock p' hp' h =>
    rw [hp] at hp'
    cases hp'
    have h' := h.below.trans hq
    unfold lockDir at h'
    rw [List.prefix_append_right_inj] at h'
    simp at h'
    exact absurd h' (by decide)

theorem GcAny.touches_loader (hsep : Separate cfg) {R : List Path}
    (hr : ∀ p ∈ (start cfg fs).roots, p ∈ R) {f : Fs} {c : Change} (h : GcAny cfg R f c) {q : Path}
    (hq : LoaderPath cfg q) : ¬ Touches c q := by
  intro ht
  obtain ⟨d, hd, hpre⟩ := h.touches ht
  have key : ∀ {a n : Str}, cfg.esp ++ [lit "EFI", a] ∈ (start cfg fs).roots →
      cfg.esp ++ [lit "EFI", a, n] ∈ (start cfg fs).roots → d <+: cfg.esp ++ [lit "EFI", a, n] →
      False := by
    intro a n h1 h2 h3
    refine not_doomed hsep (List.prefix_append _ _) ?_ h3 hd
    intro q h4 h5
    have e : cfg.esp ++ [lit "EFI", a, n] = (cfg.esp ++ [lit "EFI", a]) ++ [n] := by simp
    have e' : cfg.esp ++ [lit "EFI", a] = (cfg.esp ++ [lit "EFI"]) ++ [a] := by simp
    rw [e] at h5
    rcases prefix_snoc_iff.1 h5 with h5 | rfl
    · rw [e'] at h5
      rcases prefix_snoc_iff.1 h5 with h5 | rfl
      · rcases prefix_snoc_iff.1 h5 with h5 | rfl
        · have : q = cfg.esp := List.IsPrefix.eq_of_length_le h5 h4.length_le
          rw [this]; exact hr _ (esp_root cfg fs)
        · exact hr _ (efi_root cfg fs)
      · rw [← e']; exact hr _ h1
    · rw [← e]; exact hr _ h2
  cases hq with
  | binary h =>
    rcases h with rfl | rfl
    · exact key (bootDir_root cfg fs) (fallback_root cfg fs) hpre
    · exact key (systemdDir_root cfg fs) (systemd_root cfg fs) hpre
  | next hp => exact not_doomed_bootloader hsep hp (Or.inl rfl) hpre hd
  | current hp => exact not_doomed_bootloader hsep hp (Or.inr rfl) hpre hd

/-! ### Releases -/

theorem version_of_release {data : Bytes} {r : Release} (h : HasRelease env data r) :
    versionOf env data = .ok (Version.intended r) := by
  obtain ⟨hfit, lines, sec, hok, hval, hsec, hform⟩ := h
  have hne : ∃ pre l, lines = pre ++ [l] := by
    rcases List.eq_nil_or_concat lines with rfl | ⟨pre, l, e⟩
    · simp [lastValue] at hval
    · exact ⟨pre, l, by simpa using e⟩
  obtain ⟨pre, l, rfl⟩ := hne
  have hend : ∃ t, (pre ++ [l]).flatMap Line.render = t ++ ['\n'] := by
    simp only [List.flatMap_append, List.flatMap_cons, List.flatMap_nil, List.append_nil]
    cases l <;> simp only [Line.render, ← List.append_assoc] <;> exact ⟨_, rfl⟩
  obtain ⟨t, ht⟩ := hend
  have htext : osrelText sec = .ok ((pre ++ [l]).flatMap Line.render) := by
    have e10 : utf8 (t ++ ['\n']) = utf8 t ++ [10] := by
      unfold utf8; simp only [List.flatMap_append]; rfl
    unfold osrelText
    rcases hform with e | ⟨e, h0⟩
    · have hl : (utf8 ((pre ++ [l]).flatMap Line.render)).getLast? = some 10 := by
        rw [ht, e10]; simp
      rw [e, hl]
      simp only [utf8Decode_utf8]
    · rw [e]
      simp only [List.getLast?_append, List.getLast?_singleton, Option.some_or,
        List.dropLast_concat, h0, if_false, utf8Decode_utf8]
  unfold versionOf
  rw [(readSectionData_iff env data _ sec).2 hsec]
  simp only [htext, OsRelease.C46_osrelease_meaning _ hok, hval, Version.C44_version_parses r hfit]

theorem release_unique {data : Bytes} {r r' : Release} (h : HasRelease env data r)
    (h' : HasRelease env data r') : r = r' := by
  have e := version_of_release h
  rw [version_of_release h'] at e
  refine Version.C44_version_distinct r r' h.fits h'.fits ?_
  rw [Version.C44_version_parses r h.fits, Version.C44_version_parses r' h'.fits]
  simpa using e.symm

theorem not_gt_of_release {d data : Bytes} {r r' : Release} (h : HasRelease env d r)
    (h' : HasRelease env data r') :
    Version.gt (Version.intended r) (Version.intended r') = true ↔ Older r' r :=
  Version.C43_version_order r r' h.fits h'.fits _ _ (Version.C44_version_parses r h.fits)
    (Version.C44_version_parses r' h'.fits)

theorem not_older_self (r : Release) : ¬ Older r r := by
  intro h
  cases h with
  | rc_rc h => omega
  | stable_stable h => omega
  | rc_major h e => rcases e with e | ⟨_, e⟩ | ⟨_, e⟩ <;> cases e; omega
  | full_major h e => rcases e with e | ⟨_, e⟩ | ⟨_, e⟩ <;> cases e; omega
  | stable_major h e => rcases e with e | ⟨_, e⟩ | ⟨_, e⟩ <;> cases e; omega

theorem LoaderFine.kept (h : LoaderFine env cfg fs) : LoaderKept env cfg fs := by
  obtain ⟨⟨d, r, hd, hr, hq⟩, hm⟩ := h
  have up : ∀ q, IsLoader cfg q → UpToDate env cfg fs q := by
    intro q h
    obtain ⟨data, r', h1, h2, h3, -⟩ := hq q h
    refine ⟨data, d, _, _, h1, hd, version_of_release hr, version_of_release h2, ?_⟩
    rw [← Bool.not_eq_true, not_gt_of_release hr h2]
    exact h3
  have sg : ∀ q, IsLoader cfg q → VerifiedAt env fs q cfg.signer := by
    intro q h
    obtain ⟨data, r', h1, -, -, h4⟩ := hq q h
    revert h4
    cases cfg.signer with
    | empty => exact fun _ => trivial
    | «local» pub priv => exact fun h4 => ⟨data, h1, h4⟩
  refine ⟨up _ (Or.inl rfl), up _ (Or.inr rfl), sg _ (Or.inl rfl), sg _ (Or.inr rfl), ?_⟩
  intro p hp
  obtain ⟨x, hx⟩ := Option.isSome_iff_exists.1 (hm p hp)
  rw [Fs.fileAt_eq_some.1 hx]; rfl

/-! ### Deciding without faults -/

/-- The function returns `a` and only takes time. -/
def Answers {α : Type} (m : M α) (s : State) (a : α) : Prop := ∃ t, m s = (.ok a, { s with tick := t })

theorem Answers.pure {α : Type} (a : α) (s : State) : Answers (Pure.pure a : M α) s a := ⟨s.tick, rfl⟩

theorem Answers.bind {α β : Type} {m : M α} {f : α → M β} {s : State} {a : α} {b : β}
    (h : Answers m s a) (h' : ∀ t, Answers (f a) { s with tick := t } b) : Answers (m >>= f) s b := by
  obtain ⟨t, e⟩ := h
  obtain ⟨t', e'⟩ := h' t
  exact ⟨t', by rw [RM.bind_run, e]; exact e'⟩

theorem answers_faulty (hf : Faultless env) (s : State) : Answers (faulty env.os) s false :=
  ⟨s.tick + 1, by simp [faulty, next, hf s.tick]⟩

theorem answers_guarded (hf : Faultless env) (s : State) : Answers (guarded env.os) s () :=
  ⟨s.tick + 1, by simp [guarded, faulty, next, hf s.tick, require]⟩

theorem answers_pathExists (hf : Faultless env) (s : State) (p : Path) :
    Answers (pathExists env.os p) s (s.fs.get p).isSome :=
  ⟨s.tick + 1, by simp [pathExists, faulty, next, hf s.tick, getFs]⟩

theorem answers_readSrc (hf : Faultless env) (s : State) {src : Src} {d : Bytes}
    (h : env.content src = some d) : Answers (readSrc env src) s d :=
  Answers.bind (answers_guarded hf s) fun t => ⟨t, by simp [h, ofOption]⟩

theorem answers_readFs (hf : Faultless env) (s : State) {p : Path} {d : Bytes}
    (h : s.fs.fileAt p = some d) : Answers (readFs env.os p) s d :=
  Answers.bind (answers_guarded hf s) fun t => ⟨t, by simp [getFs, h]⟩

theorem answers_newer (hf : Faultless env) {s : State} {q : Path} (h : UpToDate env cfg s.fs q) :
    Answers (newerSystemdBoot env cfg.systemdBootSource q) s false := by
  obtain ⟨data, d, v, w, h1, h2, h3, h4, h5⟩ := h
  unfold newerSystemdBoot
  rw [source_target]
  refine Answers.bind (answers_pathExists hf s q) fun t => ?_
  rw [Fs.fileAt_eq_some.1 h1]
  refine Answers.bind (answers_readSrc hf _ (d := d) h2) fun t' => ?_
  refine Answers.bind (a := v) ⟨t', by simp [h3, ofRes]⟩ fun t' => ?_
  refine Answers.bind (a := some w) ?_ fun t' => ?_
  · obtain ⟨t3, e⟩ := answers_readFs hf { s with tick := t' } h1
    exact ⟨t3, by simp [RM.attempt, installedVersion, RM.bind_run, e, h4, ofRes]⟩
  · exact ⟨t', by simp [h5]⟩

theorem answers_verify (hf : Faultless env) {s : State} {q : Path} {signer : Signer}
    (h : VerifiedAt env s.fs q signer) : Answers (signer.verifyPath env q) s true := by
  cases signer with
  | empty => exact .pure _ _
  | «local» pub priv =>
    obtain ⟨data, h1, h2⟩ := h
    unfold Signer.verifyPath
    refine Answers.bind (answers_guarded hf s) fun t => ?_
    refine Answers.bind (answers_faulty hf _) fun t => ?_
    exact ⟨t, by simp [getFs, h1, h2]⟩

theorem answers_measured (hf : Faultless env) {s : State}
    (h : ∀ p, cfg.pcrlockDirectory = some p → (s.fs.get (currentFile p)).isSome) :
    Answers (measurementExists env cfg) s true := by
  unfold measurementExists Config.pcrlock
  cases hp : cfg.pcrlockDirectory with
  | none => exact .pure _ _
  | some p =>
    dsimp only [Option.map_some]
    rw [current_target, ← h p hp]
    exact answers_pathExists hf s _

/-- A boot loader that is as it should be is left alone. -/
theorem installSystemdBoot_kept (hf : Faultless env) {s : State} (h : LoaderKept env cfg s.fs) :
    ∃ t, installSystemdBoot env cfg s =
      install env (.store cfg.loaderConfig) (confFile cfg) { s with tick := t } := by
  obtain ⟨h1, h2, h3, h4, h5⟩ := h
  have a1 : Answers (orM (newerSystemdBoot env cfg.systemdBootSource cfg.paths.efiFallback)
      (newerSystemdBoot env cfg.systemdBootSource cfg.paths.systemdBoot)) s false := by
    rw [fallback_target, systemd_target]
    exact Answers.bind (answers_newer hf h1) fun t => by
      simpa using answers_newer hf (s := { s with tick := t }) h2
  obtain ⟨t1, e1⟩ := a1
  have a2 : Answers (andM (cfg.signer.verifyPath env cfg.paths.efiFallback)
      (cfg.signer.verifyPath env cfg.paths.systemdBoot)) { s with tick := t1 } true := by
    rw [fallback_target, systemd_target]
    exact Answers.bind (answers_verify hf (s := { s with tick := t1 }) h3) fun t => by
      simpa using answers_verify hf (s := { s with tick := t }) h4
  obtain ⟨t2, e2⟩ := a2
  obtain ⟨t3, e3⟩ := answers_measured hf (s := { s with tick := t2 }) h5
  refine ⟨t3, ?_⟩
  unfold installSystemdBoot
  simp only [RM.bind_run, e1, e2, e3, conf_target]
  simp

end Verif.Tool
