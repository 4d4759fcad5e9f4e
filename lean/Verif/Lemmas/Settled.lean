import Verif.Lemmas.LoaderFiles
import Verif.Props.InstallState
/-!
# A disk on which nothing is left to do

What a run does when everything is installed already.
-/
namespace Verif.Tool
open Verif StubName Generation

variable {env : Env} {cfg : Config} {fs : Fs}

/-- `n` is the one boot entry of `g`; what it needs is there, and it is measured. -/
structure OnlyEntry (env : Env) (cfg : Config) (fs : Fs) (g : Gen) (key : Bytes) (n : Str)
    (data : Bytes) (kl : Str) (kh : Bytes) (il : Str) (ih : Bytes) : Prop where
  signer : KeyOf env cfg.signer key
  name : isMatch env.uni (stubPrefix env.sha g key) n = true
  content : fs.fileAt (entryFile cfg.esp n) = some data
  kernel : RefersToCa env cfg.esp data (lit ".linux") (lit ".linuxh") kl kh
  initrd : RefersToCa env cfg.esp data (lit ".initrd") (lit ".initrdh") il ih
  kernel_there : (fs.get (caFile cfg.esp kl kh)).isSome
  initrd_there : (fs.get (caFile cfg.esp il ih)).isSome
  only : ∀ n', isMatch env.uni (stubPrefix env.sha g key) n' = true →
    (fs.get (entryFile cfg.esp n')).isSome → n' = n
  measured : ∀ p, cfg.pcrlockDirectory = some p → (fs.get (measurementFile p g)).isSome

/-- Everything a run of the installer would do is done. -/
structure Settled (env : Env) (cfg : Config) (fs : Fs) : Prop where
  esp : (fs.get cfg.esp).isSome
  linux : fs.get (linuxDir cfg.esp) = some .dir
  links : ∃ links, cfg.considered env = some links ∧ links ≠ [] ∧
    ∀ l ∈ links, (env.bootJson l.path).isSome
  entries : ∀ g, Considers env cfg g → ∃ key n data kl kh il ih,
    OnlyEntry env cfg fs g key n data kl kh il ih
  loader : LoaderKept env cfg fs
  conf : ∃ d d', env.store cfg.loaderConfig = some d ∧ fs.fileAt (confFile cfg) = some d' ∧
    env.sha.hash d' = env.sha.hash d
  nixos : ∀ p, nixosDir cfg.esp <+: p → p ≠ nixosDir cfg.esp → (fs.get p).isSome →
    ∃ g key n data l h, Considers env cfg g ∧ KeyOf env cfg.signer key ∧
      isMatch env.uni (stubPrefix env.sha g key) n = true ∧
      fs.fileAt (entryFile cfg.esp n) = some data ∧ p = caFile cfg.esp l h ∧
      (RefersToCa env cfg.esp data (lit ".linux") (lit ".linuxh") l h ∨
       RefersToCa env cfg.esp data (lit ".initrd") (lit ".initrdh") l h)
  named : ∀ q n, linuxDir cfg.esp <+: q → lit "nixos-" <+: n → (fs.get (q ++ [n])).isSome →
    q = linuxDir cfg.esp ∧ ∃ g key, Considers env cfg g ∧ KeyOf env cfg.signer key ∧
      isMatch env.uni (stubPrefix env.sha g key) n = true
  lock : ∀ p q, cfg.pcrlockDirectory = some p → lockDir p <+: q → q ≠ lockDir p → (fs.get q).isSome →
    ∃ g, Considers env cfg g ∧ q = measurementFile p g

/-- The function returns `a` and only takes time and adds the paths `X` to those in use. -/
def Reads {α : Type} (m : M α) (s : State) (a : α) (X : List Path) : Prop :=
  ∃ t, m s = (.ok a, { s with tick := t, roots := s.roots ++ X })

theorem Answers.reads {α : Type} {m : M α} {s : State} {a : α} (h : Answers m s a) : Reads m s a [] := by
  obtain ⟨t, e⟩ := h
  exact ⟨t, by rw [e]; simp⟩

theorem Reads.bind {α β : Type} {m : M α} {f : α → M β} {s : State} {a : α} {b : β} {X Y : List Path}
    (h : Reads m s a X) (h' : ∀ t, Reads (f a) { s with tick := t, roots := s.roots ++ X } b Y) :
    Reads (m >>= f) s b (X ++ Y) := by
  obtain ⟨t, e⟩ := h
  obtain ⟨t', e'⟩ := h' t
  exact ⟨t', by rw [RM.bind_run, e]; simpa using e'⟩

theorem Reads.of_answers {α β : Type} {m : M α} {f : α → M β} {s : State} {a : α} {b : β} {Y : List Path}
    (h : Answers m s a) (h' : ∀ t, Reads (f a) { s with tick := t } b Y) :
    Reads (m >>= f) s b Y := by
  obtain ⟨t, e⟩ := h
  obtain ⟨t', e'⟩ := h' t
  exact ⟨t', by rw [RM.bind_run, e]; exact e'⟩

theorem reads_extendRoots (s : State) (X : List Path) : Reads (extendRoots X) s () X :=
  ⟨s.tick, by simp [extendRoots, RM.modify]⟩

theorem answers_key (hf : Faultless env) {signer : Signer} {key : Bytes} (h : KeyOf env signer key)
    (s : State) : Answers (signer.getPublicKey env) s key := by
  cases signer with
  | empty => rw [show key = _ from h]; exact .pure _ _
  | «local» pub priv => exact answers_readSrc hf s h

theorem answers_sectionPath {s : State} {data : Bytes} {a b l : Str} {h : Bytes}
    (hr : RefersToCa env cfg.esp data a b l h) :
    Answers (sectionPath env cfg data a) s (caFile cfg.esp l h) := by
  refine ⟨s.tick, ?_⟩
  simp only [sectionPath, (readSectionData_iff env data a _).2 hr.section.1, ofRes, ofOption,
    RM.bind_run, RM.pure_run, resolve_ca cfg.esp hr.1]

/-- The listing of `EFI/Linux` contains one file of that name. -/
theorem head_matching {pfx : Str} {entries : List Path} {n : Str}
    (hin : entryFile cfg.esp n ∈ entries) (hm : isMatch env.uni pfx n = true)
    (hall : ∀ p ∈ entries, ∃ m, p = entryFile cfg.esp m ∧ (isMatch env.uni pfx m = true → m = n)) :
    (matchingEntries env pfx entries).head? = some (entryFile cfg.esp n) := by
  have hlast : ∀ m, (entryFile cfg.esp m).getLast? = some m := by intro m; simp [entryFile]
  have hmem : entryFile cfg.esp n ∈ matchingEntries env pfx entries := by
    unfold matchingEntries
    rw [List.mem_filter]
    refine ⟨hin, ?_⟩
    rw [hlast]; exact hm
  cases hl : matchingEntries env pfx entries with
  | nil => rw [hl] at hmem; cases hmem
  | cons p rest =>
    have hp : p ∈ matchingEntries env pfx entries := by rw [hl]; simp
    unfold matchingEntries at hp
    rw [List.mem_filter] at hp
    obtain ⟨m, rfl, hu⟩ := hall p hp.1
    have h2 := hp.2
    rw [hlast] at h2
    rw [hu h2]; rfl

theorem answers_lookup (hr : Reliable env.os) {s : State} {g : Gen} {key : Bytes} {n : Str} {data : Bytes}
    {kl il : Str} {kh ih : Bytes} (hl : s.fs.get (linuxDir cfg.esp) = some .dir)
    (h : OnlyEntry env cfg s.fs g key n data kl kh il ih) :
    Answers (readInstalledGeneration env cfg (stubPrefix env.sha g key)) s
      (entryFile cfg.esp n, caFile cfg.esp kl kh, caFile cfg.esp il ih) := by
  have hf : Faultless env := hr.fault
  unfold readInstalledGeneration
  rw [paths_linux']
  obtain ⟨t0, e0⟩ : ∃ t0, readDir env.os (linuxDir cfg.esp) s =
      (.ok (env.os.list t0 ((s.fs.children (linuxDir cfg.esp)).map fun n => linuxDir cfg.esp ++ [n])),
        { s with tick := t0 + 1 }) := by
    refine ⟨s.tick + 1, ?_⟩
    simp [readDir, guarded, faulty, next, hf s.tick, require, getFs, hl]
  refine Answers.bind ⟨_, e0⟩ fun t => ?_
  have hperm := hr.list t0 ((s.fs.children (linuxDir cfg.esp)).map fun n => linuxDir cfg.esp ++ [n])
  have e1 : ∀ m, linuxDir cfg.esp ++ [m] = entryFile cfg.esp m := by
    intro m; simp [linuxDir, entryFile]
  have hhead : (matchingEntries env (stubPrefix env.sha g key) (env.os.list t0
      ((s.fs.children (linuxDir cfg.esp)).map fun n => linuxDir cfg.esp ++ [n]))).head? =
      some (entryFile cfg.esp n) := by
    refine head_matching ?_ h.name ?_
    · rw [hperm.mem_iff, List.mem_map]
      refine ⟨n, Fs.mem_children.2 ?_, e1 n⟩
      rw [e1, Fs.fileAt_eq_some.1 h.content]; rfl
    · intro p hp
      rw [hperm.mem_iff, List.mem_map] at hp
      obtain ⟨m, hm, rfl⟩ := hp
      refine ⟨m, e1 m, fun hmm => h.only m hmm ?_⟩
      rw [← e1]; exact Fs.mem_children.1 hm
  refine Answers.bind (a := entryFile cfg.esp n) ⟨t, by simp [hhead, ofOption]⟩ fun t => ?_
  refine Answers.bind (answers_readFs hf _ h.content) fun t => ?_
  refine Answers.bind (answers_sectionPath h.kernel) fun t => ?_
  refine Answers.bind (answers_sectionPath h.initrd) fun t => ?_
  refine Answers.bind (answers_pathExists hf _ _) fun t => ?_
  dsimp only
  rw [h.kernel_there]
  refine Answers.bind (answers_pathExists hf _ _) fun t => ?_
  dsimp only
  rw [h.initrd_there]
  exact .pure _ _

theorem answers_attempt {α : Type} {m : M α} {s : State} {a : α} (h : Answers m s a) :
    Answers (RM.attempt m) s (some a) := by
  obtain ⟨t, e⟩ := h
  exact ⟨t, by simp [RM.attempt, e]⟩

theorem reads_installGeneration (hr : Reliable env.os) {s : State} {g : Gen} (hg : SafeGen g) {key : Bytes} {n : Str}
    {data : Bytes} {kl il : Str} {kh ih : Bytes} (hl : s.fs.get (linuxDir cfg.esp) = some .dir)
    (h : OnlyEntry env cfg s.fs g key n data kl kh il ih) :
    Reads (installGeneration env cfg g) s ()
      ([entryFile cfg.esp n, caFile cfg.esp kl kh, caFile cfg.esp il ih] ++ measurements cfg g) := by
  have hf : Faultless env := hr.fault
  have h1 : Reads (registerInstalledGeneration env cfg g) s true
      ([entryFile cfg.esp n, caFile cfg.esp kl kh, caFile cfg.esp il ih] ++ measurements cfg g) := by
    unfold registerInstalledGeneration
    refine Reads.of_answers (answers_key hf h.signer s) fun t => ?_
    refine Reads.of_answers (answers_attempt (answers_lookup hr (s := { s with tick := t }) hl h))
      fun t => ?_
    refine Reads.bind (reads_extendRoots _ _) fun t => ?_
    unfold registerMeasurement Config.pcrlock measurements
    cases hp : cfg.pcrlockDirectory with
    | none => exact (Answers.pure _ _).reads
    | some p =>
      dsimp only [Option.map_some]
      have e : (PcrlockPaths.new p).lanzabooteMeasurement g.versionTag = measurementFile p g :=
        measurement_target p hg
      rw [e]
      refine Reads.of_answers (answers_pathExists hf _ _) fun t => ?_
      dsimp only
      rw [h.measured p hp]
      exact Reads.bind (Y := []) (reads_extendRoots _ _) fun t => (Answers.pure _ _).reads
  unfold installGeneration
  have := Reads.bind (Y := []) (b := ()) (f := fun installed =>
    if installed then pure () else installNewGeneration env cfg g) h1 fun t => (Answers.pure _ _).reads
  simpa using this

/-- What a settled disk has for a generation. -/
theorem reads_installAll (hr : Reliable env.os) (gens : List Gen) (hg : ∀ g ∈ gens, SafeGen g) {s : State}
    (hl : s.fs.get (linuxDir cfg.esp) = some .dir)
    (h : ∀ g ∈ gens, ∃ key n data kl kh il ih, OnlyEntry env cfg s.fs g key n data kl kh il ih) :
    ∃ X, Reads (installAll env cfg gens) s () X ∧ ∀ g ∈ gens, ∃ key n data kl kh il ih,
      OnlyEntry env cfg s.fs g key n data kl kh il ih ∧
      ∀ p ∈ [entryFile cfg.esp n, caFile cfg.esp kl kh, caFile cfg.esp il ih] ++ measurements cfg g,
        p ∈ X := by
  induction gens generalizing s with
  | nil => exact ⟨[], (Answers.pure _ _).reads, by simp⟩
  | cons g gens ih' =>
    obtain ⟨key, n, data, kl, kh, il, ih, ho⟩ := h g (by simp)
    obtain ⟨t, e⟩ := reads_installGeneration hr (hg g (by simp)) hl ho
    obtain ⟨X, ⟨t', e'⟩, hX⟩ := ih' (fun x hx => hg x (by simp [hx])) (s := { s with
        tick := t
        roots := s.roots ++ ([entryFile cfg.esp n, caFile cfg.esp kl kh, caFile cfg.esp il ih] ++
          measurements cfg g) }) hl fun x hx => h x (by simp [hx])
    refine ⟨([entryFile cfg.esp n, caFile cfg.esp kl kh, caFile cfg.esp il ih] ++ measurements cfg g) ++ X,
      ⟨t', ?_⟩, ?_⟩
    · unfold installAll
      rw [RM.bind_run, e]
      dsimp only
      rw [e']
      simp
    · intro x hx
      rcases List.mem_cons.1 hx with rfl | hx
      · exact ⟨key, n, data, kl, kh, il, ih, ho, fun p hp => List.mem_append_left _ hp⟩
      · obtain ⟨key, n, data, kl, kh, il, ih, h1, h2⟩ := hX x hx
        exact ⟨key, n, data, kl, kh, il, ih, h1, fun p hp => List.mem_append_right _ (h2 p hp)⟩

/-- Nothing is garbage. -/
theorem collect_nothing (os : Os) (dir : Path) (hdir : dir ≠ []) (pred : Path → Bool) (s : State)
    (h : ∀ q, dir <+: q → (s.fs.get q).isSome → pred q = true → q ∈ s.roots) :
    Answers (collectGarbageWithFilter os dir pred) s () := by
  refine ⟨s.tick + 1, ?_⟩
  have : (os.list s.tick (s.fs.subtree dir)).filter (isGarbage s.roots pred) = [] := by
    rw [List.filter_eq_nil_iff]
    intro q hq
    have hq := os.list_sub _ _ _ hq
    have hpre := mem_subtree hq
    have hne : q ≠ [] := by
      rintro rfl
      exact hdir (List.prefix_nil.1 hpre)
    have hs := ((mem_subtree_iff hne).1 hq).2
    unfold isGarbage
    simp only [Bool.and_eq_true, Bool.not_eq_true', not_and]
    intro h1 h2
    have := h q hpre hs h2
    rw [← List.contains_iff_mem] at this
    rw [this] at h1
    cases h1
  unfold collectGarbageWithFilter
  simp [next, this, collectEach]

theorem entry_in_linux {q : Path} (h : startsWithNixos q = true) (hq : linuxDir cfg.esp <+: q)
    : ∃ r n, q = r ++ [n] ∧ lit "nixos-" <+: n ∧ linuxDir cfg.esp <+: r := by
  rcases List.eq_nil_or_concat q with rfl | ⟨r, n, rfl⟩
  · cases h
  · rw [List.concat_eq_append] at h hq ⊢
    obtain ⟨-, hn⟩ := (startsWithNixos_snoc r n).1 h
    refine ⟨r, n, rfl, hn, ?_⟩
    rcases prefix_snoc_iff.1 hq with h' | h'
    · exact h'
    · exfalso
      rw [show linuxDir cfg.esp = (cfg.esp ++ [lit "EFI"]) ++ [lit "Linux"] by simp [linuxDir]] at h'
      rw [← (List.cons_eq_cons.1 (List.append_inj' h' rfl).2).1] at hn
      exact absurd hn (by decide)

theorem fileAt_congr {f f' : Fs} {q : Path} (h : f'.get q = f.get q) : f'.fileAt q = f.fileAt q := by
  unfold Fs.fileAt; rw [h]

theorem LoaderKept.of_get {f f' : Fs} (h : LoaderKept env cfg f)
    (hg : ∀ q, LoaderPath cfg q → f'.get q = f.get q) : LoaderKept env cfg f' := by
  have g1 := fileAt_congr (hg _ (.binary (Or.inl rfl)))
  have g2 := fileAt_congr (hg _ (.binary (Or.inr rfl)))
  obtain ⟨h1, h2, h3, h4, h5⟩ := h
  refine ⟨?_, ?_, ?_, ?_, fun p hp => by rw [hg _ (.current hp)]; exact h5 p hp⟩
  · unfold UpToDate at h1 ⊢; rw [g1]; exact h1
  · unfold UpToDate at h2 ⊢; rw [g2]; exact h2
  · revert h3; cases cfg.signer <;> unfold VerifiedAt
    · exact id
    · rw [g1]; exact id
  · revert h4; cases cfg.signer <;> unfold VerifiedAt
    · exact id
    · rw [g2]; exact id

/-- On a settled disk a run that is not disturbed succeeds and changes nothing. -/
theorem run_settled (hsafe : SafeInput env cfg) (hr : Reliable env.os) (h : Settled env cfg fs) :
    (run env cfg (start cfg fs)).1 = .ok () ∧ (run env cfg (start cfg fs)).2.broken = [] ∧
    (run env cfg (start cfg fs)).2.log = [.syncfs cfg.esp, .collecting] := by
  have hf : Faultless env := hr.fault
  obtain ⟨links, hlinks, hne, hread⟩ := h.links
  obtain ⟨gs, t1, b, e1, h1, -, h3, h4, h5⟩ := readGenerations_spec env links (start cfg fs)
  have hb : b = [] := h4 hf rfl hread
  subst hb
  have hgs : gs.isEmpty = false := by
    cases links with
    | nil => exact absurd rfl hne
    | cons l rest =>
      obtain ⟨j, hj⟩ := Option.isSome_iff_exists.1 (hread l (by simp))
      have := h3 hf l (by simp) j hj
      cases gs with
      | nil => cases this
      | cons _ _ => rfl
  have hgens := h5 (Or.inl rfl)
  have hcons : ∀ g ∈ gs.flatMap (fun g => g.1 :: g.2), Considers env cfg g := by
    intro g hg
    rw [List.mem_flatMap] at hg
    obtain ⟨x, hx, hgx⟩ := hg
    obtain ⟨link, hlink, j, hj, rfl⟩ := h1 x hx
    exact ⟨links, link, j, hlinks, hlink, hj, hgx⟩
  have hall : ∀ g, Considers env cfg g → g ∈ gs.flatMap (fun g => g.1 :: g.2) := by
    intro g hg
    obtain ⟨links', link, j, hl', hlink, hj, hgx⟩ := hg.ex
    rw [hlinks] at hl'
    cases hl'
    exact List.mem_flatMap.2 ⟨_, h3 hf link hlink j hj, hgx⟩
  obtain ⟨X, ⟨t2, e2⟩, hX⟩ := reads_installAll hr (gs.flatMap fun g => g.1 :: g.2)
    (fun g hg => hsafe g (hcons g hg)) (s := { start cfg fs with tick := t1 }) h.linux fun g hg => h.entries g (hcons g hg)
  -- the boot loader
  generalize hR : (start cfg fs).roots ++ X = R at *
  have hRs : ∀ q ∈ (start cfg fs).roots, q ∈ R := fun q hq => by rw [← hR]; simp [hq]
  have hRX : ∀ q ∈ X, q ∈ R := fun q hq => by rw [← hR]; simp [hq]
  obtain ⟨s2, hs2⟩ : ∃ s2 : State, s2 = ⟨fs.apply (.syncfs cfg.esp), [.syncfs cfg.esp], t2 + 2, R, []⟩ := ⟨_, rfl⟩
  have hg2 : ∀ p, s2.fs.get p = fs.get p := fun p => by rw [hs2]; rfl
  have hfa2 : ∀ p, s2.fs.fileAt p = fs.fileAt p := fun p => by unfold Fs.fileAt; rw [hg2]
  have hk2 : LoaderKept env cfg s2.fs := by
    exact h.loader.of_get fun q _ => hg2 q
  obtain ⟨t3, e3⟩ := installSystemdBoot_kept hf hk2
  have e4 : Answers (install env (.store cfg.loaderConfig) (confFile cfg)) { s2 with tick := t3 } () := by
    obtain ⟨d, d', c1, c2, c3⟩ := h.conf
    have c2' : s2.fs.fileAt (confFile cfg) = some d' := by rw [hfa2]; exact c2
    unfold install
    refine Answers.bind (a := false) ?_ fun t => .pure _ _
    unfold needsInstall
    refine Answers.bind (answers_pathExists hf _ _) fun t => ?_
    dsimp only
    rw [Fs.fileAt_eq_some.1 c2']
    refine Answers.bind (a := env.sha.hash d) ?_ fun t => ?_
    · exact Answers.bind (answers_readSrc hf _ (src := .store cfg.loaderConfig) c1) fun t => .pure _ _
    refine Answers.bind (a := env.sha.hash d') ?_ fun t => ?_
    · exact Answers.bind (answers_readFs hf _ c2') fun t => .pure _ _
    · exact ⟨t, by simp [c3]⟩
  obtain ⟨t5, e5⟩ := e4
  -- garbage collection
  have e6 : Answers (do
      collectGarbage env.os cfg.paths.nixos
      collectGarbageWithFilter env.os cfg.paths.linux startsWithNixos
      collectMeasurements env cfg)
      { s2 with tick := t5, fs := s2.fs.apply .collecting, log := s2.log ++ [.collecting] } () := by
    rw [paths_nixos', paths_linux']
    have hroots : s2.roots = R := by rw [hs2]
    have hgc : ∀ p, (s2.fs.apply .collecting).get p = fs.get p := fun p => hg2 p
    refine Answers.bind (a := ()) ?_ fun t => ?_
    · refine collect_nothing _ _ (by simp [nixosDir]) _ _ ?_
      intro q hq hs _
      dsimp only at hs ⊢
      rw [hgc] at hs
      rw [hroots]
      by_cases hqd : q = nixosDir cfg.esp
      · rw [hqd]; exact hRs _ (nixosDir_root cfg fs)
      · obtain ⟨g, key, n, data, l, k, hg, hk, hm, hd, rfl, href⟩ := h.nixos q hq hqd hs
        obtain ⟨key', n', data', kl, kh, il, ih, ho, hin⟩ := hX g (hall g hg)
        have ho : OnlyEntry env cfg fs g key' n' data' kl kh il ih := ho
        cases hk.unique ho.signer
        have hn : n = n' := ho.only n hm (by rw [Fs.fileAt_eq_some.1 hd]; rfl)
        subst hn
        have hdd := ho.content
        rw [hd] at hdd
        cases hdd
        rcases href with href | href
        · obtain ⟨a1, a2⟩ := href.agree ho.kernel.2
          rw [a1]
          exact hRX _ (hin _ (by simp))
        · obtain ⟨a1, a2⟩ := href.agree ho.initrd.2
          rw [a1]
          exact hRX _ (hin _ (by simp))
    refine Answers.bind (a := ()) ?_ fun t => ?_
    · refine collect_nothing _ _ (by simp [linuxDir]) _ _ ?_
      intro q hq hs hn
      dsimp only at hs ⊢
      rw [hgc] at hs
      rw [hroots]
      obtain ⟨r, n, rfl, hn', hr'⟩ := entry_in_linux hn hq
      obtain ⟨rfl, g, key, hg, hk, hm⟩ := h.named r n hr' hn' hs
      obtain ⟨key', n', data', kl, kh, il, ih, ho, hin⟩ := hX g (hall g hg)
      have ho : OnlyEntry env cfg fs g key' n' data' kl kh il ih := ho
      cases hk.unique ho.signer
      have e' : linuxDir cfg.esp ++ [n] = entryFile cfg.esp n := by simp [entryFile, linuxDir]
      rw [e'] at hs ⊢
      rw [ho.only n hm hs]
      exact hRX _ (hin _ (by simp))
    · unfold collectMeasurements Config.pcrlock
      cases hp : cfg.pcrlockDirectory with
      | none => exact .pure _ _
      | some p =>
        dsimp only [Option.map_some]
        unfold collectGarbage
        have : (PcrlockPaths.new p).lanzaboote = lockDir p := by rw [pcrlock_lanzaboote]; rfl
        rw [this]
        refine collect_nothing _ _ (by simp [lockDir]) _ _ ?_
        intro q hq hs _
        dsimp only at hs ⊢
        rw [hgc] at hs
        rw [hroots]
        by_cases hqd : q = lockDir p
        · rw [hqd]
          refine hRs _ ?_
          simp only [start, Config.pcrlock, hp, Option.map_some, PcrlockPaths.iter, this]
          simp
        · obtain ⟨g, hg, rfl⟩ := h.lock p q hp hq hqd hs
          obtain ⟨key', n', data', kl, kh, il, ih, ho, hin⟩ := hX g (hall g hg)
          exact hRX _ (hin _ (by simp [measurements, hp]))
  obtain ⟨t7, e7⟩ := e6
  have ebefore : beforeCollect env cfg (start cfg fs) = (.ok (), { s2 with tick := t5 }) := by
    have hsync : syncFs env.os cfg.esp { start cfg fs with tick := t2, roots := R } = (.ok (), s2) := by
      rw [hs2]
      have h1 : (fs.get cfg.esp).isSome = true := h.esp
      simp [syncFs, guarded, faulty, next, require, getFs, hf t2, h1, change, start]
      simp [hf (t2 + 1)]
    simp only [beforeCollect, hlinks, ofOption, installGenerationsFromLinks, RM.bind_run,
      RM.pure_run, e1]
    rw [hgs]
    simp only [Bool.false_eq_true, if_false, RM.bind_run]
    rw [show ({ start cfg fs with tick := t1, broken := [] } : State) = { start cfg fs with tick := t1 } from rfl,
      e2]
    simp only [hsync, e3, e5]
  have ecollect : collect env cfg { s2 with tick := t5 } = (.ok (), { s2 with
      tick := t7
      fs := s2.fs.apply .collecting
      log := s2.log ++ [.collecting] }) := by
    rw [← e7]
    have hb : s2.broken = [] := by rw [hs2]
    simp [collect, RM.get, hb, change]
  rw [run_eq]
  simp only [RM.bind_run, ebefore, ecollect]
  rw [hs2]
  exact ⟨trivial, rfl, rfl⟩

end Verif.Tool
