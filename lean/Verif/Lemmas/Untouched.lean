import Verif.Spec.PowerLoss
import Verif.Lemmas.Settled
import Verif.Lemmas.Measured
import Verif.Lemmas.Synced
/-!
# Boot entries that are in order are not written again
-/
namespace Verif.Tool
open Verif StubName Generation

variable {env : Env} {cfg : Config} {ld : Scope} {fs : Fs}

/-- What is there under the name of a boot entry is a file that refers to a kernel and an initrd that are there. -/
def EntryReady (env : Env) (esp : Path) (n : Str) (f : Fs) : Prop :=
  ∃ data kl kh il ih, f.fileAt (entryFile esp n) = some data ∧
    RefersToCa env esp data (lit ".linux") (lit ".linuxh") kl kh ∧
    RefersToCa env esp data (lit ".initrd") (lit ".initrdh") il ih ∧
    Present env f (caFile esp kl kh) kh ∧ Present env f (caFile esp il ih) ih

/-- The lookup for a generation finds a boot entry, whichever is listed first. -/
theorem answers_lookup_ready (hr : Reliable env.os) {s : State} {pfx : Str} {n : Str}
    (hn : isMatch env.uni pfx n = true)
    (he : (s.fs.get (entryFile cfg.esp n)).isSome) (hl : s.fs.get (linuxDir cfg.esp) = some .dir)
    (hready : ∀ m, isMatch env.uni pfx m = true → (s.fs.get (entryFile cfg.esp m)).isSome →
      EntryReady env cfg.esp m s.fs) :
    ∃ r, Answers (readInstalledGeneration env cfg pfx) s r := by
  have hf : Faultless env := hr.fault
  have e1 : ∀ m, linuxDir cfg.esp ++ [m] = entryFile cfg.esp m := by
    intro m; simp [linuxDir, entryFile]
  obtain ⟨t0, e0⟩ : ∃ t0, readDir env.os (linuxDir cfg.esp) s =
      (.ok (env.os.list t0 ((s.fs.children (linuxDir cfg.esp)).map fun n => linuxDir cfg.esp ++ [n])),
        { s with tick := t0 + 1 }) := by
    refine ⟨s.tick + 1, ?_⟩
    simp [readDir, guarded, faulty, next, hf s.tick, require, getFs, hl]
  have hperm := hr.list t0 ((s.fs.children (linuxDir cfg.esp)).map fun n => linuxDir cfg.esp ++ [n])
  -- the first of the listing that matches
  obtain ⟨m, hm, hms, hhead⟩ : ∃ m, isMatch env.uni pfx m = true ∧ (s.fs.get (entryFile cfg.esp m)).isSome ∧
      (matchingEntries env pfx (env.os.list t0
        ((s.fs.children (linuxDir cfg.esp)).map fun n => linuxDir cfg.esp ++ [n]))).head? =
        some (entryFile cfg.esp m) := by
    have hlast : ∀ m, (entryFile cfg.esp m).getLast? = some m := by intro m; simp [entryFile]
    have hmem : entryFile cfg.esp n ∈ matchingEntries env pfx (env.os.list t0
        ((s.fs.children (linuxDir cfg.esp)).map fun n => linuxDir cfg.esp ++ [n])) := by
      unfold matchingEntries
      rw [List.mem_filter]
      refine ⟨?_, by rw [hlast]; exact hn⟩
      rw [hperm.mem_iff, List.mem_map]
      exact ⟨n, Fs.mem_children.2 (by rw [e1]; exact he), e1 n⟩
    cases hx : matchingEntries env pfx (env.os.list t0
        ((s.fs.children (linuxDir cfg.esp)).map fun n => linuxDir cfg.esp ++ [n])) with
    | nil => rw [hx] at hmem; cases hmem
    | cons p rest =>
      have hp : p ∈ matchingEntries env pfx (env.os.list t0
        ((s.fs.children (linuxDir cfg.esp)).map fun n => linuxDir cfg.esp ++ [n])) := by rw [hx]; simp
      unfold matchingEntries at hp
      rw [List.mem_filter, hperm.mem_iff, List.mem_map] at hp
      obtain ⟨⟨m, hm, rfl⟩, h2⟩ := hp
      rw [e1, hlast] at h2
      exact ⟨m, h2, by rw [← e1]; exact Fs.mem_children.1 hm, by rw [e1]; rfl⟩
  obtain ⟨data, kl, kh, il, ih, hdata, r1, r2, p1, p2⟩ := hready m hm hms
  have there : ∀ {p h}, Present env s.fs p h → (s.fs.get p).isSome := by
    rintro p h ⟨d, hd, -⟩
    rw [Fs.fileAt_eq_some.1 hd]; rfl
  refine ⟨(entryFile cfg.esp m, caFile cfg.esp kl kh, caFile cfg.esp il ih), ?_⟩
  unfold readInstalledGeneration
  rw [paths_linux']
  refine Answers.bind ⟨_, e0⟩ fun t => ?_
  refine Answers.bind (a := entryFile cfg.esp m) ⟨t, by simp [hhead, ofOption]⟩ fun t => ?_
  refine Answers.bind (answers_readFs hf _ hdata) fun t => ?_
  refine Answers.bind (answers_sectionPath r1) fun t => ?_
  refine Answers.bind (answers_sectionPath r2) fun t => ?_
  refine Answers.bind (answers_pathExists hf _ _) fun t => ?_
  dsimp only
  rw [there p1]
  refine Answers.bind (answers_pathExists hf _ _) fun t => ?_
  dsimp only
  rw [there p2]
  exact .pure _ _

/-- A generation with a boot entry in order is not installed again. -/
theorem reads_ready (hr : Reliable env.os) {s : State} {g : Gen} (hg : SafeGen g) {key : Bytes}
    (hkey : KeyOf env cfg.signer key) {n : Str} (hn : isMatch env.uni (stubPrefix env.sha g key) n = true)
    (he : (s.fs.get (entryFile cfg.esp n)).isSome) (hl : s.fs.get (linuxDir cfg.esp) = some .dir)
    (hready : ∀ m, isMatch env.uni (stubPrefix env.sha g key) m = true → (s.fs.get (entryFile cfg.esp m)).isSome →
      EntryReady env cfg.esp m s.fs)
    (hm : ∀ p, cfg.pcrlockDirectory = some p → (s.fs.get (measurementFile p g)).isSome) :
    ∃ X, Reads (installGeneration env cfg g) s () X := by
  have hf : Faultless env := hr.fault
  obtain ⟨t0, e0⟩ := answers_key hf hkey s
  obtain ⟨⟨stub, kernel, initrd⟩, hlook⟩ := answers_lookup_ready (cfg := cfg) hr (s := { s with tick := t0 }) hn
    he hl hready
  obtain ⟨t1, e1⟩ := answers_attempt hlook
  have h1 : Reads (registerInstalledGeneration env cfg g) s true ([stub, kernel, initrd] ++ measurements cfg g) := by
    unfold registerInstalledGeneration
    have : Reads (do
        extendRoots [stub, kernel, initrd]
        registerMeasurement env cfg g) { s with tick := t1 } true ([stub, kernel, initrd] ++ measurements cfg g) := by
      refine Reads.bind (reads_extendRoots _ _) fun t => ?_
      unfold registerMeasurement Config.pcrlock measurements
      cases hp : cfg.pcrlockDirectory with
      | none => exact (Answers.pure _ _).reads
      | some p =>
        dsimp only [Option.map_some]
        have e : (PcrlockPaths.new p).lanzabooteMeasurement g.versionTag = measurementFile p g :=
          measurement_target p hg
        rw [e]
        refine Reads.of_answers (answers_pathExists hf _ _) fun t => ?_
        dsimp only
        rw [hm p hp]
        exact Reads.bind (Y := []) (reads_extendRoots _ _) fun t => (Answers.pure _ _).reads
    obtain ⟨t2, e2⟩ := this
    refine ⟨t2, ?_⟩
    rw [RM.bind_run, e0]
    simp only
    rw [RM.bind_run, e1]
    exact e2
  refine ⟨[stub, kernel, initrd] ++ measurements cfg g ++ [], ?_⟩
  unfold installGeneration
  exact Reads.bind (Y := []) (b := ()) h1 fun t => (Answers.pure _ _).reads

/-- The same on an ESP all of whose boot entries are in order. -/
theorem reads_installed (hr : Reliable env.os) {s : State} {g : Gen} (hg : SafeGen g) {key : Bytes}
    (hkey : KeyOf env cfg.signer key) {n : Str} (hn : isMatch env.uni (stubPrefix env.sha g key) n = true)
    (he : (s.fs.get (entryFile cfg.esp n)).isSome) (hl : s.fs.get (linuxDir cfg.esp) = some .dir)
    (hc : Consistent env cfg.esp s.fs) (hd : ∀ p, IsEntry cfg.esp p → s.fs.get p ≠ some .dir)
    (hm : ∀ p, cfg.pcrlockDirectory = some p → (s.fs.get (measurementFile p g)).isSome) :
    ∃ X, Reads (installGeneration env cfg g) s () X := by
  refine reads_ready hr hg hkey hn he hl (fun m h hms => ?_) hm
  have hent : IsEntry cfg.esp (entryFile cfg.esp m) := isMatch_isEntry h
  obtain ⟨data, hdata⟩ : ∃ data, s.fs.fileAt (entryFile cfg.esp m) = some data := by
    cases hx : s.fs.get (entryFile cfg.esp m) with
    | none => rw [hx] at hms; cases hms
    | some node =>
      cases node with
      | dir => exact absurd hx (hd _ hent)
      | file d => exact ⟨d, Fs.fileAt_eq_some.2 hx⟩
  obtain ⟨kl, kh, il, ih, h⟩ := hc _ hent data hdata
  exact ⟨data, kl, kh, il, ih, hdata, h⟩

/-! ### During a run -/

/-- What was there at the beginning is there, and in order. -/
structure StillThere (env : Env) (cfg : Config) (fs f : Fs) : Prop where
  consistent : Consistent env cfg.esp f
  files : ∀ p, IsEntry cfg.esp p → f.get p ≠ some .dir
  linux : fs.get (linuxDir cfg.esp) = some .dir → f.get (linuxDir cfg.esp) = some .dir
  entries : ∀ p, IsEntry cfg.esp p → (fs.get p).isSome → (f.get p).isSome
  measured : ∀ dir g, cfg.pcrlockDirectory = some dir → (fs.get (measurementFile dir g)).isSome →
    (f.get (measurementFile dir g)).isSome

/-- No boot entry that was there at the beginning is replaced. -/
def SparesEntries (esp : Path) (fs : Fs) (c : Change) : Prop :=
  ∀ p, IsEntry esp p → (fs.get p).isSome → ∀ q d, c ≠ .rename q p d

theorem linuxDir_plain : ¬ IsTmp (linuxDir cfg.esp) ∧ ¬ IsMeasurement cfg (linuxDir cfg.esp) := by
  have e : linuxDir cfg.esp = cfg.esp ++ [lit "EFI"] ++ [lit "Linux"] := by simp [linuxDir]
  constructor
  · rw [e]
    refine not_isTmp_snoc ?_
    rintro ⟨x, h⟩
    have := congrArg List.getLast? h
    rw [List.getLast?_append, show (List.getLast? (lit "..tmp")).or x.getLast? = some 'p' from rfl] at this
    exact absurd this (by decide)
  · refine not_isMeasurement_of (d := lit "EFI") (n := lit "Linux") ?_ (by decide) (by decide)
    rw [show linuxDir cfg.esp = cfg.esp ++ [lit "EFI", lit "Linux"] by simp [linuxDir]]
    exact lastTwo_snoc2 _ _ _

theorem isEntry_not_next {p : Path} (hp : IsEntry cfg.esp p) : ¬ IsNext cfg p := by
  rintro ⟨dir, hdir, e⟩
  exact isEntry_not_measurement hp ⟨dir, hdir, Or.inr (Or.inl e)⟩

theorem StillThere.step (hs : SafeInput env cfg) (hf : FaithfulTools env) (hsep : Separate cfg) {f : Fs}
    {c : Change} (h : StillThere env cfg fs f) (st : InstallStep env cfg ld f c) :
    StillThere env cfg fs (f.apply c) where
  consistent := h.consistent.step hs hf st
  files p hp := by
    intro e
    rcases st.get hs (isEntry_not_tmp hp) (isEntry_not_measurement hp) with h' | ⟨h', -⟩ | ⟨d, -, -, -, h', -⟩
    · exact h.files p hp (h'.symm.trans e)
    · obtain ⟨n, rfl, hn⟩ := hp
      refine st.no_dir hs hsep (d := lit "Linux") (n := n) (Or.inr rfl) ?_ h' e
      obtain ⟨x, rfl⟩ := hn.2
      rw [List.getLast?_append]; rfl
    · rw [h'] at e; cases e
  linux h0 := by
    have h1 := h.linux h0
    rcases st.get hs linuxDir_plain.1 linuxDir_plain.2 with h' | ⟨h', -⟩ | ⟨d, -, -, h', -⟩
    · rw [h', h1]
    · rw [h'] at h1; cases h1
    · exact absurd h1 h'
  entries p hp h0 := st.exists_stays hs (isEntry_not_tmp hp) (isEntry_not_next hp) (h.entries p hp h0)
  measured dir g hdir h0 := st.exists_stays hs (isMeasurement_not_isTmp ⟨dir, hdir, Or.inl ⟨g, rfl⟩⟩)
    (measurementFile_not_next dir g) (h.measured dir g hdir h0)

theorem IsEntry.ne_of_lastTwo {esp p q : Path} (hp : IsEntry esp p) {a b : Str} (hq : lastTwo q = some (a, b))
    (h : a ≠ lit "Linux") : p ≠ q := by
  rintro rfl
  obtain ⟨n, rfl, -⟩ := hp
  rw [entryFile_lastTwo] at hq
  simp at hq
  exact h hq.1.symm

/-- A change made for `g` replaces no boot entry but the one of `g`. -/
theorem InstallStep.spares {g : Gen} {f : Fs} {c : Change}
    (st : InstallStep env cfg ⟨(· = g), False, False⟩ f c) {p q : Path} {d : Bytes} (hp : IsEntry cfg.esp p)
    (e : c = .rename q p d) : ∃ key, KeyOf env cfg.signer key ∧
      p = entryFile cfg.esp (stubName env.sha g key cfg.tries) := by
  subst e
  cases st with
  | @replace to dur t r =>
    cases r
    cases t with
    | kernel _ _ _ _ e => exact absurd e (hp.ne_of_lastTwo (caFile_lastTwo _ _ _) (by decide))
    | initrd _ _ _ _ e => exact absurd e (hp.ne_of_lastTwo (caFile_lastTwo _ _ _) (by decide))
    | entry hg ho hk e => cases ho; exact ⟨_, hk, e⟩
    | loader h _ => exact h.elim
    | conf e => exact absurd e (hp.ne_of_lastTwo (confFile_lastTwo _) (by decide))
  | measured _ _ _ o => cases o
  | next h _ _ => exact h.elim
  | current h _ _ _ _ _ _ _ _ _ _ => exact h.elim
  | sync h _ => exact h.elim

theorem installGeneration_spares (hr : Reliable env.os) (hs : SafeInput env cfg) (hf : FaithfulTools env)
    (hsep : Separate cfg) (hfs : InOrder env cfg fs) {g : Gen} (hg : Considers env cfg g) :
    Triple (fun s => StillThere env cfg fs s.fs) (installGeneration env cfg g) (fun _ => SparesEntries cfg.esp fs)
      (fun _ s => StillThere env cfg fs s.fs) := by
  intro s h
  by_cases hex : ∃ key n, KeyOf env cfg.signer key ∧ isMatch env.uni (stubPrefix env.sha g key) n = true ∧
      (fs.get (entryFile cfg.esp n)).isSome
  · obtain ⟨key, n, hkey, hn, he⟩ := hex
    have hlin : fs.get (linuxDir cfg.esp) = some .dir := by
      have := hfs.tree.parent _ (by simp [entryFile]) he
      simpa [entryFile, linuxDir] using this
    obtain ⟨X, t, e⟩ := reads_installed hr (hs g hg) hkey hn (h.entries _ (isMatch_isEntry hn) he) (h.linux hlin)
      h.consistent h.files fun dir hdir => h.measured dir g hdir
        (hfs.measured dir g key n hdir hg hkey ((C27_lookup_iff _ _ _ _ _).1 hn) he)
    exact ⟨⟨[], by rw [e]; simp, by rw [e]; rfl, trivial⟩, by rw [e]; simp +contextual, by rw [e],
      fun _ _ => by rw [e]; exact h⟩
  · obtain ⟨⟨l, a1, a2, a3⟩, a4, a5, -⟩ := installGeneration_triple (ld := ⟨(· = g), False, False⟩) hs hg rfl s trivial
    refine ⟨⟨l, a1, a2, a3.mono fun f c st p hp he q d ec => ?_⟩, a4, a5, fun _ _ => ?_⟩
    · obtain ⟨key, hkey, rfl⟩ := st.spares hp ec
      exact hex ⟨key, _, hkey, isMatch_stubName _ _ _ _ _, he⟩
    · rw [a2]
      exact a3.inv (J := StillThere env cfg fs) h fun f c j st => j.step hs hf hsep st

theorem installAll_spares (hr : Reliable env.os) (hs : SafeInput env cfg) (hf : FaithfulTools env)
    (hsep : Separate cfg) (hfs : InOrder env cfg fs) (gens : List Gen) (hg : ∀ g ∈ gens, Considers env cfg g) :
    Triple (fun s => StillThere env cfg fs s.fs) (installAll env cfg gens) (fun _ => SparesEntries cfg.esp fs)
      (fun _ s => StillThere env cfg fs s.fs) := by
  induction gens with
  | nil => exact Triple.pure fun s h => h
  | cons g gens ih =>
    unfold installAll
    exact Triple.bind (installGeneration_spares hr hs hf hsep hfs (hg g (by simp))) fun _ =>
      ih fun x hx => hg x (by simp [hx])

/-- Installing the boot loader replaces no boot entry. -/
theorem InstallStep.ofLoader_spares {f : Fs} {c : Change} (st : InstallStep env cfg .ofLoader f c) :
    SparesEntries cfg.esp fs c := by
  rintro p hp - q d rfl
  cases st with
  | @replace to dur t r =>
    cases r
    cases t with
    | kernel _ h _ _ _ => exact h.elim
    | initrd _ h _ _ _ => exact h.elim
    | entry _ h _ _ => exact h.elim
    | loader _ e =>
      rcases e with e | e
      · exact hp.ne_of_lastTwo (fallbackFile_lastTwo _) (by decide) e
      · exact hp.ne_of_lastTwo (systemdFile_lastTwo _) (by decide) e
    | conf e => exact hp.ne_of_lastTwo (confFile_lastTwo _) (by decide) e
  | measured _ _ _ o => cases o
  | next _ _ o => cases o
  | current _ hp' _ _ _ _ _ _ _ _ e =>
    cases e
    exact isEntry_not_measurement hp ⟨_, hp', Or.inr (Or.inr rfl)⟩
  | sync _ e => cases e

/-- In a run no boot entry that is in order is replaced. -/
theorem run_spares (hr : Reliable env.os) (hs : SafeInput env cfg) (hf : FaithfulTools env)
    (hsep : Separate cfg) (hfs : InOrder env cfg fs) :
    ∀ c ∈ (run env cfg (start cfg fs)).2.log, SparesEntries cfg.esp fs c := by
  cases hl : cfg.considered env with
  | none =>
    have e : run env cfg (start cfg fs) = (.err (), start cfg fs) := by
      simp [run, hl, ofOption, RM.throw]
    rw [e]
    simp [start]
  | some links =>
    obtain ⟨gs, t, b, he, h1, -⟩ := readGenerations_spec env links (start cfg fs)
    let gens := gs.flatMap fun g => g.1 :: g.2
    have hcons : ∀ g ∈ gens, Considers env cfg g := by
      intro g hg
      obtain ⟨x, hx, hgx⟩ := List.mem_flatMap.1 hg
      obtain ⟨link, hlink, j, hj, rfl⟩ := h1 x hx
      exact ⟨links, link, j, hl, hlink, hj, hgx⟩
    let s0 : State := { start cfg fs with tick := t, broken := b }
    have e : run env cfg (start cfg fs) = (do installThem env cfg gs; installSystemdBoot env cfg; collect env cfg) s0 := by
      simp only [run, hl, ofOption, installGenerationsFromLinks, RM.bind_run,
        RM.pure_run, he, installThem]
      rfl
    have h0 : StillThere env cfg fs s0.fs := ⟨hfs.consistent, hfs.files, fun h => h, fun _ _ h => h, fun _ _ _ h => h⟩
    have whole : Triple (fun s => StillThere env cfg fs s.fs)
        (do installThem env cfg gs; installSystemdBoot env cfg; collect env cfg) (fun _ => SparesEntries cfg.esp fs)
        (fun _ _ => True) := by
      refine Triple.bind (Q := fun _ _ => True) ?_ fun _ => ?_
      · unfold installThem
        refine Triple.ite (fun _ => Triple.throw) fun _ => ?_
        refine Triple.bind (installAll_spares hr hs hf hsep hfs gens hcons) fun _ => ?_
        refine (syncFs_triple (env := env) (J := fun _ => True) (R := fun _ => True) cfg.esp
          (fun _ _ => trivial) (A := fun _ => SparesEntries cfg.esp fs) ?_).weaken (fun _ _ => ⟨trivial, trivial⟩)
          (fun _ _ h => h) fun _ _ _ => trivial
        intro f _ p hp hq q d e
        cases e
      refine Triple.bind (Q := fun _ _ => True) ?_ fun _ => ?_
      · exact (installSystemdBoot_triple (ld := .ofLoader) hs trivial).weaken (fun _ _ => trivial)
          (fun _ _ st => st.ofLoader_spares) fun _ _ _ => trivial
      · intro s _
        by_cases hbr : s.broken = []
        · have e' : collect env cfg s = (do
              collectGarbage env.os cfg.paths.nixos
              collectGarbageWithFilter env.os cfg.paths.linux startsWithNixos
              collectMeasurements env cfg)
              { s with fs := s.fs.apply .collecting, log := s.log ++ [Change.collecting] } := by
            simp [collect, RM.get, hbr, change]
          obtain ⟨⟨l, g1, g2, g3⟩, g4, g5, -⟩ := collectThree_triple (env := env) (cfg := cfg) s.roots
            { s with fs := s.fs.apply .collecting, log := s.log ++ [Change.collecting] } rfl
          rw [← e'] at g1 g2 g4 g5
          refine ⟨⟨.collecting :: l, by rw [g1]; simp, by rw [g2]; rfl, And.intro (fun p _ _ q d ec => by cases ec) ?_⟩,
            g4, g5, fun _ _ => trivial⟩
          refine g3.mono fun f c st p _ _ q d ec => ?_
          subst ec
          cases st with
          | nixos h => cases h
          | linux h => cases h
          | lock _ h => cases h
        · have e' : collect env cfg s = (.ok (), s) := by simp [collect, RM.get, hbr]
          refine ⟨⟨[], by rw [e']; simp, by rw [e']; rfl, trivial⟩, by rw [e']; exact fun _ h => h, by rw [e'],
            fun _ _ => trivial⟩
    obtain ⟨⟨l, a1, -, a3⟩, -⟩ := whole s0 h0
    rw [e, a1]
    intro c hc
    exact a3.forall (fun _ _ h => h) c (by simpa [s0, start] using hc)

end Verif.Tool
