import Verif.Spec.Assessment
import Verif.Props.MeasuredEntries
import Verif.Props.Bounded
/-!
# C100: updates do not interfere with boot assessment
-/
namespace Verif.Tool
open Verif StubName Generation BootCounting

variable {env world : Env} {cfg : Config} {esp : Path} {pcrlock : Option Path} {known : Gen → Bytes → Prop}
  {g : Gen} {key : Bytes} {n : Str} {data : Bytes} {fs fs' : Fs} {done : List Change}

/-- A change that writes no boot entry of `g`. -/
theorem Assessed.step (hr : AssessedRun world esp known pcrlock g key env cfg) {ld : Scope} {f : Fs} {c : Change}
    (h : Assessed world esp pcrlock g key n data f) (st : InstallStep env cfg ld f c)
    (haway : ∀ n' dur, IsNameOf world.uni world.sha g key n' → ¬ Target env cfg ld dur (entryFile cfg.esp n')) :
    Assessed world esp pcrlock g key n data (f.apply c) := by
  obtain rfl := hr.proper.esp
  obtain rfl := hr.pcrlock
  have hs := hr.proper.safe
  have hw := hr.proper.inWorld
  have hent : ∀ n', IsNameOf world.uni world.sha g key n' → IsEntry cfg.esp (entryFile cfg.esp n') :=
    fun n' h => isMatch_isEntry h.isMatch
  have hsame : ∀ n', IsNameOf world.uni world.sha g key n' →
      (f.apply c).get (entryFile cfg.esp n') = f.get (entryFile cfg.esp n') := by
    intro n' hn'
    rcases st.get hs (isEntry_not_tmp (hent n' hn')) (isEntry_not_measurement (hent n' hn')) with
      e | ⟨e', e⟩ | ⟨d, -, ⟨dur, t, -⟩, -⟩
    · exact e
    · exfalso
      obtain ⟨m, em, hm⟩ := hent n' hn'
      cases entryFile_inj em
      refine st.no_dir hs hr.proper.separate (d := lit "Linux") (n := n') (Or.inr rfl) ?_ e' e
      obtain ⟨x, rfl⟩ := hm.2
      rw [List.getLast?_append]; rfl
    · exact absurd t (haway n' dur hn')
  refine ⟨?_, h.name, ?_, fun n' hn' he => h.only n' hn' (by rw [← hsame n' hn']; exact he), ?_, fun dir hdir => ?_⟩
  · rcases st.get hs linuxDir_plain.1 linuxDir_plain.2 with h' | ⟨h', -⟩ | ⟨d, -, -, h', -⟩
    · rw [h', h.linux]
    · rw [h.linux] at h'; cases h'
    · exact absurd h.linux h'
  · have := h.entry
    rw [Fs.fileAt_eq_some] at this ⊢
    rw [hsame n h.name]; exact this
  · obtain ⟨kl, kh, il, ih, h1, h2, h3, h4⟩ := h.refs
    have h3 : Present env f _ _ := h3.congr hw.sha.symm
    have h4 : Present env f _ _ := h4.congr hw.sha.symm
    exact ⟨kl, kh, il, ih, h1, h2, (st.present hs h3.length h3).congr hw.sha, (st.present hs h4.length h4).congr hw.sha⟩
  · exact st.exists_stays hs (isMeasurement_not_isTmp ⟨dir, hdir, Or.inl ⟨g, rfl⟩⟩)
      (measurementFile_not_next dir g) (h.measured dir hdir)

/-- The boot entry of `g` stays as it is when any generation is installed. -/
theorem installGeneration_assessed (hu : Unambiguous world known)
    (hr : AssessedRun world esp known pcrlock g key env cfg) {g' : Gen} (hg' : Considers env cfg g') :
    Triple (fun s => Assessed world esp pcrlock g key n data s.fs) (installGeneration env cfg g')
      (fun f c => Assessed world esp pcrlock g key n data (f.apply c))
      (fun _ s => Assessed world esp pcrlock g key n data s.fs) := by
  have hw := hr.proper.inWorld
  have hkn := hr.proper.known g key hr.considers hr.signer
  have hkn' := hr.proper.known g' key hg' hr.signer
  by_cases hsame : SameEntry g g' key key
  · intro s h
    obtain rfl := hr.proper.esp
    obtain rfl := hr.pcrlock
    have hpfx : stubPrefix env.sha g' key = stubPrefix env.sha g key := sameEntry_prefix hsame env.sha
    have hm : isMatch env.uni (stubPrefix env.sha g' key) n = true := by
      rw [hpfx, hw.uni, hw.sha]; exact h.name.isMatch
    obtain ⟨X, t, e⟩ := reads_ready hr.reliable (hr.proper.safe g' hg') hr.signer hm
      (by rw [Fs.fileAt_eq_some.1 h.entry]; rfl) h.linux (fun m hm' hsome => by
        rw [hpfx, hw.uni, hw.sha] at hm'
        cases h.only m (isNameOf hm') hsome
        obtain ⟨kl, kh, il, ih, h1, h2, h3, h4⟩ := h.refs
        exact ⟨data, kl, kh, il, ih, h.entry, h1.congr hw.parse.symm, h2.congr hw.parse.symm,
          h3.congr hw.sha.symm, h4.congr hw.sha.symm⟩)
      fun p hp => by rw [sameEntry_measurement hsame]; exact h.measured p hp
    exact ⟨⟨[], by rw [e]; simp, by rw [e]; rfl, trivial⟩, by rw [e]; simp +contextual, by rw [e],
      fun _ _ => by rw [e]; exact h⟩
  · have hT := Triple.carry (J := Assessed world esp pcrlock g key n data)
      (A' := fun f c => Assessed world esp pcrlock g key n data (f.apply c))
      (installGeneration_triple (ld := .one g') hr.proper.safe hg' rfl) (by
        intro f c j st
        have : Assessed world esp pcrlock g key n data (f.apply c) := by
          refine j.step hr st fun n' dur hn' t => ?_
          have hent : IsEntry cfg.esp (entryFile cfg.esp n') := isMatch_isEntry hn'.isMatch
          cases t with
          | kernel _ _ _ _ e => exact absurd e (hent.ne_of_lastTwo (caFile_lastTwo _ _ _) (by decide))
          | initrd _ _ _ _ e => exact absurd e (hent.ne_of_lastTwo (caFile_lastTwo _ _ _) (by decide))
          | entry _ ho hk e =>
            cases ho
            cases hk.unique hr.signer
            cases entryFile_inj e
            exact hsame (sameEntry_of hu hkn hkn' hn'
              (isNameOf (by rw [← hw.uni, ← hw.sha]; exact isMatch_stubName _ _ _ _ _)))
          | loader h _ => exact h.elim
          | conf e => exact absurd e (hent.ne_of_lastTwo (confFile_lastTwo _) (by decide))
        exact ⟨this, this⟩)
    exact (hT.post fun _ _ h => h.2).pre fun s h => ⟨trivial, h⟩

theorem Assessed.loader (hr : AssessedRun world esp known pcrlock g key env cfg) {f : Fs} {c : Change}
    (h : Assessed world esp pcrlock g key n data f) (st : InstallStep env cfg .ofLoader f c) :
    Assessed world esp pcrlock g key n data (f.apply c) := by
  refine h.step hr st fun n' dur hn' t => ?_
  have hp : IsEntry cfg.esp (entryFile cfg.esp n') := isMatch_isEntry hn'.isMatch
  cases t with
  | kernel _ h _ _ _ => exact h.elim
  | initrd _ h _ _ _ => exact h.elim
  | entry _ h _ _ => exact h.elim
  | loader _ e =>
    rcases e with e | e
    · exact hp.ne_of_lastTwo (fallbackFile_lastTwo _) (by decide) e
    · exact hp.ne_of_lastTwo (systemdFile_lastTwo _) (by decide) e
  | conf e => exact hp.ne_of_lastTwo (confFile_lastTwo _) (by decide) e

/-- What installing each generation and the boot loader preserves holds at any moment before garbage collection. -/
theorem chain_invariant {J : Fs → Prop} (hs : SafeInput env cfg)
    (hinst : ∀ x, Considers env cfg x → Triple (fun s => J s.fs) (installGeneration env cfg x)
      (fun f c => J (f.apply c)) (fun _ s => J s.fs))
    (hload : ∀ f c, J f → InstallStep env cfg .ofLoader f c → J (f.apply c)) (h0 : J fs) :
    Fs.Chain (fun f c => c = .collecting ∨ (removed c).isSome ∨ J (f.apply c)) fs
      (run env cfg (start cfg fs)).2.log := by
  cases hl : cfg.considered env with
  | none =>
    have e : run env cfg (start cfg fs) = (.err (), start cfg fs) := by
      simp [run, hl, ofOption, RM.throw]
    rw [e]
    trivial
  | some links =>
    obtain ⟨gs, t, b, he, h1, -⟩ := readGenerations_spec env links (start cfg fs)
    let gens := gs.flatMap fun g => g.1 :: g.2
    have hcons : ∀ g ∈ gens, Considers env cfg g := by
      intro g hg
      obtain ⟨x, hx, hgx⟩ := List.mem_flatMap.1 hg
      obtain ⟨link, hlink, j, hj, rfl⟩ := h1 x hx
      exact ⟨links, link, j, hl, hlink, hj, hgx⟩
    let s0 : State := { start cfg fs with tick := t, broken := b }
    have e : run env cfg (start cfg fs) = (do installThem env cfg gs; installSystemdBoot env cfg; collect env cfg) s0 := by
      simp only [run, hl, ofOption, installGenerationsFromLinks, RM.bind_run,
        RM.pure_run, he, installThem]
      rfl
    have all : ∀ gens : List Gen, (∀ g ∈ gens, Considers env cfg g) → Triple (fun s => J s.fs)
        (installAll env cfg gens) (fun f c => J (f.apply c)) (fun _ s => J s.fs) := by
      intro gens
      induction gens with
      | nil => exact fun _ => Triple.pure fun s h => h
      | cons g gens ih =>
        intro hg
        unfold installAll
        exact Triple.bind (hinst g (hg g (by simp))) fun _ => ih fun x hx => hg x (by simp [hx])
    have whole : Triple (fun s => J s.fs)
        (do installThem env cfg gs; installSystemdBoot env cfg; collect env cfg)
        (fun f c => c = .collecting ∨ (removed c).isSome ∨ J (f.apply c))
        (fun _ _ => True) := by
      refine Triple.bind (Q := fun _ s => J s.fs) ?_ fun _ => ?_
      · unfold installThem
        refine Triple.ite (fun _ => Triple.throw) fun _ => ?_
        refine Triple.bind ((all gens hcons).steps fun _ _ h => Or.inr (Or.inr h)) fun _ => ?_
        have sync : ∀ f, J f → J (f.apply (.syncfs cfg.esp)) := fun f j => hload f _ j (.sync trivial rfl)
        exact (syncFs_triple (env := env) (J := J) (R := fun _ => True) cfg.esp
          sync fun f j => Or.inr (Or.inr (sync f j))).weaken (fun _ h => ⟨h, trivial⟩)
          (fun _ _ h => h) fun _ _ h => h.1
      refine Triple.bind (Q := fun _ s => J s.fs) ?_ fun _ => ?_
      · refine (Triple.carry (J := J)
          (installSystemdBoot_triple (ld := .ofLoader) hs trivial) ?_).weaken (fun _ h => ⟨trivial, h⟩)
          (fun _ _ h => h) fun _ _ h => h.2
        exact fun f c j st => ⟨hload f c j st, Or.inr (Or.inr (hload f c j st))⟩
      · intro s _
        by_cases hbr : s.broken = []
        · have e' : collect env cfg s = (do
              collectGarbage env.os cfg.paths.nixos
              collectGarbageWithFilter env.os cfg.paths.linux startsWithNixos
              collectMeasurements env cfg)
              { s with fs := s.fs.apply .collecting, log := s.log ++ [Change.collecting] } := by
            simp [collect, RM.get, hbr, change]
          obtain ⟨⟨l, g1, g2, g3⟩, g4, g5, -⟩ := collectThree_triple (env := env) (cfg := cfg) s.roots
            { s with fs := s.fs.apply .collecting, log := s.log ++ [Change.collecting] } rfl
          rw [← e'] at g1 g2 g4 g5
          refine ⟨⟨.collecting :: l, by rw [g1]; simp, by rw [g2]; rfl, And.intro (Or.inl rfl) ?_⟩,
            g4, g5, fun _ _ => trivial⟩
          refine g3.mono fun f c st => Or.inr (Or.inl ?_)
          cases st with
          | nixos h => cases h <;> rfl
          | linux h => cases h <;> rfl
          | lock _ h => cases h <;> rfl
        · have e' : collect env cfg s = (.ok (), s) := by simp [collect, RM.get, hbr]
          refine ⟨⟨[], by rw [e']; simp, by rw [e']; rfl, trivial⟩, by rw [e']; exact fun _ h => h, by rw [e'],
            fun _ _ => trivial⟩
    obtain ⟨⟨l, a1, -, a3⟩, -⟩ := whole s0 h0
    rw [e, a1]
    simpa [s0, start] using a3

/-- **C100** (one run). Suppose a generation that is to be installed has just one boot entry, with whatever counter in
its name, and the entry can be booted. Then at every moment of a run of the installer, and after it, that entry is
there under the same name and with the same content, and there is no other for the generation. The run may
have another stub, other generations and another number of tries than the run that wrote the entry. -/
theorem C100_entry_left_alone (hu : Unambiguous world known)
    (hr : AssessedRun world esp known pcrlock g key env cfg) (hsnd : Sound world esp fs)
    (h : Assessed world esp pcrlock g key n data fs) (hk : KilledAfter env cfg fs done) :
    Assessed world esp pcrlock g key n data (fs.replay done) := by
  have hw := hr.proper.inWorld
  have hrun := chain_invariant (J := Assessed world esp pcrlock g key n data) hr.proper.safe
    (fun x hx => installGeneration_assessed hu hr hx) (fun f c j st => j.loader hr st) h
  have before : ∀ {ld : Scope} {done : List Change}, KilledAfter env cfg fs done →
      Fs.Chain (InstallStep env cfg ld) fs done → Assessed world esp pcrlock g key n data (fs.replay done) := by
    intro ld done hk hch
    refine (hch.both (hrun.prefix hk)).inv h ?_
    rintro f c j ⟨st, h⟩
    have hn := st.removes_nothing
    rcases h with h | h | h
    · exact absurd h hn.1
    · rw [hn.2] at h; cases h
    · exact h
  obtain ⟨a, b, gens, final, sh⟩ := run_shape hr.proper.safe
    ((inUse_carried hr.proper.safe hr.proper.tools hr.proper.separate).all.and
      (measured_carried hr.proper.safe).all) (start cfg fs)
    ⟨(by obtain rfl := hr.proper.esp; exact hsnd.congr hw.parse.symm hw.sha.symm), trivial⟩ (by simp) rfl
  rcases sh.phases hk with ⟨-, -, hch⟩ | ⟨-, hch, l, hdone, hgc, e, hall, hC⟩
  · exact before hk hch
  · have ha := before (List.IsPrefix.trans ⟨_, hdone.symm⟩ hk) hch
    obtain rfl := hr.proper.esp
    obtain rfl := hr.pcrlock
    obtain ⟨hC1, hC2⟩ := hC.gens
    obtain ⟨n', key', data', kl, kh, il, ih, hkey, hm, hd, h1, h2, ⟨⟨d1, c3, c3'⟩, ⟨d2, c4, c4'⟩⟩,
      r1, r2, r3⟩ := (hC1 g (hall g hr.considers)).ex
    cases hkey.unique hr.signer
    rw [hw.uni, hw.sha] at hm
    cases ha.only n' (isNameOf hm) (by rw [Fs.fileAt_eq_some.1 hd]; rfl)
    cases ha.entry.symm.trans hd
    rw [hw.sha] at c3' c4'
    have hent : (((fs.replay a).replay l)).fileAt (entryFile cfg.esp n) = some data := by
      rw [kept_entry hr.proper.separate sh.roots r1 hgc]; exact hd
    rw [e]
    refine ⟨?_, ha.name, hent, fun n' hn' hs' => ha.only n' hn' ?_, ⟨kl, kh, il, ih, h1.congr hw.parse,
      h2.congr hw.parse, ⟨d1, ?_, c3'⟩, ⟨d2, ?_, c4'⟩⟩, fun dir hdir => ?_⟩
    · rw [GcAny.chain_keeps hgc fun q hq => not_doomed hr.proper.separate (x := linuxDir cfg.esp)
        (List.prefix_append _ _) ?_ hq]
      · exact ha.linux
      · intro q h1 h2
        rw [show linuxDir cfg.esp = (cfg.esp ++ [lit "EFI"]) ++ [lit "Linux"] by simp [linuxDir]] at h2
        rcases prefix_snoc_iff.1 h2 with h2 | rfl
        · rcases prefix_snoc_iff.1 h2 with h2 | rfl
          · have : q = cfg.esp := List.IsPrefix.eq_of_length_le h2 h1.length_le
            rw [this]; exact sh.roots _ (esp_root cfg fs)
          · exact sh.roots _ (efi_root cfg fs)
        · have := sh.roots _ (linuxDir_root cfg fs)
          simpa [linuxDir] using this
    · rcases GcAny.chain_get hgc (entryFile cfg.esp n') with e | e
      · rw [← e]; exact hs'
      · rw [e] at hs'; cases hs'
    · rw [kept_ca hr.proper.separate sh.roots r2 hgc]; exact c3
    · rw [kept_ca hr.proper.separate sh.roots r3 hgc]; exact c4
    · have := hC2 g (hall g hr.considers) dir hdir
      rw [kept_measurement (fs := fs) hr.proper.separate sh.roots hdir this.2 hgc]
      exact ha.measured dir hdir

/-! ### Over time -/

theorem counter_text_injective {c c' : Counter} (h : c.text = c'.text) : c = c' := by
  have minus : ∀ {a b d : Nat}, toDec a ≠ toDec b ++ '-' :: toDec d := by
    intro a b d e
    exact not_mem_toDec (c := '-') (by decide) a (by rw [e]; simp)
  cases c <;> cases c' <;> simp [Counter.text] at h ⊢
  · exact toDec_injective h
  · exact minus h
  · exact minus h.symm
  · have h1 := toDec_append_inj h (by simp; decide) (by simp; decide)
    exact ⟨h1.1, toDec_injective (List.cons.inj h1.2).2⟩

theorem entryName_injective {base : Str} {c c' : Counter} (h : entryName base c = entryName base c') : c = c' := by
  unfold entryName at h
  exact counter_text_injective (List.append_cancel_left (List.append_cancel_right h))

/-- One rename for boot counting, of any boot entry. -/
theorem Assessed.count {base b : Str} {c c₁ c₂ : Counter} {data' : Bytes} {f : Fs}
    (h : Assessed world esp pcrlock g key (entryName base c) data f) (hbase : NoCounter world.uni base)
    (hb : NoCounter world.uni b) (hc : CounterStep c₁ c₂)
    (hf : f.fileAt (entryFile esp (entryName b c₁)) = some data') :
    ∃ c', (c' = c ∨ CounterStep c c') ∧ Assessed world esp pcrlock g key (entryName base c') data
      (f.apply (.rename (entryFile esp (entryName b c₁)) (entryFile esp (entryName b c₂)) data')) := by
  have hget : ∀ q, (f.apply (.rename (entryFile esp (entryName b c₁))
      (entryFile esp (entryName b c₂)) data')).get q =
      if q = entryFile esp (entryName b c₂) then some (.file data')
      else if q = entryFile esp (entryName b c₁) then none else f.get q :=
    fun q => Fs.get_rename (by simp [entryFile]) (by simp [entryFile]) q
  have hbase' : base = stubPrefix world.sha g key := base_of_match hbase h.name.isMatch
  have elsewhere : ∀ q, (∀ m, q ≠ entryFile esp m) → (f.apply (.rename (entryFile esp (entryName b c₁))
      (entryFile esp (entryName b c₂)) data')).get q = f.get q := by
    intro q hq
    rw [hget, if_neg (hq _), if_neg (hq _)]
  have hlin : ∀ m, linuxDir esp ≠ entryFile esp m := by
    intro m e
    have := congrArg List.length e
    simp [linuxDir, entryFile] at this
  have refs : ∃ kl kh il ih,
      RefersToCa world esp data (lit ".linux") (lit ".linuxh") kl kh ∧
      RefersToCa world esp data (lit ".initrd") (lit ".initrdh") il ih ∧
      Present world (f.apply (.rename (entryFile esp (entryName b c₁))
        (entryFile esp (entryName b c₂)) data')) (caFile esp kl kh) kh ∧
      Present world (f.apply (.rename (entryFile esp (entryName b c₁))
        (entryFile esp (entryName b c₂)) data')) (caFile esp il ih) ih := by
    obtain ⟨kl, kh, il, ih, h1, h2, ⟨d3, e3, f3⟩, ⟨d4, e4, f4⟩⟩ := h.refs
    refine ⟨kl, kh, il, ih, h1, h2, ⟨d3, ?_, f3⟩, ⟨d4, ?_, f4⟩⟩
    · rw [Fs.fileAt_eq_some] at e3 ⊢
      rw [elsewhere _ fun m => caFile_ne_entryFile _ _ _ _]; exact e3
    · rw [Fs.fileAt_eq_some] at e4 ⊢
      rw [elsewhere _ fun m => caFile_ne_entryFile _ _ _ _]; exact e4
  have meas : ∀ dir, pcrlock = some dir → ((f.apply (.rename (entryFile esp (entryName b c₁))
        (entryFile esp (entryName b c₂)) data')).get (measurementFile dir g)).isSome := by
    intro dir hdir
    rw [elsewhere _ fun m => measurementFile_ne_entryFile _ _ _ _]; exact h.measured dir hdir
  by_cases hbb : b = base
  · subst hbb
    have := h.only (entryName b c₁) (by rw [hbase']; exact isNameOf (isMatch_entryName _ _ _))
      (by rw [Fs.fileAt_eq_some.1 hf]; rfl)
    obtain rfl := entryName_injective this
    cases h.entry.symm.trans hf
    refine ⟨c₂, Or.inr hc, by rw [elsewhere _ hlin]; exact h.linux,
      by rw [hbase']; exact isNameOf (isMatch_entryName _ _ _), ?_, fun n' hn' he => ?_, refs, meas⟩
    · rw [Fs.fileAt_eq_some, hget, if_pos rfl]
    · rw [hget] at he
      split at he
      · next e => exact entryFile_inj e
      · split at he
        · cases he
        · next h2 => exact absurd (congrArg (entryFile esp) (h.only n' hn' he)) h2
  · have hne : ∀ n' x, IsNameOf world.uni world.sha g key n' → entryFile esp n' ≠ entryFile esp (entryName b x) := by
      intro n' x hn' e
      cases entryFile_inj e
      exact hbb ((base_of_match hb hn'.isMatch).trans hbase'.symm)
    refine ⟨c, Or.inl rfl, by rw [elsewhere _ hlin]; exact h.linux, h.name, ?_, fun n' hn' he => ?_, refs, meas⟩
    · rw [Fs.fileAt_eq_some, hget, if_neg (hne _ _ h.name), if_neg (hne _ _ h.name), ← Fs.fileAt_eq_some]
      exact h.entry
    · rw [hget, if_neg (hne _ _ hn'), if_neg (hne _ _ hn')] at he
      exact h.only n' hn' he

/-- **C100**. Suppose a generation has just one boot entry, whatever its counter, and the entry can be booted. After
any number of updates, also ones that fail or are killed at any moment, boots, and changes elsewhere, that entry is
still the only one of the generation and has the same content. Its counter is what boot counting has made of it: the
updates have not changed it. -/
theorem C100_assessment_survives (hu : Unambiguous world known) {base : Str} {c : Counter}
    (hb : NoCounter world.uni base) (hsnd : Sound world esp fs)
    (h : Assessed world esp pcrlock g key (entryName base c) data fs)
    (ha : BootsAndUpdates world esp known pcrlock g key fs fs') :
    ∃ c', CounterSteps c c' ∧ Assessed world esp pcrlock g key (entryName base c') data fs' := by
  suffices Sound world esp fs' ∧ ∃ c', CounterSteps c c' ∧
      Assessed world esp pcrlock g key (entryName base c') data fs' from this.2
  induction ha with
  | nil => exact ⟨hsnd, c, .refl, h⟩
  | run _ hr hk ih =>
    obtain ⟨hs, c', h1, h2⟩ := ih
    exact ⟨hr.proper.sound hk hs, c', h1, C100_entry_left_alone hu hr hs h2 hk⟩
  | count _ hb' he hc hf hn ih =>
    obtain ⟨hs, c', h1, h2⟩ := ih
    refine ⟨Event.sound (known := known) (K := fun _ _ => True) (.count hb' he hc hf hn) hs, ?_⟩
    obtain ⟨c'', h3, h4⟩ := h2.count hb hb' hc hf
    rcases h3 with rfl | h3
    · exact ⟨_, h1, h4⟩
    · exact ⟨c'', .step h1 h3, h4⟩
  | other _ hp ih =>
    obtain ⟨hs, c', h1, h2⟩ := ih
    refine ⟨Event.sound (known := known) (K := fun _ _ => True) (.other fun p h => hp p ?_) hs, c', h1, ?_⟩
    · rcases h with h | h
      · exact Or.inl h
      · exact Or.inr (Or.inl h)
    · have hent : ∀ n', IsNameOf world.uni world.sha g key n' → _ := fun n' hn' =>
        hp (entryFile esp n') (Or.inl (isMatch_isEntry hn'.isMatch))
      refine ⟨by rw [hp _ (Or.inr (Or.inr (Or.inl rfl)))]; exact h2.linux, h2.name, ?_, fun n' hn' he =>
        h2.only n' hn' (by rw [← hent n' hn']; exact he), ?_, fun dir hdir => ?_⟩
      · have := h2.entry
        rw [Fs.fileAt_eq_some] at this ⊢
        rw [hent _ h2.name]; exact this
      · obtain ⟨kl, kh, il, ih, h1, h2, ⟨d3, e3, f3⟩, ⟨d4, e4, f4⟩⟩ := h2.refs
        refine ⟨kl, kh, il, ih, h1, h2, ⟨d3, ?_, f3⟩, ⟨d4, ?_, f4⟩⟩
        · rw [Fs.fileAt_eq_some] at e3 ⊢
          rw [hp _ (Or.inr (Or.inl (caFile_below _ _ _)))]; exact e3
        · rw [Fs.fileAt_eq_some] at e4 ⊢
          rw [hp _ (Or.inr (Or.inl (caFile_below _ _ _)))]; exact e4
      · rw [hp _ (Or.inr (Or.inr (Or.inr ⟨dir, hdir, rfl⟩)))]; exact h2.measured dir hdir

/-- Boot counting never gives more tries, and what has been found good stays so. -/
theorem CounterSteps.tries {c c' : Counter} (h : CounterSteps c c') :
    (Counter.tries c = none → Counter.tries c' = none) ∧
    ∀ k k', Counter.tries c = some k → Counter.tries c' = some k' → k' ≤ k := by
  induction h with
  | refl => exact ⟨id, fun k k' h h' => by rw [h] at h'; cases h'; exact Nat.le_refl _⟩
  | step _ hs ih =>
    cases hs <;> simp_all [Counter.tries] <;> intro k hk <;> have := ih.2 k hk <;> omega

/-- **C100** (tries). So updates never give a boot entry new tries: an entry for which no tries are left gets none,
and one that has been found good is not tried again. -/
theorem C100_no_new_tries (hu : Unambiguous world known) {base : Str} {c : Counter}
    (hb : NoCounter world.uni base) (hsnd : Sound world esp fs)
    (h : Assessed world esp pcrlock g key (entryName base c) data fs)
    (ha : BootsAndUpdates world esp known pcrlock g key fs fs') :
    ∃ c', Assessed world esp pcrlock g key (entryName base c') data fs' ∧
      (Counter.tries c = none → Counter.tries c' = none) ∧
      ∀ k k', Counter.tries c = some k → Counter.tries c' = some k' → k' ≤ k := by
  obtain ⟨c', h1, h2⟩ := C100_assessment_survives hu hb hsnd h ha
  exact ⟨c', h2, h1.tries⟩

/-- **C100** (beginning). After a successful run each generation that was to be installed has just one boot entry, and
so on: what `C100_assessment_survives` starts from is what the installer leaves. -/
theorem C100_begins (hu : Unambiguous world known) (hr : AssessedRun world esp known pcrlock g key env cfg)
    (ht : fs.Tree) (hsnd : Sound world esp fs) (hok : Succeeded env cfg fs)
    (hD : ∀ links, cfg.considered env = some links → Distinct env cfg (allOf env links))
    (hM : AllMeasured env cfg fs) :
    ∃ n data, Assessed world esp pcrlock g key n data (run env cfg (start cfg fs)).2.fs := by
  have hp := hr.proper
  have hw := hp.inWorld
  have ho := inOrder_after hp hp hu hr.reliable ht hsnd hok fun _ h => h
  obtain rfl := hp.esp
  obtain rfl := hr.pcrlock
  obtain ⟨key', n, hk, hm, hsome, hone⟩ := C55_one_entry_each hp.safe hp.tools hp.separate hr.reliable ht
    (hsnd.congr hw.parse.symm hw.sha.symm) hok hD hM hr.considers
  cases hk.unique hr.signer
  obtain ⟨data, hd⟩ := Option.isSome_iff_exists.1 hsome
  have hex : ((run env cfg (start cfg fs)).2.fs.get (entryFile cfg.esp n)).isSome := by
    rw [Fs.fileAt_eq_some.1 hd]; rfl
  obtain ⟨kl, kh, il, ih, h1, h2, h3, h4⟩ := ho.consistent _ (isMatch_isEntry hm.isMatch) data hd
  refine ⟨n, data, ?_, by rw [← hw.uni, ← hw.sha]; exact hm, hd, fun n' hn' he => hone n' ?_ he,
    ⟨kl, kh, il, ih, h1.congr hw.parse, h2.congr hw.parse, h3.congr hw.sha, h4.congr hw.sha⟩,
    fun dir hdir => ho.measured dir g key n hdir hr.considers hr.signer hm hex⟩
  · have := ho.tree.parent _ (by simp [entryFile]) hex
    simpa [entryFile, linuxDir] using this
  · rw [hw.uni, hw.sha]; exact hn'

theorem assessed_named {n' : Str} {data' : Bytes} (h : Assessed world esp pcrlock g key n data fs)
    (hm : IsNameOf world.uni world.sha g key n') (hd : fs.fileAt (entryFile esp n') = some data') :
    Assessed world esp pcrlock g key n' data' fs := by
  cases h.only n' hm (by rw [Fs.fileAt_eq_some.1 hd]; rfl)
  cases h.entry.symm.trans hd
  exact h

end Verif.Tool

namespace Verif.Tool.Sample
open Verif Verif.Tool Generation StubName BootCounting

theorem assessed1 : AssessedRun good cfg.esp known (some lockDir) first [80, 75] good cfg1 where
  proper := properRun1
  reliable := reliable_good
  considers := first_considered1
  signer := by show good.store _ = _; decide
  pcrlock := rfl

theorem assessedUpdated : AssessedRun good cfg.esp known (some lockDir) first [80, 75] updated cfg where
  proper := properUpdated
  reliable := ⟨fun _ => rfl, fun _ l => List.Perm.refl l⟩
  considers := ⟨(considers_iff.2 first_mem).ex⟩
  signer := by show updated.store _ = _; decide
  pcrlock := rfl

theorem distinct1 : ∀ links, cfg1.considered good = some links →
    Distinct good cfg1 (Verif.Tool.allOf good links) := by
  intro links h key hk
  have hk : good.store [lit "keys", lit "db.pem"] = some key := hk
  have h' : good.store [lit "keys", lit "db.pem"] = some [80, 75] := by decide
  rw [h'] at hk
  cases hk
  have e : cfg1.considered good = some ((cfg1.considered good).getD []) := by decide +kernel
  rw [e] at h
  rw [← Option.some.inj h]
  have key : (Tool.allOf good ((cfg1.considered good).getD [])).Pairwise fun g g' =>
      g.spec.toplevel ≠ g'.spec.toplevel ∧ ¬ (hashed g [80, 75] ≠ hashed g' [80, 75] ∧
        sha.hash (hashed g [80, 75]) = sha.hash (hashed g' [80, 75])) := by decide +kernel
  exact key.imp fun h => ⟨fun e => h.1 e.2.2.1, h.2⟩

theorem measured1 : AllMeasured good cfg1 disk0 := by
  intro p _ g key n _ _ hm hx
  obtain ⟨d, hd⟩ := Option.isSome_iff_exists.1 hx
  exact absurd hd (no_entry (isMatch_isEntry hm.isMatch) d)

/-- The entry of the first generation, with three tries. -/
theorem first_assessed : Assessed good cfg.esp (some lockDir) first [80, 75] (entryName firstName (.left 3)) oneGenImage
    oneGen := by
  have hx : ∃ n data, Assessed good cfg.esp (some lockDir) first [80, 75] n data oneGen :=
    C100_begins unambiguous assessed1 tree0 sound0 oneGen_steps.1 distinct1 measured1
  have hd : oneGen.fileAt (entryFile cfg.esp (entryName firstName (.left 3))) = some oneGenImage := oneGen_steps.2.1
  have hm : IsNameOf good.uni good.sha first [80, 75] (entryName firstName (.left 3)) :=
    isNameOf (isMatch_entryName good.uni (stubPrefix sha first [80, 75]) (.left 3))
  exact hx.elim fun n hx => hx.elim fun data h => assessed_named h hm hd

/-- The first generation is booted once. Lanzaboote is updated, two further generations are installed, and that run is
killed. Then it is run again. -/
theorem boots_and_updates {done done' : List Change} (hk : KilledAfter updated cfg oneGenTried done)
    (hk' : KilledAfter updated cfg (oneGenTried.replay done) done') :
    BootsAndUpdates good cfg.esp known (some lockDir) first [80, 75] oneGen ((oneGenTried.replay done).replay done') :=
  .run (.run (.count (c := .left 3) (c' := .leftDone 2 1) .nil noCounter_first first_isEntry .try_first
    oneGen_steps.2.1 oneGen_steps.2.2.2) assessedUpdated hk) assessedUpdated hk'

theorem oneGen_sound : Sound good cfg.esp oneGen :=
  (C98_entries_measured unambiguous tagsStand orderly0 sound0 (.run .nil measuring1 oneGen_steps.1)).2

example {done done' : List Change} (hk : KilledAfter updated cfg oneGenTried done)
    (hk' : KilledAfter updated cfg (oneGenTried.replay done) done') :
    ∃ c', CounterSteps (.left 3) c' ∧ Assessed good cfg.esp (some lockDir) first [80, 75] (entryName firstName c')
      oneGenImage ((oneGenTried.replay done).replay done') :=
  C100_assessment_survives unambiguous noCounter_first oneGen_sound first_assessed (boots_and_updates hk hk')

example {done done' : List Change} (hk : KilledAfter updated cfg oneGenTried done)
    (hk' : KilledAfter updated cfg (oneGenTried.replay done) done') :
    ∃ c', Assessed good cfg.esp (some lockDir) first [80, 75] (entryName firstName c')
      oneGenImage ((oneGenTried.replay done).replay done') ∧ (Counter.tries (.left 3) = none → Counter.tries c' = none) ∧
      ∀ k k', Counter.tries (.left 3) = some k → Counter.tries c' = some k' → k' ≤ k :=
  C100_no_new_tries unambiguous noCounter_first oneGen_sound first_assessed (boots_and_updates hk hk')

/-- The same entry after its first boot, and wherever the update is killed: it has two tries left, not three as a new
one. -/
example {done : List Change} (hk : KilledAfter updated cfg oneGenTried done) :
    Assessed good cfg.esp (some lockDir) first [80, 75] (entryName firstName (.leftDone 2 1)) oneGenImage
      (oneGenTried.replay done) := by
  have hx := first_assessed.count (b := firstName) (c₁ := .left 3) (c₂ := .leftDone 2 1)
    noCounter_first noCounter_first .try_first oneGen_steps.2.1
  have hm : IsNameOf good.uni good.sha first [80, 75] (entryName firstName (.leftDone 2 1)) :=
    isNameOf (isMatch_entryName good.uni (stubPrefix sha first [80, 75]) (.leftDone 2 1))
  have hd : oneGenTried.fileAt (entryFile cfg.esp (entryName firstName (.leftDone 2 1))) = some oneGenImage := by
    rw [Fs.fileAt_eq_some]
    unfold oneGenTried
    rw [Fs.get_rename (by simp [firstEntry, entryFile]) (by simp [firstTried, entryFile])]
    exact if_pos rfl
  have ht : Assessed good cfg.esp (some lockDir) first [80, 75] (entryName firstName (.leftDone 2 1)) oneGenImage
      oneGenTried := hx.elim fun c' h => assessed_named h.2 hm hd
  have hsnd : Sound good cfg.esp oneGenTried := (C98_entries_measured unambiguous tagsStand orderly0 sound0 tried_updates).2
  exact C100_entry_left_alone unambiguous assessedUpdated hsnd ht hk

end Verif.Tool.Sample
