import Verif.Lemmas.Owned
import Verif.Lemmas.Protect
import Verif.Lemmas.SampleInstall
import Verif.Props.Generation
/-!
# Files on the ESP: what runs of the installer do to them

C25 (completion), C28, C31 to C36, C56, in the vocabulary of `Verif.Spec.Installer`. `done` is the
sequence of changes after which the run is killed (`KilledAfter`); the complete run is the case
where `done` is all of them, see `killed_at_end`.
-/
namespace Verif.Tool
open Verif StubName Generation

variable {env : Env} {cfg : Config} {fs : Fs} {done : List Change}

/-- The disk is what the recorded changes make of it. -/
theorem run_disk (hs : SafeInput env cfg) (fs : Fs) :
    (run env cfg (start cfg fs)).2.fs = fs.replay (run env cfg (start cfg fs)).2.log := by
  obtain ⟨a, b, gens, final, h⟩ := run_plain hs fs
  rw [h.fs, h.log]
  simp [start]

/-- A run that is not killed is covered by the statements about killed runs. -/
theorem killed_at_end (env : Env) (cfg : Config) (fs : Fs) :
    KilledAfter env cfg fs (run env cfg (start cfg fs)).2.log := List.prefix_refl _

theorem Upto.file {f : Fs} (h : Upto env cfg fs f) {p : Path} (ht : ¬ IsTmp p)
    (hm : ¬ IsMeasurement cfg p) :
    f.fileAt p = fs.fileAt p ∨ ∃ d, Wanted env cfg p d ∧ f.fileAt p = some d := by
  rcases h p ht hm with e | ⟨e1, e2⟩ | ⟨-, d, hw, e⟩
  · left; unfold Fs.fileAt; rw [e]
  · left; unfold Fs.fileAt; rw [e1, e2]
  · exact Or.inr ⟨d, hw, Fs.fileAt_eq_some.2 e⟩

/-! ### C28 -/

/-- **C28** (no overwriting). A kernel or initrd on the ESP whose content has the hash in its name
keeps its content, unless garbage collection removes it, or the run has a SHA-256 collision with it in
hand. -/
theorem C28_not_overwritten (hs : SafeInput env cfg) (hk : KilledAfter env cfg fs done) {l : Str}
    {h d : Bytes} (hh : h.length = 32) (hd : fs.fileAt (caFile cfg.esp l h) = some d)
    (hash : env.sha.hash d = h) :
    (∃ d', (fs.replay done).fileAt (caFile cfg.esp l h) = some d' ∧
      (d' = d ∨ Collision env.sha d d')) ∨
    ((fs.replay done).get (caFile cfg.esp l h) = none ∧ .collecting ∈ done) := by
  obtain ⟨a, b, gens, final, sh⟩ := run_plain hs fs
  have key : ∀ done', Fs.Chain (InstallStep env cfg .all) fs done' →
      ∃ d', (fs.replay done').fileAt (caFile cfg.esp l h) = some d' ∧
      (d' = d ∨ Collision env.sha d d') := by
    intro done' hch
    have : Present env (fs.replay done') (caFile cfg.esp l h) h :=
      hch.inv (J := fun f => Present env f (caFile cfg.esp l h) h)
        ⟨d, hd, hash⟩ fun f c j st => st.present hs hh j
    obtain ⟨d', h1, h2⟩ := this
    refine ⟨d', h1, ?_⟩
    by_cases e : d' = d
    · exact Or.inl e
    · exact Or.inr ⟨fun e' => e e'.symm, by rw [hash, h2]⟩
  rcases sh.phases hk with ⟨-, -, hch⟩ | ⟨hcol, hch, l2, -, hg, e, -⟩
  · exact Or.inl (key done hch)
  · obtain ⟨d', h1, h2⟩ := key a hch
    rw [e]
    rcases GcAny.chain_get hg (caFile cfg.esp l h) with e | e
    · exact Or.inl ⟨d', by unfold Fs.fileAt at h1 ⊢; rw [e]; exact h1, h2⟩
    · exact Or.inr ⟨e, hcol⟩

/-- **C28** (success). If installing a kernel or initrd under the label succeeds, the file returned
has the hash in its name. -/
theorem C28_installed (env : Env) (cfg : Config) (src : Src) {label : Str} (hl : '/' ∉ label)
    {s s' : State} {p : Path} (h : installNixosCa env cfg src label s = (.ok p, s')) :
    ∃ d, env.content src = some d ∧ p = caFile cfg.esp label (env.sha.hash d) ∧
      Present env s'.fs p (env.sha.hash d) := by
  obtain ⟨-, -, -, hq⟩ := installNixosCa_triple env cfg src hl s trivial
  rw [h] at hq
  obtain ⟨d, h1, h2, -, h3⟩ := hq p rfl
  exact ⟨d, h1, h2, h3⟩

/-! ### C31 -/

/-- **C31**. Whatever happens, a file that does not belong to the installer is left alone; at most a
directory is made where there was nothing, for a file of the installer. -/
theorem C31_foreign_files (hs : SafeInput env cfg) (hk : KilledAfter env cfg fs done) {p : Path}
    (hp : ¬ Owned cfg p) :
    (fs.replay done).get p = fs.get p ∨
    (fs.get p = none ∧ (fs.replay done).get p = some .dir ∧ ∃ q, Owned cfg q ∧ p <+: q) := by
  obtain ⟨a, b, gens, final, sh⟩ := run_plain hs fs
  have key : ∀ done', Fs.Chain (InstallStep env cfg .all) fs done' →
      (fs.replay done').get p = fs.get p ∨
      (fs.get p = none ∧ (fs.replay done').get p = some .dir ∧ ∃ q, Owned cfg q ∧ p <+: q) := by
    intro done' hch
    refine hch.inv (J := fun f => f.get p = fs.get p ∨
      (fs.get p = none ∧ f.get p = some .dir ∧ ∃ q, Owned cfg q ∧ p <+: q)) (Or.inl rfl) ?_
    intro f c j st
    rcases st.foreign hs hp with e | ⟨e1, e2, e3⟩
    · rw [e]; exact j
    · rcases j with j | ⟨-, j, -⟩
      · exact Or.inr ⟨by rw [← j, e1], e2, e3⟩
      · rw [e1] at j; cases j
  rcases sh.phases hk with ⟨-, -, hch⟩ | ⟨-, hch, l2, -, hg, e, -⟩
  · exact key done hch
  · rw [e, GcAny.chain_keeps hg (x := p) fun q hq hd => hp (hd.owned fs sh.roots hq)]
    exact key a hch

/-! ### C32, C33, C34, C25 -/

/-- What exists stays: a file is still a file, temporary files and the measurement of the next boot loader
(which is renamed) excepted. -/
def NothingLost (cfg : Config) (fs fs' : Fs) : Prop :=
  ∀ p, ¬ IsTmp p → ¬ IsNext cfg p → (fs.fileAt p).isSome → (fs'.fileAt p).isSome

theorem nothingLost_of_broken (hs : SafeInput env cfg) (fs : Fs)
    (hb : (run env cfg (start cfg fs)).2.broken ≠ []) :
    (∀ c ∈ (run env cfg (start cfg fs)).2.log, c ≠ .collecting ∧ (∀ p, c ≠ .unlink p) ∧
      ∀ p, c ≠ .rmdir p) ∧
    ∀ done, KilledAfter env cfg fs done → NothingLost cfg fs (fs.replay done) := by
  obtain ⟨a, b, gens, final, sh⟩ := run_plain hs fs
  have hb' : b = [] := by
    by_cases e : b = []
    · exact e
    · exact absurd (sh.collects e) hb
  subst hb'
  constructor
  · intro c hc
    rw [sh.log] at hc
    have hc : c ∈ a := by simpa [start] using hc
    have := installed_quiet sh.steps c hc
    refine ⟨this.1, ?_, ?_⟩
    · rintro p rfl; exact absurd this.2 (by simp [removed])
    · rintro p rfl; exact absurd this.2 (by simp [removed])
  · intro done hk
    rcases sh.killed hk with ⟨hp, -⟩ | ⟨l1, l2, hc, -⟩
    · exact Stays.chain hs (sh.steps.prefix hp)
    · cases hc

/-- **C32**. If the bootspec of a considered generation cannot be read, the run removes nothing. -/
theorem C32_malformed_generation (hs : SafeInput env cfg) (fs : Fs) {links : List Link} {link : Link}
    (hl : cfg.considered env = some links) (hm : link ∈ links)
    (hb : env.bootJson link.path = none) :
    (∀ c ∈ (run env cfg (start cfg fs)).2.log, c ≠ .collecting ∧ (∀ p, c ≠ .unlink p) ∧
      ∀ p, c ≠ .rmdir p) ∧
    ∀ done, KilledAfter env cfg fs done → NothingLost cfg fs (fs.replay done) := by
  apply nothingLost_of_broken hs
  intro e
  obtain ⟨a, b, gens, final, sh⟩ := run_plain hs fs
  have := (sh.read e).1 links hl link hm
  rw [hb] at this
  cases this

/-- **C32** (I/O errors). The same if a generation cannot be read for another reason: the run notes
down its number. -/
theorem C32_unreadable_generation (hs : SafeInput env cfg) (fs : Fs)
    (hb : (run env cfg (start cfg fs)).2.broken ≠ []) :
    (∀ c ∈ (run env cfg (start cfg fs)).2.log, c ≠ .collecting ∧ (∀ p, c ≠ .unlink p) ∧
      ∀ p, c ≠ .rmdir p) ∧
    ∀ done, KilledAfter env cfg fs done → NothingLost cfg fs (fs.replay done) :=
  nothingLost_of_broken hs fs hb

theorem run_nothing (fs : Fs) (hno : ∀ g, ¬ Considers env cfg g) :
    (run env cfg (start cfg fs)).1 = .err () ∧ (run env cfg (start cfg fs)).2.log = [] ∧
      (run env cfg (start cfg fs)).2.fs = fs := by
  have hs : SafeInput env cfg := fun g hg => absurd hg (hno g)
  obtain ⟨a, b, gens, final, sh⟩ := run_plain hs fs
  have hg : gens = [] := by
    cases gens with
    | nil => rfl
    | cons g _ => exact absurd (sh.considered g (by simp)) (hno g)
  obtain ⟨h1, h2, h3⟩ := sh.nothing (Or.inl hg)
  refine ⟨h1, ?_, ?_⟩
  · rw [sh.log, h2, h3]; simp [start]
  · rw [sh.fs, h2, h3]; rfl

/-- **C33** (no generation). If none of the considered generations has a readable bootspec, the run
fails and makes no change. -/
theorem C33_no_readable_generation (fs : Fs) (h : ∀ links, cfg.considered env = some links →
      ∀ link ∈ links, env.bootJson link.path = none) :
    (run env cfg (start cfg fs)).1 = .err () ∧ (run env cfg (start cfg fs)).2.log = [] ∧
      (run env cfg (start cfg fs)).2.fs = fs := by
  apply run_nothing
  rintro g ⟨links, link, j, h1, h2, h3, -⟩
  rw [h links h1 link h2] at h3
  cases h3

theorem parseLinks_none {l : List Path} {p : Path} (hp : p ∈ l)
    (h : Link.fromPath env.buildTime p = none) : parseLinks env l = none := by
  induction l with
  | nil => cases hp
  | cons q l ih =>
    unfold parseLinks
    rcases List.mem_cons.1 hp with rfl | hp
    · rw [h]
    · rw [ih hp]
      split <;> rfl

/-- **C33** (bad link). If some link of the command line is not understood, even one that the
configuration limit would leave out, the run fails and makes no change. -/
theorem C33_bad_link (fs : Fs) {p : Path} (hp : p ∈ cfg.links)
    (h : parseVersion p = none) :
    (run env cfg (start cfg fs)).1 = .err () ∧ (run env cfg (start cfg fs)).2.log = [] ∧
      (run env cfg (start cfg fs)).2.fs = fs := by
  apply run_nothing
  rintro g ⟨links, link, j, h1, -⟩
  have : Link.fromPath env.buildTime p = none := by simp [Link.fromPath, h]
  simp [Config.considered, parseLinks_none hp this] at h1

/-- **C25** (rejection). A link on the command line whose name has no second dash-separated field, or
one that is not a 64-bit number, makes the run fail before anything is written. -/
theorem C25_bad_link_aborts (fs : Fs) {dir : Path} {name : Str} (hp : dir ++ [name] ∈ cfg.links)
    (h : '-' ∉ name ∨ ∃ a f b, '-' ∉ a ∧ '-' ∉ f ∧ (name = a ++ lit "-" ++ f ∨
      name = a ++ lit "-" ++ f ++ lit "-" ++ b) ∧ ∀ n, ¬ Writes64 f n) :
    (run env cfg (start cfg fs)).1 = .err () ∧ (run env cfg (start cfg fs)).2.log = [] ∧
      (run env cfg (start cfg fs)).2.fs = fs := by
  apply C33_bad_link fs hp
  rcases h with h | ⟨a, f, b, ha, hf, rfl | hn, hv⟩
  · exact (C25_link_rejected dir name).1 h
  · exact C25_link_rejected_two dir ha hf hv
  · exact (C25_link_rejected dir name).2 a f b ha hf hn hv

/-- **C34**. As long as garbage collection has not started, nothing is lost, and only files that are
targets of the installation have another content, namely a complete wanted one. -/
theorem C34_failed_or_killed (hs : SafeInput env cfg) (hk : KilledAfter env cfg fs done)
    (hc : .collecting ∉ done) :
    NothingLost cfg fs (fs.replay done) ∧
    ∀ p, ¬ IsTmp p → ¬ IsMeasurement cfg p → (fs.replay done).fileAt p = fs.fileAt p ∨
      ∃ d, Wanted env cfg p d ∧ (fs.replay done).fileAt p = some d := by
  obtain ⟨a, b, gens, final, sh⟩ := run_plain hs fs
  rcases sh.phases hk with ⟨-, -, hch⟩ | ⟨hcol, -⟩
  · exact ⟨Stays.chain hs hch, fun p ht hm => (Upto.chain hs hch).file ht hm⟩
  · exact absurd hcol hc

/-- **C34** (failure). A run that fails without having started garbage collection is such a run. -/
theorem C34_failed (hs : SafeInput env cfg) (fs : Fs)
    (hc : .collecting ∉ (run env cfg (start cfg fs)).2.log) :
    NothingLost cfg fs (run env cfg (start cfg fs)).2.fs := by
  rw [run_disk hs]
  exact (C34_failed_or_killed hs (killed_at_end env cfg fs) hc).1

/-! ### C35 -/

/-- **C35**. Whenever the run is killed, each installed file has its old content, or its complete new
content, or has been removed by garbage collection. Temporary files and measurements are not installed
files in this sense. -/
theorem C35_atomic (hs : SafeInput env cfg) (hk : KilledAfter env cfg fs done) {p : Path}
    (ht : ¬ IsTmp p) (hm : ¬ IsMeasurement cfg p) :
    (fs.replay done).fileAt p = fs.fileAt p ∨
    (∃ d, Wanted env cfg p d ∧ (fs.replay done).fileAt p = some d) ∨
    ((fs.replay done).get p = none ∧ .collecting ∈ done) := by
  obtain ⟨a, b, gens, final, sh⟩ := run_plain hs fs
  rcases sh.phases hk with ⟨-, -, hch⟩ | ⟨hcol, hch, l2, -, hg, e, -⟩
  · rcases (Upto.chain hs hch).file ht hm with h | h
    · exact Or.inl h
    · exact Or.inr (Or.inl h)
  · rw [e]
    rcases GcAny.chain_get hg p with e' | e'
    · have e2 : ((fs.replay a).replay l2).fileAt p = (fs.replay a).fileAt p := by
        unfold Fs.fileAt; rw [e']
      rw [e2]
      rcases (Upto.chain hs hch).file ht hm with h | h
      · exact Or.inl h
      · exact Or.inr (Or.inl h)
    · exact Or.inr (Or.inr ⟨e', hcol⟩)

/-! ### C36 -/

theorem InstallStep.dirty (hs : SafeInput env cfg) {ld : Scope} {f : Fs} {c : Change}
    (h : InstallStep env cfg ld f c) {q : Path} (hq : q ∈ (f.apply c).dirty) :
    q ∈ f.dirty ∨ IsTmp q ∨ IsMeasurement cfg q ∨ Target env cfg ld false q := by
  have out : ∀ {m : Path}, IsMeasurement cfg m → Outputs m f c →
      q ∈ f.dirty ∨ IsTmp q ∨ IsMeasurement cfg q ∨ Target env cfg ld false q := by
    intro m hm o
    cases o with
    | mkdir => exact Or.inl hq
    | create =>
      rcases List.mem_cons.1 hq with rfl | hq
      · exact Or.inr (Or.inr (Or.inl hm))
      · exact Or.inl hq
    | write =>
      rcases List.mem_cons.1 hq with rfl | hq
      · exact Or.inr (Or.inr (Or.inl hm))
      · exact Or.inl hq
    | chmod => exact Or.inl hq
  cases h with
  | @replace to dur t r =>
    cases r with
    | mkdir => exact Or.inl hq
    | create =>
      rcases List.mem_cons.1 hq with rfl | hq
      · exact Or.inr (Or.inl (t.tmp hs).1)
      · exact Or.inl hq
    | write =>
      rcases List.mem_cons.1 hq with rfl | hq
      · exact Or.inr (Or.inl (t.tmp hs).1)
      · exact Or.inl hq
    | fsync => exact Or.inl (List.mem_filter.1 hq).1
    | rename a b c d e g =>
      simp only [Fs.apply] at hq
      split at hq
      · next hd =>
        rcases List.mem_cons.1 hq with rfl | hq
        · cases dur with
          | true => exact absurd hd (g rfl)
          | false => exact Or.inr (Or.inr (Or.inr t))
        · exact Or.inl (List.mem_filter.1 hq).1
      · exact Or.inl (List.mem_filter.1 hq).1
    | chmod => exact Or.inl hq
    | bits => exact Or.inl hq
  | @measured g p hg ho hp o => exact out ⟨p, hp, Or.inl ⟨g, rfl⟩⟩ o
  | @next p hl hp o => exact out ⟨p, hp, Or.inr (Or.inl rfl)⟩ o
  | @current p t d m o o' hl hp hd hlm hf h1 h1s h2 h2s hn e =>
    subst e
    simp only [Fs.apply] at hq
    split at hq
    · rcases List.mem_cons.1 hq with rfl | hq
      · exact Or.inr (Or.inr (Or.inl ⟨p, hp, Or.inr (Or.inr rfl)⟩))
      · exact Or.inl (List.mem_filter.1 hq).1
    · exact Or.inl (List.mem_filter.1 hq).1
  | sync _ e => subst e; exact Or.inl (List.mem_filter.1 hq).1

theorem GcAny.dirty {roots : List Path} {f : Fs} {c : Change} (h : GcAny cfg roots f c) :
    (f.apply c).dirty = f.dirty := by
  cases h with
  | nixos h => cases h <;> rfl
  | linux h => cases h <;> rfl
  | lock _ h => cases h <;> rfl

/-- A kernel, an initrd, or `loader.conf`. -/
def IsData (cfg : Config) (p : Path) : Prop :=
  (∃ l h, p = caFile cfg.esp l h) ∨ p = confFile cfg

theorem IsData.plain {p : Path} (h : IsData cfg p) :
    ¬ IsTmp p ∧ ¬ IsMeasurement cfg p ∧ ∀ ld, ¬ Target env cfg ld false p := by
  have key : ∀ {q : Path} {n : Str}, (lastTwo q = some (lit "nixos", n) ∨
      lastTwo q = some (lit "loader", n)) → ∀ ld, ¬ Target env cfg ld false q := by
    intro q n h ld t
    cases t with
    | entry hg ho hk e =>
      subst e
      rw [entryFile_lastTwo] at h
      rcases h with h | h <;> simp at h <;> exact absurd h.1 (by decide)
    | loader hl e =>
      rcases e with rfl | rfl
      · rw [fallbackFile_lastTwo] at h
        rcases h with h | h <;> simp at h <;> exact absurd h.1 (by decide)
      · rw [systemdFile_lastTwo] at h
        rcases h with h | h <;> simp at h <;> exact absurd h.1 (by decide)
  rcases h with ⟨l, h, rfl⟩ | rfl
  · exact ⟨caFile_not_isTmp _ _ _, caFile_not_isMeasurement _ _ _,
      key (Or.inl (caFile_lastTwo _ _ _))⟩
  · exact ⟨conf_not_tmp _, confFile_not_isMeasurement, key (Or.inr (confFile_lastTwo _))⟩

theorem Wanted.data {p : Path} {d : Bytes} (h : Wanted env cfg p d) (hp : IsData cfg p) :
    WantedData env cfg p d := by
  cases h with
  | kernel a b c e => exact .kernel a b c e
  | initrd a b c e => exact .initrd a b c e
  | entry hg hk _ _ _ _ _ e => exact absurd (.entry hg trivial hk e) ((hp.plain (env := env)).2.2 .all)
  | loader _ _ e => exact absurd (.loader trivial e) ((hp.plain (env := env)).2.2 .all)
  | conf a b => exact .conf a b

/-- **C36**. If the power fails at any moment, a kernel, an initrd or `loader.conf` that had been
written completely before the run has its complete old content, or its complete new content, or has been
removed by garbage collection. -/
theorem C36_power_loss (hs : SafeInput env cfg) (hk : KilledAfter env cfg fs done) {fs' : Fs}
    (hl : AfterPowerLoss fs done fs') {p : Path} (hp : IsData cfg p) (hd : p ∉ fs.dirty) :
    fs'.fileAt p = fs.fileAt p ∨
    (∃ d, WantedData env cfg p d ∧ fs'.fileAt p = some d) ∨
    (fs'.get p = none ∧ .collecting ∈ done) := by
  obtain ⟨ht, hm, htf⟩ := hp.plain (env := env)
  have clean : ∀ l, Fs.Chain (InstallStep env cfg .all) fs l → p ∉ (fs.replay l).dirty := by
    intro l h
    refine h.inv (J := fun f => p ∉ f.dirty) hd fun f c j st hq => ?_
    rcases st.dirty hs hq with h | h | h | h
    · exact j h
    · exact ht h
    · exact hm h
    · exact htf _ h
  obtain ⟨kept, lost, ek, -, hl⟩ := hl p
  have hk : KilledAfter env cfg fs kept := List.IsPrefix.trans ⟨lost, ek.symm⟩ hk
  have hclean : p ∉ (fs.replay kept).dirty := by
    obtain ⟨a, b, gens, final, sh⟩ := run_plain hs fs
    rcases sh.phases hk with ⟨-, -, hch⟩ | ⟨hcol, hch, l2, -, hg, e, -⟩
    · exact clean _ hch
    · rw [e]
      exact hg.inv (J := fun f => p ∉ f.dirty) (clean _ hch) fun f c j st => by rw [st.dirty]; exact j
  have e : fs'.get p = (fs.replay kept).get p := by
    rcases hl with e | ⟨h, -⟩
    · exact e
    · exact absurd h hclean
  have e' : fs'.fileAt p = (fs.replay kept).fileAt p := by unfold Fs.fileAt; rw [e]
  rw [e, e']
  rcases C35_atomic hs hk ht hm with h | ⟨d, hw, h⟩ | h
  · exact Or.inl h
  · exact Or.inr (Or.inl ⟨d, hw.data hp, h⟩)
  · exact Or.inr (Or.inr ⟨h.1, by rw [ek]; exact List.mem_append_left _ h.2⟩)

/-! ### C56 -/

/-- **C56**. After a successful run `loader.conf` on the ESP has the content of the configured file,
unless a different content of the same SHA-256 had been there. -/
theorem C56_loader_conf (hs : SafeInput env cfg) (hsep : Separate cfg) (fs : Fs)
    (hok : (run env cfg (start cfg fs)).1 = .ok ()) :
    ∃ d d', env.store cfg.loaderConfig = some d ∧
      (run env cfg (start cfg fs)).2.fs.fileAt (confFile cfg) = some d' ∧
      (d' = d ∨ Collision env.sha d' d) := by
  obtain ⟨a, b, gens, final, sh⟩ := run_plain hs fs
  obtain ⟨d, d', h1, h2, h3⟩ := (sh.ok hok).conf
  refine ⟨d, d', h1, ?_, ?_⟩
  · rw [run_disk hs]
    rcases sh.phases (killed_at_end env cfg fs) with ⟨-, hn, -⟩ | ⟨hcol, hch, l2, -, hg, e, -⟩
    · have hb : b = [] := by
        by_cases e : b = []
        · exact e
        · obtain ⟨l, hl, -⟩ := sh.gc e
          exact absurd (by rw [sh.log, hl]; simp) hn
      rw [sh.log, hb]
      simpa [start] using h2
    · rw [e]
      have : ((fs.replay a).replay l2).get (confFile cfg) = (fs.replay a).get (confFile cfg) := by
        refine GcAny.chain_keeps hg fun q hq => not_doomed hsep (List.prefix_append _ _) ?_ hq
        intro q h1 h2
        apply sh.roots
        have e : cfg.esp ++ [lit "loader", lit "loader.conf"] =
          (cfg.esp ++ [lit "loader"]) ++ [lit "loader.conf"] := by simp
        rw [e] at h2
        rcases prefix_snoc_iff.1 h2 with h2 | rfl
        · rcases prefix_snoc_iff.1 h2 with h2 | rfl
          · have : q = cfg.esp := List.IsPrefix.eq_of_length_le h2 h1.length_le
            rw [this]; exact esp_root cfg fs
          · exact loader_root cfg fs
        · rw [← e]; exact conf_root cfg fs
      unfold Fs.fileAt at h2 ⊢
      rw [this]
      exact h2
  · by_cases e : d' = d
    · exact Or.inl e
    · exact Or.inr ⟨e, h3⟩

/-! ### Concrete cases -/

end Verif.Tool

namespace Verif.Tool.Sample
open Verif StubName Generation Tool

/-- The changes of the run in the sample. -/
def log : List Change := (run good cfg (start cfg disk)).2.log

/-- The first `n` changes. -/
def upto (n : Nat) : List Change := log.take n

theorem killed (n : Nat) : KilledAfter good cfg disk (upto n) := List.take_prefix _ _

/-- The run in the sample makes 72 changes and collects garbage in the end. -/
example : log.length = 72 ∧ .collecting ∈ log ∧ .collecting ∉ upto 60 := by
  decide +kernel

/-- C28: the kernel of generation 2 is installed after 60 changes and kept by a second run. -/
example : ∃ h d, h.length = 32 ∧
    (disk.replay (upto 60)).fileAt (caFile cfg.esp (lit "kernel-6.2") h) = some d ∧
    good.sha.hash d = h :=
  ⟨sha.hash kernel2, kernel2, by decide +kernel⟩

example : (installNixosCa good cfg (.store spec1.kernel) (lit "kernel-6.1") (start cfg disk)).1 =
    .ok (caFile cfg.esp (lit "kernel-6.1") (sha.hash kernel1)) := by decide +kernel

/-- C31: the entry of another system is not the installer's; it stays. -/
example : (disk.replay log).get [lit "boot", lit "EFI", lit "Linux", lit "arch.efi"] =
    some (.file [1, 2]) := by decide +kernel

theorem arch_not_owned : ¬ Owned cfg [lit "boot", lit "EFI", lit "Linux", lit "arch.efi"] := by
  intro h
  generalize hp : [lit "boot", lit "EFI", lit "Linux", lit "arch.efi"] = p at h
  cases h with
  | nixos h => subst hp; revert h; decide
  | @entry _ q n h hn hp' =>
    subst hp
    have hl := h.length_le
    have hl' := hp'.length_le
    have e1 : (linuxDir cfg.esp).length = 3 := rfl
    simp only [List.length_append, List.length_cons, List.length_nil] at hl' hl
    have e : q ++ [n] = [lit "boot", lit "EFI", lit "Linux", lit "arch.efi"] :=
      hp'.eq_of_length (by simp; omega)
    have e2 := congrArg List.getLast? e
    simp at e2
    subst e2
    exact absurd hn (by decide)
  | fallback => revert hp; decide
  | systemd => revert hp; decide
  | conf => revert hp; decide
  | tmp h hd ht => subst hp; rcases h with rfl | rfl | rfl <;> revert hd <;> decide
  | @lock p' _ hl h =>
    subst hp
    have : p' = [lit "var", lit "pcrlock.d"] := (Option.some.inj hl).symm
    subst this; revert h; decide
  | @bootloader p' _ hl h =>
    subst hp
    have : p' = [lit "var", lit "pcrlock.d"] := (Option.some.inj hl).symm
    subst this; revert h; decide

example (n : Nat) : (disk.replay (upto n)).get
      [lit "boot", lit "EFI", lit "Linux", lit "arch.efi"] = some (.file [1, 2]) := by
  rcases C31_foreign_files safe_good (killed n) arch_not_owned with h | ⟨h, -⟩
  · rw [h]; rfl
  · exact absurd h (by decide)

/-- C32: with a third generation without bootspec the run succeeds, and removes nothing. -/
def cfg3 : Config := { cfg with links := [link3, link2, link1] }

theorem safe3 : SafeInput good cfg3 := safeInput_of (by decide +kernel)

example : (∃ links, cfg3.considered good = some links ∧ ∃ link ∈ links, good.bootJson link.path = none) ∧
    (run good cfg3 (start cfg3 disk)).1 = .ok () ∧
    (run good cfg3 (start cfg3 disk)).2.fs.fileAt
      [lit "boot", lit "EFI", lit "nixos", lit "kernel-5-old.efi"] = some [4] := by
  refine ⟨⟨((cfg3.considered good).getD []), ?_⟩, ?_⟩ <;> decide +kernel

/-- C32: the same after an I/O error at the first operation, the reading of a generation. -/
example : (run (env (· = 0)) cfg (start cfg disk)).2.broken = [1] ∧
    (run (env (· = 0)) cfg (start cfg disk)).1 = .ok () := by decide +kernel

/-- C33: only the third generation. -/
def cfgOnly3 : Config := { cfg with links := [link3] }

example : (run good cfgOnly3 (start cfgOnly3 disk)).1 = .err () := by
  refine (C33_no_readable_generation disk ?_).1
  intro links h link hl
  have e : cfgOnly3.considered good = some [⟨3, link3, some ⟨2025, 1, 31⟩⟩] := by decide +kernel
  rw [e] at h
  cases h
  rw [List.mem_singleton] at hl
  subst hl
  decide +kernel

/-- C25, C33: a link with a bad name. -/
def cfgBad : Config := { cfg with links := [link1, [lit "nix"] ++ [lit "system-x-link"]] }

example : (run good cfgBad (start cfgBad disk)).2.fs = disk := by
  refine (C25_bad_link_aborts disk (dir := [lit "nix"]) (name := lit "system-x-link") ?_
    (Or.inr ⟨lit "system", lit "x", lit "link", by decide, by decide, Or.inr (by decide),
      not_writes64 (by decide)⟩)).2.2
  simp [cfgBad]

/-- C34: an I/O error after a while. -/
example : (run (env (· = 70)) cfg (start cfg disk)).1 = .err () ∧
    .collecting ∉ (run (env (· = 70)) cfg (start cfg disk)).2.log ∧
    (run (env (· = 70)) cfg (start cfg disk)).2.log ≠ [] := by decide +kernel

/-- C35: the boot loader before and after. -/
example : ¬ IsTmp (fallbackFile cfg) ∧ ¬ IsMeasurement cfg (fallbackFile cfg) ∧
    (disk.replay (upto 40)).fileAt (fallbackFile cfg) = none ∧
    (disk.replay log).fileAt (fallbackFile cfg) = some (loader ++ [83]) :=
  ⟨fallback_not_tmp cfg, fallbackFile_not_isMeasurement, by decide +kernel, by decide +kernel⟩

/-- C36: a power loss in the middle. -/
example : IsData cfg (confFile cfg) ∧ confFile cfg ∉ disk.dirty ∧
    AfterPowerLoss disk (upto 60) (disk.replay (upto 60)) :=
  ⟨Or.inr rfl, by decide, afterPowerLoss_refl _ _⟩

/-- C36: before the file system is synced, everything may be lost. -/
example : .syncfs cfg.esp ∉ upto 23 ∧ upto 23 ≠ [] ∧ AfterPowerLoss disk (upto 23) disk :=
  ⟨by decide +kernel, by decide +kernel, fun _ => ⟨[], _, rfl, fun d hd => by
    have : ∀ c ∈ upto 23, ∀ d, c ≠ .syncfs d := by
      have : (upto 23).all (fun c => match c with | .syncfs _ => false | _ => true) = true := by
        decide +kernel
      intro c hc d e
      have := List.all_eq_true.1 this c hc
      rw [e] at this
      cases this
    exact absurd rfl (this _ hd d), Or.inl rfl⟩⟩

/-- The limits of C36: a boot entry is not synced before it is renamed. If the power fails before the
file system is synced, it can have any content. -/
example : entryFile cfg.esp (stubName sha ⟨1, some ⟨2025, 1, 31⟩, none, spec1⟩ [80, 75] 3) ∈
    (disk.replay (upto 23)).dirty := by decide +kernel

/-- C56. -/
example : (disk.replay log).fileAt (confFile cfg) = some loaderConf := by decide +kernel

example : ∃ d d', good.store cfg.loaderConfig = some d ∧
    (run good cfg (start cfg disk)).2.fs.fileAt (confFile cfg) = some d' ∧
    (d' = d ∨ Collision good.sha d' d) :=
  C56_loader_conf safe_good separate disk good_ok

end Verif.Tool.Sample
