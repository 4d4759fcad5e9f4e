import Verif.Lemmas.LoaderFiles
import Verif.Lemmas.SampleLoader
/-!
# C50: measurements of the boot loader stay available during updates
-/
namespace Verif.Tool
open Verif StubName Generation

variable {env : Env} {cfg : Config} {ld : Scope} {fs : Fs} {done : List Change}

/-- Is `m` a measurement of the binary? Any notion will do in which what `systemd-pcrlock lock-pe`
records for a boot loader is a measurement of the signed boot loader. -/
def MeasuresSigned (env : Env) (signer : Signer) (measures : Bytes → Bytes → Prop) : Prop :=
  ∀ t d m out, env.lockPe t d = some m → SignedBy env signer d out → measures m out

/-- The current measurement covers every boot loader binary that is present. -/
def CoveredByCurrent (cfg : Config) (p : Path) (measures : Bytes → Bytes → Prop) (f : Fs) : Prop :=
  ∀ q, IsLoader cfg q → ∀ out, f.fileAt q = some out →
    ∃ m, f.fileAt (currentFile p) = some m ∧ measures m out

/-- The current or the next measurement covers every boot loader binary that is present. -/
def Covered (cfg : Config) (p : Path) (measures : Bytes → Bytes → Prop) (f : Fs) : Prop :=
  ∀ q, IsLoader cfg q → ∀ out, f.fileAt q = some out →
    ∃ m, (f.fileAt (currentFile p) = some m ∨ f.fileAt (nextFile p) = some m) ∧ measures m out

variable {p : Path} {measures : Bytes → Bytes → Prop}

theorem CoveredByCurrent.covered {f : Fs} (h : CoveredByCurrent cfg p measures f) :
    Covered cfg p measures f := fun q hq out ho =>
  let ⟨m, h1, h2⟩ := h q hq out ho
  ⟨m, Or.inl h1, h2⟩

/-- A step that changes neither the binaries nor the current measurement. -/
theorem CoveredByCurrent.step {f : Fs} {c : Change} (h : CoveredByCurrent cfg p measures f)
    (h1 : ∀ q, IsLoader cfg q → (f.apply c).fileAt q = f.fileAt q)
    (h2 : (f.apply c).fileAt (currentFile p) = f.fileAt (currentFile p)) :
    CoveredByCurrent cfg p measures (f.apply c) := by
  intro q hq out ho
  rw [h1 q hq] at ho
  rw [h2]
  exact h q hq out ho

theorem fileAt_of_get {f f' : Fs} {q : Path}
    (h : f'.get q = f.get q ∨ (f.get q = none ∧ f'.get q = some .dir)) : f'.fileAt q = f.fileAt q := by
  unfold Fs.fileAt
  rcases h with h | ⟨h, h'⟩
  · rw [h]
  · rw [h, h']

theorem Replaces.fileAt {to : Path} {S : Bytes → Prop} {dur : Bool} {f : Fs} {c : Change}
    (h : Replaces to S dur f c) {q : Path} (h1 : q ≠ tmpOf to) (h2 : q ≠ to) :
    (f.apply c).fileAt q = f.fileAt q := by
  rcases h.get q h1 with e | e | ⟨e, -⟩
  · exact fileAt_of_get (Or.inl e)
  · exact fileAt_of_get (Or.inr e)
  · exact absurd e h2

theorem Outputs.fileAt {m : Path} {f : Fs} {c : Change} (h : Outputs m f c) {q : Path} (h1 : q ≠ m) :
    (f.apply c).fileAt q = f.fileAt q := fileAt_of_get (h.get q h1)

/-- Installing generations changes no file of the boot loader. -/
theorem InstallStep.loader_file (hs : SafeInput env cfg) (hl : ¬ ld.loader) {f : Fs} {c : Change}
    (h : InstallStep env cfg ld f c) {q : Path} (hq : LoaderPath cfg q) :
    (f.apply c).fileAt q = f.fileAt q := by
  cases h with
  | replace t r =>
    exact r.fileAt (fun e => hq.not_tmp (by rw [e]; exact (t.tmp hs).1)) (t.ne_loader hl hq)
  | @measured g p hg ho hp o =>
    obtain ⟨d, n, e', hd⟩ := hq.lastTwo
    have hd1 : d ≠ lit "635-lanzaboote.pcrlock.d" := by rintro rfl; exact absurd hd (by decide)
    exact o.fileAt (lastTwo_ne e' (measurementFile_lastTwo _ _) hd1)
  | next h => exact absurd h hl
  | current h => exact absurd h hl
  | sync _ e => subst e; rfl

theorem loader_ne_measurement {q q' : Path} (hq : IsLoader cfg q) (hq' : IsMeasurement cfg q') :
    q ≠ q' := by
  rintro rfl
  rcases hq with rfl | rfl
  · exact fallbackFile_not_isMeasurement hq'
  · exact systemdFile_not_isMeasurement hq'

theorem next_ne_current (p : Path) : nextFile p ≠ currentFile p := by
  intro e
  have := congrArg lastTwo e
  rw [nextFile_lastTwo, currentFile_lastTwo] at this
  simp at this
  exact absurd this (by decide)

/-- In the middle of an update to `d`: the next measurement is that of `d`, and every binary is
covered by the current measurement or is `d`, signed. -/
structure Updating (env : Env) (cfg : Config) (p : Path) (measures : Bytes → Bytes → Prop) (d : Bytes)
    (f : Fs) : Prop where
  next : ∃ t m, env.lockPe t d = some m ∧ f.fileAt (nextFile p) = some m
  binary : ∀ q, IsLoader cfg q → ∀ out, f.fileAt q = some out →
    (∃ m, f.fileAt (currentFile p) = some m ∧ measures m out) ∨ SignedBy env cfg.signer d out

theorem Updating.covered (hM : MeasuresSigned env cfg.signer measures) {d : Bytes} {f : Fs}
    (h : Updating env cfg p measures d f) : Covered cfg p measures f := by
  intro q hq out ho
  rcases h.binary q hq out ho with ⟨m, h1, h2⟩ | h1
  · exact ⟨m, Or.inl h1, h2⟩
  · obtain ⟨t, m, h2, h3⟩ := h.next
    exact ⟨m, Or.inr h3, hM t d m out h2 h1⟩

/-- One of the binaries is replaced. -/
theorem Updating.step (hs : SafeInput env cfg) (hp : cfg.pcrlockDirectory = some p) {d : Bytes} {f : Fs}
    {c : Change} {to : Path} (hto : IsLoader cfg to)
    (h : Updating env cfg p measures d f)
    (r : Replaces to (fun out => SignedBy env cfg.signer d out) false f c) :
    Updating env cfg p measures d (f.apply c) := by
  have hT : Target env cfg .all false to := .loader trivial hto
  have key : ∀ q, IsMeasurement cfg q → (f.apply c).fileAt q = f.fileAt q := fun q hq =>
    r.fileAt (fun e => isMeasurement_not_isTmp hq (by rw [e]; exact (hT.tmp hs).1))
      (fun e => loader_ne_measurement hto hq e.symm)
  have k1 := key _ ⟨p, hp, Or.inr (Or.inl rfl)⟩
  have k2 := key _ ⟨p, hp, Or.inr (Or.inr rfl)⟩
  refine ⟨by rw [k1]; exact h.next, fun q hq out ho => ?_⟩
  rw [k2]
  have hnt : q ≠ tmpOf to := fun e => (LoaderPath.binary hq).not_tmp (by rw [e]; exact (hT.tmp hs).1)
  by_cases e : q = to
  · rcases r.get q hnt with e' | e' | ⟨-, x, hx, -, e', -⟩
    · rw [Fs.fileAt_eq_some, e', ← Fs.fileAt_eq_some] at ho
      exact h.binary q hq out ho
    · rw [Fs.fileAt_eq_some, e'.2] at ho; cases ho
    · rw [Fs.fileAt_eq_some, e'] at ho; cases ho; exact Or.inr hx
  · rw [r.fileAt hnt e] at ho
    exact h.binary q hq out ho

/-- `replaceSystemdBoot` during measured boot. -/
theorem replaceSystemdBoot_covered (hs : SafeInput env cfg) (hp : cfg.pcrlockDirectory = some p)
    (hM : MeasuresSigned env cfg.signer measures) :
    Triple (fun s => CoveredByCurrent cfg p measures s.fs) (replaceSystemdBoot env cfg)
      (fun f c => Covered cfg p measures (f.apply c))
      (fun _ s => CoveredByCurrent cfg p measures s.fs) := by
  have mn : IsMeasurement cfg (nextFile p) := ⟨p, hp, Or.inr (Or.inl rfl)⟩
  have mc : IsMeasurement cfg (currentFile p) := ⟨p, hp, Or.inr (Or.inr rfl)⟩
  unfold replaceSystemdBoot
  rw [fallback_target, systemd_target, source_target]
  -- the measurement of the next boot loader
  refine Triple.bind (Q := fun _ s => ∃ d, env.store (loaderSource cfg) = some d ∧
    Updating env cfg p measures d s.fs) ?_ fun _ => ?_
  · unfold measureNext Config.pcrlock
    rw [hp]
    dsimp only [Option.map_some]
    rw [next_target, source_target]
    refine ((Triple.carry (J := CoveredByCurrent cfg p measures)
      (A' := fun f c => Covered cfg p measures (f.apply c))
      (lockPe_triple env (.store (loaderSource cfg)) (nextFile p)) ?_).pre
      fun s h => ⟨trivial, h⟩).post ?_
    · intro f c j o
      have j' : CoveredByCurrent cfg p measures (f.apply c) := j.step
        (fun q hq => o.fileAt (loader_ne_measurement hq mn)) (o.fileAt (next_ne_current p).symm)
      exact ⟨j', j'.covered⟩
    · rintro _ s ⟨⟨t, d, m, h1, h2, h3⟩, j⟩
      exact ⟨d, h1, ⟨t, m, h2, h3⟩, fun q hq out ho => Or.inl (j q hq out ho)⟩
  intro s hd
  obtain ⟨d, hd, hU⟩ := hd
  revert s
  suffices Triple (fun s => Updating env cfg p measures d s.fs) _
    (fun f c => Covered cfg p measures (f.apply c)) _ from fun s h => this s h
  have hS : ∀ {to : Path}, IsLoader cfg to →
      ∀ f c, Updating env cfg p measures d f →
      Replaces to (fun out => ∃ d, env.content (.store (loaderSource cfg)) = some d ∧
        SignedBy env cfg.signer d out) false f c →
      Updating env cfg p measures d (f.apply c) ∧ Covered cfg p measures (f.apply c) := by
    intro to hto f c j r
    have j' := j.step hs hp hto (r.imp (S' := fun out => SignedBy env cfg.signer d out) (by
      rintro out ⟨d', h1, h2⟩
      have h1 : env.store (loaderSource cfg) = some d' := h1
      rw [hd] at h1
      cases h1
      exact h2))
    exact ⟨j', j'.covered hM⟩
  -- the first binary
  have hT1 : Target env cfg .all false (fallbackFile cfg) := .loader trivial (Or.inl rfl)
  have hT2 : Target env cfg .all false (systemdFile cfg) := .loader trivial (Or.inr rfl)
  refine Triple.bind (Q := fun _ s => Updating env cfg p measures d s.fs ∧
    ∃ out, SignedBy env cfg.signer d out ∧ s.fs.fileAt (fallbackFile cfg) = some out) ?_ fun _ => ?_
  · refine ((Triple.carry (J := Updating env cfg p measures d)
      (A' := fun f c => Covered cfg p measures (f.apply c))
      (installSigned_triple env cfg.signer (.store (loaderSource cfg)) _ (hT1.tmp hs).2.2)
      (hS (Or.inl rfl))).pre fun s h => ⟨trivial, h⟩).post ?_
    rintro _ s ⟨⟨d', out, hd', hsg, hf⟩, j⟩
    have hd' : env.store (loaderSource cfg) = some d' := hd'
    rw [hd] at hd'
    cases hd'
    exact ⟨j, out, hsg, hf⟩
  -- the second binary
  refine Triple.bind (Q := fun _ s => Updating env cfg p measures d s.fs ∧
    ∀ q, IsLoader cfg q → ∃ out, SignedBy env cfg.signer d out ∧ s.fs.fileAt q = some out) ?_ fun _ => ?_
  · refine ((Triple.carry (J := fun f => Updating env cfg p measures d f ∧
      ∃ out, SignedBy env cfg.signer d out ∧ f.fileAt (fallbackFile cfg) = some out)
      (A' := fun f c => Covered cfg p measures (f.apply c))
      (installSigned_triple env cfg.signer (.store (loaderSource cfg)) _ (hT2.tmp hs).2.2)
      ?_).pre fun s h => ⟨trivial, h⟩).post ?_
    · rintro f c ⟨j, out, h1, h2⟩ r
      have := hS (Or.inr rfl) f c j r
      refine ⟨⟨this.1, out, h1, ?_⟩, this.2⟩
      exact r.keeps (fun e => fallback_not_tmp cfg (by rw [e]; exact (hT2.tmp hs).1))
        (fallback_ne_systemd cfg) h2
    · rintro _ s ⟨⟨d', out, hd', hsg, hf⟩, j, h1⟩
      have hd' : env.store (loaderSource cfg) = some d' := hd'
      rw [hd] at hd'
      cases hd'
      refine ⟨j, fun q hq => ?_⟩
      rcases hq with rfl | rfl
      · exact h1
      · exact ⟨out, hsg, hf⟩
  -- the next measurement becomes the current one
  unfold measurementDone Config.pcrlock
  rw [hp]
  dsimp only [Option.map_some]
  rw [next_target, current_target]
  rintro s ⟨j, hb⟩
  obtain ⟨t, m, hlm, hfm⟩ := j.next
  refine (((rename_triple env.os (nextFile p) (currentFile p) (J := fun f =>
      f.fileAt (nextFile p) = some m) m (next_ne_current p) fun f h => h).carry (J := fun f =>
      ∀ q, IsLoader cfg q → ∃ out, SignedBy env cfg.signer d out ∧ f.fileAt q = some out)
      (A' := fun f c => Covered cfg p measures (f.apply c)) ?_).weaken (P' := fun s =>
      s.fs.fileAt (nextFile p) = some m ∧
      ∀ q, IsLoader cfg q → ∃ out, SignedBy env cfg.signer d out ∧ s.fs.fileAt q = some out)
      (fun s h => h) (fun _ _ h => h) ?_) s ⟨hfm, hb⟩
  · rintro f c j2 ⟨a3, a4, a5, rfl⟩
    have hc : (currentFile p : Path) ≠ [] := by simp [currentFile]
    have k : ∀ q, IsLoader cfg q →
        (f.apply (.rename (nextFile p) (currentFile p) m)).fileAt q = f.fileAt q := by
      intro q hq
      unfold Fs.fileAt
      rw [Fs.get_rename (Fs.fileAt_ne_nil a3) hc]
      simp [loader_ne_measurement hq mn, loader_ne_measurement hq mc]
    refine ⟨fun q hq => by rw [k q hq]; exact j2 q hq, fun q hq out ho => ?_⟩
    rw [k q hq] at ho
    obtain ⟨out', h1, h2⟩ := j2 q hq
    rw [ho] at h2
    cases h2
    refine ⟨m, Or.inl ?_, hM t d m out hlm h1⟩
    rw [Fs.fileAt_eq_some, Fs.get_rename (Fs.fileAt_ne_nil a3) hc]
    simp
  · rintro _ s ⟨h, j2⟩ q hq out ho
    obtain ⟨out', h1, h2⟩ := j2 q hq
    rw [ho] at h2
    cases h2
    exact ⟨m, h, hM t d m out hlm h1⟩

theorem installSystemdBoot_covered (hs : SafeInput env cfg) (hp : cfg.pcrlockDirectory = some p)
    (hM : MeasuresSigned env cfg.signer measures) :
    Triple (fun s => CoveredByCurrent cfg p measures s.fs) (installSystemdBoot env cfg)
      (fun f c => Covered cfg p measures (f.apply c))
      (fun _ s => CoveredByCurrent cfg p measures s.fs) := by
  have hP : Ticks (fun s => CoveredByCurrent cfg p measures s.fs) := fun _ _ h => h
  have hconf : Triple (fun s => CoveredByCurrent cfg p measures s.fs)
      (install env (.store cfg.loaderConfig) cfg.paths.systemdBootLoaderConfig)
      (fun f c => Covered cfg p measures (f.apply c))
      (fun _ s => CoveredByCurrent cfg p measures s.fs) := by
    rw [conf_target]
    have hT : Target env cfg .conf true (confFile cfg) := .conf rfl
    refine (((install_triple env (.store cfg.loaderConfig) _ (hT.tmp hs).2.2).carry
      (J := CoveredByCurrent cfg p measures)
      (A' := fun f c => Covered cfg p measures (f.apply c)) ?_).pre fun s h => ⟨trivial, h⟩).post
      fun _ s h => h.2
    intro f c j r
    have k : ∀ q, LoaderPath cfg q → (f.apply c).fileAt q = f.fileAt q := fun q hq =>
      r.fileAt (fun e => hq.not_tmp (by rw [e]; exact (hT.tmp hs).1)) (hT.ne_loader id hq)
    have j' := j.step (fun q hq => k q (.binary hq)) (k _ (.current hp))
    exact ⟨j', j'.covered⟩
  unfold installSystemdBoot
  refine Triple.bind ((orM_triple (X := fun f => UpToDate env cfg f cfg.paths.efiFallback)
    (Y := fun f => UpToDate env cfg f cfg.paths.systemdBoot) (newerSystemdBoot_triple _ hP)
    (newerSystemdBoot_triple _ fun _ _ h => h)).post fun _ _ h => h.1) fun newer => ?_
  refine Triple.bind ((andM_triple (X := fun f => VerifiedAt env f cfg.paths.efiFallback cfg.signer)
    (Y := fun f => VerifiedAt env f cfg.paths.systemdBoot cfg.signer) (verifyPath_triple _ _ hP)
    (verifyPath_triple _ _ fun _ _ h => h)).post fun _ _ h => h.1) fun signed => ?_
  refine Triple.bind ((measurementExists_triple hP).post fun _ _ h => h.1) fun measured => ?_
  exact Triple.ite (fun _ => Triple.bind (replaceSystemdBoot_covered hs hp hM) fun _ => hconf)
    fun _ => hconf

/-- **C50**. With measured boot, if a run starts with the current measurement covering the installed
boot loader binaries, then whenever it is killed each boot loader binary on the ESP is covered by the
current or the next measurement. -/
theorem C50_loader_measured (hs : SafeInput env cfg) (hsep : Separate cfg)
    (hp : cfg.pcrlockDirectory = some p) (hM : MeasuresSigned env cfg.signer measures)
    (h0 : CoveredByCurrent cfg p measures fs) (hk : KilledAfter env cfg fs done) :
    Covered cfg p measures (fs.replay done) := by
  have keep : ∀ f c, CoveredByCurrent cfg p measures f →
      (∀ q, LoaderPath cfg q → (f.apply c).fileAt q = f.fileAt q) →
      CoveredByCurrent cfg p measures (f.apply c) ∧ Covered cfg p measures (f.apply c) :=
    fun f c j k =>
      have j' := j.step (fun q hq => k q (.binary hq)) (k _ (.current hp))
      ⟨j', j'.covered⟩
  refine killed_of_chain (A := fun f c => Covered cfg p measures (f.apply c)) (fun _ _ h => h)
    h0.covered (run_phases (env := env) (cfg := cfg) (fs := fs) hs
      (J := CoveredByCurrent cfg p measures) (K := CoveredByCurrent cfg p measures)
      (fun f c j st => keep f c j fun q hq => st.loader_file hs id hq)
      (installSystemdBoot_covered hs hp hM)
      (fun f j => keep f _ j fun q hq => rfl)
      (fun R hr f c j st => keep f c j fun q hq => untouched_file (st.touches_loader hsep hr hq))
      h0).1 hk

/-- **C50** (afterwards). After a successful run the current measurement covers the boot loader, so the
next run starts as required. -/
theorem C50_loader_measured_after (hs : SafeInput env cfg) (hsep : Separate cfg)
    (hp : cfg.pcrlockDirectory = some p) (hM : MeasuresSigned env cfg.signer measures)
    (h0 : CoveredByCurrent cfg p measures fs) (hok : (run env cfg (start cfg fs)).1 = .ok ()) :
    CoveredByCurrent cfg p measures (run env cfg (start cfg fs)).2.fs := by
  have keep : ∀ f c, CoveredByCurrent cfg p measures f →
      (∀ q, LoaderPath cfg q → (f.apply c).fileAt q = f.fileAt q) →
      CoveredByCurrent cfg p measures (f.apply c) ∧ Covered cfg p measures (f.apply c) :=
    fun f c j k =>
      have j' := j.step (fun q hq => k q (.binary hq)) (k _ (.current hp))
      ⟨j', j'.covered⟩
  exact (run_phases (env := env) (cfg := cfg) (fs := fs) hs
      (J := CoveredByCurrent cfg p measures) (K := CoveredByCurrent cfg p measures)
      (fun f c j st => keep f c j fun q hq => st.loader_file hs id hq)
      (installSystemdBoot_covered hs hp hM)
      (fun f j => keep f _ j fun q hq => rfl)
      (fun R hr f c j st => keep f c j fun q hq => untouched_file (st.touches_loader hsep hr hq))
      h0).2 hok

end Verif.Tool

namespace Verif.Tool.Sample
open Verif Version.Spec

/-- A measurement of the sample is the unsigned binary with a mark. -/
def measures (m out : Bytes) : Prop := m ++ [83] = 76 :: out

theorem measures_signed (fault : Nat → Bool) (d : Bytes) :
    MeasuresSigned (envWith fault d) cfg1.signer measures := by
  rintro t d m out h ⟨t', h'⟩
  have h : some (76 :: d) = some m := h
  have h' : sbsign d = some out := h'
  cases h
  unfold sbsign at h'
  split at h'
  · cases h'; rfl
  · cases h'

/-- 256 is installed. -/
def disk256 : Fs := diskWith (signed (.full 256)) (signed (.full 256)) (76 :: systemdBoot (.full 256))

theorem disk256_covered : CoveredByCurrent cfg1 [lit "var", lit "pcrlock.d"] measures disk256 := by
  have h : disk256.fileAt (fallbackFile cfg1) = some (signed (.full 256)) ∧
      disk256.fileAt (systemdFile cfg1) = some (signed (.full 256)) ∧
      disk256.fileAt (currentFile [lit "var", lit "pcrlock.d"]) = some (76 :: systemdBoot (.full 256)) := by
    decide +kernel
  intro q hq out ho
  refine ⟨_, h.2.2, ?_⟩
  rcases hq with rfl | rfl
  · rw [h.1] at ho; cases ho; rfl
  · rw [h.2.1] at ho; cases ho; rfl

/-- An update to 257, with any faults, killed anywhere. -/
example (fault : Nat → Bool) (done : List Change)
    (h : KilledAfter (envWith fault (systemdBoot (.full 257))) cfg1 disk256 done) :
    Covered cfg1 [lit "var", lit "pcrlock.d"] measures (disk256.replay done) :=
  C50_loader_measured (safe1 _ _) separate1 rfl (measures_signed _ _) disk256_covered h

def env257 : Env := envWith (fun _ => false) (systemdBoot (.full 257))
def env258 : Env := envWith (fun _ => false) (systemdBoot (.full 258))

/-- The update to 257 is killed when the first binary is replaced. -/
def disk257 : Fs := disk256.replay ((run env257 cfg1 (start cfg1 disk256)).2.log.take 37)

/-- The following update to 258 is killed when the measurement is written. -/
def disk258 : Fs := disk257.replay ((run env258 cfg1 (start cfg1 disk257)).2.log.take 4)

/-- Two interrupted updates in a row lose the measurement of a binary: C50 needs that the run starts
with the current measurement covering the binaries. -/
theorem C50_needs_covered : disk258.fileAt (fallbackFile cfg1) = some (signed (.full 257)) ∧
    ¬ Covered cfg1 [lit "var", lit "pcrlock.d"] measures disk258 := by
  have h : disk258.fileAt (fallbackFile cfg1) = some (signed (.full 257)) ∧
      disk258.fileAt (currentFile [lit "var", lit "pcrlock.d"]) = some (76 :: systemdBoot (.full 256)) ∧
      disk258.fileAt (nextFile [lit "var", lit "pcrlock.d"]) = some (76 :: systemdBoot (.full 258)) := by
    decide +kernel
  refine ⟨h.1, fun hc => ?_⟩
  obtain ⟨m, h1 | h1, h2⟩ := hc _ (Or.inl rfl) _ h.1
  · rw [h.2.1] at h1; cases h1; exact absurd h2 (by unfold measures; decide +kernel)
  · rw [h.2.2] at h1; cases h1; exact absurd h2 (by unfold measures; decide +kernel)

end Verif.Tool.Sample
