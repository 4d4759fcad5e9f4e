import Verif.Spec.Modes
import Verif.Spec.BootLoader
import Verif.Lemmas.Run
import Verif.Lemmas.Sound
import Verif.Lemmas.LoaderFiles
import Verif.Lemmas.SampleSound
/-!
# C73: permission bits of installed files
-/
namespace Verif.Tool
open Verif StubName Generation

/-- A file of the kind that is copied to the ESP as it is: a kernel, an initrd or `loader.conf`. -/
def DataFile (cfg : Config) (p : Path) : Prop :=
  (∃ label hash, p = caFile cfg.esp label hash) ∨ p = confFile cfg

/-- A file that the installer puts into place. -/
def InPlace (cfg : Config) (p : Path) : Prop := DataFile cfg p ∨ IsLoader cfg p ∨ IsEntry cfg.esp p

/-- Neither sets bits nor affects the bits of a file that is put into place. -/
def Silent (cfg : Config) : Change → Prop
  | .create q => ¬ InPlace cfg q
  | .rename _ q _ => ¬ InPlace cfg q
  | .chmod _ _ => False
  | _ => True

/-- What a file that was put into place has. -/
structure Given (env : Env) (cfg : Config) (l : List Change) (p : Path) (r : Option Nat) : Prop where
  data : DataFile cfg p → r = some 0o755
  loader : IsLoader cfg p → r = programMode env cfg.signer (.store (loaderSource cfg))
  entry : IsEntry cfg.esp p → ∃ a d, Change.rename a p d ∈ l ∧ r = programMode env cfg.signer (.temp d)

/-- The bits that may be set. -/
def MayBeSet (env : Env) (cfg : Config) (l : List Change) (q : Path) (x : Nat) : Prop :=
  (DataFile cfg q ∧ PutInPlace l q ∧ x = 0o755) ∨
  (cfg.signer = .empty ∧ IsTmp q ∧ ∃ to, q = tmpOf to ∧
    ((IsLoader cfg to ∧ x = env.mode (.store (loaderSource cfg))) ∨
     (IsEntry cfg.esp to ∧ ∃ d, x = env.mode (.temp d))))

/-- The invariant. -/
structure Bits (env : Env) (cfg : Config) (m : Modes) (l : List Change) : Prop where
  old : ∀ p, InPlace cfg p → ¬ PutInPlace l p → modesAfter m l p = m p
  new : ∀ p, InPlace cfg p → PutInPlace l p → Given env cfg l p (modesAfter m l p)
  only : ∀ q x, Change.chmod q x ∈ l → MayBeSet env cfg l q x

theorem Given.mono {env : Env} {cfg : Config} {l l' : List Change} {p : Path} {r : Option Nat}
    (h : Given env cfg l p r) (hl : ∀ c ∈ l, c ∈ l') : Given env cfg l' p r :=
  ⟨h.data, h.loader, fun e => let ⟨a, d, h1, h2⟩ := h.entry e; ⟨a, d, hl _ h1, h2⟩⟩

theorem MayBeSet.mono {env : Env} {cfg : Config} {l l' : List Change} {q : Path} {x : Nat}
    (h : MayBeSet env cfg l q x) (hl : ∀ c ∈ l, c ∈ l') : MayBeSet env cfg l' q x := by
  rcases h with ⟨h1, ⟨a, d, h2⟩, h3⟩ | h
  · exact Or.inl ⟨h1, ⟨a, d, hl _ h2⟩, h3⟩
  · exact Or.inr h

/-- More changes, which put at most the file `to` into place. -/
theorem Bits.extend {env : Env} {cfg : Config} {m : Modes} {l l' : List Change} (h : Bits env cfg m l)
    (hl : ∀ c ∈ l, c ∈ l')
    (hp : ∀ p, InPlace cfg p → (PutInPlace l' p → PutInPlace l p) ∧ modesAfter m l' p = modesAfter m l p ∨
      PutInPlace l' p ∧ Given env cfg l' p (modesAfter m l' p))
    (ho : ∀ q x, Change.chmod q x ∈ l' → Change.chmod q x ∈ l ∨ MayBeSet env cfg l' q x) :
    Bits env cfg m l' := by
  have mono : ∀ p, PutInPlace l p → PutInPlace l' p := fun p ⟨a, d, h⟩ => ⟨a, d, hl _ h⟩
  refine ⟨fun p hq hn => ?_, fun p hq hy => ?_, fun q x hx => ?_⟩
  · rcases hp p hq with ⟨-, e⟩ | ⟨h1, -⟩
    · rw [e]; exact h.old p hq fun hy => hn (mono p hy)
    · exact absurd h1 hn
  · rcases hp p hq with ⟨e1, e⟩ | ⟨-, h1⟩
    · rw [e]; exact (h.new p hq (e1 hy)).mono hl
    · exact h1
  · rcases ho q x hx with hx | hx
    · exact (h.only q x hx).mono hl
    · exact hx

theorem modesAfter_append (m : Modes) (l l' : List Change) :
    modesAfter m (l ++ l') = modesAfter (modesAfter m l) l' := by
  unfold modesAfter; rw [List.foldl_append]

theorem Bits.snoc {env : Env} {cfg : Config} {m : Modes} {l : List Change} {c : Change}
    (h : Bits env cfg m l) (hc : Silent cfg c) : Bits env cfg m (l ++ [c]) := by
  refine h.extend (fun x hx => List.mem_append_left _ hx) (fun p hp => Or.inl ⟨?_, ?_⟩) ?_
  · rintro ⟨a, d, h⟩
    rcases List.mem_append.1 h with h | h
    · exact ⟨a, d, h⟩
    · rw [List.mem_singleton] at h
      subst h
      exact absurd hp hc
  · rw [modesAfter_append]
    show modeStep (modesAfter m l) c p = _
    cases c with
    | create q =>
      have : p ≠ q := by rintro rfl; exact hc hp
      simp [modeStep, this]
    | rename a q d =>
      have : p ≠ q := by rintro rfl; exact hc hp
      simp [modeStep, this]
    | chmod q x => exact hc.elim
    | _ => rfl
  · intro q x hq
    rcases List.mem_append.1 hq with hq | hq
    · exact Or.inl hq
    · rw [List.mem_singleton] at hq
      subst hq
      exact hc.elim

theorem Bits.append {env : Env} {cfg : Config} {m : Modes} {l l' : List Change} (h : Bits env cfg m l)
    (hc : ∀ c ∈ l', Silent cfg c) : Bits env cfg m (l ++ l') := by
  induction l' generalizing l with
  | nil => simpa using h
  | cons c l' ih =>
    have := ih (h.snoc (hc c (by simp))) fun x hx => hc x (by simp [hx])
    simpa using this

/-- Only changes that are silent. -/
def Quiet {α : Type} (cfg : Config) (m : M α) : Prop :=
  ∀ s, ∃ l, (m s).2.log = s.log ++ l ∧ ∀ c ∈ l, Silent cfg c

/-- The invariant is kept if the function succeeds. -/
def KeepsBits {α : Type} (env : Env) (cfg : Config) (m : M α) : Prop :=
  ∀ b s a s', Bits env cfg b s.log → m s = (.ok a, s') → Bits env cfg b s'.log

section
variable {α β : Type} {cfg : Config} {env : Env}

theorem Quiet.of_triple {m : M α} {A : Fs → Change → Prop} {Q : α → State → Prop}
    (h : Triple (fun _ => True) m A Q) (hA : ∀ f c, A f c → Silent cfg c) : Quiet cfg m := by
  intro s
  obtain ⟨l, h1, -, h3⟩ := (h s trivial).changes
  exact ⟨l, h1, h3.forall hA⟩

theorem Quiet.bind {m : M α} {f : α → M β} (hm : Quiet cfg m) (hf : ∀ a, Quiet cfg (f a)) :
    Quiet cfg (m >>= f) := by
  intro s
  obtain ⟨l, h1, h2⟩ := hm s
  simp only [RM.bind_run]
  rcases hr : m s with ⟨a | e | _, s'⟩
  · rw [hr] at h1
    obtain ⟨l', h3, h4⟩ := hf a s'
    refine ⟨l ++ l', ?_, ?_⟩
    · dsimp only at h1 ⊢
      rw [h3, h1, List.append_assoc]
    · intro c hc
      rcases List.mem_append.1 hc with h | h
      · exact h2 c h
      · exact h4 c h
  · rw [hr] at h1; exact ⟨l, h1, h2⟩
  · rw [hr] at h1; exact ⟨l, h1, h2⟩

theorem Quiet.keeps {m : M α} (h : Quiet cfg m) : KeepsBits env cfg m := by
  intro b s a s' hb e
  obtain ⟨l, h1, h2⟩ := h s
  rw [e] at h1
  dsimp only at h1
  rw [h1]
  exact hb.append h2

theorem KeepsBits.bind {m : M α} {f : α → M β} (hm : KeepsBits env cfg m)
    (hf : ∀ a, KeepsBits env cfg (f a)) : KeepsBits env cfg (m >>= f) := by
  intro b s c s' hb e
  simp only [RM.bind_run] at e
  rcases hr : m s with ⟨a | x | _, s1⟩
  · rw [hr] at e
    exact hf a b s1 c s' (hm b s a s1 hb hr) e
  · rw [hr] at e; cases e
  · rw [hr] at e; cases e

theorem Quiet.pure (a : α) : Quiet cfg (Pure.pure a : M α) := fun s => ⟨[], by simp, by simp⟩

theorem Quiet.extendRoots (ps : List Path) : Quiet cfg (extendRoots ps) :=
  .of_triple (A := NoChange) (Q := fun _ _ => True) (extendRoots_triple ps fun _ _ => trivial) fun _ _ h => h.elim

/-- What cannot change anything. -/
theorem Quiet.still {m : M α} {Q : α → State → Prop}
    (h : Triple (fun _ => True) m NoChange Q) : Quiet cfg m := .of_triple h fun _ _ h => h.elim

theorem rename_log (os : Os) (a b : Path) (s : State) :
    ((rename os a b s).2.log = s.log) ∨ ∃ d, (rename os a b s).2.log = s.log ++ [.rename a b d] := by
  cases hf : os.fault s.tick with
  | true => left; simp [rename, guarded, faulty, next, hf, require, RM.throw]
  | false =>
    cases hd : s.fs.fileAt a with
    | none => left; simp [rename, guarded, faulty, next, hf, require, getFs, hd, RM.throw]
    | some d =>
      by_cases hr : ¬ s.fs.get b = some .dir ∧ parentIsDir s.fs b = true
      · by_cases he : a = b
        · subst he; left; simp [rename, guarded, faulty, next, hf, require, getFs, hd, hr]
        · right; exact ⟨d, by simp [rename, guarded, faulty, next, hf, require, getFs, hd, hr, he, change]⟩
      · left; simp [rename, guarded, faulty, next, hf, require, getFs, hd, hr, RM.throw]

theorem rename_ok {os : Os} {a b : Path} {s s' : State} {u : Unit} (hne : a ≠ b)
    (h : rename os a b s = (.ok u, s')) : ∃ d, s'.log = s.log ++ [.rename a b d] := by
  cases hf : os.fault s.tick with
  | true => simp [rename, guarded, faulty, next, hf, require, RM.throw] at h
  | false =>
    cases hd : s.fs.fileAt a with
    | none => simp [rename, guarded, faulty, next, hf, require, getFs, hd, RM.throw] at h
    | some d =>
      by_cases hr : ¬ s.fs.get b = some .dir ∧ parentIsDir s.fs b = true
      · simp [rename, guarded, faulty, next, hf, require, getFs, hd, hr, hne, change] at h
        exact ⟨d, by rw [← h]⟩
      · simp [rename, guarded, faulty, next, hf, require, getFs, hd, hr, RM.throw] at h

theorem setPermissionBits_ok {os : Os} {p : Path} {x : Nat} {s s' : State} {u : Unit}
    (h : setPermissionBits os p x s = (.ok u, s')) : s'.log = s.log ++ [.chmod p x] := by
  cases hf : os.fault s.tick with
  | true => simp [setPermissionBits, guarded, faulty, next, hf, require, RM.throw] at h
  | false =>
    cases hr : (s.fs.get p).isSome with
    | false => simp [setPermissionBits, guarded, faulty, next, hf, require, getFs, hr, RM.throw] at h
    | true =>
      cases hf' : os.fault (s.tick + 1) with
      | true => simp [setPermissionBits, guarded, faulty, next, hf, hf', require, getFs, hr, RM.throw] at h
      | false =>
        simp [setPermissionBits, guarded, faulty, next, hf, hf', require, getFs, hr, change] at h
        rw [← h]

theorem Quiet.rename (os : Os) (a : Path) {b : Path} (h : ¬ InPlace cfg b) :
    Quiet cfg (Tool.rename os a b) := by
  intro s
  rcases rename_log os a b s with e | ⟨d, e⟩
  · exact ⟨[], by simpa using e, by simp⟩
  · exact ⟨_, e, by simpa [Silent] using h⟩

theorem MakesDirs.silent {p : Path} {f : Fs} {c : Change} (r : MakesDirs p f c) : Silent cfg c := by
  cases r; trivial

theorem DataFile.not_loader {p : Path} (h : DataFile cfg p) : ¬ IsLoader cfg p := by
  have aux : ∀ {q q' : Path} {d n d' n' : Str}, lastTwo q = some (d, n) → lastTwo q' = some (d', n') →
      d ≠ d' → q ≠ q' := fun h h' hd => lastTwo_ne h h' hd
  rcases h with ⟨l, k, rfl⟩ | rfl
  · rintro (e | e)
    · exact aux (caFile_lastTwo _ _ _) (fallbackFile_lastTwo _) (by decide) e
    · exact aux (caFile_lastTwo _ _ _) (systemdFile_lastTwo _) (by decide) e
  · rintro (e | e)
    · exact aux (confFile_lastTwo _) (fallbackFile_lastTwo _) (by decide) e
    · exact aux (confFile_lastTwo _) (systemdFile_lastTwo _) (by decide) e

theorem DataFile.not_entry {p : Path} (h : DataFile cfg p) : ¬ IsEntry cfg.esp p := by
  rintro ⟨n, e, -⟩
  rcases h with ⟨l, k, rfl⟩ | rfl
  · exact lastTwo_ne (caFile_lastTwo _ _ _) (entryFile_lastTwo _ _) (by decide) e
  · exact lastTwo_ne (confFile_lastTwo _) (entryFile_lastTwo _ _) (by decide) e

theorem IsLoader.not_entry {p : Path} (h : IsLoader cfg p) : ¬ IsEntry cfg.esp p := by
  rintro ⟨n, e, -⟩
  rcases h with rfl | rfl
  · exact lastTwo_ne (fallbackFile_lastTwo _) (entryFile_lastTwo _ _) (by decide) e
  · exact lastTwo_ne (systemdFile_lastTwo _) (entryFile_lastTwo _ _) (by decide) e

theorem isEntry_stub (esp : Path) (g : Gen) (k : Bytes) (t : Nat) {sha : Sha} :
    IsEntry esp (entryFile esp (stubName sha g k t)) := by
  refine ⟨_, rfl, (stubName_nixos sha g k t).1, ?_⟩
  obtain ⟨c, e, -⟩ := stubName_eq' sha g k t
  rw [e, ← List.append_assoc]
  exact List.suffix_append _ _

theorem InPlace.not_tmp {p : Path} (h : InPlace cfg p) : ¬ IsTmp p := by
  rcases h with (⟨l, k, rfl⟩ | rfl) | (rfl | rfl) | h
  · exact caFile_not_isTmp _ _ _
  · exact conf_not_tmp cfg
  · rw [fallbackFile_snoc]; exact not_isTmp_snoc (efiFallback_not_tmp _)
  · rw [systemdFile_snoc]; exact not_isTmp_snoc (systemdFilename_not_tmp _)
  · exact isEntry_not_tmp h

theorem bind_ok {m : M α} {f : α → M β} {s s' : State} {b : β} (h : (m >>= f) s = (.ok b, s')) :
    ∃ a s1, m s = (.ok a, s1) ∧ f a s1 = (.ok b, s') := by
  simp only [RM.bind_run] at h
  rcases hr : m s with ⟨a | x | _, s1⟩
  · rw [hr] at h; exact ⟨a, s1, rfl, h⟩
  · rw [hr] at h; cases h
  · rw [hr] at h; cases h

theorem Quiet.change {c : Change} (h : Silent cfg c) : Quiet cfg (change c) :=
  fun _ => ⟨[c], rfl, by simpa using h⟩

theorem Quiet.guarded (os : Os) : Quiet cfg (guarded os) :=
  .still (Q := fun _ _ => True) (Triple.guarded os fun _ _ _ => trivial)

theorem Quiet.writeFile (os : Os) (p : Path) (d : Bytes) : Quiet cfg (writeFile os p d) := by
  have hp : ∀ ds, Quiet cfg (writePartials p ds) := by
    intro ds
    induction ds with
    | nil => exact .pure ()
    | cons d ds ih => exact .bind (.change (c := .write p d) trivial) fun _ => ih
  refine .bind (fun s => ⟨[], by simp [next], by simp⟩) fun t => ?_
  refine .bind (hp _) fun _ => ?_
  refine .bind (.guarded os) fun _ => .change (c := .write p d) trivial

theorem Quiet.createFile (os : Os) {p : Path} (h : ¬ InPlace cfg p) : Quiet cfg (createFile os p) := by
  refine .bind (.guarded os) fun _ => .bind (fun s => ⟨[], by simp [getFs], by simp⟩) fun _ => ?_
  refine .bind (.still (Q := fun _ _ => True) (Triple.require fun _ _ _ => trivial)) fun _ => ?_
  exact .change (c := .create p) h

theorem Quiet.writePartials (p : Path) (ds : List Bytes) : Quiet cfg (writePartials p ds) := by
  induction ds with
  | nil => exact .pure ()
  | cons d ds ih => exact .bind (.change (c := .write p d) trivial) fun _ => ih

theorem Quiet.next : Quiet cfg next := fun s => ⟨[], by simp [Tool.next], by simp⟩

theorem Quiet.ofOption {o : Option α} : Quiet cfg (ofOption o) := by
  cases o with
  | none => exact fun s => ⟨[], by simp [Tool.ofOption, RM.throw], by simp⟩
  | some x => exact .pure _

theorem Quiet.throw : Quiet cfg (RM.throw () : M α) := fun s => ⟨[], by simp [RM.throw], by simp⟩

theorem Quiet.writeOut {p : Path} (h : ¬ InPlace cfg p) (d : Bytes) : Quiet cfg (writeOut env p d) :=
  .bind (.createFile _ h) fun _ => .writeFile _ _ _

theorem Quiet.failedOutput {p : Path} (h : ¬ InPlace cfg p) : Quiet cfg (failedOutput env p) :=
  .bind (.createFile _ h) fun _ => .bind .next fun _ => .writePartials _ _

theorem Quiet.lockPe (src : Src) {p : Path} (h : ¬ InPlace cfg p) : Quiet cfg (lockPe env src p) := by
  unfold Tool.lockPe
  refine .bind (.still (readSrc_triple (fun _ _ h => h) env src)) fun d => ?_
  refine .bind (.of_triple (ensureParentDir_triple env.os _) fun _ _ => MakesDirs.silent) fun _ => ?_
  refine .bind .next fun t => ?_
  split
  · exact .writeOut h _
  · exact .bind (.failedOutput h) fun _ => .throw

theorem createFile_ok {os : Os} {p : Path} {s s' : State} {u : Unit}
    (h : createFile os p s = (.ok u, s')) : s'.log = s.log ++ [.create p] := by
  cases hf : os.fault s.tick with
  | true => simp [Tool.createFile, Tool.guarded, faulty, Tool.next, hf, require, RM.throw] at h
  | false =>
    by_cases hr : ¬ s.fs.get p = some .dir ∧ parentIsDir s.fs p = true
    · simp [Tool.createFile, Tool.guarded, faulty, Tool.next, hf, require, getFs, hr, Tool.change] at h
      rw [← h]
    · simp [Tool.createFile, Tool.guarded, faulty, Tool.next, hf, require, getFs, hr, RM.throw] at h

theorem guarded_log {os : Os} {s s' : State} {r : Res Unit Unit} (h : Tool.guarded os s = (r, s')) :
    s'.log = s.log := by
  have := congrArg (fun x => x.2.log) h
  cases hf : os.fault s.tick <;>
    simp [Tool.guarded, faulty, Tool.next, hf, require, RM.throw] at this <;> exact this.symm

/-- Writing to `p`, nothing else. -/
def Writes (p : Path) (l : List Change) : Prop := ∀ c ∈ l, ∃ x, c = .write p x

theorem writePartials_log (p : Path) (ds : List Bytes) (s : State) :
    ∃ ws, Writes p ws ∧ (writePartials p ds s).2.log = s.log ++ ws := by
  induction ds generalizing s with
  | nil => exact ⟨[], by simp [Writes], by simp [Tool.writePartials]⟩
  | cons d ds ih =>
    obtain ⟨ws, h1, h2⟩ := ih { s with fs := s.fs.apply (.write p d), log := s.log ++ [.write p d] }
    refine ⟨.write p d :: ws, ?_, ?_⟩
    · intro c hc
      rcases List.mem_cons.1 hc with rfl | hc
      · exact ⟨d, rfl⟩
      · exact h1 c hc
    · simp only [Tool.writePartials, RM.bind_run, Tool.change]
      rw [h2]; simp

theorem writeFile_ok {os : Os} {p : Path} {d : Bytes} {s s' : State} {u : Unit}
    (h : writeFile os p d s = (.ok u, s')) : ∃ ws, Writes p ws ∧ s'.log = s.log ++ ws := by
  obtain ⟨t, s1, e1, h⟩ := bind_ok h
  obtain ⟨_, s2, e2, h⟩ := bind_ok h
  obtain ⟨_, s3, e3, h⟩ := bind_ok h
  obtain ⟨ws, h1, h2⟩ := writePartials_log p (os.partials t) s1
  rw [e2] at h2
  have e1 : s1.log = s.log := by simp [Tool.next] at e1; rw [← e1.2]
  simp only [Tool.change, Prod.mk.injEq, true_and] at h
  refine ⟨ws ++ [.write p d], ?_, ?_⟩
  · intro c hc
    rcases List.mem_append.1 hc with hc | hc
    · exact h1 c hc
    · exact ⟨d, List.mem_singleton.1 hc⟩
  · rw [← h]
    dsimp only at h2 ⊢
    rw [guarded_log e3, h2, e1, List.append_assoc]

theorem readSrc_log {src : Src} {s s' : State} {r : Res Unit Bytes} (h : readSrc env src s = (r, s')) :
    s'.log = s.log := by
  obtain ⟨l, h1, -, h3⟩ := (readSrc_triple (P := fun _ => True) (A := NoChange) (fun _ _ h => h) env src s
    trivial).changes
  rw [h] at h1
  have : l = [] := by
    cases l with
    | nil => rfl
    | cons c l => exact h3.1.elim
  rw [this] at h1
  simpa using h1

/-- The changes of signing or copying. -/
theorem signAndCopy_ok {signer : Signer} {src : Src} {p : Path} {s s' : State} {u : Unit}
    (h : signer.signAndCopy env src p s = (.ok u, s')) :
    ∃ ws, Writes p ws ∧ s'.log = s.log ++ ([.create p] ++ (if signer = .empty then
      [.chmod p (env.mode src)] else []) ++ ws) := by
  cases signer with
  | empty =>
    obtain ⟨d, s1, e1, h⟩ := bind_ok h
    obtain ⟨_, s2, e2, h⟩ := bind_ok h
    obtain ⟨_, s3, e3, h⟩ := bind_ok h
    obtain ⟨_, s4, e4, h⟩ := bind_ok h
    obtain ⟨ws, h1, h2⟩ := writeFile_ok h
    refine ⟨ws, h1, ?_⟩
    simp only [Tool.change, Prod.mk.injEq, true_and] at e4
    rw [h2, ← e4]
    dsimp only
    rw [guarded_log e3, createFile_ok e2, readSrc_log e1]
    simp
  | «local» pub priv =>
    obtain ⟨d, s1, e1, h⟩ := bind_ok h
    obtain ⟨t, s2, e2, h⟩ := bind_ok h
    have e2 : s2.log = s1.log := by simp [Tool.next] at e2; rw [← e2.2]
    cases hs : env.sbsign t priv pub d with
    | none =>
      rw [hs] at h
      obtain ⟨_, s3, -, h⟩ := bind_ok h
      simp [RM.throw] at h
    | some out =>
      rw [hs] at h
      obtain ⟨_, s3, e3, h⟩ := bind_ok h
      obtain ⟨ws, h1, h2⟩ := writeFile_ok h
      refine ⟨ws, h1, ?_⟩
      rw [h2, createFile_ok e3, e2, readSrc_log e1]
      simp

theorem modesAfter_writes {p : Path} {ws : List Change} (h : Writes p ws) (m : Modes) :
    modesAfter m ws = m := by
  induction ws generalizing m with
  | nil => rfl
  | cons c ws ih =>
    obtain ⟨x, rfl⟩ := h c (by simp)
    exact ih (fun c hc => h c (by simp [hc])) m

theorem rename_content {os : Os} {a b : Path} {s s' : State} {u : Unit} (hne : a ≠ b) {d : Bytes}
    (hd : s.fs.fileAt a = some d) (h : rename os a b s = (.ok u, s')) : s'.log = s.log ++ [.rename a b d] := by
  cases hf : os.fault s.tick with
  | true => simp [Tool.rename, Tool.guarded, faulty, Tool.next, hf, require, RM.throw] at h
  | false =>
    by_cases hr : ¬ s.fs.get b = some .dir ∧ parentIsDir s.fs b = true
    · simp [Tool.rename, Tool.guarded, faulty, Tool.next, hf, require, getFs, hd, hr, hne, Tool.change] at h
      rw [← h]
    · simp [Tool.rename, Tool.guarded, faulty, Tool.next, hf, require, getFs, hd, hr, RM.throw] at h

/-- `install_signed` with the bits. -/
theorem KeepsBits.installSigned (src : Src) {to : Path} (ht : IsTmp (tmpOf to))
    (hto : (IsLoader cfg to ∧ src = .store (loaderSource cfg)) ∨ (IsEntry cfg.esp to ∧ ∃ d, src = .temp d)) :
    KeepsBits env cfg (installSigned env cfg.signer src to) := by
  have hin : InPlace cfg to := by
    rcases hto with ⟨h, -⟩ | ⟨h, -⟩
    · exact Or.inr (Or.inl h)
    · exact Or.inr (Or.inr h)
  have hn : ¬ InPlace cfg (tmpOf to) := fun h => h.not_tmp ht
  have hne : tmpOf to ≠ to := fun e => hn (e.symm ▸ hin)
  intro b s u s' hb e
  obtain ⟨_, s1, e1, e⟩ := bind_ok e
  have hb1 := Quiet.keeps (.of_triple (ensureParentDir_triple env.os _) fun _ _ => MakesDirs.silent)
    b s _ s1 hb e1
  obtain ⟨_, s2, e2, e⟩ := bind_ok e
  obtain ⟨ws, hws, hl2⟩ := signAndCopy_ok e2
  obtain ⟨d, out, hd, hsig, hf⟩ := (signAndCopy_triple env cfg.signer src (tmpOf to) s1 trivial).post
    (a := ()) (by rw [e2])
  rw [e2] at hf
  have hl := rename_content hne hf e
  rw [hl2, List.append_assoc] at hl
  rw [hl]
  have hbits : modesAfter b (s1.log ++ ([.create (tmpOf to)] ++ (if cfg.signer = .empty then
      [.chmod (tmpOf to) (env.mode src)] else []) ++ ws ++ [.rename (tmpOf to) to out])) =
      fun q => if q = to then programMode env cfg.signer src else if q = tmpOf to then
        programMode env cfg.signer src else modesAfter b s1.log q := by
    funext q
    rw [modesAfter_append, modesAfter_append, modesAfter_append, modesAfter_writes hws]
    cases hsg : cfg.signer with
    | empty =>
      simp only [modesAfter, modeStep, programMode, if_true, List.singleton_append, List.foldl_cons,
        List.foldl_nil]
      by_cases h1 : q = to
      · simp [h1]
      · by_cases h2 : q = tmpOf to <;> simp [h1, h2]
    | «local» pub priv =>
      simp only [modesAfter, modeStep, programMode, reduceCtorEq, if_false, List.append_nil, List.foldl_cons,
        List.foldl_nil]
      by_cases h1 : q = to
      · simp [h1]
      · by_cases h2 : q = tmpOf to <;> simp [h1, h2]
  have hren : ∀ {a p d}, Change.rename a p d ∈ s1.log ++ ([.create (tmpOf to)] ++ (if cfg.signer = .empty then
      [.chmod (tmpOf to) (env.mode src)] else []) ++ ws ++ [.rename (tmpOf to) to out]) →
      Change.rename a p d ∈ s1.log ∨ p = to := by
    intro a p d h
    simp only [List.mem_append, List.mem_singleton] at h
    rcases h with h | ((h | h) | h) | h
    · exact Or.inl h
    · cases h
    · split at h
      · simp at h
      · simp at h
    · obtain ⟨x, hx⟩ := hws _ h
      cases hx
    · cases h; exact Or.inr rfl
  refine hb1.extend (fun c hc => List.mem_append_left _ hc) (fun p hp => ?_) fun q x hx => ?_
  · by_cases hpt : p = to
    · subst hpt
      refine Or.inr ⟨⟨tmpOf p, out, by simp⟩, ?_⟩
      rw [hbits]
      simp only [if_true]
      refine ⟨fun h => ?_, fun h => ?_, fun h => ⟨tmpOf p, out, by simp, ?_⟩⟩
      · rcases hto with ⟨h', -⟩ | ⟨h', -⟩
        · exact absurd h' (h.not_loader)
        · exact absurd h' (h.not_entry)
      · rcases hto with ⟨-, rfl⟩ | ⟨h', -⟩
        · rfl
        · exact absurd h' (h.not_entry)
      · rcases hto with ⟨h', -⟩ | ⟨-, x, rfl⟩
        · exact absurd h (h'.not_entry)
        · cases hsg : cfg.signer with
          | empty =>
            rw [hsg] at hsig
            have h1 : out = d := hsig
            have h2 : x = d := by simpa [Env.content] using hd
            rw [h1, h2]
          | «local» pub priv => rfl
    · have hpt' : p ≠ tmpOf to := fun e => hn (e ▸ hp)
      refine Or.inl ⟨?_, ?_⟩
      · rintro ⟨a, d, h⟩
        rcases hren h with h | h
        · exact ⟨a, d, h⟩
        · exact absurd h hpt
      · rw [hbits]; simp [hpt, hpt']
  · simp only [List.mem_append, List.mem_singleton] at hx
    rcases hx with h | ((h | h) | h) | h
    · exact Or.inl h
    · cases h
    · right
      split at h
      · next hsg =>
        simp only [List.mem_singleton] at h
        cases h
        refine Or.inr ⟨hsg, ht, to, rfl, ?_⟩
        rcases hto with ⟨h', rfl⟩ | ⟨h', d, rfl⟩
        · exact Or.inl ⟨h', rfl⟩
        · exact Or.inr ⟨h', d, rfl⟩
      · simp at h
    · obtain ⟨x, hx⟩ := hws _ h
      cases hx
    · cases h

/-- `force_install` with the bits. -/
theorem KeepsBits.forceInstall (src : Src) {to : Path} (h : DataFile cfg to)
    (ht : IsTmp (tmpOf to)) (hne : tmpOf to ≠ to) : KeepsBits env cfg (forceInstall env src to) := by
  have hn : ¬ InPlace cfg (tmpOf to) := fun h => h.not_tmp ht
  intro b s u s' hb e
  obtain ⟨_, s1, e1, e⟩ := bind_ok e
  have hb1 := Quiet.keeps (.of_triple (ensureParentDir_triple env.os _) fun _ _ => MakesDirs.silent)
    b s _ s1 hb e1
  obtain ⟨_, s6, e6, e⟩ := bind_ok e
  obtain ⟨d, s2, e2, e6⟩ := bind_ok e6
  have hb2 := Quiet.keeps (.still (readSrc_triple (fun _ _ h => h) env src)) b s1 _ s2 hb1 e2
  obtain ⟨_, s3, e3, e6⟩ := bind_ok e6
  have hb3 := Quiet.keeps (.createFile env.os hn) b s2 _ s3 hb2 e3
  obtain ⟨_, s4, e4, e6⟩ := bind_ok e6
  have hb4 := Quiet.keeps (.writeFile env.os _ d) b s3 _ s4 hb3 e4
  obtain ⟨_, s5, e5, e6⟩ := bind_ok e6
  have hb5 := Quiet.keeps (Quiet.bind (.guarded env.os) fun _ => .change (c := .fsync (tmpOf to)) trivial)
    b s4 _ s5 hb4 e5
  obtain ⟨x, e6⟩ := rename_ok hne e6
  rw [setPermissionBits_ok e, e6, List.append_assoc]
  refine hb5.extend (fun c hc => List.mem_append_left _ hc) (fun p hp => ?_) fun q y hy => ?_
  · by_cases hpt : p = to
    · subst hpt
      refine Or.inr ⟨⟨tmpOf p, x, by simp⟩, ?_⟩
      refine ⟨fun _ => by simp [modesAfter, modeStep], fun h' => absurd h' h.not_loader,
        fun h' => absurd h' h.not_entry⟩
    · refine Or.inl ⟨?_, ?_⟩
      · rintro ⟨a, d, h⟩
        simp at h
        rcases h with h | h
        · exact ⟨a, d, h⟩
        · exact absurd h.2.1 hpt
      · rw [modesAfter_append]; simp [modesAfter, modeStep, hpt]
  · simp at hy
    rcases hy with hy | ⟨rfl, rfl⟩
    · exact Or.inl hy
    · exact Or.inr (Or.inl ⟨h, ⟨tmpOf q, x, by simp⟩, rfl⟩)

theorem KeepsBits.install (src : Src) {to : Path} (h : DataFile cfg to)
    (ht : IsTmp (tmpOf to)) (hne : tmpOf to ≠ to) : KeepsBits env cfg (install env src to) := by
  unfold Tool.install
  refine .bind (Quiet.still (needsInstall_triple env src to)).keeps fun b => ?_
  cases b
  · exact (Quiet.pure ()).keeps
  · exact .forceInstall src h ht hne

theorem KeepsBits.installNixosCa (src : Src) {label : Str} (hl : '/' ∉ label) :
    KeepsBits env cfg (installNixosCa env cfg src label) := by
  unfold Tool.installNixosCa
  refine .bind (Quiet.still (hashSrc_triple (fun _ _ h => h) env src)).keeps fun h => ?_
  rw [kernel_target cfg hl h]
  refine .bind (Quiet.extendRoots _).keeps fun _ => ?_
  refine .bind (.install src (Or.inl ⟨_, _, rfl⟩) ?_ (caFile_tmp_ne _ hl _)) fun _ => (Quiet.pure _).keeps
  rw [caFile_snoc]; exact isTmp_tmpOf _ (caName_plain hl _)

theorem InPlace.lastTwo {p : Path} (h : InPlace cfg p) : ∃ d n, lastTwo p = some (d, n) ∧
    d ∈ [lit "nixos", lit "loader", lit "BOOT", lit "systemd", lit "Linux"] := by
  rcases h with (⟨l, k, rfl⟩ | rfl) | (rfl | rfl) | ⟨n, rfl, -⟩
  · exact ⟨_, _, caFile_lastTwo _ _ _, by simp⟩
  · exact ⟨_, _, confFile_lastTwo _, by simp⟩
  · exact ⟨_, _, fallbackFile_lastTwo _, by simp⟩
  · exact ⟨_, _, systemdFile_lastTwo _, by simp⟩
  · exact ⟨_, _, entryFile_lastTwo _ _, by simp⟩

theorem not_inPlace {p : Path} {d n : Str} (h : lastTwo p = some (d, n))
    (hd : d ∉ [lit "nixos", lit "loader", lit "BOOT", lit "systemd", lit "Linux"]) : ¬ InPlace cfg p := by
  intro hp
  obtain ⟨d', n', h1, h2⟩ := hp.lastTwo
  rw [h] at h1
  simp only [Option.some.injEq, Prod.mk.injEq] at h1
  exact hd (h1.1 ▸ h2)

theorem Quiet.measureImage {g : Gen} (hg : SafeGen g) (image : Bytes) :
    Quiet cfg (measureImage env cfg g image) := by
  unfold Tool.measureImage Config.pcrlock
  cases hp : cfg.pcrlockDirectory with
  | none => exact .pure ()
  | some p =>
    dsimp only [Option.map_some]
    rw [measurement_target p hg]
    exact .bind (.lockPe _ (not_inPlace (measurementFile_lastTwo p g) (by decide))) fun _ => .extendRoots _

theorem KeepsBits.ofOption {o : Option α} {f : α → M β} (h : ∀ a, o = some a → KeepsBits env cfg (f a)) :
    KeepsBits env cfg (ofOption o >>= f) := by
  cases o with
  | none => intro b s a s' _ e; simp [Tool.ofOption, RM.throw] at e
  | some x => intro b s a s' hb e; simp [Tool.ofOption] at e; exact h x rfl b s a s' hb e

theorem KeepsBits.installNewGeneration {g : Gen} (hg : SafeGen g) :
    KeepsBits env cfg (installNewGeneration env cfg g) := by
  unfold Tool.installNewGeneration
  refine .bind (Quiet.guarded _).keeps fun _ => ?_
  refine .ofOption fun v hv => ?_
  refine .bind (.installNixosCa _ (kernelVersion_label hg hv _ (by decide))) fun _ => ?_
  refine .bind (Quiet.still (initrdLocation_triple env g.spec fun _ _ h => h)).keeps fun _ => ?_
  refine .bind (.installNixosCa _ (kernelVersion_label hg hv _ (by decide))) fun _ => ?_
  refine .bind (Quiet.still (stubParameters_triple cfg g _ _ _)).keeps fun _ => ?_
  refine .bind (Quiet.still (lanzabooteImage_triple env _ fun _ _ h => h)).keeps fun _ => ?_
  refine .bind (Quiet.measureImage hg _).keeps fun _ => ?_
  refine .bind (Quiet.still (getPublicKey_triple env _ fun _ _ h => h)).keeps fun key => ?_
  refine .bind (Quiet.extendRoots _).keeps fun _ => ?_
  rw [stub_target hg]
  refine .installSigned _ ?_ (Or.inr ⟨isEntry_stub _ _ _ _, _, rfl⟩)
  rw [entryFile_snoc]; exact isTmp_tmpOf _ (stubName_plain hg _ _)

theorem KeepsBits.installAll {gs : List Gen} (hg : ∀ g ∈ gs, SafeGen g) :
    KeepsBits env cfg (installAll env cfg gs) := by
  induction gs with
  | nil => exact (Quiet.pure ()).keeps
  | cons g gs ih =>
    refine .bind ?_ fun _ => ih fun x hx => hg x (by simp [hx])
    refine .bind (Quiet.still (registerInstalledGeneration_triple (hg g (by simp)))).keeps fun b => ?_
    cases b
    · exact .installNewGeneration (hg g (by simp))
    · exact (Quiet.pure ()).keeps

theorem KeepsBits.links (hs : SafeInput env cfg) {links : List Link} (hl : cfg.considered env = some links) :
    KeepsBits env cfg (installGenerationsFromLinks env cfg links) := by
  intro b s u s' hb e
  obtain ⟨gs, t, k, he, h1, -⟩ := readGenerations_spec env links s
  obtain ⟨gs', s1, e1, e⟩ := bind_ok e
  rw [he] at e1
  cases e1
  suffices H : KeepsBits env cfg (installThem env cfg gs) from H b { s with tick := t, broken := k } u s' hb e
  unfold installThem
  split
  · intro b s a s' _ e; simp [RM.throw] at e
  · refine .bind (.installAll fun g hg => ?_) fun _ => Quiet.keeps ?_
    · obtain ⟨x, hx, hgx⟩ := List.mem_flatMap.1 hg
      obtain ⟨link, hlink, j, hj, rfl⟩ := h1 x hx
      exact hs g ⟨links, link, j, hl, hlink, hj, hgx⟩
    · exact .of_triple ((syncFs_triple (env := env) (J := fun _ => True) (R := fun _ => True) cfg.esp
        (fun _ _ => trivial) (A := fun _ c => c = .syncfs cfg.esp) fun _ _ => rfl).pre
        fun _ _ => ⟨trivial, trivial⟩) (by rintro f c rfl; trivial)

theorem KeepsBits.replaceSystemdBoot : KeepsBits env cfg (replaceSystemdBoot env cfg) := by
  unfold Tool.replaceSystemdBoot
  rw [fallback_target, systemd_target, source_target]
  refine .bind (Quiet.keeps ?_) fun _ => .bind (.installSigned _ ?_ (Or.inl ⟨Or.inl rfl, rfl⟩)) fun _ =>
    .bind (.installSigned _ ?_ (Or.inl ⟨Or.inr rfl, rfl⟩)) fun _ => Quiet.keeps ?_
  · unfold measureNext Config.pcrlock
    cases hp : cfg.pcrlockDirectory with
    | none => exact .pure ()
    | some p =>
      dsimp only [Option.map_some]
      rw [next_target]
      exact .lockPe _ (not_inPlace (nextFile_lastTwo p) (by decide))
  · rw [fallbackFile_snoc]; exact isTmp_tmpOf _ (efiFallbackFilename_plain _)
  · rw [systemdFile_snoc]; exact isTmp_tmpOf _ (systemdFilename_plain _)
  · unfold measurementDone Config.pcrlock
    cases hp : cfg.pcrlockDirectory with
    | none => exact .pure ()
    | some p =>
      dsimp only [Option.map_some]
      rw [current_target]
      exact .rename _ _ (not_inPlace (currentFile_lastTwo p) (by decide))

theorem Quiet.orM {a b : M Bool} (ha : Quiet cfg a) (hb : Quiet cfg b) : Quiet cfg (orM a b) := by
  refine .bind ha fun x => ?_
  cases x
  · exact hb
  · exact .pure _

theorem Quiet.andM {a b : M Bool} (ha : Quiet cfg a) (hb : Quiet cfg b) : Quiet cfg (andM a b) := by
  refine .bind ha fun x => ?_
  cases x
  · exact .pure _
  · exact hb

theorem KeepsBits.installSystemdBoot : KeepsBits env cfg (installSystemdBoot env cfg) := by
  have hc : KeepsBits env cfg (Tool.install env (.store cfg.loaderConfig) cfg.paths.systemdBootLoaderConfig) := by
    rw [conf_target]
    refine .install _ (Or.inr rfl) ?_ (confFile_tmp_ne cfg)
    rw [confFile_snoc]; exact isTmp_tmpOf _ loaderConf_plain
  have hn : ∀ q, Quiet cfg (newerSystemdBoot env cfg.systemdBootSource q) := fun q =>
    .still (newerSystemdBoot_triple q fun _ _ h => h)
  have hv : ∀ q, Quiet cfg (cfg.signer.verifyPath env q) := fun q =>
    .still (verifyPath_triple cfg.signer q fun _ _ h => h)
  unfold Tool.installSystemdBoot
  refine .bind (Quiet.orM (hn _) (hn _)).keeps fun _ => ?_
  refine .bind (Quiet.andM (hv _) (hv _)).keeps fun _ => ?_
  refine .bind (Quiet.still (measurementExists_triple fun _ _ h => h)).keeps fun _ => ?_
  split
  · exact .bind .replaceSystemdBoot fun _ => hc
  · exact hc

theorem Quiet.collect : Quiet cfg (collect env cfg) := by
  intro s
  obtain ⟨l, h1, -, h2⟩ := (collectThree_triple (env := env) (cfg := cfg) s.roots
    { s with fs := s.fs.apply .collecting, log := s.log ++ [.collecting] } rfl).changes
  unfold Tool.collect
  by_cases hb : s.broken = []
  · refine ⟨.collecting :: l, ?_, ?_⟩
    · simp only [RM.bind_run, RM.get_run, hb, if_true, Tool.change]
      simpa [hb] using h1
    · intro c hc
      rcases List.mem_cons.1 hc with rfl | hc
      · trivial
      · refine h2.forall (B := Silent cfg) ?_ c hc
        intro f c h
        cases h with
        | nixos h => cases h <;> trivial
        | linux h => cases h <;> trivial
        | lock _ h => cases h <;> trivial
  · exact ⟨[], by simp [hb], by simp⟩

theorem KeepsBits.run (hs : SafeInput env cfg) : KeepsBits env cfg (run env cfg) := by
  refine .ofOption fun links hl => ?_
  exact .bind (.links hs hl) fun _ => .bind .installSystemdBoot fun _ => Quiet.collect.keeps

end

variable {env : Env} {cfg : Config}

theorem bits_of_run (hs : SafeInput env cfg) (fs : Fs) (m : Modes)
    (hok : (run env cfg (start cfg fs)).1 = .ok ()) :
    Bits env cfg m (run env cfg (start cfg fs)).2.log :=
  KeepsBits.run hs m _ () _ ⟨fun p _ _ => rfl, fun p _ ⟨a, d, h⟩ => by simp [start] at h,
    fun q x h => by simp [start] at h⟩ (Prod.ext hok rfl)

/-- **C73.** After a successful run, a kernel, an initrd or `loader.conf` that this run put into place has the
permission bits `0o755`, whatever the umask; one that it did not put into place has the bits it had. -/
theorem C73_bits (hs : SafeInput env cfg) (fs : Fs) (m : Modes)
    (hok : (run env cfg (start cfg fs)).1 = .ok ()) {p : Path} {d : Bytes} (hp : WantedData env cfg p d) :
    modesAfter m (run env cfg (start cfg fs)).2.log p =
      if PutInPlace (run env cfg (start cfg fs)).2.log p then some 0o755 else m p := by
  have hd : DataFile cfg p := by
    cases hp with
    | kernel _ _ _ e => exact Or.inl ⟨_, _, e⟩
    | initrd _ _ _ e => exact Or.inl ⟨_, _, e⟩
    | conf _ e => exact Or.inr e
  have hb := bits_of_run hs fs m hok
  split
  · next h => exact (hb.new p (Or.inl hd) h).data hd
  · next h => exact hb.old p (Or.inl hd) h

/-- **C73.** A boot loader that a successful run put into place has what the umask gave it if it was signed, and
the bits of systemd's file if it was not; one that it did not put into place has the bits it had. -/
theorem C73_loader (hs : SafeInput env cfg) (fs : Fs) (m : Modes)
    (hok : (run env cfg (start cfg fs)).1 = .ok ()) {p : Path} (hp : p = fallbackFile cfg ∨ p = systemdFile cfg) :
    modesAfter m (run env cfg (start cfg fs)).2.log p =
      if PutInPlace (run env cfg (start cfg fs)).2.log p then
        programMode env cfg.signer (.store (loaderSource cfg)) else m p := by
  have hb := bits_of_run hs fs m hok
  split
  · next h => exact (hb.new p (Or.inr (Or.inl hp)) h).loader hp
  · next h => exact hb.old p (Or.inr (Or.inl hp)) h

/-- **C73.** The same for boot entries; the file an unsigned one is copied from has its contents. -/
theorem C73_entry (hs : SafeInput env cfg) (fs : Fs) (m : Modes)
    (hok : (run env cfg (start cfg fs)).1 = .ok ()) {p : Path} (hp : IsEntry cfg.esp p) :
    (PutInPlace (run env cfg (start cfg fs)).2.log p →
      ∃ a d, Change.rename a p d ∈ (run env cfg (start cfg fs)).2.log ∧
        modesAfter m (run env cfg (start cfg fs)).2.log p = programMode env cfg.signer (.temp d)) ∧
    (¬ PutInPlace (run env cfg (start cfg fs)).2.log p →
      modesAfter m (run env cfg (start cfg fs)).2.log p = m p) := by
  have hb := bits_of_run hs fs m hok
  exact ⟨fun h => (hb.new p (Or.inr (Or.inr hp)) h).entry hp, fun h => hb.old p (Or.inr (Or.inr hp)) h⟩

/-- **C73.** A successful run sets no other permission bits: with a signing key, what it sets is `0o755`, on files
in `EFI/nixos` and on `loader.conf` which it put into place; without one, it also gives the temporary files of
boot entries and boot loaders the bits of the file they are copied from. -/
theorem C73_only (hs : SafeInput env cfg) (fs : Fs)
    (hok : (run env cfg (start cfg fs)).1 = .ok ()) {q : Path} {x : Nat}
    (h : Change.chmod q x ∈ (run env cfg (start cfg fs)).2.log) :
    (x = 0o755 ∧ PutInPlace (run env cfg (start cfg fs)).2.log q ∧
      ((∃ label hash, q = caFile cfg.esp label hash) ∨ q = confFile cfg)) ∨
    (cfg.signer = .empty ∧ IsTmp q ∧ ∃ src, x = env.mode src) := by
  rcases (bits_of_run hs fs (fun _ => none) hok).only q x h with ⟨h1, h2, h3⟩ | ⟨h1, ht, h2⟩
  · exact Or.inl ⟨h3, h2, h1⟩
  · refine Or.inr ⟨h1, ht, ?_⟩
    · obtain ⟨to, -, ⟨-, h⟩ | ⟨-, d, h⟩⟩ := h2
      · exact ⟨_, h⟩
      · exact ⟨_, h⟩

/-! ### A concrete run -/

/-- The kernel of the first sample generation. -/
def Sample.kernelAt : Path := caFile Sample.cfg.esp (lit "kernel-6.1") (Sample.sha.hash Sample.kernel1)

/-- The sample run puts a kernel and `loader.conf` into place, so their bits are `0o755`; the boot loader's are
whatever the umask gave. -/
example : let l := (run Sample.good Sample.cfg (start Sample.cfg Sample.disk0)).2.log
    (run Sample.good Sample.cfg (start Sample.cfg Sample.disk0)).1 = .ok () ∧
    PutInPlace l Sample.kernelAt ∧ PutInPlace l (confFile Sample.cfg) ∧
    modesAfter (fun _ => some 0o600) l Sample.kernelAt = some 0o755 ∧
    modesAfter (fun _ => some 0o600) l (confFile Sample.cfg) = some 0o755 ∧
    PutInPlace l (fallbackFile Sample.cfg) ∧
    modesAfter (fun _ => some 0o600) l (fallbackFile Sample.cfg) = none := by decide +kernel

/-- Without a signing key the boot loader gets the bits of the file in the store, and the boot entries those of
the temporary file. -/
example : let cfg := { Sample.cfg with signer := .empty }
    let l := (run Sample.good cfg (start cfg Sample.disk0)).2.log
    (run Sample.good cfg (start cfg Sample.disk0)).1 = .ok () ∧
    PutInPlace l (fallbackFile cfg) ∧ PutInPlace l (confFile cfg) ∧
    modesAfter (fun _ => some 0o600) l (fallbackFile cfg) = some 0o444 ∧
    modesAfter (fun _ => some 0o600) l (confFile cfg) = some 0o755 ∧
    (l.any fun c => match c with
      | .rename _ p _ => decide (p.dropLast = cfg.esp ++ [lit "EFI", lit "Linux"] ∧
          modesAfter (fun _ => some 0o600) l p = some 0o755)
      | _ => false) = true := by decide +kernel

/-- **C73**, a limit. A run that is interrupted between putting a kernel into place and setting its bits leaves
bits that no later run repairs: the later run finds the right contents and leaves the file alone. So after a
successful run not all kernels have the bits `0o755`. -/
theorem C73_not_repaired :
    let first := run (Sample.env (· = 14)) Sample.cfg (start Sample.cfg Sample.disk0)
    let second := run Sample.good Sample.cfg (start Sample.cfg first.2.fs)
    WantedData Sample.good Sample.cfg Sample.kernelAt Sample.kernel1 ∧
    first.1 = .err () ∧ second.1 = .ok () ∧
    second.2.fs.fileAt Sample.kernelAt = some Sample.kernel1 ∧
    modesAfter (fun _ => some 0o755) (first.2.log ++ second.2.log) Sample.kernelAt = none := by
  intro first second
  refine ⟨?_, by decide +kernel, by decide +kernel, by decide +kernel, by decide +kernel⟩
  exact .kernel (g := (Sample.allOf Sample.good Sample.cfg).head (by decide +kernel)) (v := lit "6.1")
    (Sample.considers_iff.2 (List.head_mem _))
    (kernelVersion_spec.1 (by decide +kernel)) (by decide +kernel) rfl

end Verif.Tool
