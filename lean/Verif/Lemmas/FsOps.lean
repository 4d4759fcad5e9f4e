import Verif.Lemmas.Fs
import Verif.Spec.Installer
/-!
# What the file operations of the installer do
-/
namespace Verif.Tool
open Verif

/-- Missing directories above `p` are made. -/
inductive MakesDirs (p : Path) (f : Fs) : Change → Prop
  | mkdir {q : Path} (hq : q ∈ ancestors p.dropLast) (hn : f.get q = none)
      (hp : f.get q.dropLast = some .dir) : MakesDirs p f (.mkdir q)

/-- Changes made when a file is written in place at `p`. -/
inductive Outputs (p : Path) (f : Fs) : Change → Prop
  | mkdir {q : Path} (hq : q ∈ ancestors p.dropLast) (hn : f.get q = none)
      (hp : f.get q.dropLast = some .dir) : Outputs p f (.mkdir q)
  | create (hn : f.get p ≠ some .dir) (hp : f.get p.dropLast = some .dir) : Outputs p f (.create p)
  | write {x : Bytes} (hf : (f.fileAt p).isSome) : Outputs p f (.write p x)
  | chmod {m : Nat} : Outputs p f (.chmod p m)

/-- Changes made when `to` is replaced through its temporary file by contents in `S`; `durable`: the
contents are on the disk before. -/
inductive Replaces (to : Path) (S : Bytes → Prop) (durable : Bool) (f : Fs) : Change → Prop
  | mkdir {q : Path} (hq : q ∈ ancestors to.dropLast) (hn : f.get q = none)
      (hp : f.get q.dropLast = some .dir) : Replaces to S durable f (.mkdir q)
  | create (hn : f.get (tmpOf to) ≠ some .dir) (hp : f.get (tmpOf to).dropLast = some .dir) :
      Replaces to S durable f (.create (tmpOf to))
  | write {x : Bytes} (hf : (f.fileAt (tmpOf to)).isSome) :
      Replaces to S durable f (.write (tmpOf to) x)
  | fsync : Replaces to S durable f (.fsync (tmpOf to))
  | rename {d : Bytes} (hd : f.fileAt (tmpOf to) = some d) (hS : S d) (hne : tmpOf to ≠ to)
      (hn : f.get to ≠ some .dir) (hp : f.get to.dropLast = some .dir)
      (hs : durable = true → tmpOf to ∉ f.dirty) :
      Replaces to S durable f (.rename (tmpOf to) to d)
  | chmod : Replaces to S durable f (.chmod to 0o755)
  | bits {m : Nat} : Replaces to S durable f (.chmod (tmpOf to) m)

theorem MakesDirs.outputs {p : Path} {f : Fs} {c : Change} (h : MakesDirs p f c) :
    Outputs p f c := by
  cases h with | mkdir a b c => exact .mkdir a b c

theorem MakesDirs.replaces {p : Path} {S : Bytes → Prop} {dur : Bool} {f : Fs} {c : Change}
    (h : MakesDirs p f c) : Replaces p S dur f c := by
  cases h with | mkdir a b c => exact .mkdir a b c

/-- Nothing is changed. -/
abbrev NoChange : Fs → Change → Prop := fun _ _ => False

section
variable {P : State → Prop} (hP : Ticks P) {A : Fs → Change → Prop} (os : Os)
include hP

theorem pathExists_triple (p : Path) :
    Triple P (pathExists os p) A fun b s => P s ∧ (b = true → (s.fs.get p).isSome) := by
  unfold pathExists
  refine Triple.bind (Triple.faulty os hP) fun b => ?_
  refine Triple.bind (Triple.getFs (Q := fun f s => P s ∧ f = s.fs) fun s hs => ⟨hs, rfl⟩) fun f => ?_
  refine Triple.pure ?_
  rintro s ⟨hs, rfl⟩
  exact ⟨hs, fun h => by simp at h; exact h.2⟩

theorem readFs_triple (p : Path) :
    Triple P (readFs os p) A fun d s => P s ∧ s.fs.fileAt p = some d := by
  unfold readFs
  refine Triple.bind (Triple.guarded os hP) fun _ => ?_
  refine Triple.bind (Triple.getFs (Q := fun f s => P s ∧ f = s.fs) fun s hs => ⟨hs, rfl⟩) fun f => ?_
  split
  · next d hd => exact Triple.pure (by rintro s ⟨hs, rfl⟩; exact ⟨hs, hd⟩)
  · exact Triple.throw

theorem mkdir_triple (p : Path) (hA : ∀ s, P s → s.fs.get p = none →
      s.fs.get p.dropLast = some .dir → A s.fs (.mkdir p))
    (hQ : ∀ s, P s → s.fs.get p = none →
      P { s with fs := s.fs.apply (.mkdir p), log := s.log ++ [.mkdir p] }) :
    Triple P (mkdir os p) A fun _ => P := by
  unfold mkdir
  refine Triple.bind (Triple.guarded os hP) fun _ => ?_
  refine Triple.bind (Triple.getFs (Q := fun f s => P s ∧ f = s.fs) fun s hs => ⟨hs, rfl⟩) fun f => ?_
  refine Triple.bind (Q := fun _ s => P s ∧ s.fs.get p = none ∧ s.fs.get p.dropLast = some .dir)
    (Triple.require ?_) fun _ => ?_
  · rintro s ⟨hs, rfl⟩ h
    simp [parentIsDir] at h
    exact ⟨hs, h⟩
  · exact Triple.change (fun s ⟨a, b, c⟩ => hA s a b c) fun s ⟨a, b, _⟩ => hQ s a b

theorem readSrc_triple (env : Env) (src : Src) :
    Triple P (readSrc env src) A fun d s => P s ∧ env.content src = some d := by
  unfold readSrc
  refine Triple.bind (Triple.guarded env.os hP) fun _ => ?_
  unfold ofOption
  split
  · next d hd => exact Triple.pure fun s hs => ⟨hs, hd⟩
  · exact Triple.throw

theorem hashSrc_triple (env : Env) (src : Src) :
    Triple P (hashSrc env src) A fun h s => P s ∧ ∃ d, env.content src = some d ∧
      h = env.sha.hash d := by
  unfold hashSrc
  exact Triple.bind (readSrc_triple hP env src) fun d =>
    Triple.pure fun s ⟨hs, h⟩ => ⟨hs, d, h, rfl⟩

theorem hashFs_triple (env : Env) (p : Path) :
    Triple P (hashFs env p) A fun h s => P s ∧ ∃ d, s.fs.fileAt p = some d ∧
      h = env.sha.hash d := by
  unfold hashFs
  exact Triple.bind (readFs_triple hP env.os p) fun d =>
    Triple.pure fun s ⟨hs, h⟩ => ⟨hs, d, h, rfl⟩

theorem writeSecureFile_triple (env : Env) (d : Bytes) :
    Triple P (writeSecureFile env d) A fun x s => P s ∧ x = d := by
  unfold writeSecureFile
  exact Triple.bind (Triple.guarded env.os hP) fun _ => Triple.pure fun s hs => ⟨hs, rfl⟩

omit hP in
theorem ofOption_triple {α : Type} (o : Option α) :
    Triple P (ofOption o) A fun a s => P s ∧ o = some a := by
  unfold ofOption
  split
  · exact Triple.pure fun s hs => ⟨hs, rfl⟩
  · exact Triple.throw

omit hP in
theorem expectSome_triple {α : Type} (o : Option α) :
    Triple P (expectSome o) A fun a s => P s ∧ o = some a := by
  unfold expectSome
  split
  · exact Triple.pure fun s hs => ⟨hs, rfl⟩
  · exact Triple.panic

omit hP in
theorem ofRes_triple {α : Type} (r : Res Unit α) :
    Triple P (ofRes r) A fun a s => P s ∧ r = .ok a := by
  unfold ofRes
  split
  · exact Triple.pure fun s hs => ⟨hs, rfl⟩
  · exact Triple.throw
  · exact Triple.panic

omit hP in
theorem extendRoots_triple (ps : List Path) {Q : Unit → State → Prop}
    (h : ∀ s, P s → Q () { s with roots := s.roots ++ ps }) : Triple P (extendRoots ps) A Q :=
  fun s hs => ⟨⟨[], by simp [extendRoots], by simp [extendRoots], trivial⟩,
    fun p hp => by simp [extendRoots, hp], rfl, fun _ e => by cases e; exact h s hs⟩

end

/-! ## Writing files -/

variable {A : Fs → Change → Prop} (os : Os)

theorem createFile_triple (p : Path) :
    Triple (fun _ => True) (createFile os p) (Outputs p) fun _ s => (s.fs.fileAt p).isSome := by
  unfold createFile
  refine Triple.bind (Triple.guarded os fun _ _ h => h) fun _ => ?_
  refine Triple.bind (Triple.getFs (Q := fun f s => f = s.fs) fun s _ => rfl) fun f => ?_
  refine Triple.bind (Q := fun _ s => s.fs.get p ≠ some .dir ∧ s.fs.get p.dropLast = some .dir)
    (Triple.require ?_) fun _ => ?_
  · rintro s rfl h
    simp [parentIsDir] at h
    exact h
  · refine Triple.change (fun s ⟨a, b⟩ => .create a b) fun s ⟨a, b⟩ => ?_
    have hp : p ≠ [] := by rintro rfl; simp at a
    simp [Fs.fileAt, Fs.get_create hp]

theorem fileAt_write {f : Fs} {p : Path} {d : Bytes} (h : p ≠ []) :
    (f.apply (.write p d)).fileAt p = some d := by
  simp [Fs.fileAt, Fs.get_write h]

theorem fileAt_isSome_ne {f : Fs} {p : Path} (h : (f.fileAt p).isSome) : p ≠ [] := by
  rintro rfl; simp [Fs.fileAt] at h

theorem writePartials_triple (p : Path) (ds : List Bytes) :
    Triple (fun s => (s.fs.fileAt p).isSome) (writePartials p ds) (Outputs p)
      fun _ s => (s.fs.fileAt p).isSome := by
  induction ds with
  | nil => exact Triple.pure fun _ h => h
  | cons d ds ih =>
    unfold writePartials
    refine Triple.bind (Triple.change (fun s h => .write h) fun s h => ?_) fun _ => ih
    simp [fileAt_write (fileAt_isSome_ne h)]

theorem writeFile_triple (p : Path) (d : Bytes) :
    Triple (fun s => (s.fs.fileAt p).isSome) (writeFile os p d) (Outputs p)
      fun _ s => s.fs.fileAt p = some d := by
  unfold writeFile
  refine Triple.bind (Triple.next fun _ _ h => h) fun t => ?_
  refine Triple.bind (writePartials_triple p _) fun _ => ?_
  refine Triple.bind (Triple.guarded os fun _ _ h => h) fun _ => ?_
  exact Triple.change (fun s h => .write h) fun s h => by
    simp [fileAt_write (fileAt_isSome_ne h)]

theorem writeOut_triple (env : Env) (p : Path) (d : Bytes) :
    Triple (fun _ => True) (writeOut env p d) (Outputs p) fun _ s => s.fs.fileAt p = some d := by
  unfold writeOut
  exact Triple.bind (createFile_triple env.os p) fun _ => writeFile_triple env.os p d

theorem failedOutput_triple (env : Env) (p : Path) :
    Triple (fun _ => True) (failedOutput env p) (Outputs p) fun _ _ => True := by
  unfold failedOutput
  refine Triple.bind (createFile_triple env.os p) fun _ => ?_
  refine Triple.bind (Triple.next fun _ _ h => h) fun t => ?_
  exact (writePartials_triple p _).post fun _ _ _ => trivial

theorem mkdirMissing_triple (p : Path) (qs : List Path) (h : ∀ q ∈ qs, q ∈ ancestors p.dropLast) :
    Triple (fun _ => True) (mkdirMissing os qs) (MakesDirs p) fun _ _ => True := by
  induction qs with
  | nil => exact Triple.pure fun _ _ => trivial
  | cons q qs ih =>
    have ih := ih fun x hx => h x (by simp [hx])
    unfold mkdirMissing
    refine Triple.bind (Triple.getFs (Q := fun _ _ => True) fun _ _ => trivial) fun f => ?_
    refine Triple.ite (fun _ => ih) fun _ => ?_
    refine Triple.bind (mkdir_triple (fun _ _ h => h) os q ?_ ?_) fun _ => ih
    · exact fun s _ hn hd => .mkdir (h q (by simp)) hn hd
    · exact fun _ _ _ => trivial

theorem ensureParentDir_triple (p : Path) :
    Triple (fun _ => True) (ensureParentDir os p) (MakesDirs p) fun _ _ => True := by
  unfold ensureParentDir
  split
  · next q hq =>
    have : q = p.dropLast := by
      unfold Path.parent at hq; split at hq <;> simp_all
    refine Triple.bind (Triple.attempt (mkdirMissing_triple os p _ ?_)) fun _ =>
      Triple.pure fun _ _ => trivial
    intro x hx
    rwa [this] at hx
  · exact Triple.pure fun _ _ => trivial

theorem copyFile_triple (env : Env) (src : Src) (to : Path) :
    Triple (fun _ => True) (copyFile env src to) (Outputs to)
      fun _ s => ∃ d, env.content src = some d ∧ s.fs.fileAt to = some d := by
  unfold copyFile
  refine Triple.bind (readSrc_triple (fun _ _ h => h) env src) fun d => ?_
  intro s hs
  refine Triple.bind (P := fun _ => True) (createFile_triple env.os to) (fun _ => ?_) s trivial
  refine Triple.bind (Triple.guarded env.os fun _ _ h => h) fun _ => ?_
  refine Triple.bind (Q := fun _ s => (s.fs.fileAt to).isSome)
    (Triple.change (fun _ _ => .chmod) fun s h => h) fun _ => ?_
  exact (writeFile_triple env.os to d).post fun _ s h => ⟨d, hs.2, h⟩

theorem signAndCopy_triple (env : Env) (signer : Signer) (src : Src) (to : Path) :
    Triple (fun _ => True) (signer.signAndCopy env src to) (Outputs to)
      fun _ s => ∃ d out, env.content src = some d ∧ SignedBy env signer d out ∧
        s.fs.fileAt to = some out := by
  cases signer with
  | empty =>
    exact (copyFile_triple env src to).post fun _ s ⟨d, hd, h⟩ => ⟨d, d, hd, rfl, h⟩
  | «local» pub priv =>
    refine Triple.bind (readSrc_triple (fun _ _ h => h) env src) fun d => ?_
    refine Triple.bind (Triple.next fun _ _ h => h) fun t => ?_
    split
    · next out hout =>
      intro s hs
      exact ((writeOut_triple env to out).post (fun _ s h => ⟨d, out, hs.2, ⟨t, hout⟩, h⟩)) s trivial
    · exact (Triple.bind (failedOutput_triple env to) fun _ => Triple.throw).pre fun _ _ => trivial

theorem lockPe_triple (env : Env) (src : Src) (p : Path) :
    Triple (fun _ => True) (lockPe env src p) (Outputs p)
      fun _ s => ∃ t d m, env.content src = some d ∧ env.lockPe t d = some m ∧
        s.fs.fileAt p = some m := by
  unfold lockPe
  refine Triple.bind (readSrc_triple (fun _ _ h => h) env src) fun d => ?_
  refine Triple.bind (Q := fun _ _ => env.content src = some d) ?_ fun _ => ?_
  · intro s hs
    exact ((ensureParentDir_triple env.os p).weaken (fun _ h => h) (fun _ _ h => h.outputs)
      fun _ _ _ => hs.2) s trivial
  refine Triple.bind (Triple.next fun _ _ h => h) fun t => ?_
  split
  · next m hm =>
    intro s hs
    exact ((writeOut_triple env p m).post (fun _ s h => ⟨t, d, m, hs, hm, h⟩)) s trivial
  · exact (Triple.bind (failedOutput_triple env p) fun _ => Triple.throw).pre fun _ _ => trivial

theorem rename_triple (a b : Path) {J : Fs → Prop} (d : Bytes) (hne : a ≠ b)
    (hJ : ∀ f, J f → f.fileAt a = some d) :
    Triple (fun s => J s.fs) (rename os a b)
      (fun f c => J f ∧ f.get b ≠ some .dir ∧ f.get b.dropLast = some .dir ∧ c = .rename a b d)
      fun _ s => s.fs.fileAt b = some d := by
  unfold rename
  refine Triple.bind (Triple.guarded os fun _ _ h => h) fun _ => ?_
  refine Triple.bind (Triple.getFs (Q := fun f s => J s.fs ∧ f = s.fs) fun s hs => ⟨hs, rfl⟩)
    fun f => ?_
  split
  · exact Triple.throw
  · next x hx =>
    refine Triple.bind (Q := fun _ s => J s.fs ∧ x = d ∧ s.fs.get b ≠ some .dir ∧
      s.fs.get b.dropLast = some .dir) (Triple.require ?_) fun _ => ?_
    · rintro s ⟨hs, rfl⟩ h
      simp [parentIsDir] at h
      exact ⟨hs, by have := hJ _ hs; rw [hx] at this; exact Option.some.inj this, h⟩
    · rw [if_neg hne]
      refine Triple.change ?_ ?_
      · rintro s ⟨h1, rfl, h2, h3⟩; exact ⟨h1, h2, h3, rfl⟩
      · rintro s ⟨h1, rfl, h2, h3⟩
        have ha := Fs.fileAt_ne_nil (hJ _ h1)
        have hb : b ≠ [] := by rintro rfl; simp at h2
        simp [Fs.fileAt, Fs.get_rename ha hb]

theorem tmpOf_dropLast (to : Path) : (tmpOf to).dropLast = to.dropLast := by
  unfold tmpOf Path.withExtension
  split <;> simp

theorem Outputs.replaces {to : Path} {S : Bytes → Prop} {dur : Bool} {f : Fs} {c : Change}
    (h : Outputs (tmpOf to) f c) : Replaces to S dur f c := by
  cases h with
  | mkdir hq hn hp => exact .mkdir (tmpOf_dropLast to ▸ hq) hn hp
  | create hn hp => exact .create hn hp
  | write hf => exact .write hf
  | chmod => exact .bits

theorem installSigned_triple (env : Env) (signer : Signer) (src : Src) (to : Path)
    (hne : tmpOf to ≠ to) :
    Triple (fun _ => True) (installSigned env signer src to)
      (Replaces to (fun out => ∃ d, env.content src = some d ∧ SignedBy env signer d out) false)
      fun _ s => ∃ d out, env.content src = some d ∧ SignedBy env signer d out ∧
        s.fs.fileAt to = some out := by
  unfold installSigned
  refine Triple.bind ((ensureParentDir_triple env.os _).steps fun _ _ h => h.outputs.replaces) fun _ => ?_
  refine Triple.bind ((signAndCopy_triple env signer src _).steps fun _ _ h => h.replaces)
    fun _ => ?_
  rintro s ⟨d, out, hd, hs, hf⟩
  refine ((rename_triple env.os (tmpOf to) to (J := fun f => f.fileAt (tmpOf to) = some out) out hne
    fun f h => h).weaken (P' := fun s => s.fs.fileAt (tmpOf to) = some out) (fun s h => h) ?_ ?_)
    s hf
  · rintro f c ⟨h1, h2, h3, rfl⟩
    exact .rename h1 ⟨d, hd, hs⟩ hne h2 h3 (by simp)
  · exact fun _ s h => ⟨d, out, hd, hs, h⟩

theorem fsync_triple (p : Path) (d : Bytes) :
    Triple (fun s => s.fs.fileAt p = some d) (fsync os p) (fun _ c => c = .fsync p)
      fun _ s => s.fs.fileAt p = some d ∧ p ∉ s.fs.dirty := by
  unfold fsync
  refine Triple.bind (Triple.guarded os fun _ _ h => h) fun _ => ?_
  refine Triple.change (fun _ _ => rfl) fun s h => ⟨?_, ?_⟩
  · exact h
  · simp [Fs.apply, Fs.markClean]

theorem atomicCopy_triple (env : Env) (src : Src) (to : Path) (hne : tmpOf to ≠ to) :
    Triple (fun _ => True) (atomicCopy env src to)
      (Replaces to (fun d => env.content src = some d) true)
      fun _ s => ∃ d, env.content src = some d ∧ s.fs.fileAt to = some d := by
  unfold atomicCopy
  refine Triple.bind (readSrc_triple (fun _ _ h => h) env src) fun d => ?_
  intro s hs
  refine Triple.bind (P := fun _ => True) ((createFile_triple env.os _).steps fun _ _ h => h.replaces)
    (fun _ => ?_) s trivial
  refine Triple.bind ((writeFile_triple env.os _ d).steps fun _ _ h => h.replaces) fun _ => ?_
  refine Triple.bind ((fsync_triple env.os (tmpOf to) d).steps ?_) fun _ => ?_
  · rintro f c rfl; exact .fsync
  refine (rename_triple env.os (tmpOf to) to
    (J := fun f => f.fileAt (tmpOf to) = some d ∧ tmpOf to ∉ f.dirty) d hne fun f h => h.1).weaken
    (fun s h => h) ?_ ?_
  · rintro f c ⟨h1, h2, h3, rfl⟩
    exact .rename h1.1 hs.2 hne h2 h3 fun _ => h1.2
  · exact fun _ s h => ⟨d, hs.2, h⟩

theorem setPermissionBits_triple (p : Path) (m : Nat) {J : Fs → Prop} (hJ : ∀ f, J f → J (f.apply (.chmod p m))) :
    Triple (fun s => J s.fs) (setPermissionBits os p m) (fun _ c => c = .chmod p m)
      fun _ s => J s.fs := by
  unfold setPermissionBits
  refine Triple.bind (Triple.guarded os fun _ _ h => h) fun _ => ?_
  refine Triple.bind (Triple.getFs (Q := fun _ s => J s.fs) fun s hs => hs) fun f => ?_
  refine Triple.bind (Triple.require (Q := fun _ s => J s.fs) fun s hs _ => hs) fun _ => ?_
  refine Triple.bind (Triple.guarded os fun _ _ h => h) fun _ => ?_
  exact Triple.change (fun _ _ => rfl) fun s h => hJ _ h

theorem forceInstall_triple (env : Env) (src : Src) (to : Path) (hne : tmpOf to ≠ to) :
    Triple (fun _ => True) (forceInstall env src to)
      (Replaces to (fun d => env.content src = some d) true)
      fun _ s => ∃ d, env.content src = some d ∧ s.fs.fileAt to = some d := by
  unfold forceInstall
  refine Triple.bind ((ensureParentDir_triple env.os to).steps fun _ _ h => h.replaces) fun _ => ?_
  refine Triple.bind (atomicCopy_triple env src to hne) fun _ => ?_
  refine (setPermissionBits_triple env.os to 0o755
    (J := fun f => ∃ d, env.content src = some d ∧ f.fileAt to = some d) fun f h => h).steps ?_
  rintro f c rfl
  exact .chmod

theorem needsInstall_triple (env : Env) (src : Src) (to : Path) :
    Triple (fun _ => True) (needsInstall env src to) A
      fun b s => b = false → ∃ d d', env.content src = some d ∧ s.fs.fileAt to = some d' ∧
        env.sha.hash d' = env.sha.hash d := by
  unfold needsInstall
  refine Triple.bind (pathExists_triple (fun _ _ h => h) env.os to) fun b => ?_
  refine Triple.ite (fun _ => Triple.pure fun _ _ h => by cases h) fun _ => ?_
  refine (Triple.bind (hashSrc_triple (P := fun _ => True) (fun _ _ h => h) env src) fun h => ?_).pre
    fun _ _ => trivial
  refine Triple.bind (hashFs_triple (P := fun _ => True ∧ ∃ d, env.content src = some d ∧
    h = env.sha.hash d) (fun _ _ h => h) env to) fun h' => ?_
  refine Triple.pure ?_
  rintro s ⟨⟨-, d, hd, rfl⟩, d', hd', rfl⟩ e
  refine ⟨d, d', hd, hd', ?_⟩
  exact (by simpa using (of_decide_eq_false e) : env.sha.hash d = env.sha.hash d').symm

theorem install_triple (env : Env) (src : Src) (to : Path) (hne : tmpOf to ≠ to) :
    Triple (fun _ => True) (install env src to)
      (Replaces to (fun d => env.content src = some d) true)
      fun _ s => ∃ d d', env.content src = some d ∧ s.fs.fileAt to = some d' ∧
        env.sha.hash d' = env.sha.hash d := by
  unfold install
  refine Triple.bind (needsInstall_triple env src to) fun b => ?_
  refine Triple.ite (fun _ => ?_) fun hb => Triple.pure fun s h => h (by simpa using hb)
  exact (forceInstall_triple env src to hne).weaken (fun _ _ => trivial) (fun _ _ h => h)
    fun _ s ⟨d, h, h'⟩ => ⟨d, d, h, h', rfl⟩

end Verif.Tool
