import Verif.Model.Install
import Verif.Spec.Program
/-!
# A run that starts later is a run in the outside world of that time
-/
namespace Verif.Tool
open Verif Generation

/-- The same state, `k` operations later. -/
def State.later (k : Nat) (s : State) : State := { s with tick := s.tick + k }

/-- `m` started `k` operations later does what `m'` does. -/
def Delays {α : Type} (k : Nat) (m m' : M α) : Prop :=
  ∀ s : State, m (s.later k) = ((m' s).1, (m' s).2.later k)

namespace Delays
variable {α β : Type} {k : Nat} {env : Env} {os : Os}

theorem pure (a : α) : Delays k (Pure.pure a) (Pure.pure a) := fun _ => rfl
theorem throw : Delays (α := α) k (RM.throw ()) (RM.throw ()) := fun _ => rfl
theorem panic : Delays (α := α) k RM.panic RM.panic := fun _ => rfl

theorem bind {m m' : M α} {f f' : α → M β} (h : Delays k m m') (hf : ∀ a, Delays k (f a) (f' a)) :
    Delays k (m >>= f) (m' >>= f') := fun s => by
  rw [RM.bind_run, RM.bind_run, h s]
  cases hm : m' s with
  | mk r t => cases r with
    | ok a => exact hf a t
    | err e => rfl
    | panic => rfl

theorem attempt {m m' : M α} (h : Delays k m m') : Delays k (RM.attempt m) (RM.attempt m') := fun s => by
  unfold RM.attempt
  rw [h s]
  cases hm : m' s with
  | mk r t => cases r <;> rfl

theorem bind_next {f f' : Nat → M β} (hf : ∀ t, Delays k (f (t + k)) (f' t)) :
    Delays k (next >>= f) (next >>= f') := fun s => by
  have h := hf s.tick { s with tick := s.tick + 1 }
  rw [RM.bind_run, RM.bind_run]
  dsimp only [next, State.later] at h ⊢
  rw [← h, Nat.add_right_comm]

theorem getFs : Delays k getFs getFs := fun _ => rfl
theorem change (c : Change) : Delays k (change c) (change c) := fun _ => rfl
theorem extendRoots (ps : List Path) : Delays k (extendRoots ps) (extendRoots ps) := fun _ => rfl
theorem require (b : Bool) : Delays k (require b) (require b) := by
  cases b
  · exact throw
  · exact pure _

theorem faulty : Delays k (faulty os) (faulty (os.later k)) := bind_next fun _ => pure _
theorem guarded : Delays k (guarded os) (guarded (os.later k)) := bind faulty fun _ => require _

theorem ofOption (o : Option α) : Delays k (ofOption o) (ofOption o) := by
  cases o
  · exact throw
  · exact pure _
theorem ofRes (o : Res Unit α) : Delays k (ofRes o) (ofRes o) := by
  cases o
  · exact pure _
  · exact throw
  · exact panic
theorem expectSome (o : Option α) : Delays k (expectSome o) (expectSome o) := by
  cases o
  · exact panic
  · exact pure _

theorem pathExists (p : Path) : Delays k (pathExists os p) (pathExists (os.later k) p) :=
  bind faulty fun _ => bind getFs fun _ => pure _

theorem readFs (p : Path) : Delays k (readFs os p) (readFs (os.later k) p) :=
  bind guarded fun _ => bind getFs fun fs => by
    cases h : fs.fileAt p with
    | none => exact throw
    | some d => exact pure _

theorem mkdir (p : Path) : Delays k (mkdir os p) (mkdir (os.later k) p) :=
  bind guarded fun _ => bind getFs fun _ => bind (require _) fun _ => change _

theorem createFile (p : Path) : Delays k (createFile os p) (createFile (os.later k) p) :=
  bind guarded fun _ => bind getFs fun _ => bind (require _) fun _ => change _

theorem writePartials (p : Path) : (l : List Bytes) → Delays k (writePartials p l) (writePartials p l)
  | [] => pure _
  | _ :: l => bind (change _) fun _ => writePartials p l

theorem writeFile (p : Path) (d : Bytes) : Delays k (writeFile os p d) (writeFile (os.later k) p d) :=
  bind_next fun _ => bind (writePartials _ _) fun _ => bind guarded fun _ => change _

theorem fsync (p : Path) : Delays k (fsync os p) (fsync (os.later k) p) := bind guarded fun _ => change _

theorem rename (a b : Path) : Delays k (rename os a b) (rename (os.later k) a b) :=
  bind guarded fun _ => bind getFs fun fs => by
    cases h : fs.fileAt a with
    | none => exact throw
    | some d =>
      refine bind (require _) fun _ => ?_
      by_cases e : a = b
      · simp only [if_pos e]; exact pure _
      · simp only [if_neg e]; exact change _

theorem setPermissionBits (p : Path) (m : Nat) :
    Delays k (setPermissionBits os p m) (setPermissionBits (os.later k) p m) :=
  bind guarded fun _ => bind getFs fun _ => bind (require _) fun _ => bind guarded fun _ => change _

theorem syncFs (p : Path) : Delays k (syncFs os p) (syncFs (os.later k) p) :=
  bind guarded fun _ => bind getFs fun _ => bind (require _) fun _ => bind guarded fun _ => change _

theorem removeFile (p : Path) : Delays k (removeFile os p) (removeFile (os.later k) p) :=
  bind guarded fun _ => bind getFs fun fs => by
    cases h : fs.fileAt p with
    | none => exact throw
    | some d => exact change _

theorem removeDir (p : Path) : Delays k (removeDir os p) (removeDir (os.later k) p) :=
  bind guarded fun _ => bind getFs fun _ => bind (require _) fun _ => change _

theorem ite {c : Prop} [Decidable c] {a b a' b' : M α} (h : Delays k a a') (h' : Delays k b b') :
    Delays k (if c then a else b) (if c then a' else b') := by
  by_cases e : c
  · rw [if_pos e, if_pos e]; exact h
  · rw [if_neg e, if_neg e]; exact h'

theorem removeOne (p : Path) : Delays k (removeOne os p) (removeOne (os.later k) p) :=
  bind getFs fun _ => ite (removeDir _) (removeFile _)

theorem removeEach : (l : List Path) → Delays k (removeEach os l) (removeEach (os.later k) l)
  | [] => pure _
  | p :: l => bind (removeOne p) fun _ => removeEach l

theorem removeDirAll (p : Path) : Delays k (removeDirAll os p) (removeDirAll (os.later k) p) :=
  bind_next fun _ => bind getFs fun _ => removeEach _

theorem mkdirMissing : (l : List Path) → Delays k (mkdirMissing os l) (mkdirMissing (os.later k) l)
  | [] => pure _
  | p :: l => bind getFs fun _ => ite (mkdirMissing l) (bind (mkdir p) fun _ => mkdirMissing l)

theorem ensureParentDir (p : Path) : Delays k (ensureParentDir os p) (ensureParentDir (os.later k) p) := by
  unfold Tool.ensureParentDir
  cases p.parent with
  | none => exact pure _
  | some q => exact bind (attempt (mkdirMissing _)) fun _ => pure _

theorem readDir (p : Path) : Delays k (readDir os p) (readDir (os.later k) p) :=
  bind guarded fun _ => bind_next fun _ => bind getFs fun _ => bind (require _) fun _ => pure _

/-! ### gc.rs -/

theorem collectEntry (p : Path) : Delays k (collectEntry os p) (collectEntry (os.later k) p) :=
  bind getFs fun _ => ite (removeDirAll _) (bind (attempt (removeFile _)) fun _ => pure _)

theorem collectEach : (l : List Path) → Delays k (collectEach os l) (collectEach (os.later k) l)
  | [] => pure _
  | p :: l => bind (collectEntry p) fun _ => collectEach l

theorem bind_get {f f' : State → M β} (h : ∀ s, Delays k (f (State.later k s)) (f' s)) :
    Delays k (RM.get >>= f) (RM.get >>= f') := fun s => h s s

theorem collectGarbageWithFilter (d : Path) (pr : Path → Bool) :
    Delays k (collectGarbageWithFilter os d pr) (collectGarbageWithFilter (os.later k) d pr) :=
  bind_next fun _ => bind_get fun _ => collectEach _

/-! ### pe.rs, signature, pcrlock.rs -/

theorem readSrc (src : Src) : Delays k (readSrc env src) (readSrc (env.later k) src) :=
  bind guarded fun _ => by cases src <;> exact ofOption _

theorem hashSrc (src : Src) : Delays k (hashSrc env src) (hashSrc (env.later k) src) :=
  bind (readSrc src) fun _ => pure _

theorem hashFs (p : Path) : Delays k (hashFs env p) (hashFs (env.later k) p) :=
  bind (readFs p) fun _ => pure _

theorem writeSecureFile (d : Bytes) : Delays k (writeSecureFile env d) (writeSecureFile (env.later k) d) :=
  bind guarded fun _ => pure _

theorem fileSize (d : Bytes) : Delays k (fileSize env d) (fileSize (env.later k) d) :=
  bind guarded fun _ => pure _

theorem wrapInPe (d : Bytes) (l : List Added) : Delays k (wrapInPe env d l) (wrapInPe (env.later k) d l) :=
  bind guarded fun _ => bind_next fun _ => ofOption _

theorem lanzabooteImage (p : StubParameters) :
    Delays k (lanzabooteImage env p) (lanzabooteImage (env.later k) p) :=
  bind (writeSecureFile _) fun _ => bind (writeSecureFile _) fun _ => bind (hashSrc _) fun _ =>
  bind (writeSecureFile _) fun _ => bind (writeSecureFile _) fun _ => bind (hashSrc _) fun _ =>
  bind (writeSecureFile _) fun _ => bind (writeSecureFile _) fun _ => bind (readSrc _) fun _ =>
  bind (ofRes _) fun _ => bind (fileSize _) fun _ => bind (fileSize _) fun _ => bind (fileSize _) fun _ =>
  bind (fileSize _) fun _ => bind (fileSize _) fun _ => bind (readSrc _) fun _ => wrapInPe _ _

theorem appendInitrdSecrets (p : Path) (d : Bytes) :
    Delays k (appendInitrdSecrets env p d) (appendInitrdSecrets (env.later k) p d) :=
  bind guarded fun _ => bind_next fun _ => ofOption _

theorem getPublicKey (s : Signer) : Delays k (s.getPublicKey env) (s.getPublicKey (env.later k)) := by
  cases s
  · exact pure _
  · exact readSrc _

theorem writeOut (p : Path) (d : Bytes) : Delays k (writeOut env p d) (writeOut (env.later k) p d) :=
  bind (createFile _) fun _ => writeFile _ _

theorem failedOutput (p : Path) : Delays k (failedOutput env p) (failedOutput (env.later k) p) :=
  bind (createFile _) fun _ => bind_next fun _ => writePartials _ _

theorem copyFile (src : Src) (p : Path) : Delays k (copyFile env src p) (copyFile (env.later k) src p) :=
  bind (readSrc _) fun _ => bind (createFile _) fun _ => bind guarded fun _ => bind (change _) fun _ =>
  writeFile _ _

theorem signAndCopy (src : Src) (p : Path) (s : Signer) :
    Delays k (s.signAndCopy env src p) (s.signAndCopy (env.later k) src p) := by
  cases s with
  | empty => exact copyFile _ _
  | «local» pub priv =>
    refine bind (readSrc _) fun d => bind_next fun t => ?_
    change Delays k (match env.sbsign (t + k) priv pub d with | some x => _ | none => _)
      (match env.sbsign (t + k) priv pub d with | some x => _ | none => _)
    cases env.sbsign (t + k) priv pub d with
    | none => exact bind (failedOutput _) fun _ => throw
    | some x => exact writeOut _ _

theorem verifyPath (p : Path) (s : Signer) : Delays k (s.verifyPath env p) (s.verifyPath (env.later k) p) := by
  cases s with
  | empty => exact pure _
  | «local» pub priv =>
    refine bind guarded fun _ => bind faulty fun _ => bind getFs fun fs => ?_
    cases fs.fileAt p <;> exact pure _

theorem lockPe (src : Src) (p : Path) : Delays k (lockPe env src p) (lockPe (env.later k) src p) := by
  refine bind (readSrc _) fun d => bind (ensureParentDir _) fun _ => bind_next fun t => ?_
  change Delays k (match env.lockPe (t + k) d with | some x => _ | none => _)
    (match env.lockPe (t + k) d with | some x => _ | none => _)
  cases env.lockPe (t + k) d with
  | none => exact bind (failedOutput _) fun _ => throw
  | some x => exact writeOut _ _

/-! ### install.rs -/
variable {cfg : Config}

theorem installSigned (s : Signer) (src : Src) (p : Path) :
    Delays k (installSigned env s src p) (installSigned (env.later k) s src p) :=
  bind (ensureParentDir _) fun _ => bind (signAndCopy _ _ _) fun _ => rename _ _

theorem atomicCopy (src : Src) (p : Path) : Delays k (atomicCopy env src p) (atomicCopy (env.later k) src p) :=
  bind (readSrc _) fun _ => bind (createFile _) fun _ => bind (writeFile _ _) fun _ => bind (fsync _) fun _ =>
  rename _ _

theorem forceInstall (src : Src) (p : Path) :
    Delays k (forceInstall env src p) (forceInstall (env.later k) src p) :=
  bind (ensureParentDir _) fun _ => bind (atomicCopy _ _) fun _ => setPermissionBits _ _

theorem needsInstall (src : Src) (p : Path) :
    Delays k (needsInstall env src p) (needsInstall (env.later k) src p) :=
  bind (pathExists _) fun _ => ite (pure _) (bind (hashSrc _) fun _ => bind (hashFs _) fun _ => pure _)

theorem install (src : Src) (p : Path) : Delays k (install env src p) (install (env.later k) src p) :=
  bind (needsInstall _ _) fun _ => ite (forceInstall _ _) (pure _)

theorem installNixosCa (src : Src) (l : Str) :
    Delays k (installNixosCa env cfg src l) (installNixosCa (env.later k) cfg src l) :=
  bind (hashSrc _) fun _ => bind (extendRoots _) fun _ => bind (install _ _) fun _ => pure _

theorem sectionPath (d : Bytes) (n : Str) :
    Delays k (sectionPath env cfg d n) (sectionPath (env.later k) cfg d n) :=
  bind (ofRes _) fun _ => bind (ofOption _) fun _ => ofRes _

theorem readInstalledGeneration (p : Str) :
    Delays k (readInstalledGeneration env cfg p) (readInstalledGeneration (env.later k) cfg p) :=
  bind (readDir _) fun _ => bind (ofOption _) fun _ => bind (readFs _) fun _ => bind (sectionPath _ _) fun _ =>
  bind (sectionPath _ _) fun _ => bind (pathExists _) fun _ => ite throw (bind (pathExists _) fun _ =>
  ite throw (pure _))

theorem registerMeasurement (g : Gen) :
    Delays k (registerMeasurement env cfg g) (registerMeasurement (env.later k) cfg g) := by
  unfold Tool.registerMeasurement
  cases cfg.pcrlock with
  | none => exact pure _
  | some p => exact bind (pathExists _) fun _ => ite (bind (extendRoots _) fun _ => pure _) (pure _)

theorem registerInstalledGeneration (g : Gen) :
    Delays k (registerInstalledGeneration env cfg g) (registerInstalledGeneration (env.later k) cfg g) :=
  bind (getPublicKey _) fun _ => bind (attempt (readInstalledGeneration _)) fun o => by
    rcases o with _ | ⟨a, b, c⟩
    · exact pure _
    · exact bind (extendRoots _) fun _ => registerMeasurement _

theorem initrdLocation (b : BootSpec) : Delays k (initrdLocation env b) (initrdLocation (env.later k) b) := by
  unfold Tool.initrdLocation
  cases b.initrdSecrets with
  | none => exact bind (expectSome _) fun _ => pure _
  | some s =>
    exact bind (ofOption _) fun _ => bind (readSrc _) fun _ => bind (writeSecureFile _) fun _ =>
      bind (appendInitrdSecrets _ _) fun _ => pure _

theorem stubParameters (g : Gen) (i : Src) (a b : Path) :
    Delays k (stubParameters cfg g i a b) (stubParameters cfg g i a b) :=
  bind (ofOption _) fun _ => bind (ofOption _) fun _ => pure _

theorem measureImage (g : Gen) (d : Bytes) :
    Delays k (measureImage env cfg g d) (measureImage (env.later k) cfg g d) := by
  unfold Tool.measureImage
  cases cfg.pcrlock with
  | none => exact pure _
  | some p => exact bind (lockPe _ _) fun _ => extendRoots _

theorem installNewGeneration (g : Gen) :
    Delays k (installNewGeneration env cfg g) (installNewGeneration (env.later k) cfg g) :=
  bind guarded fun _ => bind (ofOption _) fun _ => bind (installNixosCa _ _) fun _ => bind (initrdLocation _) fun _ =>
  bind (installNixosCa _ _) fun _ => bind (stubParameters _ _ _ _) fun _ => bind (lanzabooteImage _) fun _ =>
  bind (measureImage _ _) fun _ => bind (getPublicKey _) fun _ => bind (extendRoots _) fun _ =>
  installSigned _ _ _

theorem installGeneration (g : Gen) :
    Delays k (installGeneration env cfg g) (installGeneration (env.later k) cfg g) :=
  bind (registerInstalledGeneration _) fun _ => ite (pure _) (installNewGeneration _)

theorem readGeneration (l : Link) : Delays k (readGeneration env l) (readGeneration (env.later k) l) :=
  bind faulty fun _ => ite (pure _) (pure _)

theorem readGenerations : (l : List Link) → Delays k (readGenerations env l) (readGenerations (env.later k) l)
  | [] => pure _
  | l :: rest => bind (readGeneration l) fun o => by
    cases o with
    | none => exact bind (fun _ => rfl) fun _ => readGenerations rest
    | some g => exact bind (readGenerations rest) fun _ => pure _

theorem installAll : (l : List Gen) → Delays k (installAll env cfg l) (installAll (env.later k) cfg l)
  | [] => pure _
  | g :: l => bind (installGeneration g) fun _ => installAll l

theorem installGenerationsFromLinks (l : List Link) :
    Delays k (installGenerationsFromLinks env cfg l) (installGenerationsFromLinks (env.later k) cfg l) :=
  bind (readGenerations _) fun _ => ite throw (bind (installAll _) fun _ => syncFs _)

theorem installedVersion (p : Path) :
    Delays k (installedVersion env p) (installedVersion (env.later k) p) :=
  bind (readFs _) fun _ => ofRes _

theorem newerSystemdBoot (a b : Path) :
    Delays k (newerSystemdBoot env a b) (newerSystemdBoot (env.later k) a b) :=
  bind (pathExists _) fun _ => ite (pure _) (bind (readSrc _) fun _ => bind (ofRes _) fun _ =>
    bind (attempt (installedVersion _)) fun o => by cases o <;> exact pure _)

theorem orM {a b a' b' : M Bool} (h : Delays k a a') (h' : Delays k b b') : Delays k (orM a b) (orM a' b') :=
  bind h fun _ => ite (pure _) h'

theorem andM {a b a' b' : M Bool} (h : Delays k a a') (h' : Delays k b b') : Delays k (andM a b) (andM a' b') :=
  bind h fun _ => ite h' (pure _)

theorem measurementExists : Delays k (measurementExists env cfg) (measurementExists (env.later k) cfg) := by
  unfold Tool.measurementExists
  cases cfg.pcrlock with
  | none => exact pure _
  | some p => exact pathExists _

theorem measureNext : Delays k (measureNext env cfg) (measureNext (env.later k) cfg) := by
  unfold Tool.measureNext
  cases cfg.pcrlock with
  | none => exact pure _
  | some p => exact lockPe _ _

theorem measurementDone : Delays k (measurementDone env cfg) (measurementDone (env.later k) cfg) := by
  unfold Tool.measurementDone
  cases cfg.pcrlock with
  | none => exact pure _
  | some p => exact rename _ _

theorem replaceSystemdBoot : Delays k (replaceSystemdBoot env cfg) (replaceSystemdBoot (env.later k) cfg) :=
  bind measureNext fun _ => bind (installSigned _ _ _) fun _ => bind (installSigned _ _ _) fun _ => measurementDone

theorem installSystemdBoot : Delays k (installSystemdBoot env cfg) (installSystemdBoot (env.later k) cfg) :=
  bind (orM (newerSystemdBoot _ _) (newerSystemdBoot _ _)) fun _ => bind (andM (verifyPath _ _) (verifyPath _ _)) fun _ =>
  bind measurementExists fun _ => ite (bind replaceSystemdBoot fun _ => install _ _) (install _ _)

theorem collectMeasurements : Delays k (collectMeasurements env cfg) (collectMeasurements (env.later k) cfg) := by
  unfold Tool.collectMeasurements
  cases cfg.pcrlock with
  | none => exact pure _
  | some p => exact collectGarbageWithFilter _ _

theorem collect : Delays k (collect env cfg) (collect (env.later k) cfg) :=
  bind_get fun s => ite (c := s.broken = []) (bind (change _) fun _ => bind (collectGarbageWithFilter _ _) fun _ =>
    bind (collectGarbageWithFilter _ _) fun _ => collectMeasurements) (pure _)

theorem parseLinks_later : (l : List Path) → parseLinks (env.later k) l = parseLinks env l
  | [] => rfl
  | p :: l => by simp only [parseLinks, parseLinks_later l]; rfl

theorem considered_later : cfg.considered (env.later k) = cfg.considered env := by
  unfold Config.considered
  rw [parseLinks_later]

/-- A whole run. -/
theorem run : Delays k (run env cfg) (run (env.later k) cfg) := by
  unfold Tool.run
  rw [considered_later]
  exact bind (ofOption _) fun _ => bind (installGenerationsFromLinks _) fun _ => bind installSystemdBoot fun _ => collect

end Delays
end Verif.Tool
