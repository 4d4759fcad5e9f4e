import Verif.Lemmas.RoomSteps
/-!
# Where the installer can panic
-/
namespace Verif.Tool
open Verif Generation StubName

variable {env : Env} {cfg : Config} {α β : Type} {C : Fs → Prop}

/-- If `m` panics then `C` holds of the file system at that moment. -/
def PanicsOnly (C : Fs → Prop) (m : M α) : Prop := ∀ s s', m s = (.panic, s') → C s'.fs

namespace PanicsOnly

theorem elim {m : M α} (h : PanicsOnly C m) (s s' : State) : m s = (.panic, s') → C s'.fs := h s s'
theorem pure (a : α) : PanicsOnly C (Pure.pure a : M α) := fun s s' h => by simp at h
theorem throw : PanicsOnly C (RM.throw () : M α) := fun s s' h => by simp at h
theorem modify (f : State → State) : PanicsOnly C (RM.modify f : M Unit) := fun s s' h => by simp at h
theorem get : PanicsOnly C (RM.get : M State) := fun s s' h => by simp at h
theorem next : PanicsOnly C Tool.next := fun s s' h => by simp [Tool.next] at h
theorem getFs : PanicsOnly C Tool.getFs := fun s s' h => by simp [Tool.getFs] at h
theorem change (c : Change) : PanicsOnly C (Tool.change c) := fun s s' h => by simp [Tool.change] at h

theorem bind {m : M α} {k : α → M β} (h : PanicsOnly C m) (hk : ∀ a, PanicsOnly C (k a)) :
    PanicsOnly C (m >>= k) := fun s s' e => by
  rw [RM.bind_run] at e
  cases hm : m s with
  | mk r t =>
    rw [hm] at e
    cases r with
    | ok a => exact hk a t s' e
    | err x => cases e
    | panic =>
      obtain rfl : t = s' := congrArg Prod.snd e
      exact h s t hm

theorem attempt {m : M α} (h : PanicsOnly C m) : PanicsOnly C (RM.attempt m) := fun s s' e => by
  unfold RM.attempt at e
  cases hm : m s with
  | mk r t =>
    rw [hm] at e
    cases r with
    | ok a => cases e
    | err x => cases e
    | panic =>
      obtain rfl : t = s' := congrArg Prod.snd e
      exact h s t hm

theorem ofOption (o : Option α) : PanicsOnly C (Tool.ofOption o) := by
  cases o with
  | none => exact throw
  | some a => exact pure a

/-- Only this result is passed on. -/
theorem bind_ofOption {o : Option α} {k : α → M β} (hk : ∀ a, o = some a → PanicsOnly C (k a)) :
    PanicsOnly C (Tool.ofOption o >>= k) := by
  cases o with
  | none => exact fun s s' h => by simp [Tool.ofOption] at h
  | some a => exact fun s s' h => hk a rfl s s' h

theorem require (b : Bool) : PanicsOnly C (Tool.require b) := by
  unfold Tool.require
  split
  · exact pure _
  · exact throw

end PanicsOnly

/-- Discharge goals about functions without a panicking branch. -/
macro "harmless" : tactic => `(tactic| repeat first
  | exact PanicsOnly.pure _ | exact PanicsOnly.throw | exact PanicsOnly.modify _ | exact PanicsOnly.get
  | exact PanicsOnly.next | exact PanicsOnly.getFs | exact PanicsOnly.change _
  | exact PanicsOnly.ofOption _ | exact PanicsOnly.require _
  | assumption
  | refine PanicsOnly.bind ?_ fun _ => ?_ | refine PanicsOnly.attempt ?_
  | split)

namespace PanicsOnly

theorem faulty (os : Os) : PanicsOnly C (Tool.faulty os) := by unfold Tool.faulty; harmless
theorem guarded (os : Os) : PanicsOnly C (Tool.guarded os) := by
  unfold Tool.guarded; exact (faulty os).bind fun _ => require _
theorem pathExists (os : Os) (p : Path) : PanicsOnly C (Tool.pathExists os p) := by
  unfold Tool.pathExists; exact (faulty os).bind fun _ => by harmless
theorem readFs (os : Os) (p : Path) : PanicsOnly C (Tool.readFs os p) := by
  unfold Tool.readFs; exact (guarded os).bind fun _ => by harmless
theorem readDir (os : Os) (p : Path) : PanicsOnly C (Tool.readDir os p) := by
  unfold Tool.readDir; exact (guarded os).bind fun _ => by harmless
theorem mkdir (os : Os) (p : Path) : PanicsOnly C (Tool.mkdir os p) := by
  unfold Tool.mkdir; exact (guarded os).bind fun _ => by harmless
theorem createFile (os : Os) (p : Path) : PanicsOnly C (Tool.createFile os p) := by
  unfold Tool.createFile; exact (guarded os).bind fun _ => by harmless
theorem writePartials (p : Path) (l : List Bytes) : PanicsOnly C (Tool.writePartials p l) := by
  induction l with
  | nil => exact pure _
  | cons d l ih => exact (change _).bind fun _ => ih
theorem writeFile (os : Os) (p : Path) (d : Bytes) : PanicsOnly C (Tool.writeFile os p d) := by
  unfold Tool.writeFile
  exact next.bind fun _ => (writePartials _ _).bind fun _ => (guarded os).bind fun _ => change _
theorem fsync (os : Os) (p : Path) : PanicsOnly C (Tool.fsync os p) := by
  unfold Tool.fsync; exact (guarded os).bind fun _ => change _
theorem rename (os : Os) (a b : Path) : PanicsOnly C (Tool.rename os a b) := by
  unfold Tool.rename; exact (guarded os).bind fun _ => by harmless
theorem setPermissionBits (os : Os) (p : Path) (m : Nat) : PanicsOnly C (Tool.setPermissionBits os p m) := by
  unfold Tool.setPermissionBits
  exact (guarded os).bind fun _ => getFs.bind fun _ => (require _).bind fun _ => (guarded os).bind fun _ => change _
theorem syncFs (os : Os) (p : Path) : PanicsOnly C (Tool.syncFs os p) := by
  unfold Tool.syncFs
  exact (guarded os).bind fun _ => getFs.bind fun _ => (require _).bind fun _ => (guarded os).bind fun _ => change _
theorem removeFile (os : Os) (p : Path) : PanicsOnly C (Tool.removeFile os p) := by
  unfold Tool.removeFile; exact (guarded os).bind fun _ => by harmless
theorem removeDir (os : Os) (p : Path) : PanicsOnly C (Tool.removeDir os p) := by
  unfold Tool.removeDir; exact (guarded os).bind fun _ => by harmless
theorem removeOne (os : Os) (p : Path) : PanicsOnly C (Tool.removeOne os p) := by
  unfold Tool.removeOne
  refine getFs.bind fun _ => ?_
  split
  · exact removeDir os p
  · exact removeFile os p
theorem removeEach (os : Os) (l : List Path) : PanicsOnly C (Tool.removeEach os l) := by
  induction l with
  | nil => exact pure _
  | cons p l ih => exact (removeOne os p).bind fun _ => ih
theorem removeDirAll (os : Os) (p : Path) : PanicsOnly C (Tool.removeDirAll os p) := by
  unfold Tool.removeDirAll; exact next.bind fun _ => getFs.bind fun _ => removeEach _ _
theorem mkdirMissing (os : Os) (l : List Path) : PanicsOnly C (Tool.mkdirMissing os l) := by
  induction l with
  | nil => exact pure _
  | cons p l ih =>
    unfold Tool.mkdirMissing
    refine getFs.bind fun _ => ?_
    split
    · exact ih
    · exact (mkdir os p).bind fun _ => ih
theorem ensureParentDir (os : Os) (p : Path) : PanicsOnly C (Tool.ensureParentDir os p) := by
  unfold Tool.ensureParentDir
  split
  · exact (mkdirMissing os _).attempt.bind fun _ => pure _
  · exact pure _
theorem readSrc (src : Src) : PanicsOnly C (Tool.readSrc env src) := by
  unfold Tool.readSrc; exact (guarded _).bind fun _ => ofOption _
/-- Only the content is passed on. -/
theorem bind_readSrc {src : Src} {k : Bytes → M β} (hk : ∀ d, env.content src = some d → PanicsOnly C (k d)) :
    PanicsOnly C (Tool.readSrc env src >>= k) := by
  intro s s' h
  unfold Tool.readSrc at h
  rw [RM.bind_run, RM.bind_run] at h
  cases hg : Tool.guarded env.os s with
  | mk r t =>
    rw [hg] at h
    cases r with
    | ok a =>
      cases hc : env.content src with
      | none => rw [hc] at h; simp [Tool.ofOption] at h
      | some d => rw [hc] at h; exact hk d hc t s' h
    | err x => cases h
    | panic =>
      obtain rfl : t = s' := congrArg Prod.snd h
      exact guarded (C := C) env.os s t hg
theorem hashSrc (src : Src) : PanicsOnly C (Tool.hashSrc env src) := by
  unfold Tool.hashSrc; exact (readSrc src).bind fun _ => pure _
theorem hashFs (p : Path) : PanicsOnly C (Tool.hashFs env p) := by
  unfold Tool.hashFs; exact (readFs _ _).bind fun _ => pure _
theorem writeSecureFile (d : Bytes) : PanicsOnly C (Tool.writeSecureFile env d) := by
  unfold Tool.writeSecureFile; exact (guarded _).bind fun _ => pure _
theorem fileSize (d : Bytes) : PanicsOnly C (Tool.fileSize env d) := by
  unfold Tool.fileSize; exact (guarded _).bind fun _ => pure _
theorem wrapInPe (d : Bytes) (l : List Added) : PanicsOnly C (Tool.wrapInPe env d l) := by
  unfold Tool.wrapInPe; exact (guarded _).bind fun _ => next.bind fun _ => ofOption _
theorem appendInitrdSecrets (script : Path) (d : Bytes) : PanicsOnly C (Tool.appendInitrdSecrets env script d) := by
  unfold Tool.appendInitrdSecrets; exact (guarded _).bind fun _ => next.bind fun _ => ofOption _
theorem getPublicKey (s : Signer) : PanicsOnly C (s.getPublicKey env) := by
  cases s with
  | empty => exact pure _
  | «local» pub priv => exact readSrc _
theorem writeOut (to : Path) (d : Bytes) : PanicsOnly C (Tool.writeOut env to d) := by
  unfold Tool.writeOut; exact (createFile _ _).bind fun _ => writeFile _ _ _
theorem failedOutput (to : Path) : PanicsOnly C (Tool.failedOutput env to) := by
  unfold Tool.failedOutput; exact (createFile _ _).bind fun _ => next.bind fun _ => writePartials _ _
theorem signAndCopy (src : Src) (to : Path) (s : Signer) : PanicsOnly C (s.signAndCopy env src to) := by
  cases s with
  | empty => exact (readSrc _).bind fun _ => (createFile _ _).bind fun _ => (guarded _).bind fun _ =>
      (change _).bind fun _ => writeFile _ _ _
  | «local» pub priv =>
    refine (readSrc _).bind fun _ => next.bind fun _ => ?_
    split
    · exact writeOut _ _
    · exact (failedOutput _).bind fun _ => throw
theorem verifyPath (p : Path) (s : Signer) : PanicsOnly C (s.verifyPath env p) := by
  cases s with
  | empty => exact pure _
  | «local» pub priv => exact (guarded _).bind fun _ => (faulty _).bind fun _ => by harmless
theorem lockPe (src : Src) (p : Path) : PanicsOnly C (Tool.lockPe env src p) := by
  unfold Tool.lockPe
  refine (readSrc _).bind fun _ => (ensureParentDir _ _).bind fun _ => next.bind fun _ => ?_
  split
  · exact writeOut _ _
  · exact (failedOutput _).bind fun _ => throw
theorem extendRoots (l : List Path) : PanicsOnly C (Tool.extendRoots l) := modify _
theorem collectEach (os : Os) (l : List Path) : PanicsOnly C (Tool.collectEach os l) := by
  induction l with
  | nil => exact pure _
  | cons p l ih =>
    refine bind ?_ fun _ => ih
    unfold Tool.collectEntry
    refine getFs.bind fun _ => ?_
    split
    · exact removeDirAll os p
    · exact (removeFile os p).attempt.bind fun _ => pure _
theorem collectGarbageWithFilter (os : Os) (p : Path) (f : Path → Bool) :
    PanicsOnly C (Tool.collectGarbageWithFilter os p f) := by
  unfold Tool.collectGarbageWithFilter; exact next.bind fun _ => get.bind fun _ => collectEach _ _
theorem installSigned (s : Signer) (src : Src) (to : Path) : PanicsOnly C (Tool.installSigned env s src to) := by
  unfold Tool.installSigned
  exact (ensureParentDir _ _).bind fun _ => (signAndCopy _ _ _).bind fun _ => rename _ _ _
theorem install (src : Src) (to : Path) : PanicsOnly C (Tool.install env src to) := by
  unfold Tool.install Tool.needsInstall
  refine bind ((pathExists _ _).bind fun _ => ?_) fun _ => ?_
  · split
    · exact pure _
    · exact (hashSrc _).bind fun _ => (hashFs _).bind fun _ => pure _
  · split
    · unfold Tool.forceInstall Tool.atomicCopy
      refine (ensureParentDir _ _).bind fun _ => bind ?_ fun _ => setPermissionBits _ _ _
      exact (readSrc _).bind fun _ => (createFile _ _).bind fun _ => (writeFile _ _ _).bind fun _ =>
        (fsync _ _).bind fun _ => rename _ _ _
    · exact pure _
theorem installNixosCa (src : Src) (l : Str) : PanicsOnly C (Tool.installNixosCa env cfg src l) := by
  unfold Tool.installNixosCa
  exact (hashSrc _).bind fun _ => (extendRoots _).bind fun _ => (install _ _).bind fun _ => pure _
theorem collect : PanicsOnly C (Tool.collect env cfg) := by
  unfold Tool.collect
  refine get.bind fun _ => ?_
  split
  · refine (change _).bind fun _ => (collectGarbageWithFilter _ _ _).bind fun _ =>
      (collectGarbageWithFilter _ _ _).bind fun _ => ?_
    unfold collectMeasurements
    split
    · exact pure _
    · exact collectGarbageWithFilter _ _ _
  · exact pure _
theorem readGenerations (l : List Link) : PanicsOnly C (Tool.readGenerations env l) := by
  induction l with
  | nil => exact pure _
  | cons x l ih =>
    unfold Tool.readGenerations
    refine bind ?_ fun o => ?_
    · unfold Tool.readGeneration
      refine (faulty _).bind fun _ => ?_
      split <;> exact pure _
    · split
      · exact ih.bind fun _ => pure _
      · exact (modify _).bind fun _ => ih

end PanicsOnly
end Verif.Tool
