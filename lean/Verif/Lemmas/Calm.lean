import Verif.Model.Install
/-!
# Which generations could not be read, and whether garbage collection has begun, changes in two places only
-/
namespace Verif.Tool
open Verif Verif.Generation

/-- `m` reads no generation and does not begin to collect garbage. -/
def Calm {α : Type} (m : M α) : Prop :=
  ∀ s, (m s).2.broken = s.broken ∧ ∃ l, (m s).2.log = s.log ++ l ∧ .collecting ∉ l

namespace Calm
variable {α β : Type}

theorem pure (a : α) : Calm (Pure.pure a : M α) := fun _ => ⟨rfl, [], (List.append_nil _).symm, by simp⟩
theorem throw : Calm (RM.throw () : M α) := fun _ => ⟨rfl, [], (List.append_nil _).symm, by simp⟩
theorem panic : Calm (RM.panic : M α) := fun _ => ⟨rfl, [], (List.append_nil _).symm, by simp⟩
theorem next : Calm Tool.next := fun _ => ⟨rfl, [], (List.append_nil _).symm, by simp⟩
theorem change {c : Change} (h : c ≠ .collecting) : Calm (Tool.change c) := fun _ =>
  ⟨rfl, [c], rfl, fun e => h (List.mem_singleton.1 e).symm⟩
theorem extendRoots (l : List Path) : Calm (Tool.extendRoots l) := fun _ => ⟨rfl, [], (List.append_nil _).symm, by simp⟩
theorem getFs : Calm Tool.getFs := fun _ => ⟨rfl, [], (List.append_nil _).symm, by simp⟩
theorem get : Calm (RM.get : M State) := fun _ => ⟨rfl, [], (List.append_nil _).symm, by simp⟩

theorem bind {m : M α} {f : α → M β} (h : Calm m) (hf : ∀ a, Calm (f a)) :
    Calm (m >>= f) := by
  intro s
  rw [RM.bind_run]
  have := h s
  rcases hm : m s with ⟨r, s'⟩
  rw [hm] at this
  cases r with
  | ok a =>
    obtain ⟨h1, l, h2, h3⟩ := this
    obtain ⟨g1, l', g2, g3⟩ := hf a s'
    refine ⟨g1.trans h1, l ++ l', ?_, by simp [h3, g3]⟩
    rw [← List.append_assoc, ← h2]
    exact g2
  | err e => exact this
  | panic => exact this

theorem attempt {m : M α} (h : Calm m) : Calm (RM.attempt m) := by
  intro s
  unfold RM.attempt
  have := h s
  rcases hm : m s with ⟨r, s'⟩
  rw [hm] at this
  cases r <;> exact this

theorem ite {c : Prop} [Decidable c] {m m' : M α} (h : Calm m) (h' : Calm m') :
    Calm (if c then m else m') := by split <;> assumption

theorem require (b : Bool) : Calm (Tool.require b) := by
  unfold Tool.require; exact .ite (.pure _) .throw
theorem faulty (os : Os) : Calm (Tool.faulty os) := .bind .next fun _ => .pure _
theorem guarded (os : Os) : Calm (Tool.guarded os) := .bind (.faulty os) fun _ => .require _

/-- Decompose. -/
macro "calm" : tactic => `(tactic| repeat' (first
  | exact Calm.pure _ | exact Calm.throw | exact Calm.panic
  | exact Calm.next | exact Calm.change nofun | exact Calm.getFs
  | exact Calm.guarded _ | exact Calm.faulty _ | exact Calm.require _
  | assumption
  | (refine Calm.bind ?_ fun _ => ?_) | (refine Calm.attempt ?_)
  | split))

theorem ofOption (o : Option α) : Calm (Tool.ofOption o) := by unfold Tool.ofOption; calm
theorem ofRes (o : Res Unit α) : Calm (Tool.ofRes o) := by unfold Tool.ofRes; calm
theorem expectSome (o : Option α) : Calm (Tool.expectSome o) := by unfold Tool.expectSome; calm
theorem pathExists (os : Os) (p : Path) : Calm (Tool.pathExists os p) := by
  unfold Tool.pathExists; calm
theorem readFs (os : Os) (p : Path) : Calm (Tool.readFs os p) := by unfold Tool.readFs; calm
theorem mkdir (os : Os) (p : Path) : Calm (Tool.mkdir os p) := by unfold Tool.mkdir; calm
theorem createFile (os : Os) (p : Path) : Calm (Tool.createFile os p) := by
  unfold Tool.createFile; calm
theorem writePartials (p : Path) (l : List Bytes) : Calm (Tool.writePartials p l) := by
  induction l with
  | nil => exact .pure _
  | cons d l ih => exact .bind (.change nofun) fun _ => ih
theorem writeFile (os : Os) (p : Path) (d : Bytes) : Calm (Tool.writeFile os p d) := by
  unfold Tool.writeFile
  exact .bind .next fun _ => .bind (.writePartials _ _) fun _ => .bind (.guarded _) fun _ => .change nofun
theorem fsync (os : Os) (p : Path) : Calm (Tool.fsync os p) := by unfold Tool.fsync; calm
theorem rename (os : Os) (a b : Path) : Calm (Tool.rename os a b) := by
  unfold Tool.rename; calm
theorem setPermissionBits (os : Os) (p : Path) (m : Nat) : Calm (Tool.setPermissionBits os p m) := by
  unfold Tool.setPermissionBits; calm
theorem syncFs (os : Os) (p : Path) : Calm (Tool.syncFs os p) := by unfold Tool.syncFs; calm
theorem mkdirMissing (os : Os) (l : List Path) : Calm (Tool.mkdirMissing os l) := by
  induction l with
  | nil => exact .pure _
  | cons p l ih =>
    unfold Tool.mkdirMissing
    exact .bind .getFs fun _ => .ite ih (.bind (.mkdir _ _) fun _ => ih)
theorem ensureParentDir (os : Os) (p : Path) : Calm (Tool.ensureParentDir os p) := by
  unfold Tool.ensureParentDir Tool.createDirAll
  split
  · exact .bind (.attempt (.mkdirMissing _ _)) fun _ => .pure _
  · exact .pure _
theorem readDir (os : Os) (p : Path) : Calm (Tool.readDir os p) := by unfold Tool.readDir; calm

theorem readSrc (env : Env) (src : Src) : Calm (Tool.readSrc env src) := by
  unfold Tool.readSrc
  exact .bind (.guarded _) fun _ => .ofOption _
theorem hashSrc (env : Env) (src : Src) : Calm (Tool.hashSrc env src) :=
  .bind (.readSrc _ _) fun _ => .pure _
theorem hashFs (env : Env) (p : Path) : Calm (Tool.hashFs env p) :=
  .bind (.readFs _ _) fun _ => .pure _
theorem writeSecureFile (env : Env) (d : Bytes) : Calm (Tool.writeSecureFile env d) := by
  unfold Tool.writeSecureFile; calm
theorem fileSize (env : Env) (d : Bytes) : Calm (Tool.fileSize env d) := by
  unfold Tool.fileSize; calm
theorem wrapInPe (env : Env) (d : Bytes) (l : List Added) : Calm (Tool.wrapInPe env d l) :=
  .bind (.guarded _) fun _ => .bind .next fun _ => .ofOption _
theorem lanzabooteImage (env : Env) (p : StubParameters) : Calm (Tool.lanzabooteImage env p) := by
  unfold Tool.lanzabooteImage
  repeat' (first | exact .writeSecureFile _ _ | exact .hashSrc _ _ | exact .readSrc _ _ |
    exact .ofRes _ | exact .fileSize _ _ | exact .wrapInPe _ _ _ | refine .bind ?_ fun _ => ?_)
theorem appendInitrdSecrets (env : Env) (p : Path) (d : Bytes) :
    Calm (Tool.appendInitrdSecrets env p d) :=
  .bind (.guarded _) fun _ => .bind .next fun _ => .ofOption _
theorem getPublicKey (env : Env) (s : Signer) : Calm (s.getPublicKey env) := by
  cases s with
  | empty => exact .pure _
  | «local» a b => exact .readSrc _ _
theorem writeOut (env : Env) (p : Path) (d : Bytes) : Calm (Tool.writeOut env p d) :=
  .bind (.createFile _ _) fun _ => .writeFile _ _ _
theorem failedOutput (env : Env) (p : Path) : Calm (Tool.failedOutput env p) :=
  .bind (.createFile _ _) fun _ => .bind .next fun _ => .writePartials _ _
theorem signAndCopy (env : Env) (src : Src) (to : Path) (s : Signer) :
    Calm (s.signAndCopy env src to) := by
  cases s with
  | empty =>
    refine .bind (.readSrc _ _) fun _ => .bind (.createFile _ _) fun _ => .bind (.guarded _) fun _ => ?_
    exact .bind (.change nofun) fun _ => .writeFile _ _ _
  | «local» a b =>
    refine .bind (.readSrc _ _) fun _ => .bind .next fun _ => ?_
    split
    · exact .writeOut _ _ _
    · exact .bind (.failedOutput _ _) fun _ => .throw
theorem verifyPath (env : Env) (p : Path) (s : Signer) : Calm (s.verifyPath env p) := by
  cases s with
  | empty => exact .pure _
  | «local» a b => unfold Signer.verifyPath; calm
theorem lockPe (env : Env) (src : Src) (p : Path) : Calm (Tool.lockPe env src p) := by
  unfold Tool.lockPe
  refine .bind (.readSrc _ _) fun _ => .bind (.ensureParentDir _ _) fun _ => .bind .next fun _ => ?_
  split
  · exact .writeOut _ _ _
  · exact .bind (.failedOutput _ _) fun _ => .throw
theorem installSigned (env : Env) (s : Signer) (src : Src) (to : Path) :
    Calm (Tool.installSigned env s src to) := by
  unfold Tool.installSigned
  repeat' (first | exact .signAndCopy _ _ _ _ | exact .ensureParentDir _ _ | exact .rename _ _ _ |
    refine .bind ?_ fun _ => ?_)
theorem atomicCopy (env : Env) (src : Src) (to : Path) : Calm (Tool.atomicCopy env src to) := by
  unfold Tool.atomicCopy
  repeat' (first | exact .readSrc _ _ | exact .writeOut _ _ _ | exact .createFile _ _ |
    exact .writeFile _ _ _ | exact .fsync _ _ | exact .rename _ _ _ | refine .bind ?_ fun _ => ?_)
theorem forceInstall (env : Env) (src : Src) (to : Path) : Calm (Tool.forceInstall env src to) := by
  unfold Tool.forceInstall
  repeat' (first | exact .atomicCopy _ _ _ | exact .ensureParentDir _ _ |
    exact .setPermissionBits _ _ _ | refine .bind ?_ fun _ => ?_)
theorem needsInstall (env : Env) (src : Src) (to : Path) : Calm (Tool.needsInstall env src to) := by
  unfold Tool.needsInstall
  repeat' (first | exact .hashSrc _ _ | exact .hashFs _ _ | exact .pathExists _ _ |
    exact .pure _ | refine .attempt ?_ | refine .bind ?_ fun _ => ?_ | split)
theorem install (env : Env) (src : Src) (to : Path) : Calm (Tool.install env src to) := by
  unfold Tool.install
  repeat' (first | exact .needsInstall _ _ _ | exact .forceInstall _ _ _ | exact .pathExists _ _ |
    exact .pure _ | refine .bind ?_ fun _ => ?_ | split)

theorem newerSystemdBoot (env : Env) (src to : Path) : Calm (Tool.newerSystemdBoot env src to) := by
  unfold Tool.newerSystemdBoot Tool.installedVersion
  repeat' (first | exact .pathExists _ _ | exact .readSrc _ _ | exact .readFs _ _ | exact .ofRes _ |
    exact .pure _ | refine .attempt ?_ | refine .bind ?_ fun _ => ?_ | split)
theorem replaceSystemdBoot (env : Env) (cfg : Config) : Calm (Tool.replaceSystemdBoot env cfg) := by
  unfold Tool.replaceSystemdBoot Tool.measureNext Tool.measurementDone
  repeat' (first | exact .lockPe _ _ _ | exact .installSigned _ _ _ _ | exact .rename _ _ _ |
    exact .pure _ | refine .bind ?_ fun _ => ?_ | split)
theorem installSystemdBoot (env : Env) (cfg : Config) : Calm (Tool.installSystemdBoot env cfg) := by
  unfold Tool.installSystemdBoot Tool.orM Tool.andM Tool.measurementExists
  repeat' (first | exact .newerSystemdBoot _ _ _ | exact .verifyPath _ _ _ | exact .pathExists _ _ |
    exact .replaceSystemdBoot _ _ | exact .install _ _ _ |
    exact .pure _ | refine .bind ?_ fun _ => ?_ | split)

theorem initrdLocation (env : Env) (b : BootSpec) : Calm (initrdLocation env b) := by
  unfold Tool.initrdLocation
  split
  · exact .bind (.ofOption _) fun _ => .bind (.readSrc _ _) fun _ =>
      .bind (.writeSecureFile _ _) fun _ => .bind (.appendInitrdSecrets _ _ _) fun _ => .pure _
  · exact .bind (.expectSome _) fun _ => .pure _

theorem stubParameters (cfg : Config) (g : Gen) (src : Src) (k i : Path) :
    Calm (stubParameters cfg g src k i) := by
  unfold Tool.stubParameters
  exact .bind (.ofOption _) fun _ => .bind (.ofOption _) fun _ => .pure _

theorem installNixosCa (env : Env) (cfg : Config) (src : Src) (l : Str) :
    Calm (Tool.installNixosCa env cfg src l) :=
  .bind (.hashSrc _ _) fun _ => .bind (.extendRoots _) fun _ => .bind (.install _ _ _) fun _ => .pure _

theorem readInstalledGeneration (env : Env) (cfg : Config) (p : Str) :
    Calm (Tool.readInstalledGeneration env cfg p) := by
  unfold Tool.readInstalledGeneration Tool.sectionPath
  repeat' (first | exact .readDir _ _ | exact .ofOption _ | exact .ofRes _ | exact .readFs _ _ |
    exact .pathExists _ _ | exact .throw | exact .pure _ | refine .bind ?_ fun _ => ?_ | split)

theorem registerInstalledGeneration (env : Env) (cfg : Config) (g : Gen) :
    Calm (Tool.registerInstalledGeneration env cfg g) := by
  unfold Tool.registerInstalledGeneration Tool.registerMeasurement
  repeat' (first | exact .getPublicKey _ _ | exact .readInstalledGeneration _ _ _ | exact .extendRoots _ |
    exact .pathExists _ _ | exact .pure _ | refine .attempt ?_ | refine .bind ?_ fun _ => ?_ | split)

theorem installNewGeneration (env : Env) (cfg : Config) (g : Gen) :
    Calm (Tool.installNewGeneration env cfg g) := by
  unfold Tool.installNewGeneration Tool.measureImage
  repeat' (first | exact .guarded _ | exact .ofOption _ | exact .installNixosCa _ _ _ _ |
    exact .initrdLocation _ _ | exact .stubParameters _ _ _ _ _ | exact .lanzabooteImage _ _ |
    exact .lockPe _ _ _ | exact .extendRoots _ | exact .getPublicKey _ _ | exact .installSigned _ _ _ _ |
    exact .pure _ | refine .bind ?_ fun _ => ?_ | split)

theorem installGeneration (env : Env) (cfg : Config) (g : Gen) : Calm (Tool.installGeneration env cfg g) :=
  .bind (.registerInstalledGeneration _ _ _) fun _ => .ite (.pure _) (.installNewGeneration _ _ _)

theorem installAll (env : Env) (cfg : Config) : (l : List Gen) → Calm (Tool.installAll env cfg l)
  | [] => .pure _
  | _ :: l => .bind (.installGeneration _ _ _) fun _ => installAll env cfg l

theorem removeFile (os : Os) (p : Path) : Calm (Tool.removeFile os p) := by unfold Tool.removeFile; calm
theorem removeDir (os : Os) (p : Path) : Calm (Tool.removeDir os p) := by unfold Tool.removeDir; calm
theorem removeEach (os : Os) : (l : List Path) → Calm (Tool.removeEach os l)
  | [] => .pure _
  | _ :: l => .bind (.bind .getFs fun _ => .ite (.removeDir _ _) (.removeFile _ _)) fun _ => removeEach os l
theorem removeDirAll (os : Os) (p : Path) : Calm (Tool.removeDirAll os p) :=
  .bind .next fun _ => .bind .getFs fun _ => .removeEach _ _
theorem collectEach (os : Os) : (l : List Path) → Calm (Tool.collectEach os l)
  | [] => .pure _
  | _ :: l => .bind (.bind .getFs fun _ => .ite (.removeDirAll _ _)
      (.bind (.attempt (.removeFile _ _)) fun _ => .pure _)) fun _ => collectEach os l
theorem collectGarbageWithFilter (os : Os) (d : Path) (f : Path → Bool) :
    Calm (Tool.collectGarbageWithFilter os d f) :=
  .bind .next fun _ => .bind .get fun _ => .collectEach _ _
theorem collectMeasurements (env : Env) (cfg : Config) : Calm (Tool.collectMeasurements env cfg) := by
  unfold Tool.collectMeasurements
  split
  · exact .pure _
  · exact .collectGarbageWithFilter _ _ _

end Calm
end Verif.Tool
