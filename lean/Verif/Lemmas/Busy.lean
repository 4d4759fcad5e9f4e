import Verif.Model.Busy
/-!
# Without other processes, `Model/Busy` is `Model/Install`
-/
namespace Verif.Tool.Busy
open Verif Generation

theorem disturb_none : disturb .none = pure () := rfl

theorem pathExists_none (os : Os) (p : Path) : pathExists .none os p = Tool.pathExists os p := rfl
theorem readFs_none (os : Os) (p : Path) : readFs .none os p = Tool.readFs os p := rfl
theorem mkdir_none (os : Os) (p : Path) : mkdir .none os p = Tool.mkdir os p := rfl
theorem createFile_none (os : Os) (p : Path) : createFile .none os p = Tool.createFile os p := rfl
theorem writePartials_none (p : Path) : (l : List Bytes) → writePartials .none p l = Tool.writePartials p l
  | [] => rfl
  | d :: l => by
    unfold writePartials Tool.writePartials
    rw [writePartials_none p l]
    rfl
theorem writeFile_none (os : Os) (p : Path) (d : Bytes) : writeFile .none os p d = Tool.writeFile os p d := by
  unfold writeFile Tool.writeFile
  simp only [writePartials_none]
  rfl
theorem fsync_none (os : Os) (p : Path) : fsync .none os p = Tool.fsync os p := rfl
theorem rename_none (os : Os) (a b : Path) : rename .none os a b = Tool.rename os a b := rfl
theorem setPermissionBits_none (os : Os) (p : Path) (m : Nat) :
    setPermissionBits .none os p m = Tool.setPermissionBits os p m := rfl
theorem syncFs_none (os : Os) (p : Path) : syncFs .none os p = Tool.syncFs os p := rfl
theorem removeFile_none (os : Os) (p : Path) : removeFile .none os p = Tool.removeFile os p := rfl
theorem removeDir_none (os : Os) (p : Path) : removeDir .none os p = Tool.removeDir os p := rfl
theorem removeOne_none (os : Os) (p : Path) : removeOne .none os p = Tool.removeOne os p := rfl
theorem removeEach_none (os : Os) : (l : List Path) → removeEach .none os l = Tool.removeEach os l
  | [] => rfl
  | p :: l => by
    unfold removeEach Tool.removeEach
    rw [removeEach_none os l, removeOne_none]
theorem walked_none (os : Os) (t : Nat) (fs : Fs) (p : Path) :
    walked .none os t fs p = os.list t (fs.subtree p) := by
  simp [walked, Others.none]
theorem removeDirAll_none (os : Os) (p : Path) : removeDirAll .none os p = Tool.removeDirAll os p := by
  unfold removeDirAll Tool.removeDirAll
  simp only [walked_none, removeEach_none]
  rfl
theorem mkdirMissing_none (os : Os) : (l : List Path) → mkdirMissing .none os l = Tool.mkdirMissing os l
  | [] => rfl
  | p :: l => by
    unfold mkdirMissing Tool.mkdirMissing
    rw [mkdirMissing_none os l]
    rfl
theorem ensureParentDir_none (os : Os) (p : Path) : ensureParentDir .none os p = Tool.ensureParentDir os p := by
  unfold ensureParentDir Tool.ensureParentDir createDirAll Tool.createDirAll
  simp only [mkdirMissing_none]
  rfl
theorem readDir_none (os : Os) (p : Path) : readDir .none os p = Tool.readDir os p := rfl

theorem collectEntry_none (os : Os) (p : Path) : collectEntry .none os p = Tool.collectEntry os p := by
  unfold collectEntry Tool.collectEntry
  simp only [removeDirAll_none, removeFile_none]
  rfl
theorem collectEach_none (os : Os) : (l : List Path) → collectEach .none os l = Tool.collectEach os l
  | [] => rfl
  | p :: l => by
    unfold collectEach Tool.collectEach
    rw [collectEach_none os l, collectEntry_none]
theorem collectGarbageWithFilter_none (os : Os) (d : Path) (pr : Path → Bool) :
    collectGarbageWithFilter .none os d pr = Tool.collectGarbageWithFilter os d pr := by
  unfold collectGarbageWithFilter Tool.collectGarbageWithFilter
  simp only [walked_none, collectEach_none]
  rfl
theorem collectGarbage_none (os : Os) (d : Path) : collectGarbage .none os d = Tool.collectGarbage os d :=
  collectGarbageWithFilter_none _ _ _

theorem hashFs_none (env : Env) (p : Path) : hashFs .none env p = Tool.hashFs env p := rfl
theorem writeOut_none (env : Env) (p : Path) (d : Bytes) : writeOut .none env p d = Tool.writeOut env p d := by
  unfold writeOut Tool.writeOut
  simp only [writeFile_none, createFile_none]
theorem failedOutput_none (env : Env) (p : Path) : failedOutput .none env p = Tool.failedOutput env p := by
  unfold failedOutput Tool.failedOutput
  simp only [writePartials_none, createFile_none]
theorem copyFile_none (env : Env) (src : Src) (p : Path) : copyFile .none env src p = Tool.copyFile env src p := by
  unfold copyFile Tool.copyFile
  simp only [writeFile_none, createFile_none]
  rfl
theorem signAndCopy_none (env : Env) (src : Src) (p : Path) (s : Signer) :
    signAndCopy .none env src p s = s.signAndCopy env src p := by
  cases s <;> unfold signAndCopy Signer.signAndCopy
  · exact copyFile_none _ _ _
  · simp only [writeOut_none, failedOutput_none]
    rfl
theorem verifyPath_none (env : Env) (p : Path) (s : Signer) : verifyPath .none env p s = s.verifyPath env p := rfl
theorem lockPe_none (env : Env) (src : Src) (p : Path) : lockPe .none env src p = Tool.lockPe env src p := by
  unfold lockPe Tool.lockPe
  simp only [writeOut_none, failedOutput_none, ensureParentDir_none]
  rfl

theorem installSigned_none (env : Env) (s : Signer) (src : Src) (p : Path) :
    installSigned .none env s src p = Tool.installSigned env s src p := by
  unfold installSigned Tool.installSigned
  simp only [ensureParentDir_none, signAndCopy_none, rename_none]
theorem atomicCopy_none (env : Env) (src : Src) (p : Path) : atomicCopy .none env src p = Tool.atomicCopy env src p := by
  unfold atomicCopy Tool.atomicCopy
  simp only [createFile_none, writeFile_none, fsync_none, rename_none]
theorem forceInstall_none (env : Env) (src : Src) (p : Path) :
    forceInstall .none env src p = Tool.forceInstall env src p := by
  unfold forceInstall Tool.forceInstall
  simp only [ensureParentDir_none, atomicCopy_none, setPermissionBits_none]
theorem needsInstall_none (env : Env) (src : Src) (p : Path) :
    needsInstall .none env src p = Tool.needsInstall env src p := rfl
theorem install_none (env : Env) (src : Src) (p : Path) : install .none env src p = Tool.install env src p := by
  unfold install Tool.install
  simp only [needsInstall_none, forceInstall_none]
theorem installNixosCa_none (env : Env) (cfg : Config) (src : Src) (l : Str) :
    installNixosCa .none env cfg src l = Tool.installNixosCa env cfg src l := by
  unfold installNixosCa Tool.installNixosCa
  simp only [install_none]
theorem readInstalledGeneration_none (env : Env) (cfg : Config) (l : Str) :
    readInstalledGeneration .none env cfg l = Tool.readInstalledGeneration env cfg l := by
  unfold readInstalledGeneration Tool.readInstalledGeneration
  simp only [readDir_none, readFs_none, pathExists_none]
theorem registerMeasurement_none (env : Env) (cfg : Config) (g : Gen) :
    registerMeasurement .none env cfg g = Tool.registerMeasurement env cfg g := by
  unfold registerMeasurement Tool.registerMeasurement
  simp only [pathExists_none]
  rfl
theorem registerInstalledGeneration_none (env : Env) (cfg : Config) (g : Gen) :
    registerInstalledGeneration .none env cfg g = Tool.registerInstalledGeneration env cfg g := by
  unfold registerInstalledGeneration Tool.registerInstalledGeneration
  simp only [readInstalledGeneration_none, registerMeasurement_none]
  rfl
theorem measureImage_none (env : Env) (cfg : Config) (g : Gen) (d : Bytes) :
    measureImage .none env cfg g d = Tool.measureImage env cfg g d := by
  unfold measureImage Tool.measureImage
  simp only [lockPe_none]
  rfl
theorem installNewGeneration_none (env : Env) (cfg : Config) (g : Gen) :
    installNewGeneration .none env cfg g = Tool.installNewGeneration env cfg g := by
  unfold installNewGeneration Tool.installNewGeneration
  simp only [installNixosCa_none, measureImage_none, installSigned_none]
theorem installGeneration_none (env : Env) (cfg : Config) (g : Gen) :
    installGeneration .none env cfg g = Tool.installGeneration env cfg g := by
  unfold installGeneration Tool.installGeneration
  simp only [registerInstalledGeneration_none, installNewGeneration_none]
theorem installAll_none (env : Env) (cfg : Config) : (l : List Gen) →
    installAll .none env cfg l = Tool.installAll env cfg l
  | [] => rfl
  | g :: l => by
    unfold installAll Tool.installAll
    rw [installAll_none env cfg l, installGeneration_none]
theorem installGenerationsFromLinks_none (env : Env) (cfg : Config) (l : List Link) :
    installGenerationsFromLinks .none env cfg l = Tool.installGenerationsFromLinks env cfg l := by
  unfold installGenerationsFromLinks Tool.installGenerationsFromLinks
  simp only [installAll_none, syncFs_none]
theorem newerSystemdBoot_none (env : Env) (a p : Path) :
    newerSystemdBoot .none env a p = Tool.newerSystemdBoot env a p := rfl
theorem measurementExists_none (env : Env) (cfg : Config) :
    measurementExists .none env cfg = Tool.measurementExists env cfg := rfl
theorem measureNext_none (env : Env) (cfg : Config) : measureNext .none env cfg = Tool.measureNext env cfg := by
  unfold measureNext Tool.measureNext
  simp only [lockPe_none]
  rfl
theorem measurementDone_none (env : Env) (cfg : Config) :
    measurementDone .none env cfg = Tool.measurementDone env cfg := rfl
theorem replaceSystemdBoot_none (env : Env) (cfg : Config) :
    replaceSystemdBoot .none env cfg = Tool.replaceSystemdBoot env cfg := by
  unfold replaceSystemdBoot Tool.replaceSystemdBoot
  simp only [measureNext_none, installSigned_none, measurementDone_none]
theorem installSystemdBoot_none (env : Env) (cfg : Config) :
    installSystemdBoot .none env cfg = Tool.installSystemdBoot env cfg := by
  unfold installSystemdBoot Tool.installSystemdBoot
  simp only [newerSystemdBoot_none, verifyPath_none, measurementExists_none, replaceSystemdBoot_none, install_none]
theorem collectMeasurements_none (env : Env) (cfg : Config) :
    collectMeasurements .none env cfg = Tool.collectMeasurements env cfg := by
  unfold collectMeasurements Tool.collectMeasurements
  simp only [collectGarbage_none]
  rfl
theorem collect_none (env : Env) (cfg : Config) : collect .none env cfg = Tool.collect env cfg := by
  unfold collect Tool.collect
  simp only [collectGarbage_none, collectGarbageWithFilter_none, collectMeasurements_none]

/-- Without other processes this is the installer of `Model/Install`. -/
theorem run_none (env : Env) (cfg : Config) : run .none env cfg = Tool.run env cfg := by
  unfold run Tool.run
  simp only [installGenerationsFromLinks_none, installSystemdBoot_none, collect_none]

end Verif.Tool.Busy
