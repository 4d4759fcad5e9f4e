import Verif.Lemmas.SampleInstall
import Verif.Spec.BootLoader
/-!
# Boot loader binaries for the sample installation
-/
namespace Verif.Tool.Sample
open Verif Verif.Generation Version.Spec OsRelease.Spec

/-- systemd-boot of a release. -/
def systemdBoot (r : Release) : Bytes :=
  build [(lit ".osrel", utf8 (lit "VERSION=\"" ++ written r ++ lit "\"\n"))]

/-- The sample world, with this systemd-boot in the store. -/
def envWith (fault : Nat → Bool) (d : Bytes) : Env :=
  { env fault with store := fun p => if p = loaderSource cfg then some d else (env fault).store p }

/-- A machine with a boot loader. -/
def diskWith (fallback systemd current : Bytes) : Fs where
  nodes :=
    [([lit "boot"], .dir), ([lit "boot", lit "EFI"], .dir),
     ([lit "boot", lit "EFI", lit "BOOT"], .dir),
     (fallbackFile cfg, .file fallback),
     ([lit "boot", lit "EFI", lit "systemd"], .dir),
     (systemdFile cfg, .file systemd),
     ([lit "var"], .dir), ([lit "var", lit "pcrlock.d"], .dir),
     ([lit "var", lit "pcrlock.d", lit "630-bootloader.pcrlock.d"], .dir),
     (currentFile [lit "var", lit "pcrlock.d"], .file current)]
  dirty := []

/-- Signed. -/
def signed (r : Release) : Bytes := systemdBoot r ++ [83]

/-- Only the first generation. -/
def cfg1 : Config := { cfg with links := [link1] }

/-- The os-release file of a release. -/
def osReleaseLines (r : Release) : List Line :=
  [.assign [] (lit "VERSION") [.double [] ((written r).map .char)] [] []]

theorem hasRelease_of {e : Env} {data : Bytes} {r : Release} (hf : Fits r)
    (hok : ∀ c ∈ written r, c ≠ '"' ∧ c ≠ '\\')
    (hs : readSectionData e data (lit ".osrel") =
      .ok (some (utf8 (lit "VERSION=\"" ++ written r ++ lit "\"\n")))) : HasRelease e data r := by
  refine ⟨hf, osReleaseLines r, _, ?_, ?_, (readSectionData_iff _ _ _ _).1 hs, Or.inl ?_⟩
  · intro l hl
    simp only [osReleaseLines, List.mem_singleton] at hl
    subst hl
    refine ⟨by simp, ⟨'V', lit "ERSION", rfl, by unfold Blank; decide, by decide, by decide, ?_⟩, ?_,
      (by intro c hc; cases hc), (by intro c hc; cases hc), by simp⟩
    · unfold Newline; decide
    · intro x hx
      simp only [List.mem_singleton] at hx
      subst hx
      refine ⟨(by intro c hc; cases hc), ?_⟩
      intro i hi
      simp only [List.mem_map] at hi
      obtain ⟨c, hc, rfl⟩ := hi
      exact hok c hc
  · simp only [osReleaseLines, List.flatMap_cons, List.flatMap_nil, Line.assigns, List.append_nil,
      Quoted.meaning, if_true]
    have h1 : trim (lit "VERSION") = lit "VERSION" := by decide
    have h2 : ((written r).map DqItem.char).flatMap DqItem.meaning = written r := by
      induction written r with
      | nil => rfl
      | cons c cs ih => simp [DqItem.meaning, ih]
    simp [lastValue, h1, h2]
  · congr 1
    have h2 : ((written r).map DqItem.char).flatMap DqItem.render = written r := by
      induction written r with
      | nil => rfl
      | cons c cs ih => simp [DqItem.render, ih]
    simp only [osReleaseLines, List.flatMap_cons, List.flatMap_nil, Line.render, List.append_nil,
      Quoted.render, h2]
    simp [lit]

theorem considered_with (fault : Nat → Bool) (d : Bytes) :
    cfg1.considered (envWith fault d) = cfg1.considered good := rfl

theorem safe1 (fault : Nat → Bool) (d : Bytes) : SafeInput (envWith fault d) cfg1 := by
  rintro g ⟨links, link, j, h1, h⟩
  rw [considered_with] at h1
  exact (safeInput_of (e := good) (c := cfg1) (by decide +kernel)) g ⟨links, link, j, h1, h⟩

theorem faithfulWith (fault : Nat → Bool) (d : Bytes) : FaithfulTools (envWith fault d) :=
  ⟨(faithful fault).objcopy, (faithful fault).sbsign⟩

theorem separate1 : Separate cfg1 := by
  intro p h
  have : p = [lit "var", lit "pcrlock.d"] := by
    have e : cfg1.pcrlockDirectory = some [lit "var", lit "pcrlock.d"] := rfl
    rw [e] at h; exact (Option.some.inj h).symm
  subst this
  decide

end Verif.Tool.Sample
