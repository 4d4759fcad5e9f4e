import Verif.Props.Footprint
import Verif.Props.InstallBoot
/-!
# C86: processes that keep off the installer's places do not disturb it
-/
namespace Verif.Tool
open Verif Generation StubName

variable {env world : Env} {cfg : Config} {o : Others} {f : Fs}

theorem undisturbed_of {E : Path → Prop} (ho : o.KeepOff cfg E) (hs : SafeInput env cfg) {J : Fs → Prop}
    (hJ : ∀ f, J f → RefsIn env cfg E f)
    (hstep : ∀ g f c, J f → InstallStep env cfg (.one g) f c → J (f.apply c)) (hj : J f) :
    AsIfAlone o env cfg f := by
  haveI : Off o cfg E := ⟨ho⟩
  obtain ⟨h1, h2, -⟩ := run_twin (o := o) hs hJ hstep (start cfg f) (start cfg f)
    ⟨rfl, fun _ _ => rfl, rfl, rfl, rfl, rfl⟩ hj
  exact ⟨h1.symm, h2.log.symm, h2.broken.symm, h2.view.symm, fun p hp => (get_of_view h2.view hp).symm⟩

/-- **C86**. The model with other processes is the model of the installer, if there are none. -/
theorem C86_alone (env : Env) (cfg : Config) : Busy.run .none env cfg = run env cfg := Busy.run_none env cfg

/-- **C86**. Processes that at any time during the run change, create and delete anything but the installer's files
and names in `EFI/Linux` do not disturb it, if the boot entries refer to files in `EFI/nixos` only, as those do that the
installer writes. -/
theorem C86_undisturbed (hs : SafeInput env cfg) (hf : FaithfulTools env) (hsep : Separate cfg)
    (hso : Sound env cfg.esp f) (ho : o.KeepOff cfg fun _ => False) : AsIfAlone o env cfg f :=
  undisturbed_of ho hs (J := Sound env cfg.esp) (fun _ h => h.refsIn) (fun _ _ _ h st => h.step hs hf hsep st) hso

/-- **C86**. Without this assumption on the boot entries: processes that change the contents of other files do not
disturb it. -/
theorem C86_contents (hs : SafeInput env cfg) (ho : o.KeepOff cfg fun _ => True) : AsIfAlone o env cfg f :=
  undisturbed_of ho hs (J := fun _ => True) (fun _ _ _ _ _ _ _ _ _ _ _ _ => .inr trivial)
    (fun _ _ _ _ _ => trivial) trivial

/-- Whether an entry boots a generation depends on the installer's places. -/
theorem Boots.of_files {f f' : Fs} {g : Gen} {p : Path} (hp : IsEntry cfg.esp p)
    (h : ∀ p, Matters cfg p → f.get p = f'.get p) (hb : Boots world cfg.esp f g p) : Boots world cfg.esp f' g p := by
  have hfile : ∀ p, Matters cfg p → f'.fileAt p = f.fileAt p := fun p hp => by
    unfold Fs.fileAt; rw [h p hp]
  have hca : ∀ l x, Matters cfg (caFile cfg.esp l x) := fun l x => by
    rw [caFile_nixosDir]; exact .owned (owned_nixos _)
  obtain ⟨data, kernel, initrd, v, h1, h2, ⟨kd, h3, h4⟩, id, h5, h6⟩ := hb
  refine ⟨data, kernel, initrd, v, ?_, h2, ⟨kd, ?_, h4⟩, id, ?_, h6⟩
  · obtain ⟨n, rfl, hn, -⟩ := hp
    rw [hfile _ (by rw [entryFile_linuxDir]; exact matters_entry hn), h1]
  · rw [hfile _ (hca _ _), h3]
  · rw [hfile _ (hca _ _), h5]

/-- **C86**. So a successful run among such processes leaves the considered generations bootable. -/
theorem C86_considered_generations_boot (hs : SafeInput env cfg) (hf : FaithfulTools env) (hsep : Separate cfg)
    (hw : InWorld world env cfg) {known : Gen → Bytes → Prop} (hu : Unambiguous world known)
    (hkn : ∀ g key, Considers env cfg g → KeyOf env cfg.signer key → known g key)
    (hso : Sound env cfg.esp f) (hj : Coherent world cfg.esp known f) (ho : o.KeepOff cfg fun _ => False)
    (hok : (Busy.run o env cfg (start cfg f)).1 = .ok ())
    (hb : (Busy.run o env cfg (start cfg f)).2.broken = [] ∨ Faultless env) {g : Gen} (hg : Considers env cfg g) :
    ∃ p, IsEntry cfg.esp p ∧ Boots world cfg.esp (Busy.run o env cfg (start cfg f)).2.fs g p := by
  have h := C86_undisturbed hs hf hsep hso ho
  rw [h.result] at hok
  rw [h.malformed] at hb
  obtain ⟨p, hp, hbo⟩ := C38_considered_generations_boot hs hf hsep hw hu hkn hso hj hok hb hg
  exact ⟨p, hp, hbo.of_files hp fun q hq => (h.files q hq).symm⟩

end Verif.Tool

namespace Verif.Tool.Sample
open Verif Generation StubName

/-- A program that keeps writing to a file of the user's. -/
def writer : Others where
  act := fun t n f => f.put mine (.file [UInt8.ofNat t, UInt8.ofNat n])
  late := fun _ => [mine]

theorem writer_keepOff : writer.KeepOff cfg fun _ => False where
  view := fun _ _ _ => view_put_foreign _ not_matters_mine (by decide)
  ex := fun _ _ _ _ h => h.elim
  late := fun _ q h => by
    obtain rfl : q = mine := by simpa [writer] using h
    exact ⟨not_matters_mine, by decide⟩

/-- C86: the installer succeeds and makes many changes, among them the program's. -/
example : (Busy.run writer good cfg (start cfg disk0)).1 = .ok () ∧
    20 < (Busy.run writer good cfg (start cfg disk0)).2.log.length ∧
    ((Busy.run writer good cfg (start cfg disk0)).2.fs.fileAt mine).isSome ∧
    AsIfAlone writer good cfg disk0 :=
  ⟨by decide +kernel, by decide +kernel, by decide +kernel,
    C86_undisturbed safe_good (faithful _) separate sound0 writer_keepOff⟩

end Verif.Tool.Sample
