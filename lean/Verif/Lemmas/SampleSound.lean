import Verif.Lemmas.SampleInstall
import Verif.Lemmas.Sound
/-!
# The concrete installation starts from a sound state
-/
namespace Verif.Tool.Sample
open Verif StubName Generation

theorem mem_of_fileAt {f : Fs} {p : Path} {d : Bytes} (h : f.fileAt p = some d) (hp : p ≠ []) :
    (p, Node.file d) ∈ f.nodes := by
  rw [Fs.fileAt_eq_some] at h
  unfold Fs.get at h
  rw [if_neg hp] at h
  split at h
  · next e he =>
    have h1 := List.mem_of_find?_eq_some he
    have h2 := List.find?_some he
    simp only [beq_iff_eq] at h2
    have : e = (p, Node.file d) := Prod.ext h2 (Option.some.inj h)
    rw [← this]; exact h1
  · cases h

/-- The machine without the old boot entry. -/
def disk0 : Fs where
  nodes :=
    [([lit "boot"], .dir), ([lit "boot", lit "EFI"], .dir),
     ([lit "boot", lit "EFI", lit "Linux"], .dir),
     ([lit "boot", lit "EFI", lit "Linux", lit "arch.efi"], .file [1, 2]),
     ([lit "boot", lit "EFI", lit "nixos"], .dir),
     ([lit "boot", lit "EFI", lit "nixos", lit "kernel-5-old.efi"], .file [4]),
     ([lit "var"], .dir), ([lit "var", lit "pcrlock.d"], .dir)]
  dirty := []

/-- There are no entries. -/
theorem no_entry {esp p : Path} (h : IsEntry esp p) (d : Bytes) : disk0.fileAt p ≠ some d := by
  intro hd
  obtain ⟨n, rfl, hn, -⟩ := h
  have := mem_of_fileAt hd (by simp [entryFile])
  have key : ∀ e ∈ disk0.nodes, ∀ d, e.2 = .file d → lit "nixos-" <+: e.1.getLast?.getD [] → False := by
    intro e he d
    simp only [disk0, List.mem_cons, List.not_mem_nil, or_false] at he
    rcases he with rfl | rfl | rfl | rfl | rfl | rfl | rfl | rfl
    all_goals first
      | (intro h; cases h; done)
      | (intro _; decide)
  refine key _ this d rfl ?_
  simpa [entryFile] using hn

theorem consistent0 : Consistent good cfg.esp disk0 :=
  fun _ hp data hd => absurd hd (no_entry hp data)

theorem sound0 : Sound good cfg.esp disk0 where
  entries _ hp data hd := absurd hd (no_entry hp data)
  files l h node hh hn := by
    exfalso
    unfold Fs.get at hn
    rw [if_neg (by simp [caFile])] at hn
    split at hn
    · next e he =>
      have h1 := List.mem_of_find?_eq_some he
      have h2 := List.find?_some he
      simp only [beq_iff_eq] at h2
      have key : ∀ e ∈ disk0.nodes, (e.1.getLast?.getD []).length < 50 := by decide
      have := key e h1
      rw [h2, caFile_snoc] at this
      simp [caName, base32_len hh] at this
      omega
    · cases hn

/-- The generations of the sample. -/
def known (g : Gen) (key : Bytes) : Prop := g ∈ allOf good cfg ∧ key = [80, 75]

theorem coherent0 : Coherent good cfg.esp known disk0 :=
  fun _ _ _ data _ hm hd => absurd hd (no_entry (isMatch_isEntry hm.isMatch) data)

theorem inWorld (fault : Nat → Bool) : InWorld good (env fault) cfg :=
  ⟨rfl, rfl, rfl, fun _ _ _ h => h, fun _ _ _ h => h⟩

theorem known_considered (fault : Nat → Bool) (g : Gen) (key : Bytes)
    (hg : Considers (env fault) cfg g) (hk : KeyOf (env fault) cfg.signer key) : known g key := by
  refine ⟨considers_iff.1 ⟨hg.ex⟩, ?_⟩
  have h : good.store [lit "keys", lit "db.pem"] = some key := hk
  have h' : good.store [lit "keys", lit "db.pem"] = some [80, 75] := by decide
  rw [h] at h'
  exact Option.some.inj h'

theorem unambiguous : Unambiguous good known where
  same := by
    rintro g k g' k' ⟨h, -⟩ ⟨h', -⟩ hs
    have key : ∀ a ∈ allOf good cfg, ∀ b ∈ allOf good cfg, a.spec.toplevel = b.spec.toplevel →
        a.spec = b.spec := by decide +kernel
    have := key g h g' h' hs.2.2.1
    rw [this]
    exact ⟨rfl, rfl, rfl, rfl, rfl⟩
  apart := by
    rintro g k g' k' ⟨h, rfl⟩ ⟨h', rfl⟩ hc
    have key : ∀ a ∈ allOf good cfg, ∀ b ∈ allOf good cfg,
        sha.hash (hashed a [80, 75]) = sha.hash (hashed b [80, 75]) →
        hashed a [80, 75] = hashed b [80, 75] := by decide +kernel
    exact hc.1 (key g h g' h' hc.2)

/-- The run succeeds on this machine as well, and collects garbage. -/
theorem good0_ok : (run good cfg (start cfg disk0)).1 = .ok () := by decide +kernel

theorem good0_broken : (run good cfg (start cfg disk0)).2.broken = [] := by decide +kernel

theorem good0_collecting : .collecting ∈ (run good cfg (start cfg disk0)).2.log := by decide +kernel

end Verif.Tool.Sample
