import Verif.Lemmas.Tidy
import Verif.Props.InstallFiles
/-!
# Room on the ESP

The installer writes next to what is there before it removes anything. How much room does it need? At
every moment there is at most one temporary file of the run; everything else on the disk was there before
or is one of the files to be installed (C35).
-/
namespace Verif.Tool
open Verif Verif.Generation

variable {env : Env} {cfg : Config} {fs : Fs} {done : List Change}

/-- **C85**. Whenever the run is killed, or ends, there is at most one temporary file that had not been
there before with that content. -/
theorem C85_one_temporary (hs : SafeInput env cfg) (hk : KilledAfter env cfg fs done) :
    ∃ t : Path, ∀ p, IsTmp p → p ≠ t →
      (fs.replay done).fileAt p = fs.fileAt p ∨ (fs.replay done).fileAt p = none := by
  obtain ⟨l, h1, h2, -⟩ := Tidy.run hs (start cfg fs)
  have hk : done <+: l := by rw [KilledAfter, h1] at hk; exact hk
  obtain ⟨t, ht⟩ := (h2.prefix hk).effect fs
  exact ⟨t.getD [], fun p hp hne => ht p hp (by rintro rfl; exact hne rfl)⟩

/-- **C85** (success). A successful run leaves no temporary file behind. -/
theorem C85_none_left (hs : SafeInput env cfg) (fs : Fs) (hok : (run env cfg (start cfg fs)).1 = .ok ())
    {p : Path} (hp : IsTmp p) :
    (run env cfg (start cfg fs)).2.fs.fileAt p = fs.fileAt p ∨
    (run env cfg (start cfg fs)).2.fs.fileAt p = none := by
  obtain ⟨l, h1, -, h2⟩ := Tidy.run hs (start cfg fs)
  have h1 : (run env cfg (start cfg fs)).2.log = l := h1
  rw [run_disk hs, h1]
  exact (h2 _ hok).effect fs hp

/-- **C85** (room). Whenever the run is killed, or ends, all files on the disk but one, and but the
measurements, were there before with the same content or are files to be installed. -/
theorem C85_room (hs : SafeInput env cfg) (hk : KilledAfter env cfg fs done) :
    ∃ t : Path, ∀ p d, (fs.replay done).fileAt p = some d → p ≠ t → ¬ IsMeasurement cfg p →
      fs.fileAt p = some d ∨ Wanted env cfg p d := by
  obtain ⟨t, ht⟩ := C85_one_temporary hs hk
  refine ⟨t, fun p d hd hne hm => ?_⟩
  by_cases hp : IsTmp p
  · rcases ht p hp hne with e | e
    · exact .inl (e.symm.trans hd)
    · rw [e] at hd; cases hd
  · rcases C35_atomic hs hk hp hm with e | ⟨x, hw, e⟩ | ⟨e, -⟩
    · exact .inl (e.symm.trans hd)
    · rw [hd] at e; cases e; exact .inr hw
    · unfold Fs.fileAt at hd; rw [e] at hd; simp at hd

end Verif.Tool

namespace Verif.Tool.Sample.Room
open Verif StubName Generation Tool

/-- The temporary files that are on the disk after `n` changes. -/
def temporaries (n : Nat) : List Path :=
  ((disk.replay (upto n)).nodes.map (·.1)).filter fun p =>
    (lit "..tmp").reverse.isPrefixOf (p.getLast?.getD []).reverse

/-- In the run of the sample there are many moments with a temporary file. -/
example : (((List.range 73).map temporaries).filter (· ≠ [])).length = 35 := by decide +kernel

/-- Two of them, with different temporary files. -/
example : temporaries 2 ≠ [] ∧ temporaries 8 ≠ [] ∧ temporaries 2 ≠ temporaries 8 := by decide +kernel

/-- The theorems apply to these moments. -/
example : ∃ t : Path, ∀ p, IsTmp p → p ≠ t →
    (disk.replay (upto 8)).fileAt p = disk.fileAt p ∨ (disk.replay (upto 8)).fileAt p = none :=
  C85_one_temporary safe_good (killed 8)

/-- After an I/O error in the middle, a temporary file is left, but no other. -/
example : (((run (env (· = 96)) cfg (start cfg disk)).2.fs.nodes.map (·.1)).filter (fun p =>
    (lit "..tmp").reverse.isPrefixOf (p.getLast?.getD []).reverse)).length = 1 := by decide +kernel

end Verif.Tool.Sample.Room
