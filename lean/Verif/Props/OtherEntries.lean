import Verif.Props.InstallState

/-!
# C26: entries of other generations

What the disjoint names of C26 are for: a run never replaces the boot entry of a generation it does not
consider. It leaves it as it is or, once it collects garbage, removes it.
-/

namespace Verif.Tool
open Verif StubName Generation BootCounting

variable {env : Env} {cfg : Config} {fs : Fs} {done : List Change}

theorem Wanted.is_entry {n : Str} {d : Bytes} (h : Wanted env cfg (entryFile cfg.esp n) d) :
    ∃ g key, Considers env cfg g ∧ KeyOf env cfg.signer key ∧ n = stubName env.sha g key cfg.tries := by
  have clash {p : Path} {a b : Str} (e : entryFile cfg.esp n = p) (hp : lastTwo p = some (a, b))
      (hne : a ≠ lit "Linux") : False := by
    rw [← e, entryFile_lastTwo] at hp
    simp only [Option.some.injEq, Prod.mk.injEq] at hp
    exact hne hp.1.symm
  cases h with
  | kernel _ _ _ e => exact absurd e.symm (caFile_ne_entryFile _ _ _ _)
  | initrd _ _ _ e => exact absurd e.symm (caFile_ne_entryFile _ _ _ _)
  | entry hg hk _ _ _ _ _ e => exact ⟨_, _, hg, hk, entryFile_inj e⟩
  | loader _ _ e =>
    rcases e with e | e
    · exact (clash e (fallbackFile_lastTwo cfg) (by decide)).elim
    · exact (clash e (systemdFile_lastTwo cfg) (by decide)).elim
  | conf _ e => exact (clash e (confFile_lastTwo cfg) (by decide)).elim

/-- **C26** (effect). Let an entry of generation `g0` be installed, possibly renamed by boot counting
since. Whenever a later run that considers only other entries is killed, or ends, the file still has its
content, or the run has reached garbage collection and removed it. It is never replaced by another
entry. -/
theorem C26_other_entries_kept (hs : SafeInput env cfg) (hk : KilledAfter env cfg fs done) {g0 : Gen}
    {key0 : Bytes} {t0 : Nat} {n : Str} (hn : Renames (stubName env.sha g0 key0 t0) n) {d : Bytes}
    (hd : fs.fileAt (entryFile cfg.esp n) = some d)
    (hother : ∀ g key, Considers env cfg g → KeyOf env cfg.signer key →
      ¬ SameEntry g0 g key0 key ∧ ¬ Collision env.sha (hashed g0 key0) (hashed g key)) :
    (fs.replay done).fileAt (entryFile cfg.esp n) = some d ∨
    ((fs.replay done).get (entryFile cfg.esp n) = none ∧ .collecting ∈ done) := by
  have hm := C27_stub_lookup_finds env.uni env.sha g0 key0 t0 n hn
  have he : IsEntry cfg.esp (entryFile cfg.esp n) := isMatch_isEntry hm
  rcases C35_atomic hs hk (isEntry_not_tmp he) (isEntry_not_measurement he) with h | ⟨d', hw, -⟩ | h
  · exact Or.inl (h.trans hd)
  · obtain ⟨g, key, hg, hkey, e⟩ := hw.is_entry
    have := C27_stub_lookup_exact env.uni env.sha g0 g key0 key t0 n hn
      (e ▸ isMatch_stubName env.uni env.sha g key cfg.tries)
    obtain ⟨h1, h2⟩ := hother g key hg hkey
    exact (this.elim h1 h2).elim
  · exact Or.inr h

end Verif.Tool

namespace Verif.Tool.Sample
open Verif StubName Generation BootCounting

/-- The machine of the samples, told to keep one generation only. -/
def cfgOne : Config := { cfg with configurationLimit := 1 }

theorem safeOne : SafeInput good cfgOne := safeInput_of (by decide +kernel)

/-- An entry of the older generation, which is dropped then. -/
def older : Gen := (allOf good cfg)[0]'(by decide +kernel)

theorem older_other : ∀ g key, Considers good cfgOne g → KeyOf good cfgOne.signer key →
    ¬ SameEntry older g [80, 75] key ∧ ¬ Collision good.sha (hashed older [80, 75]) (hashed g key) := by
  intro g key hg hk
  have hk : good.store [lit "keys", lit "db.pem"] = some key := hk
  have h' : good.store [lit "keys", lit "db.pem"] = some [80, 75] := by decide
  rw [h'] at hk
  cases hk
  have : ∀ g ∈ allOf good cfgOne, older.spec.toplevel ≠ g.spec.toplevel ∧
      ¬ (hashed older [80, 75] ≠ hashed g [80, 75] ∧
        sha.hash (hashed older [80, 75]) = sha.hash (hashed g [80, 75])) := by decide +kernel
  have := this g (considers_iff.1 hg)
  exact ⟨fun e => this.1 e.2.2.1, this.2⟩

/-- The disk after a run with both generations. -/
def withBoth : Fs := (run good cfg (start cfg disk0)).2.fs

/-- The hypotheses of `C26_other_entries_kept` can be met: `older` is installed, and a later run keeps one
generation only, which is another one. Killed early, that run has left the entry of `older` alone; in the
end it has removed it. -/
example (d : Bytes) (hd : withBoth.fileAt (entryFile cfgOne.esp (stubName good.sha older [80, 75] 3)) = some d)
    (done : List Change) (hk : KilledAfter good cfgOne withBoth done) :
    (withBoth.replay done).fileAt (entryFile cfgOne.esp (stubName good.sha older [80, 75] 3)) = some d ∨
    ((withBoth.replay done).get (entryFile cfgOne.esp (stubName good.sha older [80, 75] 3)) = none ∧
      .collecting ∈ done) :=
  C26_other_entries_kept safeOne hk .refl hd older_other

example : (withBoth.fileAt (entryFile cfgOne.esp (stubName good.sha older [80, 75] 3))).isSome ∧
    (run good cfgOne (start cfgOne withBoth)).1 = .ok () ∧
    (run good cfgOne (start cfgOne withBoth)).2.fs.get
      (entryFile cfgOne.esp (stubName good.sha older [80, 75] 3)) = none ∧
    allOf good cfgOne ≠ [] := by decide +kernel

end Verif.Tool.Sample
