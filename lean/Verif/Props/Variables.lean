import Verif.Props.Stub
/-!
# C65: what the stub does to the variable store
-/
namespace Verif.Stub
open Verif Verif.Companion Verif.Stub.Spec

theorem volatileReadable_six : VolatileReadable 6 := by
  refine ⟨by decide, by decide, by decide, fun i hi => ?_⟩
  apply Nat.testBit_lt_two_pow
  calc (6 : UInt32).toNat < 2 ^ 3 := by decide
    _ ≤ 2 ^ i := Nat.pow_le_pow_right (by decide) hi

/-- C65: whatever happens during a run of the stub, until the kernel gets control the stub tries to
set only the nine variables of the boot loader interface, always as volatile variables that the
operating system can read: nothing it writes survives a reset. -/
theorem C65_writes (env : Env) (w : World) :
    ∃ evs, (main env w).2.trace = w.trace ++ evs ∧ ∀ k d how, .writeVar k d how ∈ evs →
      k ∈ stubVariables ∧ VolatileReadable how.attributes := by
  have key : ∀ {K} {w' : World}, Quiet NoStart K w w' → ∀ rest : List Event,
      (∀ k d how, .writeVar k d how ∉ rest) → (main env w).2.trace = w'.trace ++ rest →
      ∃ evs, (main env w).2.trace = w.trace ++ evs ∧ ∀ k d how, .writeVar k d how ∈ evs →
        k ∈ stubVariables ∧ VolatileReadable how.attributes := by
    intro K w' q rest hrest ht
    obtain ⟨evs, he, hn⟩ := q.trace
    refine ⟨evs ++ rest, by rw [ht, he, List.append_assoc], fun k d how hm => ?_⟩
    rcases List.mem_append.1 hm with h | h
    · obtain ⟨h1, h2⟩ := (hn _ h).2 k d how rfl
      exact ⟨h1, h2 ▸ volatileReadable_six⟩
    · exact absurd h (hrest _ _ _)
  rcases main_shape env w with ⟨-, hq⟩ | ⟨w1, c, cs, pe, kname, iname, r, img, mid, comp, hready, hmain⟩
  · exact key hq [] (by simp) (by simp)
  obtain ⟨r2, cmd, w2, m, hc, hr2, hq2, ht2, hcmd⟩ := getCmdline_run env c.cmdline w1
  have hmain2 : main env w = bootLinuxUnchecked env c.kernel cmd
      (appendInitrds (padTo4 c.initrd) (cs.map fun c => c.cpio.buffer)) w2 := by
    rw [hmain, bootLinux, RM.bind_run, hc]
  have q := hready.quiet.trans (hq2.mono (fun _ h => h) fun _ h => h.elim)
  rcases bootLinuxUnchecked_run env c.kernel cmd
      (appendInitrds (padTo4 c.initrd) (cs.map fun c => c.cpio.buffer)) w2 with
    ⟨ht3, -⟩ | ⟨s, wk, -, ht3, -⟩
  · exact key q [] (by simp) (by rw [hmain2, ht3, List.append_nil])
  · exact key q [.start s] (by simp) (by rw [hmain2, ht3])

/-- C65: no variable but these nine has changed when a run without kernel ends or when the kernel
gets control. -/
theorem C65_other_variables_unchanged (env : Env) (w : World) :
    ((∀ s, ¬ Starts env w s) → ∀ k, k ∉ stubVariables → (main env w).2.vars k = w.vars k) ∧
    ∀ s, Starts env w s → ∃ wk, wk.trace = (main env w).2.trace ∧
      (∀ k, k ∉ stubVariables → wk.vars k = w.vars k) ∧
      ((main env w).1 = .panic ∨ (main env w).2.vars = (env.kernel wk).vars) := by
  constructor
  · intro h k hk
    rcases main_shape env w with ⟨-, hq⟩ | ⟨w1, c, cs, pe, kname, iname, r, img, mid, comp, hready, hmain⟩
    · exact hq.vars k hk
    obtain ⟨r2, cmd, w2, m, hc, hr2, hq2, ht2, hcmd⟩ := getCmdline_run env c.cmdline w1
    have hmain2 : main env w = bootLinuxUnchecked env c.kernel cmd
        (appendInitrds (padTo4 c.initrd) (cs.map fun c => c.cpio.buffer)) w2 := by
      rw [hmain, bootLinux, RM.bind_run, hc]
    have q := hready.quiet.trans (hq2.mono (fun _ h => h) fun _ h => h.elim)
    rcases bootLinuxUnchecked_run env c.kernel cmd
        (appendInitrds (padTo4 c.initrd) (cs.map fun c => c.cpio.buffer)) w2 with
      ⟨-, -, hv, -⟩ | ⟨s, wk, -, ht3, -⟩
    · rw [hmain2, hv]; exact q.vars k hk
    · obtain ⟨pre, hpre, -⟩ := q.trace
      refine absurd ⟨pre ++ [.start s], ?_, by simp⟩ (h s)
      rw [hmain2, ht3, hpre, List.append_assoc]
  · intro s h
    obtain ⟨w1, w2, wk, c, cs, pe, kname, iname, r, r2, img, mid, comp, m, f⟩ := started_facts h
    have q : Quiet NoStart LoaderKey w w2 :=
      f.ready.quiet.trans (f.quiet.mono (fun _ h => h) fun _ h => h.elim)
    refine ⟨wk, by rw [f.ran.trace, f.trace], fun k hk => ?_, ?_⟩
    · rw [f.ran.vars]; exact q.vars k hk
    · rcases f.after with ⟨hp, -⟩ | ⟨-, -, hv, -⟩
      · exact Or.inl hp
      · exact Or.inr hv

/-- C65: in particular no variable of another vendor is touched, such as the Secure Boot keys, the
Secure Boot state and the boot order. -/
theorem C65_foreign_vendor (k : VarKey) (h : k.vendor ≠ .loader) : k ∉ stubVariables := by
  have : ∀ k ∈ stubVariables, k.vendor = .loader := by decide
  exact fun hm => h (this k hm)

namespace Sample

/-- On the sample machine with a TPM seven of the variables are written and a kernel is started. -/
example : (∃ s, Starts (env true .success) (start (some [1]) none) s) ∧
    7 ≤ ((main (env true .success) (start (some [1]) none)).2.trace.filter fun e => match e with
      | .writeVar _ _ _ => true
      | _ => false).length := by
  obtain ⟨s, h, -⟩ := starts_exists (tpm := true) (st := .success) (sb := some [1])
    (o := none) (by decide +kernel)
  exact ⟨⟨s, h⟩, by decide +kernel⟩

/-- A machine on which no kernel is started. -/
example : ∀ s, ¬ Starts noLoadFile2 (start (some [1]) none) s := by
  rintro s ⟨evs, ht, hs⟩
  have : (main noLoadFile2 (start (some [1]) none)).2.trace.all
      (fun e => match e with | .start _ => false | _ => true) = true := by decide +kernel
  rw [ht, List.all_eq_true] at this
  exact absurd (this _ (List.mem_append_right _ hs)) (by simp)

end Sample
end Verif.Stub
