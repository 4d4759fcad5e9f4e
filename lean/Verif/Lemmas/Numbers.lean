import Verif.Spec.Generations
import Verif.Props.Version
/-!
# Lemmas: numbers in link names
-/
namespace Verif.Generation
open Verif Version Version.Spec

theorem parseU64_spec (s : Str) (n : Nat) : parseUnsigned u64Max s = some n ↔ Writes64 s n := by
  have hle : (2 : Nat) ^ 64 = u64Max + 1 := by decide
  constructor
  · intro h
    unfold parseUnsigned at h
    split at h
    · next m heq =>
      split at h
      · next hm =>
        simp only [Option.some.injEq] at h
        subst h
        split at heq
        · next r => exact ⟨r, Or.inr rfl, ((digits_spec _ _).mp heq).1, ((digits_spec _ _).mp heq).2, by omega⟩
        · exact ⟨s, Or.inl rfl, ((digits_spec _ _).mp heq).1, ((digits_spec _ _).mp heq).2, by omega⟩
      · simp at h
    · simp at h
  · rintro ⟨ds, hs, hd, hv, hlt⟩
    have hdig := (digits_spec ds n).mpr ⟨hd, hv⟩
    have hn : n ≤ u64Max := by omega
    rcases hs with rfl | rfl
    · unfold parseUnsigned
      split
      · next m heq =>
        split at heq
        · next r => exact absurd (hd.2 '+' (by simp)) (by decide)
        · rw [hdig] at heq; simp only [Option.some.injEq] at heq; subst heq; simp [hn]
      · next heq =>
        split at heq
        · next r => exact absurd (hd.2 '+' (by simp)) (by decide)
        · rw [hdig] at heq; simp at heq
    · simp [parseUnsigned, hdig, hn]

/-- A text that writes no 64-bit number does not parse. -/
theorem parseU64_none {s : Str} (h : ∀ n, ¬ Writes64 s n) : parseUnsigned u64Max s = none := by
  cases e : parseUnsigned u64Max s with
  | none => rfl
  | some n => exact absurd ((parseU64_spec s n).1 e) (h n)

theorem not_writes64 {s : Str} (h : parseUnsigned u64Max s = none) (n : Nat) : ¬ Writes64 s n := by
  intro w
  rw [(parseU64_spec s n).2 w] at h
  simp at h

end Verif.Generation
