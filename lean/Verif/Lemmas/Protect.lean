import Verif.Lemmas.RunFacts
/-!
# What garbage collection cannot reach
-/
namespace Verif.Tool
open Verif StubName Generation

variable {env : Env} {cfg : Config} {fs : Fs}

/-- What garbage collection cannot reach: below the ESP, with everything above it up to the ESP in
use. -/
theorem not_doomed (hsep : Separate cfg) {final : List Path} {x : Path} (hx : cfg.esp <+: x)
    (hr : ∀ q, cfg.esp <+: q → q <+: x → q ∈ final) {q : Path} (hq : q <+: x) :
    ¬ DoomedAny cfg final q := by
  intro h
  cases h with
  | nixos h => exact h.unused (hr q ((List.prefix_append _ _).trans h.below) hq)
  | linux h => exact h.unused (hr q ((List.prefix_append _ _).trans h.below) hq)
  | @lock p hp h =>
    rcases List.prefix_or_prefix_of_prefix hq hx with h' | h'
    · exact (hsep p hp).1 (h.below.trans h')
    · exact h.unused (hr q h' hq)

theorem esp_root (cfg : Config) (fs : Fs) : cfg.esp ∈ (start cfg fs).roots := by
  simp [start, EspPaths.iter, Config.paths, EspPaths.new]

theorem loader_root (cfg : Config) (fs : Fs) : cfg.esp ++ [lit "loader"] ∈ (start cfg fs).roots := by
  have : cfg.esp ++ [lit "loader"] = cfg.paths.loader := by
    show _ = cfg.esp.join (lit "loader")
    rw [join_plain _ (.of_length (by decide) (by decide))]
  rw [this]
  simp [start, EspPaths.iter]

theorem conf_root (cfg : Config) (fs : Fs) : confFile cfg ∈ (start cfg fs).roots := by
  rw [← conf_target]
  simp [start, EspPaths.iter]

theorem efi_root (cfg : Config) (fs : Fs) : cfg.esp ++ [lit "EFI"] ∈ (start cfg fs).roots := by
  have : cfg.esp ++ [lit "EFI"] = cfg.paths.efi := by
    show _ = cfg.esp.join (lit "EFI")
    rw [join_plain _ (.of_length (by decide) (by decide))]
  rw [this]
  simp [start, EspPaths.iter]

theorem linuxDir_root (cfg : Config) (fs : Fs) : linuxDir cfg.esp ∈ (start cfg fs).roots := by
  unfold start EspPaths.iter
  rw [← paths_linux']
  simp

theorem pcrlock_root {cfg : Config} (fs : Fs) {p : Path} (hp : cfg.pcrlockDirectory = some p) :
    p ∈ (start cfg fs).roots := by
  unfold start Config.pcrlock
  rw [hp]
  simp [PcrlockPaths.iter, PcrlockPaths.new]

/-- A file two directories below the ESP that is in use with its directories. -/
theorem kept_below {final : List Path} (hsep : Separate cfg)
    (hr : ∀ p ∈ (start cfg fs).roots, p ∈ final) {d n : Str}
    (hd : cfg.esp ++ [lit "EFI", d] ∈ (start cfg fs).roots)
    (hn : cfg.esp ++ [lit "EFI", d, n] ∈ final) {f : Fs} {l : List Change}
    (h : Fs.Chain (GcAny cfg final) f l) :
    (f.replay l).get (cfg.esp ++ [lit "EFI", d, n]) = f.get (cfg.esp ++ [lit "EFI", d, n]) := by
  refine GcAny.chain_keeps h fun q hq => not_doomed hsep (List.prefix_append _ _) ?_ hq
  intro q h1 h2
  have e : cfg.esp ++ [lit "EFI", d, n] = (cfg.esp ++ [lit "EFI", d]) ++ [n] := by simp
  have e' : cfg.esp ++ [lit "EFI", d] = (cfg.esp ++ [lit "EFI"]) ++ [d] := by simp
  rw [e] at h2
  rcases prefix_snoc_iff.1 h2 with h2 | rfl
  · rw [e'] at h2
    rcases prefix_snoc_iff.1 h2 with h2 | rfl
    · rcases prefix_snoc_iff.1 h2 with h2 | rfl
      · have : q = cfg.esp := List.IsPrefix.eq_of_length_le h2 h1.length_le
        rw [this]; exact hr _ (esp_root cfg fs)
      · exact hr _ (efi_root cfg fs)
    · rw [← e']; exact hr _ hd
  · rw [← e]; exact hn

theorem kept_entry {final : List Path} (hsep : Separate cfg)
    (hr : ∀ p ∈ (start cfg fs).roots, p ∈ final) {n : Str} (hn : entryFile cfg.esp n ∈ final)
    {f : Fs} {l : List Change} (h : Fs.Chain (GcAny cfg final) f l) :
    (f.replay l).fileAt (entryFile cfg.esp n) = f.fileAt (entryFile cfg.esp n) := by
  have := kept_below hsep hr (linuxDir_root cfg fs) hn h
  unfold Fs.fileAt entryFile
  rw [this]

theorem kept_ca {final : List Path} (hsep : Separate cfg)
    (hr : ∀ p ∈ (start cfg fs).roots, p ∈ final) {l : Str} {x : Bytes}
    (hn : caFile cfg.esp l x ∈ final) {f : Fs} {cs : List Change}
    (h : Fs.Chain (GcAny cfg final) f cs) :
    (f.replay cs).fileAt (caFile cfg.esp l x) = f.fileAt (caFile cfg.esp l x) := by
  have := kept_below hsep hr (nixosDir_root cfg fs) hn h
  unfold Fs.fileAt caFile
  rw [this]

end Verif.Tool
