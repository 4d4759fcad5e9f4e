import Verif.Props.InstallState
import Verif.Props.Generation
/-!
# Names of links and specialisations

C24 (the whole run), C38 (names with a slash).
-/
namespace Verif.Tool
open Verif StubName Generation

variable {env : Env} {cfg : Config} {links : List Path}

theorem parseLinks_cons {p : Path} {ps : List Path} {ls : List Link} :
    parseLinks env (p :: ps) = some ls ↔
      ∃ l rest, Link.fromPath env.buildTime p = some l ∧ parseLinks env ps = some rest ∧ ls = l :: rest := by
  rw [parseLinks]
  cases Link.fromPath env.buildTime p with
  | none => simp
  | some l =>
    cases parseLinks env ps with
    | none => simp
    | some rest => simp [eq_comm]

theorem parseLinks_perm {ps ps' : List Path} (h : ps.Perm ps') : ∀ {ls : List Link}, parseLinks env ps = some ls →
    ∃ ls', parseLinks env ps' = some ls' ∧ ls.Perm ls' := by
  induction h with
  | nil => intro ls h; exact ⟨ls, h, List.Perm.refl _⟩
  | cons x _ ih =>
    intro ls h
    obtain ⟨l, rest, h1, h2, rfl⟩ := parseLinks_cons.1 h
    obtain ⟨rest', h3, h4⟩ := ih h2
    exact ⟨l :: rest', parseLinks_cons.2 ⟨l, rest', h1, h3, rfl⟩, h4.cons l⟩
  | swap x y l =>
    intro ls h
    obtain ⟨a, rest, h1, h2, rfl⟩ := parseLinks_cons.1 h
    obtain ⟨b, rest, h3, h4, rfl⟩ := parseLinks_cons.1 h2
    exact ⟨b :: a :: rest, parseLinks_cons.2 ⟨b, _, h3, parseLinks_cons.2 ⟨a, _, h1, h4, rfl⟩, rfl⟩, List.Perm.swap _ _ _⟩
  | trans _ _ ih1 ih2 =>
    intro ls h
    obtain ⟨l1, h1, p1⟩ := ih1 h
    obtain ⟨l2, h2, p2⟩ := ih2 h1
    exact ⟨l2, h2, p1.trans p2⟩

theorem selectLinks_perm {n : Nat} {ls ls' : List Link} (h : ls.Perm ls')
    (hd : ∀ a ∈ ls, ∀ b ∈ ls, a.version = b.version → a = b) : selectLinks n ls = selectLinks n ls' := by
  have e : ls.isort (fun a b => decide (a.version ≤ b.version)) =
      ls'.isort (fun a b => decide (a.version ≤ b.version)) := by
    refine List.Perm.eq_of_pairwise (le := fun a b : Link => a.version ≤ b.version) ?_ (sorted_links ls)
      (sorted_links ls') (((List.isort_perm ls _).trans h).trans (List.isort_perm ls' _).symm)
    intro a b ha hb h1 h2
    exact hd a ((List.isort_perm ls _).subset ha) b (h.symm.subset ((List.isort_perm ls' _).subset hb)) (by omega)
  unfold selectLinks
  rw [e]

theorem considered_perm (h : cfg.links.Perm links)
    (hd : ∀ ls, parseLinks env cfg.links = some ls → ∀ a ∈ ls, ∀ b ∈ ls, a.version = b.version → a = b) :
    ({ cfg with links := links } : Config).considered env = cfg.considered env := by
  unfold Config.considered
  cases hl : parseLinks env cfg.links with
  | none =>
    cases hl' : parseLinks env links with
    | none => rfl
    | some ls' =>
      obtain ⟨ls, h1, -⟩ := parseLinks_perm h.symm hl'
      rw [hl] at h1; cases h1
  | some ls =>
    obtain ⟨ls', h1, h2⟩ := parseLinks_perm h hl
    dsimp only
    rw [h1, Option.map_some, Option.map_some, selectLinks_perm h2 (hd ls hl)]

theorem installAll_links (gens : List Gen) :
    installAll env { cfg with links := links } gens = installAll env cfg gens := by
  induction gens with
  | nil => rfl
  | cons g rest ih =>
    rw [installAll, installAll, ih]
    rfl

theorem installGenerationsFromLinks_links (ls : List Link) :
    installGenerationsFromLinks env { cfg with links := links } ls = installGenerationsFromLinks env cfg ls := by
  unfold installGenerationsFromLinks
  congr 1
  funext gens
  rw [installAll_links]

/-- **C24** (the whole run). The order of the links on the command line does not matter: all that the installer does,
and how it ends, is the same. No two different links have the same number. -/
theorem C24_run_order (h : cfg.links.Perm links)
    (hd : ∀ ls, parseLinks env cfg.links = some ls → ∀ a ∈ ls, ∀ b ∈ ls, a.version = b.version → a = b) (fs : Fs) :
    run env { cfg with links := links } (start { cfg with links := links } fs) = run env cfg (start cfg fs) := by
  have e : run env { cfg with links := links } = run env cfg := by
    unfold run
    rw [considered_perm h hd]
    congr 1
    funext ls
    rw [installGenerationsFromLinks_links]
    rfl
  rw [e]
  rfl

end Verif.Tool

namespace Verif.Tool.Sample
open Verif StubName Generation

/-- The two links of the sample, in the other order. -/
example : run good { cfg with links := [link1, link2] } (start { cfg with links := [link1, link2] } disk0) =
    run good cfg (start cfg disk0) := by
  refine C24_run_order (cfg := cfg) (List.Perm.swap _ _ _) ?_ disk0
  intro ls h
  have key : ∀ a ∈ (parseLinks good cfg.links).getD [], ∀ b ∈ (parseLinks good cfg.links).getD [],
      a.version = b.version → a = b := by decide +kernel
  rw [h] at key
  exact key

/-- The sample, with a slash in the name of the specialisation. -/
def slashed : Env :=
  { good with bootJson := fun p => (good.bootJson p).map fun j =>
      { j with specialisations := j.specialisations.map fun s => (lit "a/b", s.2) } }

def slashedDisk : Fs := (run slashed cfg (start cfg disk0)).2.fs

def slashedGen : Gen :=
  ((allOf slashed cfg).find? fun g => g.specialisationName = some (lit "a/b")).getD first

/-- The directory that results from the name. -/
def slashedDir : Path := linuxDir cfg.esp ++ [lit "nixos-generation-1-specialisation-a"]

theorem slashed_steps : (run slashed cfg (start cfg disk0)).1 = .ok () ∧
    (run slashed cfg (start cfg disk0)).2.broken = [] ∧ slashedGen ∈ allOf slashed cfg ∧
    slashedGen.specialisationName = some (lit "a/b") ∧
    Change.rmdir slashedDir ∈ (run slashed cfg (start cfg disk0)).2.log ∧
    ∀ e ∈ slashedDisk.nodes, ∀ d, e.2 = .file d → lit "nixos-" <+: e.1.getLast?.getD [] →
      readSectionData slashed d (lit ".cmdline") ≠ .ok (some (utf8 (joinWith [' ']
        ((lit "init=/" ++ joinWith ['/'] slashedGen.spec.init) :: slashedGen.spec.kernelParams)))) := by
  have h : (run slashed cfg (start cfg disk0)).1 = .ok () ∧
    (run slashed cfg (start cfg disk0)).2.broken = [] ∧ slashedGen ∈ allOf slashed cfg ∧
    slashedGen.specialisationName = some (lit "a/b") ∧
    Change.rmdir slashedDir ∈ (run slashed cfg (start cfg disk0)).2.log ∧
    ∀ e ∈ slashedDisk.nodes, e.2 = .dir ∨ lit "nixos-" <+: e.1.getLast?.getD [] →
      readSectionData slashed (match e.2 with | .file d => d | .dir => []) (lit ".cmdline") ≠
        .ok (some (utf8 (joinWith [' ']
        ((lit "init=/" ++ joinWith ['/'] slashedGen.spec.init) :: slashedGen.spec.kernelParams)))) := by
    decide +kernel
  obtain ⟨h1, h2, h3, h4, h5, h6⟩ := h
  refine ⟨h1, h2, h3, h4, h5, fun e he d hd hn => ?_⟩
  have := h6 e he (Or.inr hn)
  rw [hd] at this
  exact this

/-- **C38** needs that the names of specialisations are file names. The boot entry of a specialisation with the name
`a/b` is put in a directory, which garbage collection removes again in the same run. The run succeeds, and there is no
boot entry for the specialisation. -/
theorem C38_name_with_slash : Succeeded slashed cfg disk0 ∧ Reliable slashed.os ∧
    Change.rmdir slashedDir ∈ (run slashed cfg (start cfg disk0)).2.log ∧
    ∃ g, Considers slashed cfg g ∧ g.specialisationName = some (lit "a/b") ∧
      ∀ p, IsEntry cfg.esp p → ¬ Boots slashed cfg.esp (run slashed cfg (start cfg disk0)).2.fs g p := by
  obtain ⟨h1, h2, h3, h4, h5, h6⟩ := slashed_steps
  refine ⟨⟨h1, h2⟩, ⟨fun _ => rfl, fun _ l => List.Perm.refl l⟩, h5, slashedGen, considers_iff.2 h3, h4, ?_⟩
  rintro p ⟨n, rfl, hn, -⟩ ⟨data, k, i, v, hd, he, -⟩
  have hne : entryFile cfg.esp n ≠ [] := by simp [entryFile]
  have hd : slashedDisk.fileAt (entryFile cfg.esp n) = some data := hd
  have hm := mem_of_fileAt (f := slashedDisk) hd hne
  exact h6 _ hm data rfl (by simpa [entryFile] using hn) ((readSectionData_iff _ _ _ _).2 he.cmdline)

end Verif.Tool.Sample
