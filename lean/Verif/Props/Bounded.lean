import Verif.Spec.Bounded
import Verif.Props.InstallState
import Verif.Props.Generation
import Verif.Props.MeasuredEntries
/-!
# The number of files on the boot partition

C99.
-/
namespace Verif.Tool
open Verif StubName Generation

/-- Pigeonhole: `R` assigns to each of `ps` one of `xs`, and to none of `xs` more than one. -/
theorem length_le_of_assign {α β : Type} [DecidableEq α] {R : β → α → Prop} (hR : ∀ x p p', R x p → R x p' → p = p') :
    ∀ (xs : List β) (ps : List α), ps.Nodup → (∀ p ∈ ps, ∃ x ∈ xs, R x p) → ps.length ≤ xs.length
  | [], [], _, _ => by simp
  | [], p :: _, _, h => by
    obtain ⟨x, hx, -⟩ := h p (by simp)
    cases hx
  | x :: xs, ps, hn, h => by
    by_cases hp : ∃ p ∈ ps, R x p
    · obtain ⟨p, hp, hx⟩ := hp
      have := length_le_of_assign hR xs (ps.erase p) (hn.erase p) fun q hq => by
        rw [hn.mem_erase_iff] at hq
        obtain ⟨y, hy, hr⟩ := h q hq.2
        rcases List.mem_cons.1 hy with rfl | hy
        · exact absurd (hR _ _ _ hr hx) hq.1
        · exact ⟨y, hy, hr⟩
      rw [List.length_erase_of_mem hp] at this
      simp only [List.length_cons]
      omega
    · have := length_le_of_assign hR xs ps hn fun q hq => by
        obtain ⟨y, hy, hr⟩ := h q hq
        rcases List.mem_cons.1 hy with rfl | hy
        · exact absurd ⟨q, hq, hr⟩ hp
        · exact ⟨y, hy, hr⟩
      simp only [List.length_cons]
      omega

variable {env world : Env} {cfg : Config} {fs fs' : Fs} {esp dir : Path} {known : Gen → Bytes → Prop}
  {shows : Bytes → Bytes → Prop}

theorem considers_allOf {g : Gen} {links : List Link} (hl : cfg.considered env = some links)
    (hg : Considers env cfg g) : g ∈ allOf env links := by
  obtain ⟨links', link, j, h1, h2, h3, h4⟩ := hg.ex
  rw [hl] at h1
  cases h1
  unfold allOf
  refine List.mem_flatMap.2 ⟨link, h2, ?_⟩
  rw [h3]; exact h4

/-- **C99**. After a successful run there are at most as many boot entries, and as many measurements, as there are
generations and specialisations, and at most twice as many kernels and initrds. -/
theorem C99_bounded (hs : SafeInput env cfg) (hf : FaithfulTools env) (hsep : Separate cfg)
    (hr : Reliable env.os) (ht : fs.Tree) (hc : Sound env cfg.esp fs) (hok : Succeeded env cfg fs)
    (hD : ∀ links, cfg.considered env = some links → Distinct env cfg (allOf env links))
    (hM : AllMeasured env cfg fs) {links : List Link} (hl : cfg.considered env = some links) :
    FilesFor (allOf env links).length cfg (run env cfg (start cfg fs)).2.fs := by
  obtain ⟨h1, h2, h3⟩ := C54_no_leftovers hs hf hsep hr ht hc hok hD hM rfl
  have one : ∀ {g : Gen}, Considers env cfg g → ∀ {key key' n n'}, KeyOf env cfg.signer key → KeyOf env cfg.signer key' →
      IsNameOf env.uni env.sha g key n → IsNameOf env.uni env.sha g key' n' →
      ((run env cfg (start cfg fs)).2.fs.get (entryFile cfg.esp n)).isSome →
      ((run env cfg (start cfg fs)).2.fs.get (entryFile cfg.esp n')).isSome → n = n' := by
    intro g hg key key' n n' hk hk' hn hn' hx hx'
    obtain ⟨k, m, hkk, -, -, hu⟩ := C55_one_entry_each hs hf hsep hr ht hc hok hD hM hg
    obtain rfl := hk.unique hkk
    obtain rfl := hk'.unique hkk
    rw [hu n hn hx, hu n' hn' hx']
  have isSome : ∀ {p : Path} {d : Bytes}, (run env cfg (start cfg fs)).2.fs.fileAt p = some d →
      ((run env cfg (start cfg fs)).2.fs.get p).isSome := by
    intro p d h
    rw [Fs.fileAt_eq_some] at h
    rw [h]; rfl
  refine ⟨?_, ?_, ?_⟩
  · intro ps hn hps
    refine length_le_of_assign (R := fun g p => ∃ key n, Considers env cfg g ∧ KeyOf env cfg.signer key ∧
      IsNameOf env.uni env.sha g key n ∧ p = entryFile cfg.esp n ∧
      ((run env cfg (start cfg fs)).2.fs.get p).isSome) ?_ _ ps hn ?_
    · rintro g p p' ⟨key, n, hg, hk, hm, rfl, hx⟩ ⟨key', n', -, hk', hm', rfl, hx'⟩
      rw [one hg hk hk' hm hm' hx hx']
    · intro p hp
      obtain ⟨q, n, rfl, hq, hn, hx⟩ := hps p hp
      obtain ⟨rfl, -, g, key, hg, hk, hm⟩ := h2 q n hq hn hx
      exact ⟨g, considers_allOf hl hg, key, n, hg, hk, hm, by simp [entryFile, linuxDir], hx⟩
  · intro ps hn hps
    have e : ((allOf env links).flatMap fun g => [(g, true), (g, false)]).length = 2 * (allOf env links).length := by
      generalize allOf env links = l
      induction l with
      | nil => rfl
      | cons g l ih => rw [List.flatMap_cons, List.length_append, ih]; simp only [List.length_cons, List.length_nil]; omega
    rw [← e]
    refine length_le_of_assign (R := fun (x : Gen × Bool) p => ∃ key n data l h, Considers env cfg x.1 ∧
      KeyOf env cfg.signer key ∧ IsNameOf env.uni env.sha x.1 key n ∧
      (run env cfg (start cfg fs)).2.fs.fileAt (entryFile cfg.esp n) = some data ∧ p = caFile cfg.esp l h ∧
      RefersToCa env cfg.esp data (if x.2 then lit ".linux" else lit ".initrd")
        (if x.2 then lit ".linuxh" else lit ".initrdh") l h) ?_ _ ps hn ?_
    · rintro x p p' ⟨key, n, data, l, h, hg, hk, hm, hd, rfl, hr⟩ ⟨key', n', data', l', h', -, hk', hm', hd', rfl, hr'⟩
      obtain rfl := one hg hk hk' hm hm' (isSome hd) (isSome hd')
      rw [hd] at hd'
      cases hd'
      exact (hr.agree hr'.2).1
    · intro p hp
      obtain ⟨a, b, c⟩ := hps p hp
      obtain ⟨g, key, n, data, l, h, hg, hk, hm, hd, e, hr | hr, -⟩ := h1 p a b c
      · exact ⟨(g, true), List.mem_flatMap.2 ⟨g, considers_allOf hl hg, by simp⟩, key, n, data, l, h, hg, hk, hm, hd, e, hr⟩
      · exact ⟨(g, false), List.mem_flatMap.2 ⟨g, considers_allOf hl hg, by simp⟩, key, n, data, l, h, hg, hk, hm, hd, e, hr⟩
  · intro dir hdir ps hn hps
    refine length_le_of_assign (R := fun g p => p = measurementFile dir g) (fun _ _ _ h h' => h.trans h'.symm) _ ps hn ?_
    intro p hp
    obtain ⟨a, b, c⟩ := hps p hp
    obtain ⟨g, hg, e⟩ := h3 dir p hdir a b c
    exact ⟨g, considers_allOf hl hg, e⟩

/-- **C99** (the number of generations). With a configuration limit there are no more generations than that, each
with its specialisations. -/
theorem C99_generations {links : List Link} (hl : cfg.considered env = some links) (h0 : 0 < cfg.configurationLimit)
    {k : Nat} (hk : ∀ link ∈ links, ∀ j, env.bootJson link.path = some j → j.specialisations.length ≤ k) :
    (allOf env links).length ≤ cfg.configurationLimit * (k + 1) := by
  have h1 : links.length ≤ cfg.configurationLimit := by
    unfold Config.considered at hl
    cases hp : parseLinks env cfg.links with
    | none => rw [hp] at hl; cases hl
    | some all =>
      rw [hp] at hl
      cases hl
      obtain ⟨-, -, h, -⟩ := C24_limit cfg.configurationLimit h0 all
      rw [h]; exact Nat.min_le_left _ _
  have h2 : (allOf env links).length ≤ links.length * (k + 1) := by
    unfold allOf
    clear hl h1
    induction links with
    | nil => simp
    | cons link rest ih =>
      rw [List.flatMap_cons, List.length_append, List.length_cons, Nat.succ_mul, Nat.add_comm]
      refine Nat.add_le_add (ih fun l hl => hk l (List.mem_cons_of_mem _ hl)) ?_
      cases hj : env.bootJson link.path with
      | none => simp
      | some j =>
        have := hk link (by simp) j hj
        simp only [fromBootJson, List.length_cons, List.length_map]
        omega
  exact Nat.le_trans h2 (Nat.mul_le_mul_right _ h1)

/-- **C99** (over time). With measurements from the start: however many updates there were, interrupted or not, after a
successful run there are no more files than that. -/
theorem C99_over_time (hu : Unambiguous world known) (ht : TagsStand known)
    (h0 : Orderly world esp dir known shows fs) (hc : Sound world esp fs)
    (h : Updates world esp dir known shows fs fs') (hr : MeasuringRun world esp dir known shows env cfg)
    (hok : Succeeded env cfg fs')
    (hD : ∀ links, cfg.considered env = some links → Distinct env cfg (allOf env links))
    {links : List Link} (hl : cfg.considered env = some links) :
    FilesFor (allOf env links).length cfg (run env cfg (start cfg fs')).2.fs := by
  obtain ⟨ho, hs⟩ := C98_entries_measured hu ht h0 hc h
  have hp := hr.proper
  obtain rfl := hp.esp
  refine C99_bounded hp.safe hp.tools hp.separate hr.reliable ho.tree ?_ hok hD ?_ hl
  · exact hs.congr hp.inWorld.parse.symm hp.inWorld.sha.symm
  · intro p hpd g key n hg hk hn hx
    rw [hr.dir] at hpd
    cases hpd
    obtain ⟨data, hd⟩ := Option.isSome_iff_exists.1 hx
    obtain ⟨m, hm, -⟩ := ho.measured g key n data (hp.known g key hg hk)
      (by rw [← hp.inWorld.uni, ← hp.inWorld.sha]; exact hn) hd
    rw [hm]; rfl

end Verif.Tool

namespace Verif.Tool.Sample
open Verif StubName Generation

/-- The numbers on a disk: boot entries, kernels and initrds, measurements. -/
def fileCounts (f : Fs) : Nat × Nat × Nat :=
  ((f.nodes.filter fun e => linuxDir cfg.esp <+: e.1.dropLast ∧ lit "nixos-" <+: e.1.getLast?.getD []).length,
   (f.nodes.filter fun e => nixosDir cfg.esp <+: e.1 ∧ e.1 ≠ nixosDir cfg.esp).length,
   (f.nodes.filter fun e => Tool.lockDir lockDir <+: e.1 ∧ e.1 ≠ Tool.lockDir lockDir).length)

/-- On the empty disk the two generations, and the specialisation of one of them, lead to three entries. Some kernels
and initrds are shared. -/
example {links : List Link} (hl : cfg.considered good = some links) :
    FilesFor 3 cfg (run good cfg (start cfg disk0)).2.fs ∧
    fileCounts (run good cfg (start cfg disk0)).2.fs = (3, 4, 3) := by
  refine ⟨?_, by decide +kernel⟩
  have e : (Tool.allOf good links).length = 3 := by
    rw [considered_good links hl]; decide +kernel
  rw [← e]
  exact C99_bounded safe_good (faithful _) separate reliable_good tree0 sound0 succeeded0 distinct0 measured0 hl

theorem keyOf_updated {key : Bytes} (h : KeyOf updated cfg.signer key) : KeyOf good cfg.signer key := by
  have h : updated.store [lit "keys", lit "db.pem"] = some key := h
  have e : updated.store [lit "keys", lit "db.pem"] = good.store [lit "keys", lit "db.pem"] := by decide
  rw [e] at h; exact h

theorem distinct_updated : ∀ links, cfg.considered updated = some links →
    Distinct updated cfg (Tool.allOf updated links) := by
  intro links h
  have e1 : cfg.considered updated = cfg.considered good := rfl
  have e2 : Tool.allOf updated links = Tool.allOf good links := rfl
  have e3 : updated.sha = good.sha := rfl
  rw [e1] at h
  have hd := distinct0 links h
  unfold Distinct at hd ⊢
  rw [e2, e3]
  intro key hk
  exact hd key (keyOf_updated hk)

theorem tried_updates : Updates good cfg.esp lockDir known shown disk0 oneGenTried :=
  .count (c := .left 3) (c' := .leftDone 2 1) (.run .nil measuring1 oneGen_steps.1) noCounter_first
    first_isEntry .try_first oneGen_steps.2.1 oneGen_steps.2.2.2

/-- One generation, a boot, and an update with two generations. -/
example (hok : Succeeded updated cfg oneGenTried) {links : List Link} (hl : cfg.considered updated = some links) :
    FilesFor (Tool.allOf updated links).length cfg (run updated cfg (start cfg oneGenTried)).2.fs :=
  C99_over_time (env := updated) (cfg := cfg) unambiguous tagsStand orderly0 sound0 tried_updates measuringUpdated hok
    distinct_updated hl

/-- The limit of the sample. -/
example {links : List Link} (hl : { cfg with configurationLimit := 1 }.considered good = some links) :
    (Tool.allOf good links).length ≤ 1 * (1 + 1) := by
  refine C99_generations (cfg := { cfg with configurationLimit := 1 }) hl (by decide) ?_
  have h : ∀ link ∈ ({ cfg with configurationLimit := 1 }.considered good).getD [],
      ((good.bootJson link.path).map fun j => j.specialisations.length).getD 0 ≤ 1 := by decide +kernel
  rw [hl] at h
  intro link hm j hj
  have := h link hm
  rw [hj] at this
  exact this

/-- With a missing measurement there are more entries than generations until the next run. -/
example : (fileCounts (run good cfg (start cfg unmeasured)).2.fs).1 = 4 ∧
    (fileCounts (run good cfg (start cfg (run good cfg (start cfg unmeasured)).2.fs)).2.fs).1 = 3 := by decide +kernel

end Verif.Tool.Sample
