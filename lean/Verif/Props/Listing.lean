import Verif.Spec.Listing
import Verif.Props.InstallState
import Verif.Props.MeasuredEntries
/-!
# The order in which directories are listed (C102)
-/
namespace Verif.Tool
open Verif StubName Generation

variable {env : Env} {cfg : Config} {fs : Fs} {list : Nat → List Path → List Path}
  {sub : ∀ t l p, p ∈ list t l → p ∈ l}

/-! ### What does not list directories -/

local notation "env'" => Env.listing env list sub

theorem listing_parseLinks (l : List Path) : parseLinks env' l = parseLinks env l := by
  induction l with
  | nil => rfl
  | cons p l ih => unfold parseLinks; rw [ih]; rfl

theorem listing_considered : cfg.considered env' = cfg.considered env := by
  unfold Config.considered; rw [listing_parseLinks]

theorem listing_getPublicKey (s : Signer) : s.getPublicKey env' = s.getPublicKey env := by cases s <;> rfl

theorem listing_mkdirMissing (l : List Path) : mkdirMissing (Env.listing env list sub).os l = mkdirMissing env.os l := by
  induction l with
  | nil => rfl
  | cons p l ih => unfold mkdirMissing; rw [ih]; rfl

theorem listing_ensureParentDir (p : Path) : ensureParentDir (Env.listing env list sub).os p = ensureParentDir env.os p := by
  unfold ensureParentDir createDirAll
  simp only [listing_mkdirMissing]

theorem listing_lockPe (src : Src) (p : Path) : lockPe env' src p = lockPe env src p := by
  unfold lockPe
  simp only [listing_ensureParentDir]
  rfl

theorem listing_registerMeasurement (g : Gen) :
    registerMeasurement env' cfg g = registerMeasurement env cfg g := rfl

theorem listing_installSigned (s : Signer) (src : Src) (p : Path) :
    installSigned env' s src p = installSigned env s src p := by
  unfold installSigned
  simp only [listing_ensureParentDir]
  cases s <;> rfl

theorem listing_forceInstall (src : Src) (p : Path) : forceInstall env' src p = forceInstall env src p := by
  unfold forceInstall atomicCopy
  simp only [listing_ensureParentDir]
  rfl

theorem listing_install (src : Src) (p : Path) : install env' src p = install env src p := by
  unfold install
  simp only [listing_forceInstall]
  rfl

theorem listing_installNixosCa (src : Src) (l : Str) : installNixosCa env' cfg src l = installNixosCa env cfg src l := by
  unfold installNixosCa
  simp only [listing_install]
  rfl

theorem listing_measureImage (g : Gen) (d : Bytes) : measureImage env' cfg g d = measureImage env cfg g d := by
  unfold measureImage
  simp only [listing_lockPe]

theorem listing_installNewGeneration (g : Gen) :
    installNewGeneration env' cfg g = installNewGeneration env cfg g := by
  unfold installNewGeneration
  simp only [listing_installNixosCa, listing_measureImage, listing_getPublicKey, listing_installSigned]
  rfl

theorem listing_replaceSystemdBoot : replaceSystemdBoot env' cfg = replaceSystemdBoot env cfg := by
  unfold replaceSystemdBoot measureNext
  simp only [listing_lockPe, listing_installSigned]
  rfl

theorem listing_verifyPath (s : Signer) (p : Path) : s.verifyPath env' p = s.verifyPath env p := by cases s <;> rfl

theorem listing_installSystemdBoot : installSystemdBoot env' cfg = installSystemdBoot env cfg := by
  unfold installSystemdBoot
  simp only [listing_replaceSystemdBoot, listing_install, listing_verifyPath]
  rfl

theorem listing_readGenerations (l : List Link) : readGenerations env' l = readGenerations env l := by
  induction l with
  | nil => rfl
  | cons p l ih => unfold readGenerations; rw [ih]; rfl

theorem listing_syncFs (p : Path) : syncFs (Env.listing env list sub).os p = syncFs env.os p := rfl

/-! ### Looking for the boot entry of a generation -/

theorem head_of_perm {α : Type} {l l' : List α} (hp : l.Perm l') (h : ∀ a ∈ l, ∀ b ∈ l, a = b) :
    l.head? = l'.head? := by
  cases l with
  | nil => rw [List.nil_perm.1 hp]
  | cons a l =>
    cases l' with
    | nil => exact absurd hp.length_eq (by simp)
    | cons b l' =>
      have : b ∈ a :: l := hp.mem_iff.2 (by simp)
      simp [h a (by simp) b this]

theorem readDir_cases (os : Os) (p : Path) (s : State) :
    (∃ e s', ∀ os' : Os, os'.fault = os.fault → readDir os' p s = (.err e, s')) ∨
    ∃ s' t, s'.fs = s.fs ∧ ∀ os' : Os, os'.fault = os.fault →
      readDir os' p s = (.ok (os'.list t ((s.fs.children p).map fun n => p ++ [n])), s') := by
  unfold readDir guarded faulty
  simp only [RM.bind_run, next, getFs, require, RM.pure_run]
  by_cases hf : os.fault s.tick = true
  · left
    refine ⟨(), { s with tick := s.tick + 1 }, fun os' e => ?_⟩
    rw [e]
    simp [hf, RM.throw]
  · by_cases hd : s.fs.get p = some .dir
    · right
      refine ⟨{ s with tick := s.tick + 2 }, s.tick + 1, rfl, fun os' e => ?_⟩
      rw [e]
      simp [hf, hd]
    · left
      refine ⟨(), { s with tick := s.tick + 2 }, fun os' e => ?_⟩
      rw [e]
      simp [hf, hd, RM.throw]

theorem listing_readInstalled (hl : ListsAll env.os.list) (hL : ListsAll list) {pfx : Str} {s : State}
    (h : ∀ n n', isMatch env.uni pfx n = true → isMatch env.uni pfx n' = true →
      (s.fs.get (entryFile cfg.esp n)).isSome → (s.fs.get (entryFile cfg.esp n')).isSome → n = n') :
    readInstalledGeneration env' cfg pfx s = readInstalledGeneration env cfg pfx s := by
  unfold readInstalledGeneration
  rw [RM.bind_run, RM.bind_run, paths_linux']
  rcases readDir_cases env.os (linuxDir cfg.esp) s with ⟨e, s', h'⟩ | ⟨s', t, -, h'⟩
  · have e1 := h' (Env.listing env list sub).os rfl
    have e2 := h' env.os rfl
    rw [e1, e2]
  · have e1 := h' (Env.listing env list sub).os rfl
    have e2 := h' env.os rfl
    rw [e1, e2]
    dsimp only
    have hh : (matchingEntries env' pfx (list t ((s.fs.children (linuxDir cfg.esp)).map fun n => linuxDir cfg.esp ++ [n]))).head? =
        (matchingEntries env pfx (env.os.list t ((s.fs.children (linuxDir cfg.esp)).map fun n => linuxDir cfg.esp ++ [n]))).head? := by
      refine head_of_perm (((hL t _).trans (hl t _).symm).filter _) ?_
      intro a ha b hb
      unfold matchingEntries at ha hb
      rw [List.mem_filter] at ha hb
      obtain ⟨n, hn, rfl⟩ := List.mem_map.1 ((hL t _).mem_iff.1 ha.1)
      obtain ⟨n', hn', rfl⟩ := List.mem_map.1 ((hL t _).mem_iff.1 hb.1)
      rw [Fs.mem_children] at hn hn'
      have e : ∀ n, linuxDir cfg.esp ++ [n] = entryFile cfg.esp n := fun n => by simp [linuxDir, entryFile]
      rw [e] at hn hn'
      have := h n n' (by simpa [Env.listing] using ha.2) (by simpa [Env.listing] using hb.2) hn hn'
      rw [this]
    show (do
      let stubTarget ← ofOption _
      _) s' = _
    erw [hh]
    rfl

theorem getPublicKey_cases (env : Env) (signer : Signer) (s : State) :
    (signer.getPublicKey env s).2.fs = s.fs ∧
      ∀ key, (signer.getPublicKey env s).1 = .ok key → KeyOf env signer key := by
  obtain ⟨⟨l, h1, h2, h3⟩, -, -, h4⟩ := getPublicKey_triple env signer (A := NoChange)
    (P := fun _ => True) (fun _ _ _ => trivial) s trivial
  have hl : l = [] := by
    cases l with
    | nil => rfl
    | cons c l => exact absurd h3.1 id
  subst hl
  exact ⟨h2, fun key h => (h4 key h).2⟩

theorem listing_registerInstalled (hl : ListsAll env.os.list) (hL : ListsAll list) {g : Gen} {s : State}
    (h : ∀ key n n', KeyOf env cfg.signer key → isMatch env.uni (stubPrefix env.sha g key) n = true →
      isMatch env.uni (stubPrefix env.sha g key) n' = true →
      (s.fs.get (entryFile cfg.esp n)).isSome → (s.fs.get (entryFile cfg.esp n')).isSome → n = n') :
    registerInstalledGeneration env' cfg g s = registerInstalledGeneration env cfg g s := by
  unfold registerInstalledGeneration
  rw [RM.bind_run, RM.bind_run, listing_getPublicKey]
  obtain ⟨hf, hk⟩ := getPublicKey_cases env cfg.signer s
  revert hf hk
  generalize cfg.signer.getPublicKey env s = r
  obtain ⟨r, s1⟩ := r
  intro hf hk
  cases r with
  | err e => rfl
  | panic => rfl
  | ok key =>
    have e := listing_readInstalled (sub := sub) (cfg := cfg) hl hL (pfx := stubPrefix env.sha g key) (s := s1)
      (fun n n' => by rw [show s1.fs = s.fs from hf]; exact h key n n' (hk key rfl))
    dsimp only
    rw [RM.bind_run, RM.bind_run]
    have e' : RM.attempt (readInstalledGeneration env' cfg (stubPrefix env.sha g key)) s1 =
        RM.attempt (readInstalledGeneration env cfg (stubPrefix env.sha g key)) s1 := by
      unfold RM.attempt
      rw [e]
    rw [show RM.attempt (readInstalledGeneration env' cfg (stubPrefix (Env.listing env list sub).sha g key)) s1 = _ from e']
    simp only [listing_registerMeasurement]

theorem listing_installGeneration (hl : ListsAll env.os.list) (hL : ListsAll list) {g : Gen} {s : State}
    (h : ∀ key n n', KeyOf env cfg.signer key → isMatch env.uni (stubPrefix env.sha g key) n = true →
      isMatch env.uni (stubPrefix env.sha g key) n' = true →
      (s.fs.get (entryFile cfg.esp n)).isSome → (s.fs.get (entryFile cfg.esp n')).isSome → n = n') :
    installGeneration env' cfg g s = installGeneration env cfg g s := by
  unfold installGeneration
  rw [RM.bind_run, RM.bind_run, listing_registerInstalled hl hL h]
  simp only [listing_installNewGeneration]

/-! ### Installing a generation adds no entry of another one -/

theorem not_prefix_of_length {α : Type} {a b : List α} (h : b.length < a.length) : ¬ a <+: b := fun hp =>
  absurd hp.length_le (by omega)

theorem entryFile_length (esp : Path) (n : Str) : (entryFile esp n).length = esp.length + 3 := by simp [entryFile]

theorem InstallStep.entry_before (hs : SafeInput env cfg) (hsep : Separate cfg) {g₀ : Gen} {f : Fs} {c : Change}
    (st : InstallStep env cfg (.one g₀) f c) {g : Gen} {key : Bytes} {n : Str}
    (hk : KeyOf env cfg.signer key) (hm : isMatch env.uni (stubPrefix env.sha g key) n = true)
    (ha : Apart env.sha key g₀ g) (h : ((f.apply c).get (entryFile cfg.esp n)).isSome) :
    (f.get (entryFile cfg.esp n)).isSome := by
  have hE : IsEntry cfg.esp (entryFile cfg.esp n) := isMatch_isEntry hm
  have hd : ∀ p : Path, cfg.pcrlockDirectory = some p → ∀ d : Str, d ∈ [lit "635-lanzaboote.pcrlock.d", lit "630-bootloader.pcrlock.d"] →
      ¬ entryFile cfg.esp n <+: p ++ [d] := by
    intro p hp d hd hpre
    rcases List.prefix_concat_iff.1 hpre with e | e
    · obtain ⟨n', e', -, ⟨x, rfl⟩⟩ := hE
      rw [e', entryFile_snoc] at e
      have := (List.append_inj' e rfl).2
      simp only [List.cons.injEq, and_true] at this
      subst this
      simp only [List.mem_cons, List.not_mem_nil, or_false] at hd
      rcases hd with hd | hd <;> exact absurd (congrArg List.getLast? hd) (by simp [lit])
    · exact (hsep p hp).2.2 (List.IsPrefix.trans ⟨[n], by simp [linuxDir, entryFile]⟩ e)
  cases st with
  | @replace to dur t r =>
    rcases r.get (entryFile cfg.esp n) (fun e => isEntry_not_tmp hE (e ▸ (t.tmp hs).1)) with e | ⟨e1, e2⟩ | ⟨e, -⟩
    · rwa [e] at h
    · exfalso
      refine not_prefix_of_length ?_ (r.dir e1 e2)
      rw [entryFile_length]
      cases t with
      | kernel _ _ _ _ e => subst e; simp [kernelFile, caFile]
      | initrd _ _ _ _ e => subst e; simp [initrdFile, caFile]
      | entry _ _ _ e => subst e; simp [entryFile]
      | loader _ e => rcases e with rfl | rfl <;> simp [fallbackFile, systemdFile]
      | conf e => subst e; simp [confFile]
    · exfalso
      cases t with
      | kernel _ _ _ _ e' => exact caFile_ne_entryFile _ _ _ _ (e'.symm.trans e.symm)
      | initrd _ _ _ _ e' => exact caFile_ne_entryFile _ _ _ _ (e'.symm.trans e.symm)
      | @entry g' key' _ hg ho hk' e' =>
        cases hk.unique hk'
        obtain rfl : g' = g₀ := ho
        have := entryFile_inj (e.trans e')
        subst this
        rcases isMatch_both (isMatch_stubName ..) hm with x | x
        · exact ha.1 x
        · exact ha.2 x
      | loader hl e' => exact hl
      | conf e' => exact hE.ne_of_lastTwo (confFile_lastTwo _) (by decide) (e.trans e')
  | @measured g' p hg ho hp o =>
    rcases o.get (entryFile cfg.esp n) (fun e => measurementFile_ne_entryFile _ _ _ _ e.symm) with e | ⟨e1, e2⟩
    · rwa [e] at h
    · refine absurd (o.dir e1 e2) ?_
      rw [show (measurementFile p g').dropLast = p ++ [lit "635-lanzaboote.pcrlock.d"] by
        simp [measurementFile]]
      exact hd p hp _ (by simp)
  | next hl hp o => exact absurd hl id
  | current hl => exact absurd hl id
  | sync hl e => exact absurd hl id

/-- `gens` have at most one entry each. -/
def AtMostOne (env : Env) (cfg : Config) (gens : List Gen) (fs : Fs) : Prop :=
  ∀ g ∈ gens, ∀ key n n', KeyOf env cfg.signer key → isMatch env.uni (stubPrefix env.sha g key) n = true →
    isMatch env.uni (stubPrefix env.sha g key) n' = true →
    (fs.get (entryFile cfg.esp n)).isSome → (fs.get (entryFile cfg.esp n')).isSome → n = n'

theorem AtMostOne.back {gens : List Gen} {fs fs' : Fs} (h : AtMostOne env cfg gens fs)
    (hb : ∀ g ∈ gens, ∀ key n, KeyOf env cfg.signer key → isMatch env.uni (stubPrefix env.sha g key) n = true →
      (fs'.get (entryFile cfg.esp n)).isSome → (fs.get (entryFile cfg.esp n)).isSome) :
    AtMostOne env cfg gens fs' := fun g hg key n n' hk hm hm' h1 h2 =>
  h g hg key n n' hk hm hm' (hb g hg key n hk hm h1) (hb g hg key n' hk hm' h2)

theorem chain_entry_before (hs : SafeInput env cfg) (hsep : Separate cfg) {g₀ : Gen} {f : Fs} {l : List Change}
    (ch : Fs.Chain (InstallStep env cfg (.one g₀)) f l) {g : Gen} {key : Bytes} {n : Str}
    (hk : KeyOf env cfg.signer key) (hm : isMatch env.uni (stubPrefix env.sha g key) n = true)
    (ha : Apart env.sha key g₀ g) (h : ((f.replay l).get (entryFile cfg.esp n)).isSome) :
    (f.get (entryFile cfg.esp n)).isSome := by
  induction l generalizing f with
  | nil => exact h
  | cons c l ih => exact ch.1.entry_before hs hsep hk hm ha (ih ch.2 h)

theorem listing_installAll (hs : SafeInput env cfg) (hsep : Separate cfg) (hl : ListsAll env.os.list)
    (hL : ListsAll list) {gens : List Gen} (hc : ∀ g ∈ gens, Considers env cfg g) (hd : Distinct env cfg gens)
    {s : State} (h : AtMostOne env cfg gens s.fs) : installAll env' cfg gens s = installAll env cfg gens s := by
  induction gens generalizing s with
  | nil => rfl
  | cons g gens ih =>
    unfold installAll
    rw [RM.bind_run, RM.bind_run, listing_installGeneration hl hL (h g (by simp))]
    obtain ⟨l, -, h2, h3, -⟩ := installGeneration_one hs (hc g (by simp)) s
    have : installAll env' cfg gens (installGeneration env cfg g s).2 = installAll env cfg gens (installGeneration env cfg g s).2 := by
      refine ih (fun x hx => hc x (by simp [hx])) (fun key hk => (List.pairwise_cons.1 (hd key hk)).2) ?_
      refine AtMostOne.back (fs := s.fs) (fun x hx => h x (by simp [hx])) ?_
      intro x hx key n hk hm hsome
      rw [h2] at hsome
      exact chain_entry_before hs hsep h3 hk hm ((List.pairwise_cons.1 (hd key hk)).1 x hx) hsome
    revert this
    generalize installGeneration env cfg g s = r
    obtain ⟨r, s1⟩ := r
    intro this
    cases r with
    | ok _ => exact this
    | err e => rfl
    | panic => rfl

theorem listing_beforeCollect (hs : SafeInput env cfg) (hsep : Separate cfg) (hl : ListsAll env.os.list)
    (hL : ListsAll list) (hf : Faultless env)
    (hd : ∀ links, cfg.considered env = some links → Distinct env cfg (allOf env links)) {s : State}
    (h : NoTwoEntries env cfg s.fs) : beforeCollect env' cfg s = beforeCollect env cfg s := by
  unfold beforeCollect installGenerationsFromLinks
  rw [listing_considered, listing_installSystemdBoot]
  rw [RM.bind_run, RM.bind_run]
  cases hc : cfg.considered env with
  | none => rfl
  | some links =>
    simp only [ofOption, RM.pure_run]
    rw [RM.bind_run, RM.bind_run, RM.bind_run, RM.bind_run, listing_readGenerations]
    obtain ⟨gens, t, b, e, h1, -, -, -, h5⟩ := readGenerations_spec env links s
    rw [e]
    dsimp only
    by_cases hg : gens.isEmpty = true
    · rw [if_pos hg, if_pos hg]
    · rw [if_neg hg, if_neg hg, RM.bind_run, RM.bind_run]
      have hall := h5 (Or.inr hf)
      have hcon : ∀ g ∈ allOf env links, Considers env cfg g := fun g hg => by
        unfold allOf at hg
        obtain ⟨link, hlink, hg⟩ := List.mem_flatMap.1 hg
        cases hj : env.bootJson link.path with
        | none => rw [hj] at hg; simp at hg
        | some j => rw [hj] at hg; exact ⟨links, link, j, hc, hlink, hj, hg⟩
      rw [hall, listing_installAll hs hsep hl hL hcon (hd links hc)]
      · rfl
      · intro g hg key n n' hk hm hm' 
        exact h g key n n' (hcon g hg) hk (isNameOf hm) (isNameOf hm')

/-! ### Garbage collection -/

theorem collect_facts (cfg : Config) (hr : Reliable env.os) {s : State} (ht : s.fs.Tree) :
    ∃ s' l, collect env cfg s = (.ok (), s') ∧ s'.log = s.log ++ l ∧ (∀ c ∈ l, c = .collecting ∨ Removal c) ∧
      s'.broken = s.broken ∧ s'.fs.Tree ∧
      ∀ x, s'.fs.get x = open Classical in
        if s.broken = [] ∧ ∃ q, DoomedAny cfg s.roots q ∧ q <+: x then none else s.fs.get x := by
  by_cases hbr : s.broken = []
  · have e' : collect env cfg s = (do
        collectGarbage env.os cfg.paths.nixos
        collectGarbageWithFilter env.os cfg.paths.linux startsWithNixos
        collectMeasurements env cfg)
        { s with fs := s.fs.apply .collecting, log := s.log ++ [Change.collecting] } := by
      simp [collect, RM.get, hbr, change]
    obtain ⟨⟨l', g1, g2, g3⟩, -, gb, -⟩ := collectThree_triple (env := env) (cfg := cfg) s.roots
      { s with fs := s.fs.apply .collecting, log := s.log ++ [Change.collecting] } rfl
    rw [← e'] at g1 g2 gb
    obtain ⟨s'', x1, x2, x3, x4⟩ := collectThree_exact (cfg := cfg) hr
      (s := { s with fs := s.fs.apply .collecting, log := s.log ++ [Change.collecting] }) ht
    rw [← e'] at x1
    rw [x1] at g1 gb
    refine ⟨s'', .collecting :: l', x1, ?_, ?_, gb, x2, fun x => ?_⟩
    · rw [show s''.log = _ from g1]; simp
    · intro c hc
      rcases List.mem_cons.1 hc with rfl | hc
      · exact .inl rfl
      · right
        have : ∀ c ∈ l', Removal c := g3.forall fun f c h => by
          cases h with
          | nixos h => cases h <;> trivial
          | linux h => cases h <;> trivial
          | lock _ h => cases h <;> trivial
        exact this c hc
    · by_cases hx : ∃ q, DoomedAny cfg s.roots q ∧ q <+: x
      · rw [if_pos ⟨hbr, hx⟩]; exact x3 x hx
      · rw [if_neg fun h => hx h.2]; exact x4 x hx
  · refine ⟨s, [], by simp [collect, RM.get, hbr], by simp, by simp, rfl, ht, fun x => ?_⟩
    rw [if_neg fun h => hbr h.1]

/-! ## The properties -/

theorem beforeCollect_tree (hs : SafeInput env cfg) (ht : fs.Tree) : (beforeCollect env cfg (start cfg fs)).2.fs.Tree := by
  obtain ⟨l, gens, -, h2, h3, -⟩ := beforeCollect_spec hs (J := fun _ => True) (S := fun _ _ _ => True)
    (CarriedAll.inv fun _ _ _ _ => trivial) (start cfg fs) trivial trivial rfl
  rw [h2]
  exact Fs.Chain.inv (J := Fs.Tree) h3 ht fun _ _ h st => InstallStep.tree st h

theorem run_tree (hs : SafeInput env cfg) (hr : Reliable env.os) (ht : fs.Tree) :
    (run env cfg (start cfg fs)).2.fs.Tree := by
  have hT := beforeCollect_tree hs ht
  rw [run_eq, RM.bind_run]
  revert hT
  generalize beforeCollect env cfg (start cfg fs) = r
  obtain ⟨r, s⟩ := r
  intro hT
  cases r with
  | err x => exact hT
  | panic => exact hT
  | ok u =>
    obtain ⟨s1, l1, e1, -, -, -, t1, -⟩ := collect_facts (env := env) cfg hr hT
    dsimp only
    rw [e1]
    exact t1

/-- What the two runs have in common. -/
theorem listing_runs (hs : SafeInput env cfg) (hsep : Separate cfg) (hr : Reliable env.os) (hL : ListsAll list)
    (ht : fs.Tree) (hd : ∀ links, cfg.considered env = some links → Distinct env cfg (allOf env links))
    (h : NoTwoEntries env cfg fs) :
    (run env' cfg (start cfg fs)).1 = (run env cfg (start cfg fs)).1 ∧
    (run env' cfg (start cfg fs)).2.broken = (run env cfg (start cfg fs)).2.broken ∧
    (∀ p, (run env' cfg (start cfg fs)).2.fs.get p = (run env cfg (start cfg fs)).2.fs.get p) ∧
    ∃ l c c', (run env cfg (start cfg fs)).2.log = l ++ c ∧ (run env' cfg (start cfg fs)).2.log = l ++ c' ∧
      ∀ x ∈ c ++ c', x = .collecting ∨ Removal x := by
  have hT := beforeCollect_tree hs ht
  have e := listing_beforeCollect (sub := sub) hs hsep hr.list hL hr.fault hd (s := start cfg fs) h
  rw [run_eq, run_eq, RM.bind_run, RM.bind_run, e]
  revert hT
  generalize beforeCollect env cfg (start cfg fs) = r
  obtain ⟨r, s⟩ := r
  intro hT
  cases r with
  | err x => exact ⟨rfl, rfl, fun _ => rfl, s.log, [], [], by simp, by simp, by simp⟩
  | panic => exact ⟨rfl, rfl, fun _ => rfl, s.log, [], [], by simp, by simp, by simp⟩
  | ok u =>
    obtain ⟨s1, l1, e1, g1, r1, b1, -, f1⟩ := collect_facts (env := env) cfg hr hT
    obtain ⟨s2, l2, e2, g2, r2, b2, -, f2⟩ := collect_facts (env := env') cfg ⟨hr.fault, hL⟩ hT
    dsimp only
    rw [e1, e2]
    refine ⟨rfl, b2.trans b1.symm, fun p => by rw [f1, f2], s.log, l1, l2, g1, g2, fun x hx => ?_⟩
    rcases List.mem_append.1 hx with hx | hx
    · exact r1 x hx
    · exact r2 x hx

/-- **C102.** The order in which directories are listed does not matter: with two orders, the run has the same result,
finds the same bootspecs unreadable and leaves the same files with the same content. -/
theorem C102_listing_order (hs : SafeInput env cfg) (hsep : Separate cfg) (hr : Reliable env.os) (hL : ListsAll list)
    (ht : fs.Tree) (hd : ∀ links, cfg.considered env = some links → Distinct env cfg (allOf env links))
    (h : NoTwoEntries env cfg fs) :
    (run (env.listing list sub) cfg (start cfg fs)).1 = (run env cfg (start cfg fs)).1 ∧
    (run (env.listing list sub) cfg (start cfg fs)).2.broken = (run env cfg (start cfg fs)).2.broken ∧
    ∀ p, (run (env.listing list sub) cfg (start cfg fs)).2.fs.get p = (run env cfg (start cfg fs)).2.fs.get p :=
  let ⟨h1, h2, h3, _⟩ := listing_runs (sub := sub) hs hsep hr hL ht hd h
  ⟨h1, h2, h3⟩

/-- **C102.** The two runs even do the same up to the garbage collection; only the order of the removals can differ. -/
theorem C102_same_until_collection (hs : SafeInput env cfg) (hsep : Separate cfg) (hr : Reliable env.os)
    (hL : ListsAll list) (ht : fs.Tree)
    (hd : ∀ links, cfg.considered env = some links → Distinct env cfg (allOf env links))
    (h : NoTwoEntries env cfg fs) :
    ∃ l c c', (run env cfg (start cfg fs)).2.log = l ++ c ∧
      (run (env.listing list sub) cfg (start cfg fs)).2.log = l ++ c' ∧
      ∀ x ∈ c ++ c', x = .collecting ∨ Removal x :=
  (listing_runs (sub := sub) hs hsep hr hL ht hd h).2.2.2

/-- **C102.** A run that succeeds leaves no two entries for a generation, so the order does not matter in the next one
either. -/
theorem C102_again (hs : SafeInput env cfg) (hf : FaithfulTools env) (hsep : Separate cfg)
    (hr : Reliable env.os) (ht : fs.Tree) (hc : Sound env cfg.esp fs) (hok : Succeeded env cfg fs)
    (hD : ∀ links, cfg.considered env = some links → Distinct env cfg (allOf env links))
    (hM : AllMeasured env cfg fs) : NoTwoEntries env cfg (run env cfg (start cfg fs)).2.fs := by
  intro g key n n' hg hk hn hn' h1 h2
  obtain ⟨key', m, hk', -, -, h⟩ := C55_one_entry_each hs hf hsep hr ht hc hok hD hM hg
  cases hk.unique hk'
  exact (h n hn h1).trans (h n' hn' h2).symm

end Verif.Tool

namespace Verif.Tool.Sample
open Verif StubName Generation

/-- Backwards every second time. -/
def shuffle (t : Nat) (l : List Path) : List Path := if t % 2 = 0 then l.reverse else l

theorem shuffle_sub (t : Nat) (l : List Path) (p : Path) (h : p ∈ shuffle t l) : p ∈ l := by
  unfold shuffle at h
  split at h
  · exact List.mem_reverse.1 h
  · exact h

theorem shuffle_all : ListsAll shuffle := fun t l => by
  unfold shuffle
  split
  · exact List.reverse_perm l
  · exact List.Perm.refl l

theorem noTwo0 : NoTwoEntries good cfg disk0 := fun g key n n' _ _ hn _ h _ => by
  exfalso
  obtain ⟨m, e, ⟨x, rfl⟩, -⟩ : IsEntry cfg.esp (entryFile cfg.esp n) := isMatch_isEntry hn.isMatch
  rw [e] at h
  have key : ∀ e ∈ disk0.nodes, ¬ lit "nixos-" <+: e.1.getLast?.getD [] := by decide
  unfold Fs.get at h
  rw [if_neg (by simp [entryFile])] at h
  split at h
  · next e he =>
    have h1 := List.mem_of_find?_eq_some he
    have h2 := List.find?_some he
    have h2 : e.1 = entryFile cfg.esp (lit "nixos-" ++ x) := by simpa using h2
    refine key e h1 ?_
    rw [h2]
    simp [entryFile]
  · cases h

/-- The first run. -/
example (p : Path) : (run (good.listing shuffle shuffle_sub) cfg (start cfg disk0)).2.fs.get p =
    (run good cfg (start cfg disk0)).2.fs.get p :=
  (C102_listing_order (env := good) (cfg := cfg) (fs := disk0) (list := shuffle) safe_good separate reliable_good
    shuffle_all tree0 distinct0 noTwo0).2.2 p

theorem noTwo1 : NoTwoEntries good cfg (run good cfg (start cfg disk0)).2.fs :=
  C102_again (env := good) (cfg := cfg) (fs := disk0) safe_good (faithful _) separate reliable_good tree0 sound0 succeeded0
    distinct0 measured0

/-- A later run, in which the entries are there. -/
example (p : Path) :
    (run (good.listing shuffle shuffle_sub) cfg (start cfg (run good cfg (start cfg disk0)).2.fs)).2.fs.get p =
    (run good cfg (start cfg (run good cfg (start cfg disk0)).2.fs)).2.fs.get p :=
  (C102_listing_order (env := good) (cfg := cfg) (fs := (run good cfg (start cfg disk0)).2.fs) (list := shuffle)
    safe_good separate reliable_good shuffle_all (run_tree (env := good) safe_good reliable_good tree0) distinct0 noTwo1).2.2 p

theorem two_entries_runs :
    (run updated cfg (start cfg begun)).1 = .ok () ∧ (run updated cfg (start cfg begun)).2.broken = [] ∧
    ((run updated cfg (start cfg begun)).2.fs.fileAt firstEntry).isSome = true := by
  decide +kernel

/-- **C102** needs that no generation has two entries (which an interrupted history can leave, C98): of two entries, the
run keeps the one the directory lists first. -/
theorem C102_two_entries : ∃ (list : Nat → List Path → List Path) (sub : ∀ t l p, p ∈ list t l → p ∈ l),
    ListsAll list ∧ Succeeded updated cfg begun ∧ Succeeded (updated.listing list sub) cfg begun ∧
    ((run updated cfg (start cfg begun)).2.fs.get firstEntry).isSome ∧
    (run (updated.listing list sub) cfg (start cfg begun)).2.fs.fileAt firstEntry = none := by
  refine ⟨fun _ l => l.reverse, fun _ _ _ h => List.mem_reverse.1 h, fun _ l => List.reverse_perm l, ?_⟩
  have e : updated.listing (fun _ l => l.reverse) (fun _ _ _ h => List.mem_reverse.1 h) = relisted := rfl
  rw [e]
  refine ⟨⟨two_entries_runs.1, two_entries_runs.2.1⟩, ⟨begun_steps.2.2.2.2.2.2.1, begun_steps.2.2.2.2.2.2.2.1⟩, ?_,
    begun_steps.2.2.2.2.2.2.2.2.2.1⟩
  obtain ⟨d, hd⟩ := Option.isSome_iff_exists.1 two_entries_runs.2.2
  rw [Fs.fileAt_eq_some.1 hd]
  rfl

end Verif.Tool.Sample
