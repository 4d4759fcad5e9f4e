import Verif.Lemmas.RoomSteps
import Verif.Props.InstallBoot
import Verif.Props.InstallAgain
/-!
# When the installer succeeds

C64.
-/
namespace Verif.Tool
open Verif StubName Generation BootCounting

variable {env world : Env} {cfg : Config} {fs f : Fs}

/-! ### C64 -/

/-- **C64**. If nothing stands in its way, a run succeeds, whatever is installed already: it neither fails
nor panics. -/
theorem C64_succeeds (hr : Ready env cfg fs) : (run env cfg (start cfg fs)).1 = .ok () := by
  obtain ⟨_, s, h, -⟩ := live_run hr (start cfg fs) rfl
  rw [h]

/-- Earlier runs do not get in the way. -/
theorem Ready.after (hr : Ready env cfg fs) (ha : Attempts env cfg fs f) : Ready env cfg f :=
  { hr with room := ha.room hr.disjoint hr.room }

/-- **C64**. Whatever became of earlier runs: after any number of runs, with other generations, other keys, other
tools and other settings, that succeeded, failed, panicked or were killed at any moment, and of boots, a run
succeeds as soon as nothing outside the disk stands in its way. -/
theorem C64_recovers (hr : Ready env cfg fs) (ha : Attempts env cfg fs f) :
    (run env cfg (start cfg f)).1 = .ok () := C64_succeeds (hr.after ha)

/-- **C64**. And then every generation boots. -/
theorem C64_recovers_and_boots (hr : Ready env cfg fs) (ha : Attempts env cfg fs f)
    (hw : InWorld world env cfg) {known : Gen → Bytes → Prop} (hu : Unambiguous world known)
    (hkn : ∀ g key, Considers env cfg g → KeyOf env cfg.signer key → known g key)
    (hc : Sound env cfg.esp f) (hj : Coherent world cfg.esp known f) :
    (run env cfg (start cfg f)).1 = .ok () ∧ ∀ g, Considers env cfg g →
      ∃ p, IsEntry cfg.esp p ∧ Boots world cfg.esp (run env cfg (start cfg f)).2.fs g p :=
  ⟨C64_recovers hr ha, fun _ hg => C38_considered_generations_boot hr.safe hr.faithful hr.disjoint.separate hw hu
    hkn hc hj (C64_recovers hr ha) (Or.inr hr.os.fault) hg⟩

/-- Boot entries that refer to their kernel and initrd are not damaged. -/
theorem C64_sound_entries_legible (h : Sound env cfg.esp fs) {p : Path} (hp : IsEntry cfg.esp p) {data : Bytes}
    (hd : fs.fileAt p = some data) : Legible env data (lit ".linux") ∧ Legible env data (lit ".initrd") := by
  obtain ⟨kl, kh, il, ih, ⟨-, _, -, h1, -⟩, ⟨-, _, -, h2, -⟩, -⟩ := h.entries p hp data hd
  exact ⟨.of_section h1 (uefiText_ne _), .of_section h2 (uefiText_ne _)⟩

/-- A machine on which there is nothing yet at the places the installer uses. -/
theorem C64_fresh_machine (ht : fs.Tree) (he : fs.get cfg.esp = some .dir)
    (hn : ∀ q, cfg.esp <+: q → q ≠ cfg.esp → fs.get q = none)
    (hl : ∀ p, cfg.pcrlockDirectory = some p → ∀ q, q <+: p → ∀ d, fs.get q ≠ some (.file d))
    (hl' : ∀ p, cfg.pcrlockDirectory = some p → ∀ q, p <+: q → q ≠ p → fs.get q = none) : Room env cfg fs where
  tree := ht
  esp := he
  room p hp := by
    have inEsp : ∀ l : Path, l ≠ [] → RoomFor fs (cfg.esp ++ l) := by
      intro l hne
      refine ⟨?_, fun q hq hqne d hd => ?_⟩
      · rw [hn _ (List.prefix_append _ _) (by simpa using hne)]; simp
      · rcases List.prefix_or_prefix_of_prefix hq (List.prefix_append cfg.esp l) with h | h
        · by_cases e : q = cfg.esp
          · rw [e, he] at hd; cases hd
          · have := ht.above h e (by rw [he]; simp)
            rw [hd] at this; cases this
        · by_cases e : q = cfg.esp
          · rw [e, he] at hd; cases hd
          · rw [hn q h e] at hd; cases hd
    cases hp.shape with
    | efi d n => exact inEsp _ (by simp)
    | loader n => exact inEsp _ (by simp)
    | @lock l hpl d n =>
      refine ⟨?_, fun q hq hqne d hd => ?_⟩
      · rw [hl' l hpl (l ++ [d, n]) (List.prefix_append _ _) (by simp)]; simp
      · rcases List.prefix_or_prefix_of_prefix hq (List.prefix_append l _) with h | h
        · exact hl l hpl q h d hd
        · by_cases e : q = l
          · exact hl l hpl q (e ▸ List.prefix_refl _) d hd
          · rw [hl' l hpl q h e] at hd; cases hd
  legible p name h data hd := by
    obtain ⟨d, n, rfl, -⟩ := h.shape
    rw [Fs.fileAt_eq_some, hn _ (List.prefix_append _ _) (by simp)] at hd
    cases hd

end Verif.Tool

namespace Verif.Tool.Sample
open Verif StubName Generation Version.Spec BootCounting

/-! ### Examples -/

theorem last_unique {c : Char} {x x' v v' : Str} (h : c ∉ v) (h' : c ∉ v') (e : x ++ [c] ++ v = x' ++ [c] ++ v') :
    v = v' := by
  rw [List.append_assoc, List.append_assoc] at e
  rcases List.append_eq_append_iff.1 e with ⟨y, -, e2⟩ | ⟨y, -, e2⟩
  · cases y with
    | nil => simpa using e2
    | cons a y =>
      exfalso
      refine h ?_
      have : v = y ++ ([c] ++ v') := (List.cons.inj e2).2
      rw [this]; simp
  · cases y with
    | nil => simpa using e2.symm
    | cons a y =>
      exfalso
      refine h' ?_
      have : v' = y ++ ([c] ++ v) := (List.cons.inj e2).2
      rw [this]; simp

theorem version_unique {k : Path} {v v' : Str} (h : KernelVersion k v) (h' : KernelVersion k v') : v = v' := by
  obtain ⟨dir, name, file, e, -, h1, h2⟩ := h
  obtain ⟨dir', name', file', e', -, h1', h2'⟩ := h'
  have en : name = name' := by
    rw [e] at e'
    have := (List.append_inj' e' rfl).2
    exact (List.cons.inj this).1
  subst en
  rcases h2 with rfl | ⟨x, rfl⟩
  · rcases h2' with h | ⟨x', h⟩
    · exact h
    · exact absurd (by rw [h]; simp [lit]) h1
  · rcases h2' with h | ⟨x', h⟩
    · exact absurd (by rw [← h]; simp [lit]) h1'
    · exact last_unique h1 h1' (by simpa [lit] using h)

theorem headers_append (n : Nat) (b x : Bytes) (l : List Stub.Section) (h : headers n b = some l) :
    headers n (b ++ x) = some l := by
  induction n generalizing b l with
  | zero => simpa [headers] using h
  | succ n ih =>
    match b, h with
    | c :: a :: b :: x' :: y :: rest, h =>
      simp only [headers, Option.map_eq_some_iff, List.cons_append] at h ⊢
      obtain ⟨l', h1, h2⟩ := h
      exact ⟨l', ih _ _ h1, h2⟩

/-- Signing succeeds on images. -/
theorem sbsign_some {d : Bytes} (h : (parse d).isSome) : (sbsign d).isSome := by
  have : parse (d ++ [83]) = parse d := by
    obtain ⟨pe, h⟩ := Option.isSome_iff_exists.1 h
    rw [h]
    cases d with
    | nil => cases h
    | cons n rest =>
      simp only [parse, List.cons_append] at h ⊢
      split at h
      · cases h
      · next hn =>
        rw [if_neg hn]
        simp only [Option.map_eq_some_iff] at h ⊢
        obtain ⟨l, h1, h2⟩ := h
        exact ⟨l, headers_append _ _ _ _ h1, h2⟩
  unfold sbsign
  rw [if_pos this]; rfl

theorem version1 : KernelVersion spec1.kernel (lit "6.1") :=
  ⟨[lit "nix", lit "store"], lit "aaa-linux-6.1", lit "bzImage", rfl, by decide, by decide,
    Or.inr ⟨lit "aaa-linux", by decide⟩⟩

theorem version2 : KernelVersion spec2.kernel (lit "6.2") :=
  ⟨[lit "nix", lit "store"], lit "bbb-linux-6.2", lit "bzImage", rfl, by decide, by decide,
    Or.inr ⟨lit "bbb-linux", by decide⟩⟩

/-- A generation of the sample, the version of its kernel, its kernel and its initrd. -/
structure Parts (g : Gen) (v : Str) (k i : Bytes) : Prop where
  version : KernelVersion g.spec.kernel v
  kernel : released.store g.spec.kernel = some k
  initrd : ∀ d, InitrdOf released g.spec d → d = i
  path : ∃ p, g.spec.initrd = some p ∧ (released.store p).isSome
  made : ∀ added : List Added, added.map (fun s => (s.name, s.content)) = entrySections released g v k i →
    (objcopy stub added).isSome

theorem objcopy_congr (st : Bytes) {a b : List Added}
    (h : a.map (fun s => (s.name, s.content)) = b.map (fun s => (s.name, s.content))) :
    objcopy st a = objcopy st b := by
  have hall : ∀ (P : Str × Bytes → Bool), (a.all fun s => P (s.name, s.content)) =
      (b.all fun s => P (s.name, s.content)) := by
    intro P
    have := congrArg (fun l => l.all P) h
    simpa [List.all_map, Function.comp_def] using this
  unfold objcopy
  dsimp only
  rw [h]
  rw [hall fun s => decide (readSectionData (bare fun _ => false)
    (build (sections st ++ b.map fun s => (s.name, s.content))) s.1 = .ok (some s.2))]

/-- What objcopy is given. -/
def addedFor (g : Gen) (v : Str) (kernel initrd : Bytes) : List Added :=
  (entrySections released g v kernel initrd).map fun s => ⟨s.1, s.2, 0⟩

theorem made_of {g : Gen} {v : Str} {k i : Bytes} (h : (objcopy stub (addedFor g v k i)).isSome = true)
    (added : List Added) (e : added.map (fun s => (s.name, s.content)) = entrySections released g v k i) :
    (objcopy stub added).isSome := by
  rw [objcopy_congr stub (b := addedFor g v k i)]
  · exact h
  · rw [e]; simp [addedFor, Function.comp_def]

theorem parts {g : Gen} (hg : g ∈ allOf released cfg) : ∃ v k i, Parts g v k i := by
  have key : ∀ g ∈ allOf released cfg,
      (g.spec.kernel = spec1.kernel ∧ g.spec.initrd = spec1.initrd ∧ g.spec.initrdSecrets = none ∧
        (objcopy stub (addedFor g (lit "6.1") kernel1 initrd1)).isSome) ∨
      (g.spec.kernel = spec2.kernel ∧ g.spec.initrd = spec2.initrd ∧
        g.spec.initrdSecrets = some (storePath "bbb-secrets") ∧
        (objcopy stub (addedFor g (lit "6.2") kernel2 (initrd2 ++ [115]))).isSome) := by decide +kernel
  rcases key g hg with ⟨h1, h2, h3, h4⟩ | ⟨h1, h2, h3, h4⟩
  · refine ⟨_, kernel1, initrd1, h1 ▸ version1, by rw [h1]; decide +kernel, ?_, ⟨_, h2, by decide +kernel⟩, made_of h4⟩
    rintro d ⟨p, d0, e1, e2, e3⟩
    rw [h2] at e1
    rw [h3] at e3
    cases e1
    have : released.store (storePath "aaa-initrd") = some initrd1 := by decide +kernel
    rw [this] at e2
    cases e2
    exact e3
  · refine ⟨_, kernel2, initrd2 ++ [115], h1 ▸ version2, by rw [h1]; decide +kernel, ?_, ⟨_, h2, by decide +kernel⟩, made_of h4⟩
    rintro d ⟨p, d0, e1, e2, e3⟩
    rw [h2] at e1
    rw [h3] at e3
    cases e1
    have : released.store (storePath "bbb-initrd") = some initrd2 := by decide +kernel
    rw [this] at e2
    cases e2
    obtain ⟨t, e3⟩ := e3
    exact (Option.some.inj e3).symm

theorem released_sources : Sources released cfg where
  links := by
    have h : ∃ l, cfg.considered released = some l ∧ (l.any fun k => (released.bootJson k.path).isSome) = true := by
      refine ⟨(cfg.considered released).getD [], by decide +kernel, by decide +kernel⟩
    obtain ⟨l, h1, h2⟩ := h
    obtain ⟨k, h3, h4⟩ := List.any_eq_true.1 h2
    exact ⟨l, h1, k, h3, h4⟩
  kernel g hg := by
    obtain ⟨v, k, i, h⟩ := parts (considers_iff.1 hg)
    exact ⟨⟨v, h.version⟩, by rw [h.kernel]; rfl⟩
  initrd g hg := by
    obtain ⟨v, k, i, h⟩ := parts (considers_iff.1 hg)
    exact h.path
  stub := ⟨stub, _, by decide, rfl, by decide, rfl⟩
  key := ⟨[80, 75], by show released.store _ = _; decide⟩
  loader := released_release
  conf := by decide

theorem objcopy_parse {st image : Bytes} {s : Added} {l : List Added} (h : objcopy st (s :: l) = some image) :
    (parse image).isSome := by
  unfold objcopy at h
  dsimp only at h
  split at h
  · next hc =>
    cases h
    have := List.all_eq_true.1 hc s (by simp)
    rw [decide_eq_true_eq, readSectionData_iff] at this
    obtain ⟨pe, _, _, _, h1, -⟩ := this
    exact Option.isSome_iff_exists.2 ⟨pe, h1⟩
  · cases h

theorem made_parses {image : Bytes} (h : MadeHere released cfg image) : (parse image).isSome := by
  rcases h with ⟨g, v, k, i, -, -, -, -, st, t, added, -, h1, h2⟩ | h
  · have h2 : objcopy st added = some image := h2
    cases added with
    | nil => cases h1
    | cons s l => exact objcopy_parse h2
  · have e : released.store (loaderSource cfg) = some (systemdBoot (.full 256)) := rfl
    rw [e] at h
    cases h
    decide +kernel

theorem released_tools : ToolsSucceed released cfg where
  secrets _ _ _ _ _ _ _ _ _ := rfl
  objcopy g v k i st added hg hv hk hi hst hadd t := by
    obtain ⟨v', k', i', h⟩ := parts (considers_iff.1 hg)
    have e1 := version_unique hv h.version
    rw [h.kernel] at hk
    cases hk
    have e2 := h.initrd i hi
    have e3 : released.store cfg.lanzabooteStub = some stub := by decide +kernel
    rw [e3] at hst
    cases hst
    subst e1 e2
    exact h.made added hadd
  sbsign _ _ image _ h t := sbsign_some (made_parses h)
  pcrlock _ _ _ _ _ := rfl

theorem disjoint : NotNested cfg := by
  intro p h
  have : p = [lit "var", lit "pcrlock.d"] := (Option.some.inj h).symm
  subst this
  decide

theorem get_mem {f : Fs} {p : Path} {n : Node} (hp : p ≠ []) (h : f.get p = some n) : (p, n) ∈ f.nodes := by
  unfold Fs.get at h
  rw [if_neg hp] at h
  split at h
  · next e he =>
    cases h
    have h1 := List.find?_some he
    have h2 := List.mem_of_find?_eq_some he
    have : e.1 = p := by simpa using h1
    rw [← this]
    exact h2
  · cases h

/-- There is room if all files are four levels deep, all directories less deep, and there is no directory
for the configuration of the boot loader. -/
theorem room_of {e : Env} {f : Fs} (ht : f.Tree) (he : f.get cfg.esp = some .dir)
    (hfile : (f.nodes.all fun n => match n.2 with
      | .file _ => decide (n.1.length = 4)
      | .dir => decide (n.1.length < 4 ∧ n.1.take 2 ≠ [lit "boot", lit "loader"])) = true)
    (hleg : ∀ p name, LookedUp cfg p name → ∀ data, f.fileAt p = some data → Legible e data name) :
    Room e cfg f where
  tree := ht
  esp := he
  room p hp := by
    have file : ∀ q d, f.get q = some (.file d) → q.length = 4 := by
      intro q d hq
      have hne : q ≠ [] := by rintro rfl; cases hq
      have := List.all_eq_true.1 hfile _ (get_mem hne hq)
      simpa using this
    have dir : ∀ q, q ≠ [] → f.get q = some .dir → q.length < 4 ∧ q.take 2 ≠ [lit "boot", lit "loader"] := by
      intro q hne hq
      have := List.all_eq_true.1 hfile _ (get_mem hne hq)
      simpa using this
    have short : ∀ q : Path, q <+: p → q ≠ p → q.length < p.length := fun q h hne =>
      Nat.lt_of_le_of_ne h.length_le fun e => hne (h.eq_of_length e)
    cases hp.shape with
    | efi d n =>
      refine ⟨fun h => ?_, fun q h hne d h' => ?_⟩
      · exact absurd (dir _ (by simp) h).1 (by simp [cfg])
      · have := short q h hne
        rw [file q d h'] at this
        simp [cfg] at this
    | loader n =>
      refine ⟨fun h => ?_, fun q h hne d h' => ?_⟩
      · exact absurd (dir _ (by simp) h).2 (by simp [cfg])
      · have := short q h hne
        rw [file q d h'] at this
        simp [cfg] at this
    | @lock l hl d n =>
      have : l = [lit "var", lit "pcrlock.d"] := (Option.some.inj hl).symm
      subst this
      refine ⟨fun h => ?_, fun q h hne d h' => ?_⟩
      · exact absurd (dir _ (by simp) h).1 (by simp)
      · have := short q h hne
        rw [file q d h'] at this
        simp at this
  legible := hleg

theorem room0 : Room released cfg disk0 := by
  refine room_of tree0 (by decide) (by decide) fun p name h data hd => ?_
  cases h with
  | kernel h => exact absurd hd (no_entry h data)
  | initrd h => exact absurd hd (no_entry h data)
  | release h =>
    exfalso
    rcases h with rfl | rfl
    · exact absurd hd (by rw [show disk0.fileAt (fallbackFile cfg) = none from by decide]; simp)
    · exact absurd hd (by rw [show disk0.fileAt (systemdFile cfg) = none from by decide]; simp)

theorem ready0 : Ready released cfg disk0 :=
  ⟨released_reliable, released_sources, released_tools, faithfulWith _ _, released_safe, disjoint, room0⟩

/-- The hypotheses of `C64_succeeds` can be met. -/
example : (run released cfg (start cfg disk0)).1 = .ok () := C64_succeeds ready0

/-- An attempt under faults, with one generation less and without tries. -/
def attemptEnv (fault : Nat → Bool) : Env := env256 fault
def attemptCfg : Config := { cfg with links := [link1], tries := 0 }

theorem attempt0 (fault : Nat → Bool) : Attempt released cfg (attemptEnv fault) attemptCfg where
  esp := rfl
  arch := rfl
  pcrlock := rfl
  parse := rfl
  safe := by
    have : SafeInput released attemptCfg := safeInput_of (by decide +kernel)
    exact fun g hg => this g ⟨hg.ex⟩
  faithful := faithfulWith _ _
  loader d h := by
    obtain ⟨d', r, h1, h2, lines, sec, h3, h4, h5, h6⟩ := released_release
    have : d' = d := Option.some.inj (h1.symm.trans h)
    subst this
    exact ⟨r, h2, lines, sec, h3, h4, h5, h6⟩

/-- After an attempt under any faults that is killed at any moment, the run succeeds. -/
example (fault : Nat → Bool) (done : List Change) (hk : KilledAfter (attemptEnv fault) attemptCfg disk0 done) :
    (run released cfg (start cfg (disk0.replay done))).1 = .ok () :=
  C64_recovers ready0 (.run .nil (attempt0 fault) hk)

theorem released_unambiguous : Unambiguous released known := ⟨unambiguous.same, unambiguous.apart⟩

/-- And the generations boot. -/
example {g : Gen} (hg : Considers released cfg g) : ∃ p, IsEntry cfg.esp p ∧
    Boots released cfg.esp (run released cfg (start cfg disk0)).2.fs g p :=
  (C64_recovers_and_boots (world := released) ready0 .nil ⟨rfl, rfl, rfl, fun _ _ _ h => h, fun _ _ _ h => h⟩
    released_unambiguous
    (fun g key hg hk => known_considered (fun _ => false) g key (released_considers.1 hg) hk)
    (Sound.congr (env := good) rfl rfl sound0)
    (fun _ _ _ data _ hm hd => absurd hd (no_entry (isMatch_isEntry hm.isMatch) data))).2 g hg

/-! ### Why entries have to be undamaged -/

/-- The run has written the boot entries, but has not synced the file system yet. -/
def unsynced : Nat := (run released cfg (start cfg disk0)).2.log.idxOf (.syncfs cfg.esp)

def beforeSync : Fs := disk0.replay ((run released cfg (start cfg disk0)).2.log.take unsynced)

/-- Only the first half of a boot entry has reached the disk. -/
def torn : Fs := beforeSync.put firstEntry (.file (((beforeSync.fileAt firstEntry).getD []).take 60))

/-- **C64**, finding. Boot entries are not synced one by one. After a power failure, a boot entry may be cut off within the
section that names its kernel; then every later run for that generation panics and changes nothing. -/
theorem C64_power_loss_can_block : ∃ done fs', KilledAfter released cfg disk0 done ∧
    AfterPowerLoss disk0 done fs' ∧ (run released cfg (start cfg fs')).1 = .panic ∧
    (run released cfg (start cfg fs')).2.fs = fs' := by
  refine ⟨_, torn, killed_take released cfg disk0 unsynced,
    fun p => ⟨_, [], (List.append_nil _).symm, by simp, ?_⟩, by decide +kernel, by decide +kernel⟩
  have hd : firstEntry ∈ beforeSync.dirty := by decide +kernel
  have hf : (beforeSync.fileAt firstEntry).isSome := by decide +kernel
  obtain ⟨d, hf⟩ := Option.isSome_iff_exists.1 hf
  by_cases e : p = firstEntry
  · subst e
    exact Or.inr ⟨hd, d, _, Fs.fileAt_eq_some.1 hf, by
      rw [torn, Fs.get_put _ _ _ _ (by decide)]; simp; rfl⟩
  · exact Or.inl (by rw [torn, Fs.get_put _ _ _ _ (by decide), if_neg e]; rfl)

/-- A boot loader whose `.osrel` section is empty. -/
def malformed : Env := envWith (fun _ => false) (build [(lit ".osrel", [])])

/-- **C64**, finding. On a machine without boot loader a malformed boot loader is installed without complaint; from then on
every run panics, also with a proper boot loader. -/
theorem C64_malformed_loader_blocks : (run malformed cfg (start cfg disk0)).1 = .ok () ∧
    (run released cfg (start cfg (run malformed cfg (start cfg disk0)).2.fs)).1 = .panic := by
  decide +kernel

end Verif.Tool.Sample
