import Verif.Lemmas.Trees
import Verif.Lemmas.Sound
/-!
# What is recorded as being in use when all generations are installed
-/
namespace Verif.Tool
open Verif StubName Generation

variable {env : Env} {cfg : Config} {ld : Scope}

/-! ### Names -/

/-- A name that the lookups for two generations both accept. -/
theorem isMatch_both {uni : Char → Bool} {sha : Sha} {g g' : Gen} {k k' : Bytes} {n : Str}
    (h : isMatch uni (stubPrefix sha g k) n = true) (h' : isMatch uni (stubPrefix sha g' k') n = true) :
    SameEntry g g' k k' ∨ Collision sha (hashed g k) (hashed g' k') := by
  obtain ⟨s, e, hs⟩ := isMatch_form h
  obtain ⟨s', e', hs'⟩ := isMatch_form h'
  rw [e] at e'
  exact same_or_collision (prefix_counter_inj uni hs hs' (List.append_cancel_right e')).1

theorem Distinct.left {gens : List Gen} {g : Gen} (h : Distinct env cfg (gens ++ [g])) :
    Distinct env cfg gens := fun key hk => (List.pairwise_append.1 (h key hk)).1

theorem Distinct.apart {gens : List Gen} {g : Gen} (h : Distinct env cfg (gens ++ [g])) {g' : Gen}
    (hg : g' ∈ gens) {key key' : Bytes} (hk : KeyOf env cfg.signer key) (hk' : KeyOf env cfg.signer key')
    {n : Str} (hm : isMatch env.uni (stubPrefix env.sha g' key') n = true)
    (hm' : isMatch env.uni (stubPrefix env.sha g key) n = true) : False := by
  cases hk.unique hk'
  have hA := (List.pairwise_append.1 (h key hk)).2.2 g' hg g (by simp)
  rcases isMatch_both hm hm' with h | h
  · exact hA.1 h
  · exact hA.2 h

theorem caFile_ne_entryFile (esp : Path) (l : Str) (h : Bytes) (n : Str) :
    caFile esp l h ≠ entryFile esp n := by
  intro e
  have := congrArg lastTwo e
  rw [caFile_lastTwo, entryFile_lastTwo] at this
  simp at this
  exact absurd this.1 (by decide)

theorem measurementFile_ne_entryFile (esp p : Path) (g : Gen) (n : Str) :
    measurementFile p g ≠ entryFile esp n := by
  intro e
  have := congrArg lastTwo e
  rw [measurementFile_lastTwo, entryFile_lastTwo] at this
  simp at this
  exact absurd this.1 (by decide)

theorem measurementFile_ne_caFile (esp p : Path) (g : Gen) (l : Str) (h : Bytes) :
    measurementFile p g ≠ caFile esp l h := by
  intro e
  have := congrArg lastTwo e
  rw [measurementFile_lastTwo, caFile_lastTwo] at this
  simp at this
  exact absurd this.1 (by decide)

theorem mem_measurements {g : Gen} {q : Path} (h : q ∈ measurements cfg g) :
    ∃ p, cfg.pcrlockDirectory = some p ∧ q = measurementFile p g := by
  unfold measurements at h
  cases hp : cfg.pcrlockDirectory with
  | none => rw [hp] at h; cases h
  | some p => rw [hp] at h; exact ⟨p, rfl, by simpa using h⟩

/-- Nothing two directories below the ESP is in use from the start, except for the boot loader. -/
theorem not_start_root (hsep : Separate cfg) (fs : Fs) {d n : Str}
    (hd : d = lit "nixos" ∨ d = lit "Linux") : cfg.esp ++ [lit "EFI", d, n] ∉ (start cfg fs).roots := by
  intro h
  unfold start EspPaths.iter at h
  simp only [List.mem_append] at h
  rcases h with h | h
  · rw [paths_nixos, paths_linux, paths_efiFallback, paths_systemdBoot, paths_loaderConf, paths_esp,
      paths_efi] at h
    have e1 : cfg.paths.efiFallbackDir = cfg.esp ++ [lit "EFI", lit "BOOT"] := by
      show (cfg.esp.join (lit "EFI")).join (lit "BOOT") = _
      rw [join_plain _ (.of_length (by decide) (by decide)),
        join_plain _ (.of_length (by decide) (by decide))]
      simp
    have e2 : cfg.paths.systemd = cfg.esp ++ [lit "EFI", lit "systemd"] := by
      show (cfg.esp.join (lit "EFI")).join (lit "systemd") = _
      rw [join_plain _ (.of_length (by decide) (by decide)),
        join_plain _ (.of_length (by decide) (by decide))]
      simp
    have e3 : cfg.paths.loader = cfg.esp ++ [lit "loader"] := by
      show cfg.esp.join (lit "loader") = _
      rw [join_plain _ (.of_length (by decide) (by decide))]
    rw [e1, e2, e3] at h
    simp only [List.mem_cons, List.not_mem_nil, or_false, List.append_cancel_left_eq] at h
    rcases hd with rfl | rfl <;> simp [lit] at h
  · unfold Config.pcrlock at h
    cases hp : cfg.pcrlockDirectory with
    | none => rw [hp] at h; cases h
    | some p =>
      rw [hp] at h
      have e1 : (PcrlockPaths.new p).lanzaboote = p ++ [lit "635-lanzaboote.pcrlock.d"] :=
        pcrlock_lanzaboote p
      simp only [Option.map_some, PcrlockPaths.iter, e1, List.mem_cons, List.not_mem_nil,
        or_false] at h
      have key : cfg.esp ++ [lit "EFI", d] <+: p := by
        rcases h with h | h
        · have e : (PcrlockPaths.new p).pcrlock = p := rfl
          rw [e] at h
          rw [← h]; exact ⟨[n], by simp⟩
        · rw [show cfg.esp ++ [lit "EFI", d, n] = (cfg.esp ++ [lit "EFI", d]) ++ [n] by simp] at h
          rw [(List.append_inj' h rfl).1]
          exact List.prefix_refl _
      rcases hd with rfl | rfl
      · exact (hsep p hp).2.1 key
      · exact (hsep p hp).2.2 key

/-! ### The record -/

/-- The paths recorded in `r`, when the generations `gens` are installed and the run started from
`f0`. -/
structure Used (env : Env) (cfg : Config) (f0 : Fs) (gens : List Gen) (f : Fs) (r : List Path) :
    Prop where
  /-- entries are old, or belong to an installed generation and are in use -/
  old : ∀ n data, IsEntry cfg.esp (entryFile cfg.esp n) → f.fileAt (entryFile cfg.esp n) = some data →
    f0.fileAt (entryFile cfg.esp n) = some data ∨ ∃ g ∈ gens, ∃ key, KeyOf env cfg.signer key ∧
      n = stubName env.sha g key cfg.tries ∧ entryFile cfg.esp n ∈ r
  measured : ∀ p g, cfg.pcrlockDirectory = some p → (f0.fileAt (measurementFile p g)).isSome →
    (f.fileAt (measurementFile p g)).isSome
  only : ∀ q ∈ r, q ∈ (start cfg f0).roots ∨
    (∃ g ∈ gens, ∃ key n, KeyOf env cfg.signer key ∧
      isMatch env.uni (stubPrefix env.sha g key) n = true ∧ q = entryFile cfg.esp n ∧
      (f.fileAt q).isSome) ∨
    (∃ l h, h.length = 32 ∧ q = caFile cfg.esp l h) ∨
    (∃ g ∈ gens, ∃ p, cfg.pcrlockDirectory = some p ∧ q = measurementFile p g)
  /-- with an entry its kernel and its initrd are in use -/
  closed : ∀ n, IsEntry cfg.esp (entryFile cfg.esp n) → entryFile cfg.esp n ∈ r → ∀ data,
    f.fileAt (entryFile cfg.esp n) = some data → ∃ kl kh il ih,
      RefersToCa env cfg.esp data (lit ".linux") (lit ".linuxh") kl kh ∧
      RefersToCa env cfg.esp data (lit ".initrd") (lit ".initrdh") il ih ∧
      caFile cfg.esp kl kh ∈ r ∧ caFile cfg.esp il ih ∈ r ∧
      Present env f (caFile cfg.esp kl kh) kh ∧ Present env f (caFile cfg.esp il ih) ih
  /-- a kernel or an initrd is in use with an entry -/
  refd : Distinct env cfg gens → AllMeasured env cfg f0 → Faultless env → ∀ l h, h.length = 32 →
    caFile cfg.esp l h ∈ r → ∃ g ∈ gens, ∃ key n data, KeyOf env cfg.signer key ∧
      isMatch env.uni (stubPrefix env.sha g key) n = true ∧ entryFile cfg.esp n ∈ r ∧
      f.fileAt (entryFile cfg.esp n) = some data ∧
      (RefersToCa env cfg.esp data (lit ".linux") (lit ".linuxh") l h ∨
       RefersToCa env cfg.esp data (lit ".initrd") (lit ".initrdh") l h)
  /-- one entry for each generation -/
  one : Distinct env cfg gens → AllMeasured env cfg f0 → Faultless env → ∀ g ∈ gens, ∀ key n n',
    KeyOf env cfg.signer key → isMatch env.uni (stubPrefix env.sha g key) n = true →
    isMatch env.uni (stubPrefix env.sha g key) n' = true → entryFile cfg.esp n ∈ r →
    entryFile cfg.esp n' ∈ r → n = n'

theorem Used.start (hsep : Separate cfg) (fs : Fs) :
    Used env cfg fs [] fs (start cfg fs).roots where
  old n data _ h := Or.inl h
  measured p g _ h := h
  only q h := Or.inl h
  closed n hn h := absurd h (not_start_root hsep fs (Or.inr rfl))
  refd _ _ _ l h _ hr := absurd hr (not_start_root hsep fs (Or.inl rfl))
  one _ _ _ g hg := by cases hg

theorem Used.measured_chain (hs : SafeInput env cfg) {f0 f : Fs} {l : List Change}
    (h : ∀ p g, cfg.pcrlockDirectory = some p → (f0.fileAt (measurementFile p g)).isSome →
      (f.fileAt (measurementFile p g)).isSome) (hch : Fs.Chain (InstallStep env cfg ld) f l) :
    ∀ p g, cfg.pcrlockDirectory = some p → (f0.fileAt (measurementFile p g)).isSome →
      ((f.replay l).fileAt (measurementFile p g)).isSome := by
  intro p g hp hx
  refine Stays.chain hs hch _ (isMeasurement_not_isTmp ⟨p, hp, Or.inl ⟨g, rfl⟩⟩) ?_ (h p g hp hx)
  rintro ⟨p', -, e⟩
  have := congrArg lastTwo e
  rw [measurementFile_lastTwo, nextFile_lastTwo] at this
  simp at this
  exact absurd this.1 (by decide)

/-- An entry of one of `gens` that is in use. -/
theorem Used.entry (hsep : Separate cfg) {f0 f : Fs} {gens : List Gen} {r : List Path}
    (h : Used env cfg f0 gens f r) {n : Str} (hr : entryFile cfg.esp n ∈ r) :
    ∃ g ∈ gens, ∃ key, KeyOf env cfg.signer key ∧
      isMatch env.uni (stubPrefix env.sha g key) n = true ∧
      (f.fileAt (entryFile cfg.esp n)).isSome := by
  rcases h.only _ hr with h | ⟨g, hg, key, m, hk, hm, e, hx⟩ | ⟨l, k, -, e⟩ | ⟨g, -, p, -, e⟩
  · exact absurd h (not_start_root hsep f0 (Or.inr rfl))
  · cases entryFile_inj e
    exact ⟨g, hg, key, hk, hm, hx⟩
  · exact absurd e.symm (caFile_ne_entryFile _ _ _ _)
  · exact absurd e.symm (measurementFile_ne_entryFile _ _ _ _)

theorem Used.loader (hs : SafeInput env cfg) {f0 f : Fs} {gens : List Gen}
    {r : List Path} {l : List Change} (h : Used env cfg f0 gens f r)
    (hch : Fs.Chain (InstallStep env cfg .ofLoader) f l) : Used env cfg f0 gens (f.replay l) r := by
  have fwd : ∀ {n d}, IsEntry cfg.esp (entryFile cfg.esp n) → f.fileAt (entryFile cfg.esp n) = some d →
      (f.replay l).fileAt (entryFile cfg.esp n) = some d := by
    intro n d hn hd
    rcases chain_entry hs hch hn hd with h | ⟨_, _, h, -⟩
    · exact h
    · exact absurd h id
  have bwd : ∀ {n d}, IsEntry cfg.esp (entryFile cfg.esp n) →
      (f.replay l).fileAt (entryFile cfg.esp n) = some d → f.fileAt (entryFile cfg.esp n) = some d := by
    intro n d hn hd
    rcases chain_entry_back hs hch hn hd with h | ⟨_, _, h, -⟩
    · exact h
    · exact absurd h id
  refine ⟨?_, Used.measured_chain hs h.measured hch, ?_, ?_, ?_, h.one⟩
  · exact fun n data hn hd => h.old n data hn (bwd hn hd)
  · intro q hq
    rcases h.only q hq with h | ⟨g, hg, key, m, hk, hm, rfl, hx⟩ | h | h
    · exact Or.inl h
    · obtain ⟨d, hd⟩ := Option.isSome_iff_exists.1 hx
      exact Or.inr (Or.inl ⟨g, hg, key, m, hk, hm, rfl, by rw [fwd (isMatch_isEntry hm) hd]; rfl⟩)
    · exact Or.inr (Or.inr (Or.inl h))
    · exact Or.inr (Or.inr (Or.inr h))
  · intro n hn hr data hd
    obtain ⟨kl, kh, il, ih, h1, h2, h3, h4, h5, h6⟩ := h.closed n hn hr data (bwd hn hd)
    exact ⟨kl, kh, il, ih, h1, h2, h3, h4, chain_present hs hch h5.length h5,
      chain_present hs hch h6.length h6⟩
  · intro hd hm hf l k hk hr
    obtain ⟨g, hg, key, n, data, h1, h2, h3, h4, h5⟩ := h.refd hd hm hf l k hk hr
    exact ⟨g, hg, key, n, data, h1, h2, h3, fwd (isMatch_isEntry h2) h4, h5⟩

/-- An entry was found. -/
theorem Used.kept (hsep : Separate cfg) {f0 f : Fs} {gens : List Gen} {g : Gen} {r : List Path}
    (h : Used env cfg f0 gens f r) {key : Bytes} {stub kernel initrd : Path}
    (hk : KeyOf env cfg.signer key) (hf : FoundCa env cfg g key f stub kernel initrd) :
    Used env cfg f0 (gens ++ [g]) f (r ++ ([stub, kernel, initrd] ++ measurements cfg g)) := by
  obtain ⟨n, data, kl, kh, il, ih, rfl, hm, hd, h1, h2, rfl, rfl, h3, h4⟩ := hf.ex
  have cases_ : ∀ {q}, q ∈ r ++ ([entryFile cfg.esp n, caFile cfg.esp kl kh, caFile cfg.esp il ih] ++
      measurements cfg g) → q ∈ r ∨ q = entryFile cfg.esp n ∨ q = caFile cfg.esp kl kh ∨
      q = caFile cfg.esp il ih ∨ ∃ p, cfg.pcrlockDirectory = some p ∧ q = measurementFile p g := by
    intro q hq
    simp only [List.mem_append, List.mem_cons, List.not_mem_nil, or_false] at hq
    rcases hq with hq | (hq | hq | hq) | hq
    · exact Or.inl hq
    · exact Or.inr (Or.inl hq)
    · exact Or.inr (Or.inr (Or.inl hq))
    · exact Or.inr (Or.inr (Or.inr (Or.inl hq)))
    · exact Or.inr (Or.inr (Or.inr (Or.inr (mem_measurements hq))))
  have entry_ : ∀ {m}, entryFile cfg.esp m ∈ r ++ ([entryFile cfg.esp n, caFile cfg.esp kl kh,
      caFile cfg.esp il ih] ++ measurements cfg g) → entryFile cfg.esp m ∈ r ∨ m = n := by
    intro m hq
    rcases cases_ hq with hq | hq | hq | hq | ⟨p, -, hq⟩
    · exact Or.inl hq
    · exact Or.inr (entryFile_inj hq)
    · exact absurd hq.symm (caFile_ne_entryFile _ _ _ _)
    · exact absurd hq.symm (caFile_ne_entryFile _ _ _ _)
    · exact absurd hq.symm (measurementFile_ne_entryFile _ _ _ _)
  refine ⟨?_, h.measured, ?_, ?_, ?_, ?_⟩
  · intro m d hm hd
    rcases h.old m d hm hd with h | ⟨g', hg', key', hk', e, hr'⟩
    · exact Or.inl h
    · exact Or.inr ⟨g', by simp [hg'], key', hk', e, List.mem_append_left _ hr'⟩
  · intro q hq
    rcases cases_ hq with hq | rfl | rfl | rfl | ⟨p, hp, rfl⟩
    · rcases h.only q hq with h | ⟨g', hg', h⟩ | h | ⟨g', hg', h⟩
      · exact Or.inl h
      · exact Or.inr (Or.inl ⟨g', by simp [hg'], h⟩)
      · exact Or.inr (Or.inr (Or.inl h))
      · exact Or.inr (Or.inr (Or.inr ⟨g', by simp [hg'], h⟩))
    · exact Or.inr (Or.inl ⟨g, by simp, key, n, hk, hm, rfl, by rw [hd]; rfl⟩)
    · exact Or.inr (Or.inr (Or.inl ⟨_, _, h3.length, rfl⟩))
    · exact Or.inr (Or.inr (Or.inl ⟨_, _, h4.length, rfl⟩))
    · exact Or.inr (Or.inr (Or.inr ⟨g, by simp, p, hp, rfl⟩))
  · intro m hmE hr d hd'
    rcases entry_ hr with hr | rfl
    · obtain ⟨a, b, c, e, x1, x2, x3, x4, x5⟩ := h.closed m hmE hr d hd'
      exact ⟨a, b, c, e, x1, x2, by simp [x3], by simp [x4], x5⟩
    · rw [hd] at hd'
      cases hd'
      exact ⟨kl, kh, il, ih, h1, h2, by simp, by simp, h3, h4⟩
  · intro hD hM hF l k hkl hq
    rcases cases_ hq with hq | hq | hq | hq | ⟨p, -, hq⟩
    · obtain ⟨g', hg', key', m, d, x1, x2, x3, x4⟩ := h.refd hD.left hM hF l k hkl hq
      exact ⟨g', by simp [hg'], key', m, d, x1, x2, by simp [x3], x4⟩
    · exact absurd hq (caFile_ne_entryFile _ _ _ _)
    · obtain ⟨rfl, rfl⟩ := caFile_inj hkl h3.length hq
      exact ⟨g, by simp, key, n, data, hk, hm, by simp, hd, Or.inl h1⟩
    · obtain ⟨rfl, rfl⟩ := caFile_inj hkl h4.length hq
      exact ⟨g, by simp, key, n, data, hk, hm, by simp, hd, Or.inr h2⟩
    · exact absurd hq.symm (measurementFile_ne_caFile _ _ _ _ _)
  · intro hD hM hF g' hg' key' m m' hk' hm1 hm2 hr1 hr2
    have noNew : ∀ {m}, entryFile cfg.esp m ∈ r → isMatch env.uni (stubPrefix env.sha g key') m = true →
        False := by
      intro m hr hm
      obtain ⟨g1, hg1, key1, hk1, hm1, -⟩ := h.entry hsep hr
      exact hD.apart hg1 hk' hk1 hm1 hm
    cases hk.unique hk'
    rcases List.mem_append.1 hg' with hg' | hg'
    · have noN : ∀ {m}, m = n → isMatch env.uni (stubPrefix env.sha g' key) m = true → False := by
        rintro m rfl hm'
        exact hD.apart hg' hk hk' hm' hm
      rcases entry_ hr1 with hr1 | e1
      · rcases entry_ hr2 with hr2 | e2
        · exact h.one hD.left hM hF g' hg' key m m' hk' hm1 hm2 hr1 hr2
        · exact (noN e2 hm2).elim
      · exact (noN e1 hm1).elim
    · rw [List.mem_singleton] at hg'
      subst hg'
      rcases entry_ hr1 with hr1 | rfl
      · exact (noNew hr1 hm1).elim
      · rcases entry_ hr2 with hr2 | rfl
        · exact (noNew hr2 hm2).elim
        · rfl

/-- What is recorded before a generation is installed anew. -/
structure Before (env : Env) (cfg : Config) (g : Gen) (f : Fs) (pre : List Path) : Prop where
  ex : pre = [] ∨ (∃ p, cfg.pcrlockDirectory = some p ∧
      (Faultless env → f.get (measurementFile p g) = none)) ∧ ∃ key stub kernel initrd,
    KeyOf env cfg.signer key ∧ FoundCa env cfg g key f stub kernel initrd ∧
    pre = [stub, kernel, initrd]

/-- A generation was installed anew. -/
theorem Used.fresh (hs : SafeInput env cfg) (hft : FaithfulTools env) (hsep : Separate cfg) {f0 f : Fs}
    {gens : List Gen} {g : Gen}
    {r pre : List Path} {l : List Change} {s' : State} (hg : Considers env cfg g)
    (h : Used env cfg f0 gens f r)
    (hch : Fs.Chain (InstallStep env cfg (.one g)) f l) (hfs : s'.fs = f.replay l)
    (hp : Before env cfg g f pre) (hf : FreshFrom env cfg g (r ++ pre) s') :
    Used env cfg f0 (gens ++ [g]) s'.fs s'.roots := by
  obtain ⟨key, kd, id, image, out, v, hk, hv, hkd, hid, him, hsg, hout, pk, pi, -, hr⟩ := hf.ex
  have refs := him.refs hft (hs g hg) hv hsg
  generalize hN : stubName env.sha g key cfg.tries = N at *
  have hNm : isMatch env.uni (stubPrefix env.sha g key) N = true := by
    rw [← hN]; exact isMatch_stubName _ _ _ _ _
  -- other entries are as before
  have fwd : ∀ {n d}, IsEntry cfg.esp (entryFile cfg.esp n) → n ≠ N →
      f.fileAt (entryFile cfg.esp n) = some d → s'.fs.fileAt (entryFile cfg.esp n) = some d := by
    intro n d hn hne hd
    rw [hfs]
    rcases chain_entry hs hch hn hd with h | ⟨_, key', rfl, hk', e⟩
    · exact h
    · cases hk.unique hk'
      exact absurd (e.trans hN) hne
  have bwd : ∀ {n d}, IsEntry cfg.esp (entryFile cfg.esp n) → n ≠ N →
      s'.fs.fileAt (entryFile cfg.esp n) = some d → f.fileAt (entryFile cfg.esp n) = some d := by
    intro n d hn hne hd
    rw [hfs] at hd
    rcases chain_entry_back hs hch hn hd with h | ⟨_, key', rfl, hk', e⟩
    · exact h
    · cases hk.unique hk'
      exact absurd (e.trans hN) hne
  have pres : ∀ {x k}, Present env f (caFile cfg.esp x k) k → Present env s'.fs (caFile cfg.esp x k) k := by
    intro x k hx
    rw [hfs]; exact chain_present hs hch hx.length hx
  have there : ∀ {n d}, IsEntry cfg.esp (entryFile cfg.esp n) →
      f.fileAt (entryFile cfg.esp n) = some d → (s'.fs.fileAt (entryFile cfg.esp n)).isSome := by
    intro n d hn hd
    by_cases e : n = N
    · rw [e, hout]; rfl
    · rw [fwd hn e hd]; rfl
  have mem_ : ∀ {q}, q ∈ s'.roots → q ∈ r ∨ q ∈ pre ∨ q = kernelFile env cfg v kd ∨
      q = initrdFile env cfg v id ∨ (∃ p, cfg.pcrlockDirectory = some p ∧ q = measurementFile p g) ∨
      q = entryFile cfg.esp N := by
    intro q hq
    rw [hr] at hq
    simp only [List.mem_append, List.mem_cons, List.not_mem_nil, or_false] at hq
    rcases hq with (((hq | hq) | (hq | hq)) | hq) | hq
    · exact Or.inl hq
    · exact Or.inr (Or.inl hq)
    · exact Or.inr (Or.inr (Or.inl hq))
    · exact Or.inr (Or.inr (Or.inr (Or.inl hq)))
    · exact Or.inr (Or.inr (Or.inr (Or.inr (Or.inl (mem_measurements hq)))))
    · exact Or.inr (Or.inr (Or.inr (Or.inr (Or.inr hq))))
  have hrk : kernelFile env cfg v kd ∈ s'.roots := by rw [hr]; simp
  have hri : initrdFile env cfg v id ∈ s'.roots := by rw [hr]; simp
  have hrN : entryFile cfg.esp N ∈ s'.roots := by rw [hr]; simp
  have hsub : ∀ {q}, q ∈ r → q ∈ s'.roots := by intro q hq; rw [hr]; simp [hq]
  have hsubp : ∀ {q}, q ∈ pre → q ∈ s'.roots := by intro q hq; rw [hr]; simp [hq]
  have entry_ : ∀ {m}, entryFile cfg.esp m ∈ s'.roots → entryFile cfg.esp m ∈ r ∨
      entryFile cfg.esp m ∈ pre ∨ m = N := by
    intro m hq
    rcases mem_ hq with hq | hq | hq | hq | ⟨p, -, hq⟩ | hq
    · exact Or.inl hq
    · exact Or.inr (Or.inl hq)
    · exact absurd hq.symm (caFile_ne_entryFile _ _ _ _)
    · exact absurd hq.symm (caFile_ne_entryFile _ _ _ _)
    · exact absurd hq.symm (measurementFile_ne_entryFile _ _ _ _)
    · exact Or.inr (Or.inr (entryFile_inj hq))
  -- when all goes well, nothing was found before
  have nopre : Distinct env cfg (gens ++ [g]) → AllMeasured env cfg f0 → Faultless env → pre = [] := by
    intro hD hM hF
    rcases hp.ex with h' | ⟨⟨p, hp1, hp2⟩, key', stub, kernel, initrd, hk', hfd, -⟩
    · exact h'
    · exfalso
      obtain ⟨n, data, kl, kh, il, ih, rfl, hm, hd, -⟩ := hfd.ex
      have hno := hp2 hF
      rcases h.old n data (isMatch_isEntry hm) hd with h0 | ⟨g1, hg1, key1, hk1, rfl, -⟩
      · have := h.measured p g hp1 (hM p hp1 g key' n hg hk' (isNameOf hm) (by rw [h0]; rfl))
        unfold Fs.fileAt at this
        rw [hno] at this
        cases this
      · exact hD.apart hg1 hk' hk1 (isMatch_stubName _ _ _ _ _) hm
  refine ⟨?_, ?_, ?_, ?_, ?_, ?_⟩
  · intro m d hmE hd
    by_cases e : m = N
    · exact Or.inr ⟨g, by simp, key, hk, e.trans hN.symm, by rw [e]; exact hrN⟩
    · rcases h.old m d hmE (bwd hmE e hd) with h | ⟨g', hg', key', hk', e', hr'⟩
      · exact Or.inl h
      · exact Or.inr ⟨g', by simp [hg'], key', hk', e', hsub hr'⟩
  · rw [hfs]; exact Used.measured_chain hs h.measured hch
  · intro q hq
    rcases mem_ hq with hq | hq | rfl | rfl | ⟨p, hp, rfl⟩ | rfl
    · rcases h.only q hq with h | ⟨g', hg', key', m, hk', hm, rfl, hx⟩ | h | ⟨g', hg', h⟩
      · exact Or.inl h
      · obtain ⟨d, hd⟩ := Option.isSome_iff_exists.1 hx
        exact Or.inr (Or.inl ⟨g', by simp [hg'], key', m, hk', hm, rfl, there (isMatch_isEntry hm) hd⟩)
      · exact Or.inr (Or.inr (Or.inl h))
      · exact Or.inr (Or.inr (Or.inr ⟨g', by simp [hg'], h⟩))
    · rcases hp.ex with rfl | ⟨-, key', stub, kernel, initrd, hk', hfd, rfl⟩
      · cases hq
      · obtain ⟨n, data, kl, kh, il, ih, rfl, hm, hd, h1, h2, rfl, rfl, h3, h4⟩ := hfd.ex
        simp only [List.mem_cons, List.not_mem_nil, or_false] at hq
        rcases hq with rfl | rfl | rfl
        · exact Or.inr (Or.inl ⟨g, by simp, key', n, hk', hm, rfl, there (isMatch_isEntry hm) hd⟩)
        · exact Or.inr (Or.inr (Or.inl ⟨_, _, h3.length, rfl⟩))
        · exact Or.inr (Or.inr (Or.inl ⟨_, _, h4.length, rfl⟩))
    · exact Or.inr (Or.inr (Or.inl ⟨_, _, env.sha.len _, rfl⟩))
    · exact Or.inr (Or.inr (Or.inl ⟨_, _, env.sha.len _, rfl⟩))
    · exact Or.inr (Or.inr (Or.inr ⟨g, by simp, p, hp, rfl⟩))
    · exact Or.inr (Or.inl ⟨g, by simp, key, N, hk, hNm, rfl, by rw [hout]; rfl⟩)
  · intro m hmE hrm d hd
    by_cases e : m = N
    · rw [e, hout] at hd
      cases hd
      exact ⟨_, _, _, _, refs.kernel, refs.initrd, hrk, hri, pk, pi⟩
    · have hd' := bwd hmE e hd
      rcases entry_ hrm with hq | hq | hq
      · obtain ⟨kl, kh, il, ih, x1, x2, x3, x4, x5, x6⟩ := h.closed m hmE hq d hd'
        exact ⟨kl, kh, il, ih, x1, x2, hsub x3, hsub x4, pres x5, pres x6⟩
      · rcases hp.ex with rfl | ⟨-, key', stub, kernel, initrd, hk', hfd, rfl⟩
        · cases hq
        · obtain ⟨n, data, kl, kh, il, ih, rfl, hm, hdn, h1, h2, rfl, rfl, h3, h4⟩ := hfd.ex
          simp only [List.mem_cons, List.not_mem_nil, or_false] at hq
          rcases hq with hq | hq | hq
          · cases entryFile_inj hq
            rw [hd'] at hdn
            cases hdn
            exact ⟨kl, kh, il, ih, h1, h2, hsubp (by simp), hsubp (by simp), pres h3, pres h4⟩
          · exact absurd hq.symm (caFile_ne_entryFile _ _ _ _)
          · exact absurd hq.symm (caFile_ne_entryFile _ _ _ _)
      · exact absurd hq e
  · intro hD hM hF x k hkl hq
    rcases mem_ hq with hq | hq | hq | hq | ⟨p, -, hq⟩ | hq
    · obtain ⟨g', hg', key', m, d, x1, x2, x3, x4, x5⟩ := h.refd hD.left hM hF x k hkl hq
      have hne : m ≠ N := by
        rintro rfl
        exact hD.apart hg' hk x1 x2 hNm
      exact ⟨g', by simp [hg'], key', m, d, x1, x2, hsub x3, fwd (isMatch_isEntry x2) hne x4, x5⟩
    · rw [nopre hD hM hF] at hq; cases hq
    · obtain ⟨rfl, rfl⟩ := caFile_inj hkl (env.sha.len _) hq
      exact ⟨g, by simp, key, N, out, hk, hNm, hrN, hout, Or.inl refs.kernel⟩
    · obtain ⟨rfl, rfl⟩ := caFile_inj hkl (env.sha.len _) hq
      exact ⟨g, by simp, key, N, out, hk, hNm, hrN, hout, Or.inr refs.initrd⟩
    · exact absurd hq.symm (measurementFile_ne_caFile _ _ _ _ _)
    · exact absurd hq (caFile_ne_entryFile _ _ _ _)
  · intro hD hM hF g' hg' key' m m' hk' hm1 hm2 hr1 hr2
    have hpe := nopre hD hM hF
    rw [hpe] at entry_
    have entry2 : ∀ {m}, entryFile cfg.esp m ∈ s'.roots → entryFile cfg.esp m ∈ r ∨ m = N := by
      intro m hq
      rcases entry_ hq with h | h | h
      · exact Or.inl h
      · cases h
      · exact Or.inr h
    have noNew : ∀ {m}, entryFile cfg.esp m ∈ r → isMatch env.uni (stubPrefix env.sha g key') m = true →
        False := by
      intro m hr hm
      obtain ⟨g1, hg1, key1, hk1, hm1, -⟩ := h.entry hsep hr
      exact hD.apart hg1 hk' hk1 hm1 hm
    cases hk.unique hk'
    rcases List.mem_append.1 hg' with hg' | hg'
    · have noN : ∀ {m}, m = N → isMatch env.uni (stubPrefix env.sha g' key) m = true → False := by
        rintro m rfl hm'
        exact hD.apart hg' hk hk' hm' hNm
      rcases entry2 hr1 with hr1 | e1
      · rcases entry2 hr2 with hr2 | e2
        · exact h.one hD.left hM hF g' hg' key m m' hk' hm1 hm2 hr1 hr2
        · exact (noN e2 hm2).elim
      · exact (noN e1 hm1).elim
    · rw [List.mem_singleton] at hg'
      subst hg'
      rcases entry2 hr1 with hr1 | rfl
      · exact (noNew hr1 hm1).elim
      · rcases entry2 hr2 with hr2 | rfl
        · exact (noNew hr2 hm2).elim
        · rfl

theorem used_carried (hs : SafeInput env cfg) (hft : FaithfulTools env) (hsep : Separate cfg)
    (f0 : Fs) : CarriedAll env cfg (Sound env cfg.esp) (Used env cfg f0) where
  step f c hj st := hj.step hs hft hsep st
  gen gens g s s' l hg hj hj' hS hd := by
    cases hd.result with
    | kept el kept hk hf e =>
      subst el
      rw [hd.fs, Fs.replay_nil, e]
      exact hS.kept hsep hk (hf.ca hj)
    | @fresh pre hp hf =>
      refine hS.fresh hs hft hsep hd.considered hd.steps hd.fs (pre := pre) ⟨?_⟩ hf
      rcases hp with hp | ⟨h1, key, stub, kernel, initrd, h2, h3, h4⟩
      · exact Or.inl hp
      · exact Or.inr ⟨h1, key, stub, kernel, initrd, h2, h3.ca hj, h4⟩
  loader gens f r l hg hj hS hch := hS.loader hs hch

end Verif.Tool
