import Verif.Lemmas.Run
/-!
# Facts about all prefixes of a run
-/
namespace Verif.Tool
open Verif StubName Generation

variable {env : Env} {cfg : Config} {ld : Scope}

theorem prefix_append_cases {α : Type} {x a b : List α} (h : x <+: a ++ b) :
    x <+: a ∨ ∃ m, x = a ++ m ∧ m <+: b := by
  obtain ⟨t, ht⟩ := h
  rcases List.append_eq_append_iff.1 ht with ⟨z, h1, h2⟩ | ⟨z, h1, h2⟩
  · exact Or.inl ⟨z, h1.symm⟩
  · exact Or.inr ⟨z, h1, ⟨t, h2.symm⟩⟩

/-! ### Shape of interrupted runs -/

/-- The shape of a run from a file system, without additional facts. -/
abbrev PlainShape (env : Env) (cfg : Config) (fs : Fs) (installed collected : List Change)
    (gens : List Gen) (final : List Path) : Prop :=
  RunShape env cfg (fun _ => True) (fun _ _ _ => True) (start cfg fs)
    (run env cfg (start cfg fs)) installed collected gens final

theorem run_plain (hs : SafeInput env cfg) (fs : Fs) : ∃ installed collected gens final,
    PlainShape env cfg fs installed collected gens final :=
  run_shape hs (CarriedAll.inv fun _ _ _ _ => trivial) (start cfg fs) trivial trivial rfl

theorem InstallStep.quiet {f : Fs} {c : Change} (h : InstallStep env cfg ld f c) :
    c ≠ .collecting ∧ removed c = none := by
  cases h with
  | replace t r => cases r <;> exact ⟨by simp, rfl⟩
  | measured _ _ _ o => cases o <;> exact ⟨by simp, rfl⟩
  | next _ _ o => cases o <;> exact ⟨by simp, rfl⟩
  | current _ _ _ _ _ _ _ _ _ _ e => subst e; exact ⟨by simp, rfl⟩
  | sync _ e => subst e; exact ⟨by simp, rfl⟩

theorem installed_quiet {f : Fs} {l : List Change} (h : Fs.Chain (InstallStep env cfg ld) f l) :
    ∀ c ∈ l, c ≠ .collecting ∧ removed c = none := h.forall fun _ _ st => st.quiet

section
variable {J : Fs → Prop} {S : List Gen → Fs → List Path → Prop} {fs : Fs} {installed collected : List Change} {gens : List Gen} {final : List Path}

/-- A killed run either has not started collecting garbage, or is in the middle of it. -/
theorem RunShape.killed (h : RunShape env cfg J S (start cfg fs) (run env cfg (start cfg fs))
    installed collected gens final) {done : List Change} (hk : KilledAfter env cfg fs done) :
    (done <+: installed ∧ .collecting ∉ done) ∨ ∃ l l', collected = .collecting :: l ∧ l' <+: l ∧
      done = installed ++ .collecting :: l' ∧ .collecting ∈ done := by
  unfold KilledAfter at hk
  rw [h.log] at hk
  have hk : done <+: installed ++ collected := by simpa [start] using hk
  rcases prefix_append_cases hk with h' | ⟨m, rfl, hm⟩
  · refine Or.inl ⟨h', fun hc => ?_⟩
    exact (installed_quiet h.steps _ (h'.subset hc)).1 rfl
  · cases m with
    | nil =>
      refine Or.inl ⟨by simp, fun hc => ?_⟩
      simp only [List.append_nil] at hc
      exact (installed_quiet h.steps _ hc).1 rfl
    | cons c m =>
      have hne : collected ≠ [] := by rintro rfl; simp at hm
      obtain ⟨l, hl, -⟩ := h.gc hne
      rw [hl] at hm
      obtain ⟨rfl, hm'⟩ := List.cons_prefix_cons.1 hm
      exact Or.inr ⟨l, m, hl, hm', rfl, by simp⟩

/-- The two kinds of interrupted runs, with what is known about them. -/
theorem RunShape.phases (h : RunShape env cfg J S (start cfg fs) (run env cfg (start cfg fs))
    installed collected gens final) {done : List Change} (hk : KilledAfter env cfg fs done) :
    (done <+: installed ∧ .collecting ∉ done ∧ Fs.Chain (InstallStep env cfg .all) fs done) ∨
    (.collecting ∈ done ∧ Fs.Chain (InstallStep env cfg .all) fs installed ∧
      ∃ l, done = installed ++ .collecting :: l ∧ Fs.Chain (GcAny cfg final) (fs.replay installed) l ∧
      fs.replay done = (fs.replay installed).replay l ∧
      (∀ g, Considers env cfg g → g ∈ gens) ∧
      Complete env cfg J S gens (fs.replay installed) final) := by
  rcases h.killed hk with ⟨h1, h2⟩ | ⟨l, l', h1, h2, h3, h4⟩
  · exact Or.inl ⟨h1, h2, h.steps.prefix h1⟩
  · obtain ⟨l3, hc', hg, -, ha, hC⟩ := h.gc (by rw [h1]; simp)
    rw [h1] at hc'
    cases hc'
    refine Or.inr ⟨h4, h.steps, l', h3, hg.prefix h2, ?_, ha, hC⟩
    rw [h3, Fs.replay_append]; rfl

end

/-! ### Content of the files before garbage collection -/

theorem ImageOf.stubImage {g : Gen} {v : Str} {kd id image : Bytes}
    (h : ImageOf env cfg g v kd id image) : StubImage env cfg g v kd id image := by
  obtain ⟨stub, offset, t, h1, -, h2⟩ := h
  exact ⟨stub, t, _, h1, rfl, h2⟩

theorem NewContent.wanted {f : Fs} {q : Path} {d : Bytes} (h : NewContent env cfg ld f q d) :
    Wanted env cfg q d := by
  cases h with
  | kernel hg _ hv hd e => exact .kernel hg (kernelVersion_spec.1 hv) hd e
  | initrd hg _ hv hd e => exact .initrd hg (kernelVersion_spec.1 hv) hd e
  | entry hg _ hk hv hkd hid him hs _ _ e => exact .entry hg hk (kernelVersion_spec.1 hv) hkd hid him.stubImage hs e
  | loader _ hd hs _ e => exact .loader hd hs e
  | conf hd e => exact .conf hd e

/-- What can have become of the path `p` that is neither temporary nor a measurement. -/
def Upto (env : Env) (cfg : Config) (fs f : Fs) : Prop := ∀ p, ¬ IsTmp p → ¬ IsMeasurement cfg p →
  f.get p = fs.get p ∨ (fs.get p = none ∧ f.get p = some .dir) ∨
  (fs.get p ≠ some .dir ∧ ∃ d, Wanted env cfg p d ∧ f.get p = some (.file d))

theorem Upto.refl (fs : Fs) : Upto env cfg fs fs := fun _ _ _ => Or.inl rfl

theorem Upto.step (hs : SafeInput env cfg) {fs f : Fs} {c : Change} (h : Upto env cfg fs f)
    (st : InstallStep env cfg ld f c) : Upto env cfg fs (f.apply c) := by
  intro p ht hm
  rcases st.get hs ht hm with e | ⟨e1, e2⟩ | ⟨d, hn, -, e1, e2, -⟩
  · rw [e]; exact h p ht hm
  · rcases h p ht hm with e | ⟨-, e⟩ | ⟨-, d, -, e⟩
    · exact Or.inr (Or.inl ⟨by rw [← e, e1], e2⟩)
    · rw [e1] at e; cases e
    · rw [e1] at e; cases e
  · refine Or.inr (Or.inr ⟨?_, d, hn.wanted, e2⟩)
    rcases h p ht hm with e | ⟨e, -⟩ | ⟨e, -⟩
    · rw [← e]; exact e1
    · rw [e]; simp
    · exact e

theorem Upto.chain (hs : SafeInput env cfg) {fs : Fs} {l : List Change}
    (h : Fs.Chain (InstallStep env cfg ld) fs l) : Upto env cfg fs (fs.replay l) :=
  h.inv (Upto.refl fs) fun _ _ j st => j.step hs st

/-- A file stays a file, unless it is temporary or the measurement of the next boot loader. -/
def Stays (cfg : Config) (fs f : Fs) : Prop := ∀ p, ¬ IsTmp p →
  ¬ IsNext cfg p →
  (fs.fileAt p).isSome → (f.fileAt p).isSome

theorem Replaces.measurement (hs : SafeInput env cfg) {to : Path} {S : Bytes → Prop} {dur : Bool}
    {f : Fs} {c : Change} (h : Replaces to S dur f c) (ht : Target env cfg ld dur to) {q : Path}
    (hq : IsMeasurement cfg q) (hd : (f.fileAt q).isSome) : ((f.apply c).fileAt q).isSome := by
  obtain ⟨d, hd⟩ := Option.isSome_iff_exists.1 hd
  rw [h.get_measurement hs ht hq hd]; rfl

theorem Outputs.file {m : Path} {f : Fs} {c : Change} (h : Outputs m f c) {q : Path}
    (hq : (f.fileAt q).isSome) : ((f.apply c).fileAt q).isSome := by
  by_cases e : q = m
  · subst e
    cases h with
    | @mkdir x a b c =>
      have : q ≠ x := by
        rintro rfl
        obtain ⟨d, hd⟩ := Option.isSome_iff_exists.1 hq
        rw [Fs.fileAt_eq_some, b] at hd; cases hd
      unfold Fs.fileAt at hq ⊢
      rw [Fs.get_mkdir (ancestors_ne_nil a)]
      simpa [this] using hq
    | create a b =>
      have : q ≠ [] := by rintro rfl; simp at a
      simp [Fs.fileAt, Fs.get_create this]
    | write a => simp [fileAt_write (fileAt_isSome_ne a)]
    | chmod => exact hq
  · obtain ⟨d, hd⟩ := Option.isSome_iff_exists.1 hq
    rw [Fs.fileAt_eq_some] at hd
    rcases h.get q e with e' | ⟨e', -⟩
    · unfold Fs.fileAt; rw [e', hd]; rfl
    · rw [e'] at hd; cases hd

theorem Stays.step (hs : SafeInput env cfg) {fs f : Fs} {c : Change} (h : Stays cfg fs f)
    (st : InstallStep env cfg ld f c) : Stays cfg fs (f.apply c) := by
  intro p ht hn hp
  have hf := h p ht hn hp
  by_cases hm : IsMeasurement cfg p
  · cases st with
    | replace t r => exact r.measurement hs t hm hf
    | measured _ _ _ o => exact o.file hf
    | next _ _ o => exact o.file hf
    | @current dir t d m out out' hl hp' hd hlm hfn h1 h1s h2 h2s hn' e =>
      subst e
      unfold Fs.fileAt at hf ⊢
      rw [Fs.get_rename (Fs.fileAt_ne_nil hfn) (by simp [currentFile])]
      by_cases e : p = currentFile dir
      · simp [e]
      · have : p ≠ nextFile dir := fun e => hn ⟨dir, hp', e⟩
        simpa [e, this] using hf
    | sync _ e => subst e; exact hf
  · obtain ⟨d, hd⟩ := Option.isSome_iff_exists.1 hf
    rw [Fs.fileAt_eq_some] at hd
    rcases st.get hs ht hm with e | ⟨e, -⟩ | ⟨d', -, -, -, e, -⟩
    · unfold Fs.fileAt; rw [e, hd]; rfl
    · rw [e] at hd; cases hd
    · unfold Fs.fileAt; rw [e]; rfl

theorem Stays.chain (hs : SafeInput env cfg) {fs : Fs} {l : List Change}
    (h : Fs.Chain (InstallStep env cfg ld) fs l) : Stays cfg fs (fs.replay l) :=
  h.inv (J := Stays cfg fs) (fun _ _ _ h => h) fun _ _ j st => j.step hs st

/-! ### Garbage collection -/

theorem GcStep.removes {dir : Path} {pred : Path → Bool} {roots : List Path} {f : Fs} {c : Change}
    (h : GcStep dir pred roots f c) : ∃ p q, Doomed dir pred roots q ∧ q <+: p ∧ p ≠ [] ∧
      ∀ x, (f.apply c).get x = if x = p then none else f.get x := by
  cases h with
  | unlink hq hp hf => exact ⟨_, _, hq, hp, fileAt_isSome_ne hf, fun x => Fs.get_unlink (fileAt_isSome_ne hf) x⟩
  | rmdir hq hp hd he hn => exact ⟨_, _, hq, hp, hn, fun x => Fs.get_rmdir hn x⟩

theorem GcAny.removes {roots : List Path} {f : Fs} {c : Change} (h : GcAny cfg roots f c) :
    ∃ p q, DoomedAny cfg roots q ∧ q <+: p ∧ p ≠ [] ∧
      ∀ x, (f.apply c).get x = if x = p then none else f.get x := by
  cases h with
  | nixos h => obtain ⟨p, q, h1, h2⟩ := h.removes; exact ⟨p, q, .nixos h1, h2⟩
  | linux h => obtain ⟨p, q, h1, h2⟩ := h.removes; exact ⟨p, q, .linux h1, h2⟩
  | lock hp h => obtain ⟨p, q, h1, h2⟩ := h.removes; exact ⟨p, q, .lock hp h1, h2⟩

/-- Garbage collection leaves a path or removes it. -/
theorem GcAny.chain_get {roots : List Path} {f : Fs} {l : List Change}
    (h : Fs.Chain (GcAny cfg roots) f l) (x : Path) :
    (f.replay l).get x = f.get x ∨ (f.replay l).get x = none := by
  refine h.inv (J := fun f' => f'.get x = f.get x ∨ f'.get x = none) (Or.inl rfl) ?_
  intro f' c j st
  obtain ⟨p, q, -, -, -, hg⟩ := st.removes
  rw [hg]
  by_cases e : x = p
  · simp [e]
  · simpa [e] using j

/-- A path none of whose parents, nor itself, is collected stays. -/
theorem GcAny.chain_keeps {roots : List Path} {f : Fs} {l : List Change}
    (h : Fs.Chain (GcAny cfg roots) f l) {x : Path} (hx : ∀ q, q <+: x → ¬ DoomedAny cfg roots q) :
    (f.replay l).get x = f.get x := by
  refine h.inv (J := fun f' => f'.get x = f.get x) rfl ?_
  intro f' c j st
  obtain ⟨p, q, h1, h2, -, hg⟩ := st.removes
  rw [hg]
  by_cases e : x = p
  · subst e; exact absurd h1 (hx q h2)
  · simpa [e] using j

/-! ### Prefixes -/

theorem prefix_snoc_iff {q p : Path} {n : Str} : q <+: p ++ [n] ↔ q <+: p ∨ q = p ++ [n] := by
  constructor
  · intro h
    rcases prefix_append_cases h with h | ⟨m, rfl, hm⟩
    · exact Or.inl h
    · cases m with
      | nil => exact Or.inl (by simp)
      | cons a m =>
        obtain ⟨rfl, hm'⟩ := List.cons_prefix_cons.1 hm
        rw [List.prefix_nil] at hm'
        exact Or.inr (by simp [hm'])
  · rintro (h | rfl)
    · exact h.trans (List.prefix_append _ _)
    · exact List.prefix_refl _

/-- The last component of a path. -/
theorem snoc_ne_of_last {p q : Path} {n m : Str} (h : n ≠ m) : p ++ [n] ≠ q ++ [m] := by
  intro e
  have := (List.append_inj' e rfl).2
  simp at this
  exact h this

theorem startsWithNixos_snoc (p : Path) (n : Str) :
    startsWithNixos (p ++ [n]) = true ↔ n ≠ ['.', '.'] ∧ lit "nixos-" <+: n := by
  unfold startsWithNixos Path.fileName
  simp only [List.getLast?_append, List.getLast?_singleton, Option.some_or]
  by_cases h : n = ['.', '.']
  · subst h; simp
  · simp [h, List.isPrefixOf_iff_prefix]

theorem nixosDir_root (cfg : Config) (fs : Fs) : nixosDir cfg.esp ∈ (start cfg fs).roots := by
  unfold start EspPaths.iter
  rw [← paths_nixos']
  simp

theorem lockDir_root {cfg : Config} (fs : Fs) {p : Path} (hp : cfg.pcrlockDirectory = some p) :
    lockDir p ∈ (start cfg fs).roots := by
  unfold start Config.pcrlock
  rw [hp]
  have : (PcrlockPaths.new p).lanzaboote = lockDir p := by rw [pcrlock_lanzaboote]; rfl
  simp [PcrlockPaths.iter, this]

end Verif.Tool
