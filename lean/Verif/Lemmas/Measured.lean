import Verif.Lemmas.Used
/-!
# Measurements of generations during a run
-/
namespace Verif.Tool
open Verif StubName Generation

variable {env : Env} {cfg : Config} {ld : Scope}

/-- What exists goes on existing until garbage collection, except for temporary files. -/
theorem InstallStep.exists_stays (hs : SafeInput env cfg) {f : Fs} {c : Change}
    (st : InstallStep env cfg ld f c) {q : Path} (ht : ¬ IsTmp q) (hn : ¬ IsNext cfg q)
    (hq : (f.get q).isSome) : ((f.apply c).get q).isSome := by
  have out : ∀ {m}, Outputs m f c → ((f.apply c).get q).isSome := by
    intro m h
    by_cases e : q = m
    · subst e
      cases h with
      | @mkdir x a b c =>
        rw [Fs.get_mkdir (ancestors_ne_nil a)]
        split
        · rfl
        · exact hq
      | create a b =>
        have : q ≠ [] := by rintro rfl; simp at a
        simp [Fs.get_create this]
      | write a => simp [Fs.get_write (fileAt_isSome_ne a)]
      | chmod => exact hq
    · rcases h.get q e with e' | ⟨-, e'⟩
      · rw [e']; exact hq
      · rw [e']; rfl
  cases st with
  | replace t r =>
    rcases r.get q (fun e => ht (e ▸ (t.tmp hs).1)) with e | ⟨-, e⟩ | ⟨rfl, h⟩
    · rw [e]; exact hq
    · rw [e]; rfl
    · obtain ⟨d, -, -, h, -⟩ := h; simp [h]
  | measured _ _ _ o => exact out o
  | next _ _ o => exact out o
  | @current dir t d m out out' hl hp' hd hlm hfn h1 h1s h2 h2s hn' e =>
    subst e
    rw [Fs.get_rename (Fs.fileAt_ne_nil hfn) (by simp [currentFile])]
    by_cases e : q = currentFile dir
    · simp [e]
    · have : q ≠ nextFile dir := fun e => hn ⟨dir, hp', e⟩
      simpa [e, this] using hq
  | sync _ e => subst e; exact hq

theorem measurementFile_not_next (p : Path) (g : Gen) : ¬ IsNext cfg (measurementFile p g) := by
  rintro ⟨p', -, e⟩
  have := congrArg lastTwo e
  rw [measurementFile_lastTwo, nextFile_lastTwo] at this
  simp at this
  exact absurd this.1 (by decide)

theorem measurementFile_inj {p p' : Path} {g g' : Gen} (h : measurementFile p g = measurementFile p' g') :
    g.versionTag = g'.versionTag := by
  have := congrArg lastTwo h
  rw [measurementFile_lastTwo, measurementFile_lastTwo] at this
  simp at this
  exact this

/-- Installing one generation leaves the measurements of others alone. -/
theorem InstallStep.measurement (hs : SafeInput env cfg) {f : Fs} {c : Change}
    (st : InstallStep env cfg ld f c) {p : Path} (hp : cfg.pcrlockDirectory = some p) {g : Gen}
    {d : Bytes} (hd : f.fileAt (measurementFile p g) = some d) :
    (f.apply c).fileAt (measurementFile p g) = some d ∨ ∃ g', ld.gens g' ∧
      g'.versionTag = g.versionTag := by
  have hm : IsMeasurement cfg (measurementFile p g) := ⟨p, hp, Or.inl ⟨g, rfl⟩⟩
  have out : ∀ {m}, Outputs m f c → measurementFile p g ≠ m →
      (f.apply c).fileAt (measurementFile p g) = some d := by
    intro m h hne
    rw [Fs.fileAt_eq_some] at hd ⊢
    rcases h.get _ hne with e | ⟨e, -⟩
    · rw [e]; exact hd
    · rw [e] at hd; cases hd
  cases st with
  | replace t r => exact Or.inl (r.get_measurement hs t hm hd)
  | @measured g' p' hg ho hp' o =>
    by_cases e : g'.versionTag = g.versionTag
    · exact Or.inr ⟨g', ho, e⟩
    · exact Or.inl (out o fun h => e (measurementFile_inj h).symm)
  | @next p' _ hp' o => exact Or.inl (out o fun h => measurementFile_not_next p g ⟨p', hp', h⟩)
  | @current dir t d m out out' hl hp' hd' hlm hfn h1 h1s h2 h2s hn' e =>
    subst e
    left
    unfold Fs.fileAt at hd ⊢
    rw [Fs.get_rename (Fs.fileAt_ne_nil hfn) (by simp [currentFile])]
    have e1 : measurementFile p g ≠ currentFile dir := by
      intro e
      have := congrArg lastTwo e
      rw [measurementFile_lastTwo, currentFile_lastTwo] at this
      simp at this
      exact absurd this.1 (by decide)
    have e2 : measurementFile p g ≠ nextFile dir := fun e => measurementFile_not_next p g ⟨dir, hp', e⟩
    simpa [e1, e2] using hd
  | sync _ e => subst e; exact Or.inl hd

theorem chain_measurement (hs : SafeInput env cfg) {f : Fs} {l : List Change}
    (h : Fs.Chain (InstallStep env cfg ld) f l) {p : Path} (hp : cfg.pcrlockDirectory = some p) {g : Gen}
    {d : Bytes} (hd : f.fileAt (measurementFile p g) = some d) :
    (f.replay l).fileAt (measurementFile p g) = some d ∨ ∃ g', ld.gens g' ∧
      g'.versionTag = g.versionTag := by
  refine h.inv (J := fun f => f.fileAt (measurementFile p g) = some d ∨ ∃ g', ld.gens g' ∧
      g'.versionTag = g.versionTag) (Or.inl hd) ?_
  intro f c j st
  rcases j with j | j
  · exact st.measurement hs hp j
  · exact Or.inr j

/-- The measurement of `g` exists and is in use. -/
def MeasuredGen (cfg : Config) (g : Gen) (f : Fs) (r : List Path) : Prop :=
  ∀ p, cfg.pcrlockDirectory = some p → (f.get (measurementFile p g)).isSome ∧ measurementFile p g ∈ r

theorem MeasuredGen.chain (hs : SafeInput env cfg) {g : Gen} {f : Fs} {r r' : List Path}
    (h : MeasuredGen cfg g f r) {l : List Change} (hch : Fs.Chain (InstallStep env cfg ld) f l)
    (hr : ∀ p ∈ r, p ∈ r') : MeasuredGen cfg g (f.replay l) r' := by
  intro p hp
  refine ⟨hch.inv (J := fun f => (f.get (measurementFile p g)).isSome) (h p hp).1 ?_, hr _ (h p hp).2⟩
  intro f c j st
  exact st.exists_stays hs (isMeasurement_not_isTmp ⟨p, hp, Or.inl ⟨g, rfl⟩⟩)
    (measurementFile_not_next p g) j

theorem measured_carried (hs : SafeInput env cfg) :
    Carried env cfg (fun _ => True) (MeasuredGen cfg) where
  step _ _ _ _ := trivial
  post g s hg _ h p hp := by
    rcases h with h | h
    · obtain ⟨_, _, _, _, -, -, -, h⟩ := h.ex
      exact h p hp
    · obtain ⟨_, _, _, _, _, _, -, -, -, -, -, -, -, -, -, h, -⟩ := h.ex
      obtain ⟨t, m, -, h1, h2⟩ := h p hp
      exact ⟨by rw [Fs.fileAt_eq_some.1 h1]; rfl, h2⟩
  other g g' f r l s' _ _ _ h hch hfs hrs _ _ := by rw [hfs]; exact h.chain hs hch hrs
  loader g f r l r' _ _ h hch hrs := h.chain hs hch hrs

/-! ### Exactly the new image is measured -/

/-- The entry of `g` was made in this run from an image, and this image was measured. -/
structure NewlyMeasured (env : Env) (cfg : Config) (g : Gen) (f : Fs) : Prop where
  ex : ∃ key image out, KeyOf env cfg.signer key ∧
    (EntryImage env cfg g image ∧ SignedBy env cfg.signer image out) ∧
    f.fileAt (entryFile cfg.esp (stubName env.sha g key cfg.tries)) = some out ∧
    ∀ p, cfg.pcrlockDirectory = some p → ∃ t m, env.lockPe t image = some m ∧
      f.fileAt (measurementFile p g) = some m

/-- No entry of `g` was made in this run. -/
def OldEntries (env : Env) (cfg : Config) (g : Gen) (f0 f : Fs) : Prop :=
  ∀ key n data, KeyOf env cfg.signer key → isMatch env.uni (stubPrefix env.sha g key) n = true →
    f.fileAt (entryFile cfg.esp n) = some data → f0.fileAt (entryFile cfg.esp n) = some data

theorem isMatch_tag {uni : Char → Bool} {sha : Sha} {g g' : Gen} {k k' : Bytes} {n : Str}
    (h : isMatch uni (stubPrefix sha g k) n = true) (h' : isMatch uni (stubPrefix sha g' k') n = true) :
    g.versionTag = g'.versionTag := by
  obtain ⟨s, e, hs⟩ := isMatch_form h
  obtain ⟨s', e', hs'⟩ := isMatch_form h'
  rw [e] at e'
  obtain ⟨h1, h2, -⟩ := stubPrefix_inj (prefix_counter_inj uni hs hs' (List.append_cancel_right e')).1
  unfold Gen.versionTag Gen.describeSpecialisation
  rw [h1, h2]

theorem OldEntries.chain (hs : SafeInput env cfg) {g : Gen} {f0 f : Fs} (h : OldEntries env cfg g f0 f)
    {l : List Change} (hch : Fs.Chain (InstallStep env cfg ld) f l)
    (hg : ∀ g', ld.gens g' → g'.versionTag ≠ g.versionTag) : OldEntries env cfg g f0 (f.replay l) := by
  intro key n data hk hm hd
  rcases chain_entry_back hs hch (isMatch_isEntry hm) hd with hd | ⟨g', key', hg', -, rfl⟩
  · exact h key n data hk hm hd
  · exact absurd (isMatch_tag (isMatch_stubName _ _ _ _ _) hm) (hg g' hg')

theorem NewlyMeasured.chain (hs : SafeInput env cfg) {g : Gen} {f : Fs} (h : NewlyMeasured env cfg g f)
    {l : List Change} (hch : Fs.Chain (InstallStep env cfg ld) f l)
    (hg : ∀ g', ld.gens g' → g'.versionTag ≠ g.versionTag) : NewlyMeasured env cfg g (f.replay l) := by
  obtain ⟨key, image, out, h1, h2, h3, h4⟩ := h.ex
  have hm := isMatch_stubName env.uni env.sha g key cfg.tries
  refine ⟨key, image, out, h1, h2, ?_, fun p hp => ?_⟩
  · rcases chain_entry hs hch (isMatch_isEntry hm) h3 with h | ⟨g', key', hg', -, e⟩
    · exact h
    · rw [e] at hm
      exact absurd (isMatch_tag (isMatch_stubName _ _ _ _ _) hm) (hg g' hg')
  · obtain ⟨t, m, h5, h6⟩ := h4 p hp
    rcases chain_measurement hs hch hp h6 with h | ⟨g', hg', e⟩
    · exact ⟨t, m, h5, h⟩
    · exact absurd e (hg g' hg')

structure ImagesMeasured (env : Env) (cfg : Config) (f0 : Fs) (gens : List Gen) (f : Fs) : Prop where
  new : TagsDiffer gens → ∀ g ∈ gens, NewlyMeasured env cfg g f ∨ OldEntries env cfg g f0 f
  old : ∀ g, (∀ g' ∈ gens, g'.versionTag ≠ g.versionTag) → OldEntries env cfg g f0 f

theorem images_carried (hs : SafeInput env cfg) (f0 : Fs) :
    CarriedAll env cfg (fun _ => True) (fun gens f _ => ImagesMeasured env cfg f0 gens f) where
  step _ _ _ _ := trivial
  gen gens g s s' l hg _ _ hS hd := by
    have tag : ∀ {x : Gen}, g.versionTag ≠ x.versionTag →
        ∀ g', (Scope.one g).gens g' → g'.versionTag ≠ x.versionTag := by
      rintro x h g' rfl; exact h
    refine ⟨fun hT x hx => ?_, fun x hx => ?_⟩
    · have hT := List.pairwise_append.1 hT
      rcases List.mem_append.1 hx with hx | hx
      · have hne := hT.2.2 x hx g (by simp)
        rw [hd.fs]
        rcases hS.new hT.1 x hx with h | h
        · exact Or.inl (h.chain hs hd.steps (tag fun e => hne e.symm))
        · exact Or.inr (h.chain hs hd.steps (tag fun e => hne e.symm))
      · rw [List.mem_singleton] at hx
        subst hx
        rcases hd.done with ⟨e, -⟩ | h
        · right
          rw [hd.fs, e, Fs.replay_nil]
          exact hS.old x fun g' hg' => hT.2.2 g' hg' x (by simp)
        · left
          obtain ⟨key, kd, id, image, out, v, hk, h1, h2, h3, ⟨stub, _, t, h4, -, h5⟩, hsg, hf, -, -, hm, -⟩ := h.ex
          exact ⟨key, image, out, hk, ⟨⟨v, kd, id, kernelVersion_spec.1 h1, h2, h3, stub, t, _, h4, rfl, h5⟩, hsg⟩, hf, fun p hp => by
            obtain ⟨t, m, h1, h2, -⟩ := hm p hp; exact ⟨t, m, h1, h2⟩⟩
    · rw [hd.fs]
      exact (hS.old x fun g' hg' => hx g' (by simp [hg'])).chain hs hd.steps (tag (hx g (by simp)))
  loader gens f r l hg _ hS hch :=
    ⟨fun hT x hx => by
      rcases hS.new hT x hx with h | h
      · exact Or.inl (h.chain hs hch fun g' h => h.elim)
      · exact Or.inr (h.chain hs hch fun g' h => h.elim),
     fun x hx => (hS.old x hx).chain hs hch fun g' h => h.elim⟩

/-! ### Garbage collection -/

theorem below_esp_not_measurement (hsep : Separate cfg) {p : Path} (hp : cfg.pcrlockDirectory = some p)
    {d : Str} (hd : d = lit "nixos" ∨ d = lit "Linux") (g : Gen) :
    ¬ cfg.esp ++ [lit "EFI", d] <+: measurementFile p g := by
  intro h
  rw [show measurementFile p g = lockDir p ++ [g.versionTag ++ lit ".pcrlock"] by
    simp [measurementFile, lockDir]] at h
  have e' : cfg.esp ++ [lit "EFI", d] = (cfg.esp ++ [lit "EFI"]) ++ [d] := by simp
  rcases prefix_snoc_iff.1 h with h | h
  · rcases prefix_snoc_iff.1 h with h | h
    · rcases hd with rfl | rfl
      · exact (hsep _ hp).2.1 h
      · exact (hsep _ hp).2.2 h
    · rw [e'] at h
      have := (List.cons_eq_cons.1 (List.append_inj' h rfl).2).1
      rcases hd with rfl | rfl <;> exact absurd this (by decide)
  · rw [e'] at h
    have := congrArg List.getLast? (List.cons_eq_cons.1 (List.append_inj' h rfl).2).1
    rw [List.getLast?_append] at this
    rcases hd with rfl | rfl <;> exact absurd this (by simp [lit])

/-- The measurement of a considered generation is not collected. -/
theorem measurement_not_doomed (hsep : Separate cfg) {fs : Fs} {final : List Path}
    (hr : ∀ p ∈ (start cfg fs).roots, p ∈ final) {p : Path} (hp : cfg.pcrlockDirectory = some p)
    {g : Gen} (hm : measurementFile p g ∈ final) {q : Path} (hq : q <+: measurementFile p g) :
    ¬ DoomedAny cfg final q := by
  intro h
  cases h with
  | nixos h => exact below_esp_not_measurement hsep hp (Or.inl rfl) g (h.below.trans hq)
  | linux h => exact below_esp_not_measurement hsep hp (Or.inr rfl) g (h.below.trans hq)
  | @lock p' hp' h =>
    rw [hp] at hp'
    cases hp'
    rw [show measurementFile p g = lockDir p ++ [g.versionTag ++ lit ".pcrlock"] by
      simp [measurementFile, lockDir]] at hq hm
    rcases prefix_snoc_iff.1 hq with h' | h'
    · have : q = lockDir p := List.IsPrefix.eq_of_length_le h' h.below.length_le
      refine h.unused ?_
      rw [this]
      refine hr _ ?_
      unfold start Config.pcrlock
      rw [hp]
      have e1 : (PcrlockPaths.new p).lanzaboote = lockDir p := pcrlock_lanzaboote p
      simp [PcrlockPaths.iter, e1]
    · exact h.unused (by rw [h']; exact hm)

theorem kept_measurement (hsep : Separate cfg) {fs : Fs} {final : List Path}
    (hr : ∀ p ∈ (start cfg fs).roots, p ∈ final) {p : Path} (hp : cfg.pcrlockDirectory = some p)
    {g : Gen} (hm : measurementFile p g ∈ final) {f : Fs} {l : List Change}
    (h : Fs.Chain (GcAny cfg final) f l) :
    (f.replay l).get (measurementFile p g) = f.get (measurementFile p g) :=
  GcAny.chain_keeps h fun _ hq => measurement_not_doomed hsep hr hp hm hq

end Verif.Tool
