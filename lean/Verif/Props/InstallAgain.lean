import Verif.Lemmas.Settled
import Verif.Props.History
import Verif.Props.InstallLoader
import Verif.Lemmas.SampleLoader
/-!
# Running the installer once more

C40.
-/
namespace Verif.Tool
open Verif StubName Generation Version.Spec BootCounting

variable {env env' : Env} {cfg : Config} {fs : Fs}

theorem parseLinks_congr (h : env'.buildTime = env.buildTime) (l : List Path) :
    parseLinks env' l = parseLinks env l := by
  induction l with
  | nil => rfl
  | cons p l ih => simp only [parseLinks, h, ih]

theorem considered_congr (h : env'.buildTime = env.buildTime) :
    cfg.considered env' = cfg.considered env := by
  unfold Config.considered; rw [parseLinks_congr h]

theorem SameInputs.buildTime (h : SameInputs env env') : env'.buildTime = env.buildTime := by
  funext p; unfold Env.buildTime; rw [h.times]

theorem SameInputs.considers (h : SameInputs env env') {g : Gen} :
    Considers env' cfg g ↔ Considers env cfg g := by
  constructor
  · rintro ⟨links, link, j, h1, h2, h3, h4⟩
    exact ⟨links, link, j, by rw [← considered_congr h.buildTime]; exact h1, h2, by rw [← h.bootJson]; exact h3, h4⟩
  · rintro ⟨links, link, j, h1, h2, h3, h4⟩
    exact ⟨links, link, j, by rw [considered_congr h.buildTime]; exact h1, h2, by rw [h.bootJson]; exact h3, h4⟩

theorem SameInputs.key (h : SameInputs env env') {signer : Signer} {key : Bytes}
    (hk : KeyOf env signer key) : KeyOf env' signer key := by
  cases signer with
  | empty => exact hk
  | «local» pub priv => show env'.store pub = _; rw [h.store]; exact hk

theorem SameInputs.refers (h : SameInputs env env') {esp : Path} {data : Bytes} {a b l : Str} {k : Bytes}
    (hr : RefersToCa env esp data a b l k) : RefersToCa env' esp data a b l k := by
  obtain ⟨h1, rel, h2, h3, h4⟩ := hr
  refine ⟨h1, rel, h2, ?_, ?_⟩
  · unfold FileSection at h3 ⊢; rw [h.parse]; exact h3
  · unfold FileSection at h4 ⊢; rw [h.parse]; exact h4

theorem SameInputs.version (h : SameInputs env env') (data : Bytes) :
    versionOf env' data = versionOf env data := by
  unfold versionOf readSectionData; rw [h.parse]

theorem SameInputs.kept (h : SameInputs env env') (hk : LoaderKept env cfg fs) : LoaderKept env' cfg fs := by
  obtain ⟨h1, h2, h3, h4, h5⟩ := hk
  refine ⟨?_, ?_, ?_, ?_, h5⟩
  · unfold UpToDate at h1 ⊢; simp only [h.version, h.store]; exact h1
  · unfold UpToDate at h2 ⊢; simp only [h.version, h.store]; exact h2
  · revert h3; cases cfg.signer <;> unfold VerifiedAt
    · exact id
    · rw [h.sbverify]; exact id
  · revert h4; cases cfg.signer <;> unfold VerifiedAt
    · exact id
    · rw [h.sbverify]; exact id

theorem SameInputs.settled (h : SameInputs env env') (hs : Settled env cfg fs) : Settled env' cfg fs where
  esp := hs.esp
  linux := hs.linux
  links := by
    obtain ⟨links, h1, h2, h3⟩ := hs.links
    exact ⟨links, by rw [considered_congr h.buildTime]; exact h1, h2, by rw [h.bootJson]; exact h3⟩
  entries g hg := by
    obtain ⟨key, n, data, kl, kh, il, ih, h1, h2, h3, h4, h5, h6, h7, h8, h9⟩ :=
      hs.entries g (h.considers.1 hg)
    exact ⟨key, n, data, kl, kh, il, ih, h.key h1, by rw [h.uni, h.sha]; exact h2, h3, h.refers h4,
      h.refers h5, h6, h7, by rw [h.uni, h.sha]; exact h8, h9⟩
  loader := h.kept hs.loader
  conf := by rw [h.store, h.sha]; exact hs.conf
  nixos p h1 h2 h3 := by
    obtain ⟨g, key, n, data, l, k, a1, a2, a3, a4, a5, a6⟩ := hs.nixos p h1 h2 h3
    exact ⟨g, key, n, data, l, k, h.considers.2 a1, h.key a2, by rw [h.uni, h.sha]; exact a3, a4, a5,
      a6.imp h.refers h.refers⟩
  named q n h1 h2 h3 := by
    obtain ⟨a1, g, key, a2, a3, a4⟩ := hs.named q n h1 h2 h3
    exact ⟨a1, g, key, h.considers.2 a2, h.key a3, by rw [h.uni, h.sha]; exact a4⟩
  lock p q h1 h2 h3 h4 := by
    obtain ⟨g, a1, a2⟩ := hs.lock p q h1 h2 h3 h4
    exact ⟨g, h.considers.2 a1, a2⟩

theorem SameInputs.safe (h : SameInputs env env') (hs : SafeInput env cfg) : SafeInput env' cfg :=
  fun g hg => hs g (h.considers.1 hg)

/-- Only the ESP and the measurements matter. -/
theorem Settled.congr {f : Fs} (hs : Settled env cfg fs)
    (h : ∀ p, cfg.esp <+: p ∨ (∃ l, cfg.pcrlockDirectory = some l ∧ l <+: p) → f.get p = fs.get p) :
    Settled env cfg f := by
  have he : ∀ p, cfg.esp <+: p → f.get p = fs.get p := fun p hp => h p (Or.inl hp)
  have hfa : ∀ p, cfg.esp <+: p → f.fileAt p = fs.fileAt p := fun p hp => fileAt_congr (he p hp)
  have hl : ∀ l p, cfg.pcrlockDirectory = some l → l <+: p → f.get p = fs.get p :=
    fun l p hl hp => h p (Or.inr ⟨l, hl, hp⟩)
  have pre : ∀ r, cfg.esp <+: cfg.esp ++ r := fun r => List.prefix_append _ _
  have hen : ∀ n, f.get (entryFile cfg.esp n) = fs.get (entryFile cfg.esp n) := fun n => he _ (pre _)
  have hca : ∀ l k, f.get (caFile cfg.esp l k) = fs.get (caFile cfg.esp l k) := fun l k => he _ (pre _)
  have hms : ∀ l g, cfg.pcrlockDirectory = some l →
      f.get (measurementFile l g) = fs.get (measurementFile l g) :=
    fun l g h => hl l _ h (List.prefix_append _ _)
  constructor
  · rw [he _ (List.prefix_refl _)]; exact hs.esp
  · rw [he (linuxDir cfg.esp) (pre _)]; exact hs.linux
  · exact hs.links
  · intro g hg
    obtain ⟨key, n, data, kl, kh, il, ih, h1, h2, h3, h4, h5, h6, h7, h8, h9⟩ := hs.entries g hg
    exact ⟨key, n, data, kl, kh, il, ih, h1, h2, by rw [fileAt_congr (hen n)]; exact h3, h4, h5,
      by rw [hca]; exact h6, by rw [hca]; exact h7,
      fun n' => by rw [hen]; exact h8 n',
      fun p hp => by rw [hms p g hp]; exact h9 p hp⟩
  · refine hs.loader.of_get fun q hq => ?_
    cases hq with
    | binary hb => rcases hb with rfl | rfl <;> exact he _ (pre _)
    | next hp => exact hl _ _ hp (List.prefix_append _ _)
    | current hp => exact hl _ _ hp (List.prefix_append _ _)
  · rw [hfa (confFile cfg) (pre _)]; exact hs.conf
  · intro p h1 h2 h3
    rw [he p ((pre _).trans h1)] at h3
    obtain ⟨g, key, n, data, l, k, a1, a2, a3, a4, a5⟩ := hs.nixos p h1 h2 h3
    exact ⟨g, key, n, data, l, k, a1, a2, a3, by rw [fileAt_congr (hen n)]; exact a4, a5⟩
  · intro q n h1 h2 h3
    rw [he _ ((pre _).trans (h1.trans (List.prefix_append _ _)))] at h3
    exact hs.named q n h1 h2 h3
  · intro p q h1 h2 h3 h4
    rw [hl p q h1 ((List.prefix_append _ _).trans h2)] at h4
    exact hs.lock p q h1 h2 h3 h4

theorem HasRelease.signed (hf : FaithfulTools env) {signer : Signer} {d out : Bytes} {r : Release}
    (h : HasRelease env d r) (hs : SignedBy env signer d out) : HasRelease env out r := by
  obtain ⟨hfit, lines, sec, h1, h2, h3, h4⟩ := h
  exact ⟨hfit, lines, sec, h1, h2, hs.section hf h3, h4⟩

/-- A fresh boot loader is up to date. -/
theorem LoaderNew.kept (hf : FaithfulTools env) (hv : SignaturesVerify env) {d : Bytes} {r : Release}
    (hr : HasRelease env d r) (h : LoaderNew env cfg d fs) : LoaderKept env cfg fs := by
  obtain ⟨h0, ⟨o1, h1, h2⟩, ⟨o2, h3, h4⟩, h5⟩ := h
  have up : ∀ {q o}, fs.fileAt q = some o → SignedBy env cfg.signer d o → UpToDate env cfg fs q := by
    intro q o ho hso
    refine ⟨o, d, _, _, ho, h0, version_of_release hr, version_of_release (hr.signed hf hso), ?_⟩
    rw [← Bool.not_eq_true, not_gt_of_release hr hr]
    exact not_older_self r
  have sg : ∀ {q o}, fs.fileAt q = some o → SignedBy env cfg.signer d o → VerifiedAt env fs q cfg.signer := by
    intro q o ho hso
    revert hso
    cases cfg.signer with
    | empty => exact fun _ => trivial
    | «local» pub priv => exact fun ⟨t, e⟩ => ⟨o, ho, hv t priv pub d o e⟩
  refine ⟨up h1 h2, up h3 h4, sg h1 h2, sg h3 h4, ?_⟩
  intro p hp
  obtain ⟨t, m, -, e⟩ := h5 p hp
  rw [Fs.fileAt_eq_some.1 e]; rfl

/-- After a run that went well the disk is settled. -/
theorem settled_after (hs : SafeInput env cfg) (hf : FaithfulTools env) (hv : SignaturesVerify env)
    (hsep : Separate cfg) (hr : Reliable env.os) (ht : fs.Tree) (hc : Sound env cfg.esp fs)
    (hok : Succeeded env cfg fs)
    (hD : ∀ links, cfg.considered env = some links → Distinct env cfg (allOf env links))
    (hM : AllMeasured env cfg fs)
    (hrel : ∃ d r, env.store (loaderSource cfg) = some d ∧ HasRelease env d r) :
    Settled env cfg (run env cfg (start cfg fs)).2.fs := by
  obtain ⟨gens, mid, final, h⟩ := cleaned hs hf hsep hr ht hc hok
  obtain ⟨c1, c2, c3⟩ := C54_no_leftovers hs hf hsep hr ht hc hok hD hM rfl
  have hent : ∀ g, Considers env cfg g → ∃ key n data kl kh il ih,
      OnlyEntry env cfg (run env cfg (start cfg fs)).2.fs g key n data kl kh il ih := by
    intro g hg
    obtain ⟨key, n, h1, h2, h3, h4⟩ := C55_one_entry_each hs hf hsep hr ht hc hok hD hM hg
    obtain ⟨n', key', data, kl, kh, il, ih, hk, hm, hd, r1, r2, ⟨p1, p2⟩, i1, i2, i3⟩ :=
      (h.inUse g (h.all g hg)).ex
    cases h1.unique hk
    have hd' : (run env cfg (start cfg fs)).2.fs.fileAt (entryFile cfg.esp n') = some data := by
      rw [h.fileAt_entry hsep i1]; exact hd
    have hn : n' = n := h4 n' (isNameOf hm) (by rw [Fs.fileAt_eq_some.1 hd']; rfl)
    subst hn
    obtain ⟨kd, q1, -⟩ := p1
    obtain ⟨id, q2, -⟩ := p2
    refine ⟨key, n', data, kl, kh, il, ih, h1, h2.isMatch, hd', r1, r2, ?_, ?_,
      fun n'' hm' => h4 n'' (isNameOf hm'), ?_⟩
    · rw [← h.fileAt_ca hsep i2] at q1
      rw [Fs.fileAt_eq_some.1 q1]; rfl
    · rw [← h.fileAt_ca hsep i3] at q2
      rw [Fs.fileAt_eq_some.1 q2]; rfl
    · intro p hp
      exact C51_measurement_present hs hsep hok.ok (Or.inl hok.read) hg hp
  have hlinux : (run env cfg (start cfg fs)).2.fs.get (linuxDir cfg.esp) = some .dir := by
    obtain ⟨hne, -⟩ := h.some_gen
    cases gens with
    | nil => exact absurd rfl hne
    | cons g _ =>
      obtain ⟨key, n, data, kl, kh, il, ih, ho⟩ := hent g (h.considered g (by simp))
      have := h.tree_after.parent (entryFile cfg.esp n) (by simp [entryFile])
        (by rw [Fs.fileAt_eq_some.1 ho.content]; rfl)
      rw [show entryFile cfg.esp n = linuxDir cfg.esp ++ [n] by simp [entryFile, linuxDir],
        List.dropLast_concat] at this
      exact this
  refine ⟨?_, hlinux, ?_, hent, ?_, ?_, ?_, ?_, c3⟩
  · by_cases he : cfg.esp = []
    · rw [he]; simp [Fs.get]
    · have e1 := h.tree_after.parent (linuxDir cfg.esp) (by simp [linuxDir]) (by rw [hlinux]; rfl)
      rw [show linuxDir cfg.esp = (cfg.esp ++ [lit "EFI"]) ++ [lit "Linux"] by simp [linuxDir],
        List.dropLast_concat] at e1
      have e2 := h.tree_after.parent (cfg.esp ++ [lit "EFI"]) (by simp) (by rw [e1]; rfl)
      rw [List.dropLast_concat] at e2
      rw [e2]; rfl
  · obtain ⟨hne, hc'⟩ := h.some_gen
    cases hl : cfg.considered env with
    | none => exact absurd hl hc'
    | some links =>
      refine ⟨links, rfl, ?_, h.read links hl⟩
      rintro rfl
      exact hne (by rw [h.list [] hl]; rfl)
  · rcases run_loaderDone hs hsep hok.ok with hk | ⟨d, hn⟩
    · exact hk
    · obtain ⟨d', r, e, hr'⟩ := hrel
      rw [hn.source] at e
      cases e
      exact hn.kept hf hv hr'
  · obtain ⟨d, d', e1, e2, e3⟩ := C56_loader_conf hs hsep fs hok.ok
    refine ⟨d, d', e1, e2, ?_⟩
    rcases e3 with rfl | h
    · rfl
    · exact h.2
  · intro p h1 h2 h3
    obtain ⟨g, key, n, data, l, k, a1, a2, a3, a4, a5, a6, -⟩ := c1 p h1 h2 h3
    exact ⟨g, key, n, data, l, k, a1, a2, a3.isMatch, a4, a5, a6⟩
  · intro q n h1 h2 h3
    obtain ⟨a1, -, g, key, b1, b2, b3⟩ := c2 q n h1 h2 h3
    exact ⟨a1, g, key, b1, b2, b3.isMatch⟩

/-! ### Staying settled -/

theorem settled_run (hs : SafeInput env cfg) (hr : Reliable env.os) (h : Settled env cfg fs) (p : Path) :
    (run env cfg (start cfg fs)).2.fs.get p = fs.get p := by
  rw [run_disk hs, (run_settled hs hr h).2.2]
  rfl

/-- Boot counting leaves nothing to do. -/
theorem Settled.count {base : Str} {c c' : Counter} {data' : Bytes} (h : Settled env cfg fs)
    (hb : NoCounter env.uni base)
    (he : IsEntry cfg.esp (entryFile cfg.esp (entryName base c)))
    (hf : fs.fileAt (entryFile cfg.esp (entryName base c)) = some data')
    (hn : fs.get (entryFile cfg.esp (entryName base c')) = none) :
    Settled env cfg (fs.apply (.rename (entryFile cfg.esp (entryName base c))
        (entryFile cfg.esp (entryName base c')) data')) := by
  have hget : ∀ q, (fs.apply (.rename (entryFile cfg.esp (entryName base c))
        (entryFile cfg.esp (entryName base c')) data')).get q =
        if q = entryFile cfg.esp (entryName base c') then some (.file data')
        else if q = entryFile cfg.esp (entryName base c) then none else fs.get q :=
      fun q => Fs.get_rename (by simp [entryFile]) (by simp [entryFile]) q
  have hne : entryName base c ≠ entryName base c' := by
    intro e
    rw [← e, Fs.fileAt_eq_some.1 hf] at hn
    cases hn
  have hsame : ∀ q, (∀ n, q ≠ entryFile cfg.esp n) →
      (fs.apply (.rename (entryFile cfg.esp (entryName base c))
        (entryFile cfg.esp (entryName base c')) data')).get q = fs.get q := fun q hq => by
    rw [hget, if_neg (hq _), if_neg (hq _)]
  have hold : ∀ n, n ≠ entryName base c → n ≠ entryName base c' →
      (fs.apply (.rename (entryFile cfg.esp (entryName base c))
        (entryFile cfg.esp (entryName base c')) data')).get (entryFile cfg.esp n) =
      fs.get (entryFile cfg.esp n) := fun n h1 h2 => by
    rw [hget, if_neg fun e => h2 (entryFile_inj e), if_neg fun e => h1 (entryFile_inj e)]
  have hnew : (fs.apply (.rename (entryFile cfg.esp (entryName base c))
        (entryFile cfg.esp (entryName base c')) data')).get (entryFile cfg.esp (entryName base c')) =
      some (.file data') := by rw [hget, if_pos rfl]
  have hgone : (fs.apply (.rename (entryFile cfg.esp (entryName base c))
        (entryFile cfg.esp (entryName base c')) data')).get (entryFile cfg.esp (entryName base c)) =
      none := by rw [hget, if_neg fun e => hne (entryFile_inj e), if_pos rfl]
  have hmoved : ∀ {g key n data}, isMatch env.uni (stubPrefix env.sha g key) n = true →
      fs.fileAt (entryFile cfg.esp n) = some data →
      ∃ n', isMatch env.uni (stubPrefix env.sha g key) n' = true ∧
        (n = entryName base c ∧ n' = entryName base c' ∨ n' = n ∧ n ≠ entryName base c) ∧
        (fs.apply (.rename (entryFile cfg.esp (entryName base c))
          (entryFile cfg.esp (entryName base c')) data')).fileAt (entryFile cfg.esp n') = some data := by
    intro g key n data hm hd
    by_cases e : n = entryName base c
    · subst e
      refine ⟨entryName base c', ?_, Or.inl ⟨rfl, rfl⟩, ?_⟩
      · rw [base_of_match hb hm]; exact isMatch_entryName _ _ _
      · rw [Fs.fileAt_eq_some, hnew]
        rw [hf] at hd
        cases hd; rfl
    · refine ⟨n, hm, Or.inr ⟨rfl, e⟩, ?_⟩
      rw [Fs.fileAt_eq_some] at hd ⊢
      rw [hold n e (fun e' => by rw [e', hn] at hd; cases hd)]
      exact hd
  constructor
  · rw [hsame _ fun n e => by simpa [entryFile] using congrArg List.length e]; exact h.esp
  · rw [hsame _ fun n e => by simpa [entryFile, linuxDir] using congrArg List.length e]; exact h.linux
  · exact h.links
  · intro g hg
    obtain ⟨key, n, data, kl, kh, il, ih, h1, h2, h3, h4, h5, h6, h7, h8, h9⟩ := h.entries g hg
    obtain ⟨n', hm', hw, hd'⟩ := hmoved h2 h3
    refine ⟨key, n', data, kl, kh, il, ih, h1, hm', hd', h4, h5, ?_, ?_, ?_, ?_⟩
    · rw [hsame _ fun n => caFile_ne_entryFile _ _ _ _]; exact h6
    · rw [hsame _ fun n => caFile_ne_entryFile _ _ _ _]; exact h7
    · intro m hm hs
      by_cases e1 : m = entryName base c
      · rw [e1, hgone] at hs; cases hs
      · by_cases e2 : m = entryName base c'
        · subst e2
          have := h8 (entryName base c) (by rw [base_of_match hb hm]; exact isMatch_entryName _ _ _)
            (by rw [Fs.fileAt_eq_some.1 hf]; rfl)
          rcases hw with ⟨-, e⟩ | ⟨-, e⟩
          · exact e.symm
          · exact absurd this.symm e
        · rw [hold m e1 e2] at hs
          have := h8 m hm hs
          subst this
          rcases hw with ⟨e, -⟩ | ⟨e, -⟩
          · exact absurd e e1
          · exact e.symm
    · intro p hp
      rw [hsame _ fun n e => lastTwo_ne (measurementFile_lastTwo p g) (entryFile_lastTwo _ n) (by decide) e]
      exact h9 p hp
  · refine h.loader.of_get fun q hq => hsame q fun n => ?_
    obtain ⟨d, m, e1, e2⟩ := hq.lastTwo
    refine lastTwo_ne e1 (entryFile_lastTwo _ n) ?_
    rintro rfl
    exact absurd e2 (by decide)
  · rw [fileAt_congr (hsame _ fun n => lastTwo_ne (confFile_lastTwo _) (entryFile_lastTwo _ n) (by decide))]
    exact h.conf
  · intro p h1 h2 h3
    rw [hsame p fun n e => ?_] at h3
    · obtain ⟨g, key, n, data, l, k, a1, a2, a3, a4, a5⟩ := h.nixos p h1 h2 h3
      obtain ⟨n', hm', -, hd'⟩ := hmoved a3 a4
      exact ⟨g, key, n', data, l, k, a1, a2, hm', hd', a5⟩
    · rw [e] at h1
      unfold nixosDir entryFile at h1
      rw [List.prefix_append_right_inj] at h1
      simp at h1
      exact absurd h1 (by decide)
  · intro q n h1 h2 h3
    by_cases hq : ∃ m, q ++ [n] = entryFile cfg.esp m
    · obtain ⟨m, e⟩ := hq
      rw [entryFile_snoc] at e
      obtain ⟨e1, e2⟩ := (⟨(List.append_inj' e rfl).1, (List.append_inj' e rfl).2⟩ : _ ∧ _)
      cases e2
      refine ⟨e1, ?_⟩
      rw [e, ← entryFile_snoc] at h3
      by_cases e3 : n = entryName base c
      · rw [e3, hgone] at h3; cases h3
      · by_cases e4 : n = entryName base c'
        · subst e4
          obtain ⟨m, em, hm1, hm2⟩ := he
          cases entryFile_inj em
          obtain ⟨-, g, key, a1, a2, a3⟩ := h.named (linuxDir cfg.esp) (entryName base c) (List.prefix_refl _)
            hm1 (by
              have : linuxDir cfg.esp ++ [entryName base c] = entryFile cfg.esp (entryName base c) := by
                rw [entryFile_snoc]; rfl
              rw [this, Fs.fileAt_eq_some.1 hf]; rfl)
          refine ⟨g, key, a1, a2, ?_⟩
          rw [base_of_match hb a3]; exact isMatch_entryName _ _ _
        · rw [hold n e3 e4] at h3
          exact (h.named q n h1 h2 (by rw [e, ← entryFile_snoc]; exact h3)).2
    · rw [hsame _ fun m e => hq ⟨m, e⟩] at h3
      exact h.named q n h1 h2 h3
  · intro p q h1 h2 h3 h4
    have hno : ∀ m, q ≠ entryFile cfg.esp m := by
      rintro m rfl
      have hin : lockDir p <+: entryFile cfg.esp (entryName base c) := by
        rw [entryFile_snoc] at h2 h3 ⊢
        rcases prefix_snoc_iff.1 h2 with h | h
        · exact h.trans (List.prefix_append _ _)
        · exact absurd h.symm h3
      have hx : entryFile cfg.esp (entryName base c) ≠ lockDir p := by
        intro e
        rw [← e, entryFile_snoc, entryFile_snoc] at h2
        rcases prefix_snoc_iff.1 h2 with h' | h'
        · have := h'.length_le; simp at this
        · rw [← e, entryFile_snoc, entryFile_snoc] at h3
          exact h3 h'.symm
      obtain ⟨g, -, e⟩ := h.lock p _ h1 hin hx (by rw [Fs.fileAt_eq_some.1 hf]; rfl)
      exact lastTwo_ne (entryFile_lastTwo _ _) (measurementFile_lastTwo p g) (by decide) e
    rw [hsame q hno] at h4
    exact h.lock p q h1 h2 h3 h4

theorem Undisturbed.settled {f : Fs} (hs : SafeInput env cfg) (hu : Undisturbed env cfg fs f)
    (h : Settled env cfg fs) : Settled env cfg f := by
  induction hu with
  | nil => exact h
  | run _ hi hr ih =>
    exact ih.congr fun p _ => settled_run (hi.safe hs) hr (hi.settled ih) p
  | count _ hb he _ hf hn ih => exact ih.count hb he hf hn
  | other _ hg ih => exact ih.congr hg

/-! ### C40 -/

/-- **C40**. After a successful run, however often the installer has been run since with the same inputs,
whatever boot entries have been renamed for boot counting: one more run succeeds and performs no write, no
rename and no deletion; everything is where and as it was. -/
theorem C40_idempotent (hs : SafeInput env cfg) (hf : FaithfulTools env) (hv : SignaturesVerify env)
    (hsep : Separate cfg) (hr : Reliable env.os) (ht : fs.Tree) (hc : Sound env cfg.esp fs)
    (hok : Succeeded env cfg fs)
    (hD : ∀ links, cfg.considered env = some links → Distinct env cfg (allOf env links))
    (hM : AllMeasured env cfg fs)
    (hrel : ∃ d r, env.store (loaderSource cfg) = some d ∧ HasRelease env d r)
    {f : Fs} (hu : Undisturbed env cfg (run env cfg (start cfg fs)).2.fs f)
    {env' : Env} (hi : SameInputs env env') (hr' : Reliable env'.os) :
    (run env' cfg (start cfg f)).1 = .ok () ∧
      (∀ c ∈ (run env' cfg (start cfg f)).2.log, c = .syncfs cfg.esp ∨ c = .collecting) ∧
      ∀ p, (run env' cfg (start cfg f)).2.fs.get p = f.get p := by
  have h := hi.settled (hu.settled hs (settled_after hs hf hv hsep hr ht hc hok hD hM hrel))
  obtain ⟨h1, -, h3⟩ := run_settled (hi.safe hs) hr' h
  refine ⟨h1, ?_, settled_run (hi.safe hs) hr' h⟩
  rw [h3]
  simp

end Verif.Tool

namespace Verif.Tool.Sample
open Verif StubName Generation Version.Spec BootCounting

/-! ### Examples -/

/-- The sample world with a released boot loader. -/
def released : Env := env256 (fun _ => false)

theorem released_considers {g : Gen} : Considers released cfg g ↔ Considers good cfg g := by
  constructor <;> exact fun ⟨l, k, j, h1, h2⟩ => ⟨l, k, j, (considered_congr rfl).symm.trans h1, h2⟩

theorem released_safe : SafeInput released cfg := fun g hg => safe_good g (released_considers.1 hg)

theorem released_verify : SignaturesVerify released := by
  intro t priv pub d out h
  have h : sbsign d = some out := h
  show decide (out.getLast? = some 83) = true
  unfold sbsign at h
  split at h
  · cases h; simp
  · cases h

theorem released_ok : (run released cfg (start cfg disk0)).1 = .ok () := by decide +kernel

theorem released_broken : (run released cfg (start cfg disk0)).2.broken = [] := by decide +kernel

theorem released_distinct : ∀ links, cfg.considered released = some links →
    Distinct released cfg (Verif.Tool.allOf released links) := by
  intro links h key hk
  have e := distinct0 links ((considered_congr (env := released) (env' := good) rfl).trans h) key
  exact e hk

theorem released_measured : AllMeasured released cfg disk0 := by
  intro p _ g key n _ _ hm hx
  obtain ⟨d, hd⟩ := Option.isSome_iff_exists.1 hx
  exact absurd hd (no_entry (isMatch_isEntry hm.isMatch) d)

theorem released_release : ∃ d r, released.store (loaderSource cfg) = some d ∧ HasRelease released d r :=
  ⟨systemdBoot (.full 256), .full 256, rfl, hasRelease_of (by show (256 : Nat) < _; decide) (by decide +kernel) (by decide +kernel)⟩

theorem released_reliable : Reliable released.os := ⟨fun _ => rfl, fun _ l => List.Perm.refl l⟩

/-- The hypotheses of C40 can be met. -/
example : (run released cfg (start cfg (run released cfg (start cfg disk0)).2.fs)).1 = .ok () :=
  (C40_idempotent released_safe (faithfulWith _ _) released_verify separate released_reliable tree0
    (Sound.congr (env := good) rfl rfl sound0) ⟨released_ok, released_broken⟩ released_distinct released_measured
    released_release .nil ⟨rfl, rfl, rfl, rfl, rfl, rfl, rfl⟩ released_reliable).1

/-- The disk after the first run. -/
def settled1 : Fs := (run released cfg (start cfg disk0)).2.fs

def settledImage : Bytes := (settled1.fileAt firstEntry).getD []

/-- The same after a boot. -/
def settled2 : Fs := settled1.apply (.rename firstEntry firstTried settledImage)

theorem settled1_first : settled1.fileAt firstEntry = some settledImage ∧ settled1.get firstTried = none := by
  decide +kernel

theorem settled2_undisturbed : Undisturbed released cfg (run released cfg (start cfg disk0)).2.fs settled2 :=
  .count (f := settled1) (c := .left 3) (c' := .leftDone 2 1) .nil noCounter_first first_isEntry .try_first
    settled1_first.1 settled1_first.2

/-- Also after a boot, with the entry now called something else. -/
example (p : Path) : (run released cfg (start cfg settled2)).2.fs.get p = settled2.get p :=
  (C40_idempotent released_safe (faithfulWith _ _) released_verify separate released_reliable tree0
    (Sound.congr (env := good) rfl rfl sound0) ⟨released_ok, released_broken⟩ released_distinct
    released_measured released_release settled2_undisturbed ⟨rfl, rfl, rfl, rfl, rfl, rfl, rfl⟩
    released_reliable).2.2 p

/-- The sample world with a boot loader that does not state its version. -/
def unreleased : Env := envWith (fun _ => false) (build [])

/-- C40 needs a release of the available boot loader: without one the first installation succeeds and
every later one fails. -/
theorem C40_needs_release : (run unreleased cfg (start cfg disk0)).1 = .ok () ∧
    (run unreleased cfg (start cfg (run unreleased cfg (start cfg disk0)).2.fs)).1 = .err () := by decide +kernel

end Verif.Tool.Sample
