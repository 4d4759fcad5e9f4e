import Verif.Spec.History
import Verif.Props.InstallState
import Verif.Lemmas.Synced
/-!
# Histories of runs, boots and other events

C39.
-/
namespace Verif.Tool
open Verif StubName Generation BootCounting

variable {env world : Env} {cfg : Config} {esp : Path} {known : Gen → Bytes → Prop}
  {K : Env → Config → Prop} {fs fs' : Fs}

/-! ### Names -/

/-- A name that the lookup for a generation accepts has the generation's base name. -/
theorem base_of_match {uni : Char → Bool} {sha : Sha} {g : Gen} {k : Bytes} {base : Str} {c : Counter}
    (hb : NoCounter uni base) (hm : isMatch uni (stubPrefix sha g k) (entryName base c) = true) :
    base = stubPrefix sha g k := by
  have hm' := hm
  unfold isMatch at hm'
  simp only [Bool.and_eq_true] at hm'
  obtain ⟨z, hz⟩ := List.isPrefixOf_iff_prefix.mp hm'.1
  obtain ⟨s, e, hs⟩ := isMatch_form hm
  have h1 : base ++ c.text = stubPrefix sha g k ++ s := by
    unfold entryName at e
    have : (lit ".efi" : Str) = ['.', 'e', 'f', 'i'] := by simp [lit]
    rw [this] at e
    exact List.append_cancel_right e
  have hsuf : matchSuffix uni (s ++ lit ".efi") = true := by
    have := hm'.2
    rw [e, List.append_assoc, List.drop_left] at this
    exact this
  rcases List.append_eq_append_iff.mp h1 with ⟨x, hx1, hx2⟩ | ⟨x, hx1, hx2⟩
  · -- the prefix reaches into the counter
    rcases List.eq_nil_or_concat x with rfl | ⟨x', d, rfl⟩
    · rw [hx1]; simp
    · exfalso
      obtain ⟨t, d', ht, hd'⟩ := stubPrefix_last sha g k
      rw [ht, List.concat_eq_append, ← List.append_assoc] at hx1
      have := (List.cons_eq_cons.1 (List.append_inj' hx1 rfl).2).1
      subst this
      exact not_counterChar uni hd' (text_counterChar uni c _ (by rw [hx2]; simp))
  · cases x with
    | nil => rw [hx1]; simp
    | cons y ys =>
      exfalso
      have hy : y = '+' := by
        rw [hx2] at hsuf
        unfold matchSuffix at hsuf
        split at hsuf
        · next r' e => exact (List.cons_eq_cons.1 e).1
        · have e := of_decide_eq_true hsuf
          have := congrArg List.length e
          simp [lit] at this
          omega
      subst hy
      obtain ⟨w, hw, h2, h3, h4⟩ := hb _ ys hx1
      rcases hs w (by rw [hx2]; simp [hw]) with h | h | h
      · rw [h2] at h; cases h
      · exact h3 h
      · exact h4 h

/-- Counting does not turn an entry into something else. -/
theorem isEntry_count {base : Str} {c c' : Counter} (hc : CounterStep c c')
    (h : IsEntry esp (entryFile esp (entryName base c))) :
    IsEntry esp (entryFile esp (entryName base c')) := by
  obtain ⟨n, e, hn, -⟩ := h
  cases entryFile_inj e
  obtain ⟨t, ht⟩ := counterStep_some hc
  have hbase : lit "nixos-" <+: base := by
    have h1 : base <+: entryName base c := by
      unfold entryName; rw [List.append_assoc]; exact List.prefix_append _ _
    rcases List.prefix_or_prefix_of_prefix hn h1 with h | ⟨u, hu⟩
    · exact h
    · cases u with
      | nil => rw [← hu]; simp
      | cons y ys =>
        exfalso
        rw [← hu] at hn
        unfold entryName at hn
        rw [ht, List.append_assoc] at hn
        have hn := (List.prefix_append_right_inj base).1 hn
        simp only [List.cons_append] at hn
        have hy := (List.cons_prefix_cons.1 hn).1
        have : '+' ∈ lit "nixos-" := by rw [← hu, hy]; simp
        exact absurd this (by decide)
  exact ⟨_, rfl, hbase.trans (by unfold entryName; rw [List.append_assoc]; exact List.prefix_append _ _),
    List.suffix_append _ _⟩

/-! ### Worlds -/

theorem RefersToCa.congr {env env' : Env} (h : env.parse = env'.parse) {esp : Path} {data : Bytes}
    {a b l : Str} {k : Bytes} (hr : RefersToCa env esp data a b l k) :
    RefersToCa env' esp data a b l k := ⟨hr.1, hr.2.congr h⟩

theorem Sound.congr {env env' : Env} (hp : env.parse = env'.parse) (hs : env.sha = env'.sha)
    (h : Sound env esp fs) : Sound env' esp fs where
  entries p he data hd := by
    obtain ⟨kl, kh, il, ih, h1, h2, h3⟩ := h.entries p he data hd
    exact ⟨kl, kh, il, ih, h1.congr hp, h2.congr hp, h3⟩
  files l k node hk hn := by
    obtain ⟨d, h1, h2⟩ := h.files l k node hk hn
    exact ⟨d, h1, by rw [← hs]; exact h2⟩

theorem Coherent.of_less (h : Coherent world esp known fs)
    (hg : ∀ x, fs'.get x = fs.get x ∨ fs'.get x = none) : Coherent world esp known fs' := by
  intro g key n data hk hm hd
  refine h g key n data hk hm ?_
  rw [Fs.fileAt_eq_some] at hd ⊢
  rcases hg (entryFile esp n) with e | e
  · rw [← e]; exact hd
  · rw [e] at hd; cases hd

theorem caFile_below (esp : Path) (l : Str) (k : Bytes) : nixosDir esp <+: caFile esp l k :=
  ⟨[l ++ lit "-" ++ base32 k ++ lit ".efi"], by simp [nixosDir, caFile]⟩

/-! ### The invariants -/

theorem ProperRun.sound {done : List Change} (hp : ProperRun world esp known env cfg)
    (hd : KilledAfter env cfg fs done) (h : Sound world esp fs) : Sound world esp (fs.replay done) := by
  obtain rfl := hp.esp
  have h' : Sound env cfg.esp fs := h.congr hp.inWorld.parse.symm hp.inWorld.sha.symm
  refine Sound.congr hp.inWorld.parse hp.inWorld.sha ?_
  obtain ⟨a, b, gens, final, sh⟩ := run_plain hp.safe fs
  rcases sh.phases hd with ⟨-, -, hch⟩ | ⟨-, hst, l, -, hgc, e, -⟩
  · exact hch.inv h' fun f c j st => j.step hp.safe hp.tools hp.separate st
  · rw [e]
    exact (hst.inv h' fun f c j st => j.step hp.safe hp.tools hp.separate st).of_less
      (GcAny.chain_get hgc)

theorem ProperRun.coherent {done : List Change} (hp : ProperRun world esp known env cfg)
    (hu : Unambiguous world known) (hd : KilledAfter env cfg fs done) (h : Coherent world esp known fs) :
    Coherent world esp known (fs.replay done) := by
  obtain rfl := hp.esp
  obtain ⟨a, b, gens, final, sh⟩ := run_plain hp.safe fs
  rcases sh.phases hd with ⟨-, -, hch⟩ | ⟨-, hst, l, -, hgc, e, -⟩
  · exact hch.inv h fun f c j st => j.step hp.safe hp.tools hp.inWorld hu hp.known st
  · rw [e]
    exact (hst.inv h fun f c j st => j.step hp.safe hp.tools hp.inWorld hu hp.known st).of_less
      (GcAny.chain_get hgc)

theorem Event.sound (he : Event world esp known K fs fs') (h : Sound world esp fs) :
    Sound world esp fs' := by
  cases he with
  | run hp _ hd => exact hp.sound hd h
  | @powerLoss env cfg done _ hp _ hd hs hl =>
    have at' : ∀ p, IsBootFile esp p → ∃ kept, KilledAfter env cfg fs kept ∧ fs'.get p = (fs.replay kept).get p := by
      obtain rfl := hp.esp
      exact fun p hb => (power_loss_after_sync hp.safe hd hs hl hb).1
    refine ⟨fun p hb d hd => ?_, fun l k node hk hx => ?_⟩
    · obtain ⟨kept, hkept, e⟩ := at' p (Or.inl hb)
      refine (hp.sound hkept h).entries p hb d ?_
      rw [Fs.fileAt_eq_some] at hd ⊢
      rw [← e]; exact hd
    · obtain ⟨kept, hkept, e⟩ := at' _ (Or.inr ⟨l, k, rfl⟩)
      exact (hp.sound hkept h).files l k node hk (by rw [← e]; exact hx)
  | @count base c c' data hb he hc hf hn =>
    have hget : ∀ q, (fs.apply (.rename (entryFile esp (entryName base c))
        (entryFile esp (entryName base c')) data)).get q =
        if q = entryFile esp (entryName base c') then some (.file data)
        else if q = entryFile esp (entryName base c) then none else fs.get q :=
      fun q => Fs.get_rename (by simp [entryFile]) (by simp [entryFile]) q
    refine ⟨fun p hp d hd => ?_, fun l k node hk hx => ?_⟩
    · rw [Fs.fileAt_eq_some, hget] at hd
      split at hd
      · cases hd; exact h.entries _ he data hf
      · split at hd
        · cases hd
        · exact h.entries p hp d (Fs.fileAt_eq_some.2 hd)
    · rw [hget, if_neg (caFile_ne_entryFile _ _ _ _), if_neg (caFile_ne_entryFile _ _ _ _)] at hx
      exact h.files l k node hk hx
  | other hg =>
    refine ⟨fun p hp d hd => ?_, fun l k node hk hx => ?_⟩
    · refine h.entries p hp d ?_
      rw [Fs.fileAt_eq_some] at hd ⊢
      rw [← hg p (Or.inl hp)]; exact hd
    · exact h.files l k node hk (by rw [← hg _ (Or.inr (caFile_below _ _ _))]; exact hx)

theorem Event.coherent (hu : Unambiguous world known) (he : Event world esp known K fs fs')
    (h : Coherent world esp known fs) : Coherent world esp known fs' := by
  cases he with
  | run hp _ hd => exact hp.coherent hu hd h
  | powerLoss hp _ hd hs hl =>
    intro g key n d hk hm hx
    obtain rfl := hp.esp
    obtain ⟨⟨kept, hkept, e⟩, -⟩ := power_loss_after_sync hp.safe hd hs hl
      (Or.inl (isMatch_isEntry hm.isMatch) : IsBootFile _ (entryFile _ n))
    refine hp.coherent hu hkept h g key n d hk hm ?_
    rw [Fs.fileAt_eq_some] at hx ⊢
    rw [← e]; exact hx
  | @count base c c' data hb he hc hf hn =>
    intro g key n d hk hm hd
    rw [Fs.fileAt_eq_some, Fs.get_rename (by simp [entryFile]) (by simp [entryFile])] at hd
    split at hd
    · next e =>
      cases hd
      cases entryFile_inj e
      have hb' := base_of_match hb hm.isMatch
      rw [hb'] at hf
      exact h g key _ data hk (isNameOf (isMatch_entryName _ _ c)) hf
    · split at hd
      · cases hd
      · exact h g key n d hk hm (Fs.fileAt_eq_some.2 hd)
  | other hg =>
    intro g key n d hk hm hd
    refine h g key n d hk hm ?_
    rw [Fs.fileAt_eq_some] at hd ⊢
    rw [← hg _ (Or.inl (isMatch_isEntry (esp := esp) hm.isMatch))]; exact hd

theorem History.coherent (hu : Unambiguous world known) (hh : History world esp known K fs fs')
    (h : Coherent world esp known fs) : Coherent world esp known fs' := by
  induction hh with
  | nil => exact h
  | snoc _ e ih => exact e.coherent hu ih

/-! ### C39 -/

/-- **C39** (soundness). Whatever the history: every file in `EFI/nixos` that is named by a hash has that
hash, and every boot entry refers to such files. -/
theorem C39_history_sound (hh : History world esp known K fs fs') (h : Sound world esp fs) :
    Sound world esp fs' := by
  induction hh with
  | nil => exact h
  | snoc _ e ih => exact e.sound ih

/-- An empty ESP is sound. -/
theorem sound_of_empty (h1 : ∀ p, IsEntry esp p → fs.get p = none)
    (h2 : ∀ p, nixosDir esp <+: p → p ≠ nixosDir esp → fs.get p = none) : Sound world esp fs where
  entries p hp data hd := by rw [Fs.fileAt_eq_some, h1 p hp] at hd; cases hd
  files l k node hk hn := by
    rw [h2 _ (caFile_below _ _ _) (by simp [caFile, nixosDir])] at hn; cases hn

theorem coherent_of_empty (h1 : ∀ p, IsEntry esp p → fs.get p = none) :
    Coherent world esp known fs := by
  intro g key n data _ hm hd
  rw [Fs.fileAt_eq_some, h1 _ (isMatch_isEntry hm.isMatch)] at hd; cases hd

/-- There is an entry for `g` that can be booted. -/
structure HasEntry (world : Env) (esp : Path) (known : Gen → Bytes → Prop) (g : Gen) (fs : Fs) :
    Prop where
  ex : ∃ key n data kl kh il ih, known g key ∧
    isMatch world.uni (stubPrefix world.sha g key) n = true ∧
    fs.fileAt (entryFile esp n) = some data ∧
    RefersToCa world esp data (lit ".linux") (lit ".linuxh") kl kh ∧
    RefersToCa world esp data (lit ".initrd") (lit ".initrdh") il ih ∧
    Present world fs (caFile esp kl kh) kh ∧ Present world fs (caFile esp il ih) ih

theorem Present.congr {env env' : Env} (h : env.sha = env'.sha) {p : Path} {k : Bytes}
    (hp : Present env fs p k) : Present env' fs p k := by
  obtain ⟨d, h1, h2⟩ := hp
  exact ⟨d, h1, by rw [← h]; exact h2⟩

theorem HasEntry.boots {g : Gen} (h : HasEntry world esp known g fs)
    (hj : Coherent world esp known fs) : ∃ p, IsEntry esp p ∧ Boots world esp fs g p := by
  obtain ⟨key, n, data, kl, kh, il, ih, hk, hm, hd, h1, h2, h3, h4⟩ := h.ex
  obtain ⟨kernel, initrd, v, he⟩ := hj g key n data hk (isNameOf hm) hd
  obtain ⟨a1, a2⟩ := h1.agree he.kernel_ref
  obtain ⟨b1, b2⟩ := h2.agree he.initrd_ref
  exact ⟨_, isMatch_isEntry hm, data, kernel, initrd, v, hd, he, by rw [← a1, ← a2]; exact h3,
    by rw [← b1, ← b2]; exact h4⟩

/-- The entry in the environment of a run. -/
structure EntryHere (env : Env) (esp : Path) (n : Str) (f : Fs) : Prop where
  ex : ∃ data kl kh il ih, f.fileAt (entryFile esp n) = some data ∧
    RefersToCa env esp data (lit ".linux") (lit ".linuxh") kl kh ∧
    RefersToCa env esp data (lit ".initrd") (lit ".initrdh") il ih ∧
    Present env f (caFile esp kl kh) kh ∧ Present env f (caFile esp il ih) ih

theorem EntryHere.step (hs : SafeInput env cfg) (hf : FaithfulTools env) {f : Fs} {c : Change} {n : Str}
    {ld : Scope}
    (hn : IsEntry cfg.esp (entryFile cfg.esp n)) (h : EntryHere env cfg.esp n f)
    (st : InstallStep env cfg ld f c) : EntryHere env cfg.esp n (f.apply c) := by
  obtain ⟨data, kl, kh, il, ih, h1, h2, h3, h4, h5⟩ := h.ex
  have hst : Stays cfg f (f.apply c) := Stays.step hs (fun _ _ _ h => h) st
  have hsome := hst (entryFile cfg.esp n) (isEntry_not_tmp hn) (fun ⟨p, hp, e⟩ =>
    isEntry_not_measurement (cfg := cfg) hn ⟨p, hp, Or.inr (Or.inl e)⟩) (by rw [h1]; rfl)
  obtain ⟨d, hd⟩ := Option.isSome_iff_exists.1 hsome
  rcases st.entry hs hn hd with h | h
  · rw [h1] at h
    cases h
    exact ⟨data, kl, kh, il, ih, hd, h2, h3, st.present hs h4.length h4, st.present hs h5.length h5⟩
  · obtain ⟨g, key, kd, id, image, v, hg, -, -, hv, -, -, him, hsg, pk, pi, -⟩ := h.isEntry
    have r := him.refs hf (hs g hg) hv hsg
    exact ⟨d, _, _, _, _, hd, r.kernel, r.initrd, st.present hs (env.sha.len _) pk,
      st.present hs (env.sha.len _) pi⟩

theorem ProperRun.hasEntry {g : Gen} {done : List Change} (hp : ProperRun world esp known env cfg)
    (hg : Considers env cfg g) (hdone : KilledAfter env cfg fs done) (hsnd : Sound world esp fs)
    (h : HasEntry world esp known g fs) : HasEntry world esp known g (fs.replay done) := by
  obtain ⟨key, n, data, kl, kh, il, ih, hk, hm, hd, h1, h2, h3, h4⟩ := h.ex
  have hn : IsEntry esp (entryFile esp n) := isMatch_isEntry hm
  obtain rfl := hp.esp
  have hw := hp.inWorld
  obtain ⟨a, b, gens, final, sh⟩ := run_shape hp.safe
    (inUse_carried hp.safe hp.tools hp.separate).all (start cfg fs)
    (hsnd.congr hw.parse.symm hw.sha.symm) (by simp) rfl
  rcases sh.phases hdone with ⟨-, -, hch⟩ | ⟨-, -, l, -, hgc, e, hall, hC⟩
  · have : EntryHere env cfg.esp n (fs.replay done) := by
      refine hch.inv (J := EntryHere env cfg.esp n) ?_ fun f c j st => j.step hp.safe hp.tools hn st
      exact ⟨data, kl, kh, il, ih, hd, h1.congr hw.parse.symm, h2.congr hw.parse.symm,
        h3.congr hw.sha.symm, h4.congr hw.sha.symm⟩
    obtain ⟨data, kl, kh, il, ih, hd, h1, h2, h3, h4⟩ := this.ex
    exact ⟨key, n, data, kl, kh, il, ih, hk, hm, hd, h1.congr hw.parse, h2.congr hw.parse,
      h3.congr hw.sha, h4.congr hw.sha⟩
  · rw [e]
    obtain ⟨n, key, data, kl, kh, il, ih, hkey, hm, hd, h1, h2, ⟨⟨d1, c3, c3'⟩, ⟨d2, c4, c4'⟩⟩,
      r1, r2, r3⟩ := (hC.gens g (hall g hg)).ex
    rw [hw.uni, hw.sha] at hm
    rw [hw.sha] at c3' c4'
    refine ⟨key, n, data, kl, kh, il, ih, hp.known g key hg hkey, hm, ?_, h1.congr hw.parse,
      h2.congr hw.parse, ⟨d1, ?_, c3'⟩, ⟨d2, ?_, c4'⟩⟩
    · rw [kept_entry hp.separate sh.roots r1 hgc]; exact hd
    · rw [kept_ca hp.separate sh.roots r2 hgc]; exact c3
    · rw [kept_ca hp.separate sh.roots r3 hgc]; exact c4

theorem Event.hasEntry {g : Gen} (hsnd : Sound world esp fs)
    (he : Event world esp known (fun env cfg => Considers env cfg g) fs fs')
    (h : HasEntry world esp known g fs) : HasEntry world esp known g fs' := by
  obtain ⟨key, n, data, kl, kh, il, ih, hk, hm, hd, h1, h2, h3, h4⟩ := h.ex
  have hn : IsEntry esp (entryFile esp n) := isMatch_isEntry hm
  cases he with
  | run hp hg hdone => exact hp.hasEntry hg hdone hsnd h
  | powerLoss hp hg hdone hs hl =>
    obtain ⟨key, n, data, kl, kh, il, ih, hk, hm, hd, h1, h2, ⟨d3, e3, f3⟩, ⟨d4, e4, f4⟩⟩ :=
      (hp.hasEntry hg hdone hsnd h).ex
    obtain rfl := hp.esp
    have keep : ∀ {p}, IsBootFile _ p → ∀ d, (fs.replay _).fileAt p = some d → fs'.fileAt p = some d :=
      fun hb => (power_loss_after_sync hp.safe hdone hs hl hb).2
    exact ⟨key, n, data, kl, kh, il, ih, hk, hm, keep (Or.inl (isMatch_isEntry hm)) _ hd, h1, h2,
      ⟨d3, keep (Or.inr ⟨_, _, rfl⟩) _ e3, f3⟩, ⟨d4, keep (Or.inr ⟨_, _, rfl⟩) _ e4, f4⟩⟩
  | @count base c c' data' hb he hc hf hnone =>
    have hget : ∀ q, (fs.apply (.rename (entryFile esp (entryName base c))
        (entryFile esp (entryName base c')) data')).get q =
        if q = entryFile esp (entryName base c') then some (.file data')
        else if q = entryFile esp (entryName base c) then none else fs.get q :=
      fun q => Fs.get_rename (by simp [entryFile]) (by simp [entryFile]) q
    have hca : ∀ {l k}, Present world fs (caFile esp l k) k →
        Present world (fs.apply (.rename (entryFile esp (entryName base c))
          (entryFile esp (entryName base c')) data')) (caFile esp l k) k := by
      rintro l k ⟨d, x1, x2⟩
      refine ⟨d, ?_, x2⟩
      rw [Fs.fileAt_eq_some] at x1 ⊢
      rw [hget, if_neg (caFile_ne_entryFile _ _ _ _), if_neg (caFile_ne_entryFile _ _ _ _)]
      exact x1
    by_cases e : n = entryName base c
    · subst e
      have hb' := base_of_match hb hm
      rw [hf] at hd
      cases hd
      refine ⟨key, entryName base c', data, kl, kh, il, ih, hk, ?_, ?_, h1, h2, hca h3, hca h4⟩
      · rw [hb']; exact isMatch_entryName _ _ _
      · rw [Fs.fileAt_eq_some, hget]; simp
    · refine ⟨key, n, data, kl, kh, il, ih, hk, hm, ?_, h1, h2, hca h3, hca h4⟩
      rw [Fs.fileAt_eq_some] at hd ⊢
      rw [hget, if_neg (fun e' => by rw [e', hnone] at hd; cases hd),
        if_neg (fun e' => e (entryFile_inj e'))]
      exact hd
  | other hg =>
    have hca : ∀ {l k}, Present world fs (caFile esp l k) k → Present world fs' (caFile esp l k) k := by
      rintro l k ⟨d, x1, x2⟩
      refine ⟨d, ?_, x2⟩
      rw [Fs.fileAt_eq_some] at x1 ⊢
      rw [hg _ (Or.inr (caFile_below _ _ _))]; exact x1
    refine ⟨key, n, data, kl, kh, il, ih, hk, hm, ?_, h1, h2, hca h3, hca h4⟩
    rw [Fs.fileAt_eq_some] at hd ⊢
    rw [hg _ (Or.inl hn)]; exact hd

/-- After a successful run there is an entry. -/
theorem hasEntry_of_run (hp : ProperRun world esp known env cfg) (hsnd : Sound world esp fs)
    (hok : (run env cfg (start cfg fs)).1 = .ok ())
    (hb : (run env cfg (start cfg fs)).2.broken = [] ∨ Faultless env) {g : Gen}
    (hg : Considers env cfg g) :
    HasEntry world esp known g (run env cfg (start cfg fs)).2.fs := by
  obtain rfl := hp.esp
  have hw := hp.inWorld
  obtain ⟨a, b, gens, final, sh⟩ := run_shape hp.safe
    (inUse_carried hp.safe hp.tools hp.separate).all (start cfg fs)
    (hsnd.congr hw.parse.symm hw.sha.symm) (by simp) rfl
  have hall : g ∈ gens := by
    rcases hb with hb | hb
    · exact (sh.read hb).2 g hg
    · exact sh.faultless hb g hg
  have hgc : ∃ l, Fs.Chain (GcAny cfg final) ((start cfg fs).fs.replay a) l ∧
      (run env cfg (start cfg fs)).2.fs = ((start cfg fs).fs.replay a).replay l := by
    rw [sh.fs, Fs.replay_append]
    by_cases hbe : b = []
    · rw [hbe]; exact ⟨[], trivial, rfl⟩
    · obtain ⟨l, hl, hgc, -⟩ := sh.gc hbe
      rw [hl]; exact ⟨l, hgc, rfl⟩
  obtain ⟨l, hgc, e⟩ := hgc
  rw [e]
  obtain ⟨n, key, data, kl, kh, il, ih, hkey, hm, hd, h1, h2, ⟨⟨d1, c3, c3'⟩, ⟨d2, c4, c4'⟩⟩,
    r1, r2, r3⟩ := ((sh.ok hok).gens g hall).ex
  rw [hw.uni, hw.sha] at hm
  rw [hw.sha] at c3' c4'
  refine ⟨key, n, data, kl, kh, il, ih, hp.known g key hg hkey, hm, ?_, h1.congr hw.parse,
    h2.congr hw.parse, ⟨d1, ?_, c3'⟩, ⟨d2, ?_, c4'⟩⟩
  · rw [kept_entry hp.separate sh.roots r1 hgc]; exact hd
  · rw [kept_ca hp.separate sh.roots r2 hgc]; exact c3
  · rw [kept_ca hp.separate sh.roots r3 hgc]; exact c4

/-- **C39** (bootability). A generation that a successful run has installed can be booted at every later
moment of every history, as long as it is not dropped from the generations the installer is asked to
keep: runs that fail or are killed, changes of configuration, keys and tools and boot counting do not
matter. -/
theorem C39_installed_stays_bootable (hu : Unambiguous world known)
    {f₀ f₁ f₂ : Fs} (h₀ : Sound world esp f₀) (hj : Coherent world esp known f₀)
    (hist : History world esp known (fun _ _ => True) f₀ f₁)
    (hp : ProperRun world esp known env cfg) (hok : (run env cfg (start cfg f₁)).1 = .ok ())
    (hb : (run env cfg (start cfg f₁)).2.broken = [] ∨ Faultless env) {g : Gen}
    (hg : Considers env cfg g)
    (later : History world esp known (fun env cfg => Considers env cfg g)
      (run env cfg (start cfg f₁)).2.fs f₂) :
    ∃ p, IsEntry esp p ∧ Boots world esp f₂ g p := by
  have s₁ := C39_history_sound hist h₀
  have j₁ := hist.coherent hu hj
  have ev : Event world esp known (fun _ _ => True) f₁ (run env cfg (start cfg f₁)).2.fs := by
    rw [run_disk hp.safe]
    exact .run hp trivial (killed_at_end env cfg f₁)
  have s₂ := ev.sound s₁
  have j₂ := ev.coherent hu j₁
  have e₂ := hasEntry_of_run hp s₁ hok hb hg
  have : Sound world esp f₂ ∧ HasEntry world esp known g f₂ := by
    clear hok hb
    generalize (run env cfg (start cfg f₁)).2.fs = f at *
    induction later with
    | nil => exact ⟨s₂, e₂⟩
    | snoc _ e ih => exact ⟨e.sound ih.1, e.hasEntry ih.1 ih.2⟩
  exact this.2.boots (later.coherent hu j₂)

end Verif.Tool

namespace Verif.Tool.Sample
open Verif StubName Generation BootCounting

/-! ### Examples -/

theorem properRun (fault : Nat → Bool) : ProperRun good cfg.esp known (env fault) cfg :=
  ⟨rfl, inWorld fault, safe fault, faithful _, separate, known_considered fault⟩

/-- The name of the entry of the first generation. -/
def firstName : Str := stubPrefix sha first [80, 75]

theorem noCounter_first : NoCounter good.uni firstName := by
  intro a b e
  have : '+' ∈ firstName := by rw [e]; simp
  exact absurd this (by decide +kernel)

/-- The disk after a run that was killed after twelve steps. -/
def disk1 : Fs := disk0.replay ((run good cfg (start cfg disk0)).2.log.take 12)

/-- The disk after the run that follows. -/
def disk2 : Fs := (run good cfg (start cfg disk1)).2.fs

/-- The entry of the first generation. -/
def firstEntry : Path := entryFile cfg.esp (entryName firstName (.left 3))

/-- The same after one boot. -/
def firstTried : Path := entryFile cfg.esp (entryName firstName (.leftDone 2 1))

def firstImage : Bytes := (disk2.fileAt firstEntry).getD []

/-- The disk after the first boot of the first generation. -/
def disk3 : Fs := disk2.apply (.rename firstEntry firstTried firstImage)

theorem steps2 : (run good cfg (start cfg disk1)).1 = .ok () ∧
    disk2.fileAt firstEntry = some firstImage ∧ firstImage ≠ [] ∧ disk2.get firstTried = none := by
  decide +kernel

theorem first_isEntry : IsEntry cfg.esp (entryFile cfg.esp (entryName firstName (.left 3))) :=
  isMatch_isEntry (uni := good.uni) (env := good) (g := first) (key := [80, 75])
    (isMatch_entryName good.uni (stubPrefix sha first [80, 75]) (.left 3))

theorem counted (K : Env → Config → Prop) : Event good cfg.esp known K disk2 disk3 :=
  .count (c := .left 3) (c' := .leftDone 2 1) noCounter_first first_isEntry .try_first
    steps2.2.1 steps2.2.2.2

theorem killed_take (env : Env) (cfg : Config) (fs : Fs) (n : Nat) :
    KilledAfter env cfg fs ((run env cfg (start cfg fs)).2.log.take n) := List.take_prefix _ _

theorem killed1 (K : Env → Config → Prop) (hk : K good cfg) :
    Event good cfg.esp known K disk0 disk1 := by
  unfold disk1
  exact .run (properRun fun _ => false) hk (killed_take good cfg disk0 12)

theorem first_mem : first ∈ allOf good cfg := by unfold first; exact List.getElem_mem _

theorem history1 : History good cfg.esp known (fun _ _ => True) disk0 disk1 :=
  .snoc .nil (killed1 _ trivial)

/-- A run that was killed, a run that succeeds, one boot of the first generation and another run that
may fail and be killed anywhere: the first generation can be booted. -/
example (fault : Nat → Bool) (done : List Change) (h : KilledAfter (env fault) cfg disk3 done) :
    ∃ p, IsEntry cfg.esp p ∧ Boots good cfg.esp (disk3.replay done) first p := by
  have hg : Considers good cfg first := considers_iff.2 first_mem
  have later : History good cfg.esp known (fun env cfg => Considers env cfg first) disk2
      (disk3.replay done) :=
    .snoc (.snoc .nil (counted _)) (.run (properRun fault) ⟨hg.ex⟩ h)
  exact C39_installed_stays_bootable (env := good) (cfg := cfg) (f₀ := disk0) (f₁ := disk1)
    (f₂ := disk3.replay done) unambiguous sound0 coherent0 history1
    (properRun fun _ => false) steps2.1 (Or.inr fun _ => rfl) hg later

/-- The same if the power fails during the last run or after it, later than its sync. -/
example (fault : Nat → Bool) (done : List Change) (h : KilledAfter (env fault) cfg disk3 done)
    (hs : .syncfs cfg.esp ∈ done) (fs' : Fs) (hl : AfterPowerLoss disk3 done fs') :
    ∃ p, IsEntry cfg.esp p ∧ Boots good cfg.esp fs' first p := by
  have hg : Considers good cfg first := considers_iff.2 first_mem
  have later : History good cfg.esp known (fun env cfg => Considers env cfg first) disk2 fs' :=
    .snoc (.snoc .nil (counted _)) (.powerLoss (properRun fault) ⟨hg.ex⟩ h hs hl)
  exact C39_installed_stays_bootable (env := good) (cfg := cfg) (f₀ := disk0) (f₁ := disk1)
    (f₂ := fs') unambiguous sound0 coherent0 history1
    (properRun fun _ => false) steps2.1 (Or.inr fun _ => rfl) hg later

example : .syncfs cfg.esp ∈ (run good cfg (start cfg disk3)).2.log := by decide +kernel

end Verif.Tool.Sample
