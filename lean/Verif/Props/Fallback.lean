import Verif.Spec.Fallback
import Verif.Spec.CollectKilled
import Verif.Props.Menu
import Verif.Props.Assessment
import Verif.Props.PcrPrediction
/-!
# C101: what is booted if nothing is chosen
-/
namespace Verif.Tool
open Verif StubName Generation BootCounting

variable {env world : Env} {cfg : Config} {esp : Path} {known : Gen → Bytes → Prop} {K : Env → Config → Prop}
  {g : Gen} {key : Bytes} {n : Str} {data : Bytes} {fs fs' : Fs} {done : List Change}

/-! ### Every boot entry was made for its generation -/

/-- One run, to the end or until it is killed. -/
theorem MadeFor.run (hp : ProperRun world esp known env cfg) (hu : Unambiguous world known)
    (hd : KilledAfter env cfg fs done) (h : MadeFor world esp known fs) :
    MadeFor world esp known (fs.replay done) := by
  intro g key n data hk hm hx
  obtain rfl := hp.esp
  have hw := hp.inWorld
  by_cases hold : fs.fileAt (entryFile cfg.esp n) = some data
  · exact h g key n data hk hm hold
  obtain ⟨g', k', hs, hk', e⟩ := C95_new_entries hp.safe hd (isMatch_isEntry hm.isMatch) hx hold
  have hkn := hp.known g' k' hs.considered hk'
  have hn : IsNameOf world.uni world.sha g' k' n := by
    cases entryFile_inj e
    rw [← hw.uni, ← hw.sha]
    exact isNameOf (isMatch_stubName _ _ _ _ _)
  have he := sameEntry_of hu hk hkn hm hn
  obtain rfl := he.2.2.2
  exact ⟨g', env, cfg, hkn, he, hw.parse, hp.tools, hs⟩

theorem Event.madeFor (hu : Unambiguous world known) (he : Event world esp known K fs fs')
    (h : MadeFor world esp known fs) : MadeFor world esp known fs' := by
  cases he with
  | run hp _ hd => exact h.run hp hu hd
  | powerLoss hp _ hd hs hl =>
    intro g key n d hk hm hx
    obtain rfl := hp.esp
    obtain ⟨⟨kept, hkept, e⟩, -⟩ := power_loss_after_sync hp.safe hd hs hl
      (Or.inl (isMatch_isEntry hm.isMatch) : IsBootFile _ (entryFile _ n))
    refine h.run hp hu hkept g key n d hk hm ?_
    rw [Fs.fileAt_eq_some] at hx ⊢
    rw [← e]; exact hx
  | @count base c c' data hb he hc hf hn =>
    intro g key n d hk hm hd
    rw [Fs.fileAt_eq_some, Fs.get_rename (by simp [entryFile]) (by simp [entryFile])] at hd
    split at hd
    · next e =>
      cases hd
      cases entryFile_inj e
      have hb' := base_of_match hb hm.isMatch
      rw [hb'] at hf
      exact h g key _ data hk (isNameOf (isMatch_entryName _ _ c)) hf
    · split at hd
      · cases hd
      · exact h g key n d hk hm (Fs.fileAt_eq_some.2 hd)
  | other hg =>
    intro g key n d hk hm hd
    refine h g key n d hk hm ?_
    rw [Fs.fileAt_eq_some] at hd ⊢
    rw [← hg _ (Or.inl (isMatch_isEntry (esp := esp) hm.isMatch))]; exact hd

/-- **C101** (provenance). Whatever the history of a boot partition: a file that is named like the boot entry of a
generation was made for that generation. -/
theorem C101_made_for (hu : Unambiguous world known) (hh : History world esp known K fs fs')
    (h : MadeFor world esp known fs) : MadeFor world esp known fs' := by
  induction hh with
  | nil => exact h
  | snoc _ e ih => exact e.madeFor hu ih

/-! ### What is on the disk -/

/-- Every image of NixOS belongs to a generation that was to be installed, and no two to the same one. -/
structure OneEach (world : Env) (esp : Path) (env : Env) (cfg : Config) (key : Bytes) (f : Fs) : Prop where
  named : ∀ n, lit "nixos-" <+: n → (f.get (entryFile esp n)).isSome →
    ∃ g, Considers env cfg g ∧ IsNameOf world.uni world.sha g key n
  one : ∀ g n n', Considers env cfg g → IsNameOf world.uni world.sha g key n → IsNameOf world.uni world.sha g key n' →
    (f.get (entryFile esp n)).isSome → (f.get (entryFile esp n')).isSome → n = n'

theorem OneEach.count (h : OneEach world esp env cfg key fs) (hc : Counted world esp fs fs') :
    OneEach world esp env cfg key fs' := by
  induction hc with
  | nil => exact h
  | @count f base c c' data _ hb he hc hf hn ih =>
    have hget : ∀ q, (f.apply (.rename (entryFile esp (entryName base c))
        (entryFile esp (entryName base c')) data)).get q =
        if q = entryFile esp (entryName base c') then some (.file data)
        else if q = entryFile esp (entryName base c) then none else f.get q :=
      fun q => Fs.get_rename (by simp [entryFile]) (by simp [entryFile]) q
    have hold : (f.get (entryFile esp (entryName base c))).isSome := by rw [Fs.fileAt_eq_some.1 hf]; rfl
    -- what is there afterwards is the renamed entry, or another one that was there before
    have cases' : ∀ m, ((f.apply (.rename (entryFile esp (entryName base c))
        (entryFile esp (entryName base c')) data)).get (entryFile esp m)).isSome →
        m = entryName base c' ∨ m ≠ entryName base c ∧ (f.get (entryFile esp m)).isSome := by
      intro m hm
      rw [hget] at hm
      split at hm
      · next e => exact Or.inl (entryFile_inj e)
      · split at hm
        · cases hm
        · next e => exact Or.inr ⟨fun e' => e (by rw [e']), hm⟩
    have mixed : ∀ g m, Considers env cfg g → IsNameOf world.uni world.sha g key (entryName base c') →
        IsNameOf world.uni world.sha g key m → (f.get (entryFile esp m)).isSome → m = entryName base c := by
      intro g m hg h1 h2 hm
      have hb' := base_of_match hb h1.isMatch
      refine ih.one g m _ hg h2 ?_ hm hold
      rw [hb']; exact isNameOf (isMatch_entryName _ _ c)
    refine ⟨fun m hm hx => ?_, fun g m m' hg h1 h2 hx hx' => ?_⟩
    · rcases cases' m hx with rfl | ⟨-, hx⟩
      · obtain ⟨g, hg, hn'⟩ := ih.named _ (by obtain ⟨m, em, hm, -⟩ := he; cases entryFile_inj em; exact hm) hold
        refine ⟨g, hg, ?_⟩
        rw [base_of_match hb hn'.isMatch]; exact isNameOf (isMatch_entryName _ _ c')
      · exact ih.named m hm hx
    · rcases cases' m hx with rfl | ⟨e, hx⟩
      · rcases cases' m' hx' with rfl | ⟨e', hx'⟩
        · rfl
        · exact absurd (mixed g m' hg h1 h2 hx') e'
      · rcases cases' m' hx' with rfl | ⟨e', hx'⟩
        · exact absurd (mixed g m hg h2 h1 hx) e
        · exact ih.one g m m' hg h1 h2 hx hx'

end Verif.Tool

namespace Verif.Menu
open Verif Tool StubName Generation BootCounting

variable {env world : Env} {cfg : Config} {esp : Path} {known : Gen → Bytes → Prop}
  {g : Gen} {key : Bytes} {n : Str} {fs fs' : Fs}

theorem head_of {l : List Item} (hl : IsMenu l) {i : Item} (hi : i ∈ l)
    (h : ∀ x ∈ l, x ≠ i → menuCmp x i = .gt) : l.head? = some i := by
  cases l with
  | nil => cases hi
  | cons x xs =>
    by_cases e : x = i
    · rw [e]; rfl
    · have hmem : i ∈ xs := by
        rcases List.mem_cons.1 hi with h | h
        · exact absurd h.symm e
        · exact h
      exact absurd (h x (by simp) e) ((List.pairwise_cons.1 hl).1 i hmem)

theorem menuCmp_no_key {i x : Item} (hi : i.exhausted = false) (hx : x.exhausted = false)
    (hk : i.sortKey.isSome) (hn : x.sortKey = none) : menuCmp x i = .gt := by
  obtain ⟨k, hk⟩ := Option.isSome_iff_exists.1 hk
  unfold menuCmp
  rw [hi, hx, hk, hn]
  rfl

theorem menuCmp_below {i x : Item} (hi : i.exhausted = false) (hx : x.exhausted = false) {k : Str}
    (hk : i.sortKey = some k) (h : ∀ k' ∈ x.sortKey, textCmp k' k = .gt) : menuCmp x i = .gt := by
  cases hs : x.sortKey with
  | none => exact menuCmp_no_key hi hx (by rw [hk]; rfl) hs
  | some k' =>
    have := h k' (by rw [hs]; rfl)
    unfold menuCmp
    rw [hi, hx, hk, hs]
    simp only [this]
    rfl

theorem Precedes.same {g' g₀ g₀' : Gen} {k k' k₀ k₀' : Bytes} (h : Precedes g g')
    (e : SameEntry g g₀ k k₀) (e' : SameEntry g' g₀' k' k₀') (hs : g.spec.sortKey = g₀.spec.sortKey)
    (hs' : g'.spec.sortKey = g₀'.spec.sortKey) (hd : ∀ d ∈ g₀.buildTime, 0 ≤ d.year) : Precedes g₀ g₀' := by
  refine ⟨by rw [← hs, ← hs']; exact h.1, ?_⟩
  rw [← e.1, ← e'.1, ← e.2.1, ← e'.2.1]
  rcases h.2 with h | ⟨h1, h2, h3, -⟩
  · exact Or.inl h
  · exact Or.inr ⟨h1, h2, h3, hd⟩

/-- The state of the disk decides about the default. -/
theorem default_of (hk : ∀ g, Considers env cfg g → known g key) (hsk : SortKeysStand known) (hpt : ProperTexts known)
    (hm : MadeFor world esp known fs) (ho : OneEach world esp env cfg key fs) {items : List Item}
    (hmenu : IsMenuOf world esp fs items) (hg : Considers env cfg g) (hn : IsNameOf world.uni world.sha g key n)
    {data : Bytes} (hd : fs.fileAt (entryFile esp n) = some data) (hlive : ¬ TriesUsedUp n)
    (hbest : ∀ g' n', Considers env cfg g' → g' ≠ g → IsNameOf world.uni world.sha g' key n' →
      (fs.get (entryFile esp n')).isSome → TriesUsedUp n' ∨ Precedes g g')
    (hother : ∀ m i, ¬ lit "nixos-" <+: m → ShowsFile world esp fs m i → i.exhausted = true ∨ KeyBelow g i) :
    ∃ i, items.head? = some i ∧ ShowsFile world esp fs n i := by
  have hsome : ∀ {m : Str} {d : Bytes}, fs.fileAt (entryFile esp m) = some d → (fs.get (entryFile esp m)).isSome :=
    fun h => by rw [Fs.fileAt_eq_some.1 h]; rfl
  obtain ⟨g₀, env₀, cfg₀, hk₀, e₀, hpar₀, hf₀, hs₀⟩ := hm g key n data (hk g hg) hn hd
  have hsec : FileSection world data (lit ".osrel") (utf8 (OsRelease.display (osRelease g₀))) := by
    obtain ⟨-, v, kernel, initrd, image, -, -, hi, hs⟩ := hs₀
    exact (hi.sections hf₀ hs _ (List.Mem.head _)).congr hpar₀
  have hefi : lit ".efi" <:+ n := by
    obtain ⟨m, em, -, h⟩ := isMatch_isEntry (esp := esp) hn.isMatch
    cases entryFile_inj em; exact h
  obtain ⟨i, hi, hsf⟩ := hmenu.shown n data _ hefi hd hsec
  refine ⟨i, head_of hmenu.sorted hi fun x hx hne => ?_, hsf⟩
  -- the item stands for the generation
  obtain ⟨d', t', hd', ht', ei⟩ := hsf.item
  cases hd.symm.trans hd'
  have hid : i.id = n := by rw [ei]; rfl
  have hi0 : i.exhausted = false := by
    cases h : i.exhausted with
    | false => rfl
    | true => exact absurd (hsf.tries.1 h) hlive
  have hst : StandsFor i g₀ := ⟨env₀, cfg₀, data, hf₀, hs₀, t', ht'.congr hpar₀.symm, by rw [hid]; exact ei⟩
  obtain ⟨hfit, hyear⟩ := hpt g₀ key hk₀
  cases hex : x.exhausted with
  | true => exact (menuCmp_exhausted hi0 hex).2
  | false =>
    rcases hmenu.only x hx with ⟨m, hsx⟩ | ⟨h1, -⟩
    · obtain ⟨dx, tx, hdx, htx, ex⟩ := hsx.item
      by_cases hnix : ¬ lit "nixos-" <+: m
      · rcases hother m x hnix hsx with h | h
        · rw [h] at hex; cases hex
        · obtain ⟨d, -, he⟩ := C84_shown hst hfit
          refine menuCmp_below hi0 hex (k := g₀.spec.sortKey.getD (lit "lanzaboote")) (by rw [he]; rfl) ?_
          rw [← hsk _ _ _ _ (hk g hg) hk₀ e₀]; exact h
      obtain ⟨g', hg', hn'⟩ := ho.named m (Classical.not_not.1 hnix) (hsome hdx)
      by_cases hgg : g' = g
      · exfalso
        subst hgg
        cases ho.one g' n m hg hn hn' (hsome hd) (hsome hdx)
        cases hd.symm.trans hdx
        have := StubName.utf8_injective (ht'.unique htx)
        refine hne ?_
        rw [ei, ex, hi0, hex, this]
      · rcases hbest g' m hg' hgg hn' (hsome hdx) with h | h
        · rw [hsx.tries.2 h] at hex; cases hex
        · obtain ⟨g₁, env₁, cfg₁, hk₁, e₁, hpar₁, hf₁, hs₁⟩ := hm g' key m dx (hk g' hg') hn' hdx
          have hidx : x.id = m := by rw [ex]; rfl
          have hst' : StandsFor x g₁ :=
            ⟨env₁, cfg₁, dx, hf₁, hs₁, tx, htx.congr hpar₁.symm, by rw [hidx]; exact ex⟩
          have hp : Precedes g₀ g₁ := h.same e₀ e₁ (hsk _ _ _ _ (hk g hg) hk₀ e₀) (hsk _ _ _ _ (hk g' hg') hk₁ e₁) hyear
          exact (menuCmp_precedes hst hst' hfit (hpt g₁ key hk₁).1 (by rw [hi0, hex]) hp).2
    · obtain ⟨d, -, he⟩ := C84_shown hst hfit
      exact menuCmp_no_key hi0 hex (by rw [he]; rfl) h1

/-- **C101**. After a successful run and any number of boots: if the boot entry of a generation has tries left, and
each other generation either has no tries left or should be below in the menu, then the boot entry of this generation
is what the boot loader starts if nothing is chosen, and it boots that generation. (Other operating systems on the
same partition must have greater sort keys, or none.) -/
theorem C101_default (hu : Unambiguous world known) (hsk : SortKeysStand known) (hpt : ProperTexts known)
    (hp : ProperRun world esp known env cfg) (hr : Reliable env.os) (ht : fs.Tree) (hsnd : Sound world esp fs)
    (hcoh : Coherent world esp known fs) (hmade : MadeFor world esp known fs) (hok : Succeeded env cfg fs)
    (hD : ∀ links, cfg.considered env = some links → Distinct env cfg (allOf env links))
    (hM : AllMeasured env cfg fs)
    (hc : Counted world esp (run env cfg (start cfg fs)).2.fs fs') {items : List Item}
    (hmenu : IsMenuOf world esp fs' items) (hkey : KeyOf env cfg.signer key) (hg : Considers env cfg g)
    (hn : IsNameOf world.uni world.sha g key n) (hx : (fs'.get (entryFile esp n)).isSome) (hlive : ¬ TriesUsedUp n)
    (hbest : ∀ g' n', Considers env cfg g' → g' ≠ g → IsNameOf world.uni world.sha g' key n' →
      (fs'.get (entryFile esp n')).isSome → TriesUsedUp n' ∨ Precedes g g')
    (hother : ∀ m i, ¬ lit "nixos-" <+: m → ShowsFile world esp fs' m i → i.exhausted = true ∨ KeyBelow g i) :
    (∃ i, items.head? = some i ∧ ShowsFile world esp fs' n i) ∧ Boots world esp fs' g (entryFile esp n) := by
  have hw := hp.inWorld
  have ho := inOrder_after hp hp hu hr ht hsnd hok fun _ h => h
  have ev : Event world esp known (fun _ _ => True) fs (run env cfg (start cfg fs)).2.fs := by
    rw [run_disk hp.safe]
    exact .run hp trivial (killed_at_end env cfg fs)
  have hh := hc.history (known := known) (K := fun _ _ => True)
  have hcoh' := hh.coherent hu (ev.coherent hu hcoh)
  have hmade' := C101_made_for hu hh (ev.madeFor hu hmade)
  obtain rfl := hp.esp
  have ho' := ho.count hw.uni hc
  obtain ⟨-, hleft, -⟩ := C54_no_leftovers hp.safe hp.tools hp.separate hr ht
    (hsnd.congr hw.parse.symm hw.sha.symm) hok hD hM rfl
  have hone : OneEach world cfg.esp env cfg key (run env cfg (start cfg fs)).2.fs := by
    refine ⟨fun m hm hx => ?_, fun g m m' hg h1 h2 hx hx' => ?_⟩
    · obtain ⟨-, -, g, k, h1, h2, h3⟩ := hleft (linuxDir cfg.esp) m (List.prefix_refl _) hm
        (by simpa [entryFile, linuxDir] using hx)
      cases h2.unique hkey
      exact ⟨g, h1, by rw [← hw.uni, ← hw.sha]; exact h3⟩
    · obtain ⟨k, r, h3, -, -, h4⟩ := C55_one_entry_each hp.safe hp.tools hp.separate hr ht
        (hsnd.congr hw.parse.symm hw.sha.symm) hok hD hM hg
      cases h3.unique hkey
      rw [← hw.uni, ← hw.sha] at h1 h2
      rw [h4 m h1 hx, h4 m' h2 hx']
  have hone' := hone.count hc
  obtain ⟨data, hd⟩ : ∃ data, fs'.fileAt (entryFile cfg.esp n) = some data := by
    have := ho'.files _ (isMatch_isEntry hn.isMatch)
    cases hget : fs'.get (entryFile cfg.esp n) with
    | none => rw [hget] at hx; cases hx
    | some node =>
      cases node with
      | dir => exact absurd hget this
      | file d => exact ⟨d, Fs.fileAt_eq_some.2 hget⟩
  have hknown : ∀ g, Considers env cfg g → known g key := fun g h => hp.known g key h hkey
  refine ⟨default_of hknown hsk hpt hmade' hone' hmenu hg hn hd hlive hbest hother, ?_⟩
  obtain ⟨kernel, initrd, v, he⟩ := hcoh' g key n data (hknown g hg) hn hd
  obtain ⟨kl, kh, il, ih, h1, h2, h3, h4⟩ := ho'.consistent _ (isMatch_isEntry hn.isMatch) data hd
  obtain ⟨a1, a2⟩ := (h1.congr hw.parse).agree he.kernel_ref
  obtain ⟨b1, b2⟩ := (h2.congr hw.parse).agree he.initrd_ref
  exact ⟨data, kernel, initrd, v, hd, he, by rw [← a1, ← a2]; exact h3.congr hw.sha,
    by rw [← b1, ← b2]; exact h4.congr hw.sha⟩

/-! ### Over time -/

theorem updates_history {dir : Path} {shows : Bytes → Bytes → Prop} (h : Updates world esp dir known shows fs fs') :
    History world esp known (fun _ _ => True) fs fs' := by
  induction h with
  | nil => exact .nil
  | @run f env cfg _ hr _ ih =>
    rw [run_disk hr.proper.safe]
    exact .snoc ih (.run hr.proper trivial (killed_at_end env cfg f))
  | killed _ hr hk _ ih => exact .snoc ih (.run hr.proper trivial hk)
  | count _ hb he hc hf hn ih => exact .snoc ih (.count hb he hc hf hn)

/-- **C101** (over time). What `C101_default` needs of the disk holds after any number of updates and boots, if it
holds of the first disk: say, of an empty one. -/
theorem C101_over_time {dir : Path} {shows : Bytes → Bytes → Prop} {fs₁ : Fs} (hu : Unambiguous world known)
    (ht : TagsStand known) (hsk : SortKeysStand known) (hpt : ProperTexts known)
    (h0 : Orderly world esp dir known shows fs) (hsnd : Sound world esp fs) (hcoh : Coherent world esp known fs)
    (hmade : MadeFor world esp known fs) (h : Updates world esp dir known shows fs fs₁)
    (hr : MeasuringRun world esp dir known shows env cfg) (hok : Succeeded env cfg fs₁)
    (hD : ∀ links, cfg.considered env = some links → Distinct env cfg (allOf env links))
    (hc : Counted world esp (run env cfg (start cfg fs₁)).2.fs fs') {items : List Item}
    (hmenu : IsMenuOf world esp fs' items) (hkey : KeyOf env cfg.signer key) (hg : Considers env cfg g)
    (hn : IsNameOf world.uni world.sha g key n) (hx : (fs'.get (entryFile esp n)).isSome) (hlive : ¬ TriesUsedUp n)
    (hbest : ∀ g' n', Considers env cfg g' → g' ≠ g → IsNameOf world.uni world.sha g' key n' →
      (fs'.get (entryFile esp n')).isSome → TriesUsedUp n' ∨ Precedes g g')
    (hother : ∀ m i, ¬ lit "nixos-" <+: m → ShowsFile world esp fs' m i → i.exhausted = true ∨ KeyBelow g i) :
    (∃ i, items.head? = some i ∧ ShowsFile world esp fs' n i) ∧ Boots world esp fs' g (entryFile esp n) := by
  obtain ⟨ho, hs⟩ := C98_entries_measured hu ht h0 hsnd h
  have hh := updates_history h
  have hp := hr.proper
  refine C101_default hu hsk hpt hp hr.reliable ho.tree hs (hh.coherent hu hcoh) (C101_made_for hu hh hmade) hok hD ?_
    hc hmenu hkey hg hn hx hlive hbest hother
  obtain rfl := hp.esp
  intro p hpd g key n hg hk hn hx
  rw [hr.dir] at hpd
  cases hpd
  obtain ⟨data, hd⟩ : ∃ data, fs₁.fileAt (entryFile cfg.esp n) = some data := Option.isSome_iff_exists.1 hx
  obtain ⟨m, hm, -⟩ := ho.measured g key n data (hp.known g key hg hk)
    (by rw [← hp.inWorld.uni, ← hp.inWorld.sha]; exact hn) hd
  rw [hm]; rfl

/-! ### File names -/

/-- For a name with no plus sign in its base, `TriesUsedUp` is about its counter. -/
theorem triesUsedUp_iff {b : Str} (hb : '+' ∉ b) (c : Counter) :
    TriesUsedUp (entryName b c) ↔ Counter.tries c = some 0 := by
  refine ⟨fun ⟨b', c', e, ht⟩ => ?_, fun h => ⟨b, c, rfl, h⟩⟩
  have plain : ∀ c : Counter, c.text = [] ∨ ∃ r, c.text = '+' :: r ∧ '+' ∉ r := by
    have digits : ∀ n, '+' ∉ toDec n := fun n => not_mem_toDec (by decide) n
    intro c
    cases c with
    | none => exact Or.inl rfl
    | left n => exact Or.inr ⟨toDec n, rfl, digits n⟩
    | leftDone n d =>
      refine Or.inr ⟨toDec n ++ '-' :: toDec d, by simp [Counter.text], ?_⟩
      simp [digits]
  have e' : b ++ c.text = b' ++ c'.text := by
    unfold entryName at e
    exact List.append_cancel_right e
  have hc' : c'.text ≠ [] := by
    cases c' with
    | none => simp [Counter.tries] at ht
    | left n => simp [Counter.text]
    | leftDone n d => simp [Counter.text]
  have last : ∀ (a a' r r' : Str), '+' ∉ a → '+' ∉ r → '+' ∉ r' → a ++ '+' :: r = a' ++ '+' :: r' → r = r' := by
    intro a a' r r' h1 h2 h3 h
    induction a generalizing a' with
    | nil =>
      cases a' with
      | nil => simpa using h
      | cons x xs =>
        simp only [List.nil_append, List.cons_append, List.cons.injEq] at h
        exact absurd (by rw [h.2]; simp) h2
    | cons y ys ih =>
      cases a' with
      | nil =>
        simp only [List.nil_append, List.cons_append, List.cons.injEq] at h
        exact absurd (by rw [h.1]; simp) h1
      | cons x xs =>
        simp only [List.cons_append, List.cons.injEq] at h
        exact ih xs (fun hm => h1 (List.mem_cons_of_mem _ hm)) h.2
  rcases plain c' with h | ⟨r', hr', hm'⟩
  · exact absurd h hc'
  · rcases plain c with h | ⟨r, hr, hm⟩
    · exfalso
      rw [h, hr', List.append_nil] at e'
      exact hb (by rw [e']; simp)
    · rw [hr, hr'] at e'
      have := last b b' r r' hb hm hm' e'
      rw [← this, ← hr] at hr'
      rw [← counter_text_injective hr']; exact ht

/-- So a name without tries left is one for which `OutOfTries` holds, which looks for the counter by its text. -/
theorem TriesUsedUp.outOfTries (h : TriesUsedUp n) : OutOfTries n := by
  obtain ⟨b, c, rfl, h⟩ := h
  have e : toDec 0 = ['0'] := by decide +kernel
  cases c with
  | none => simp [Counter.tries] at h
  | left k =>
    simp [Counter.tries] at h
    subst h
    exact Or.inl ⟨b, by simp [entryName, Counter.text, e, lit]⟩
  | leftDone k d =>
    simp [Counter.tries] at h
    subst h
    exact Or.inr ⟨b, toDec d ++ lit ".efi", by simp [entryName, Counter.text, e, lit]⟩

end Verif.Menu

/-! ## Examples -/

namespace Verif.Tool.Sample.InMenu
open Verif Verif.Tool StubName Generation BootCounting Menu

theorem made0 : MadeFor good cfg.esp known disk0 :=
  fun _ _ _ data _ hm hd => absurd hd (no_entry (isMatch_isEntry hm.isMatch) data)

theorem sortKeysStand : SortKeysStand known := by
  rintro g k g' k' ⟨h, -⟩ ⟨h', -⟩ -
  have key : ∀ a ∈ allOf good cfg, a.spec.sortKey = none := by decide +kernel
  rw [key g h, key g' h']

theorem properTexts : ProperTexts known := by
  rintro g k ⟨h, -⟩
  have h1 : ∀ a ∈ allOf good cfg, (∀ c ∈ a.spec.label, c.toNat ≥ 32) ∧ a.spec.label.head? ≠ some '=' ∧
      (∀ c ∈ a.specialisationName.getD [], c.toNat ≥ 32) ∧ a.spec.sortKey = none ∧
      a.buildTime = some ⟨2025, 1, 31⟩ := by decide +kernel
  obtain ⟨a1, a2, a3, a4, a5⟩ := h1 g h
  refine ⟨fits_of a1 a2 (fun s hs => ?_) a4 a5, ?_⟩
  · rw [Option.mem_def.1 hs] at a3; exact a3
  · rw [a5]; rintro d ⟨⟩; decide

/-- The sample installation: generations 1, with a specialisation, and 2. -/
def installed : Fs := (run good cfg (start cfg disk0)).2.fs

def newName : Str := stubPrefix sha newGen [80, 75]
def newFile (c : Counter) : Path := entryFile cfg.esp (entryName newName c)
def newImage : Bytes := (installed.fileAt (newFile (.left 3))).getD []

/-- Generation 2 does not come up: three attempts to boot it fail. -/
def tried1 : Fs := installed.apply (.rename (newFile (.left 3)) (newFile (.leftDone 2 1)) newImage)
def tried2 : Fs := tried1.apply (.rename (newFile (.leftDone 2 1)) (newFile (.leftDone 1 2)) newImage)
def tried3 : Fs := tried2.apply (.rename (newFile (.leftDone 1 2)) (newFile (.leftDone 0 3)) newImage)

/-- The menu then. -/
def fallbackMenu : List Item :=
  [itemOf (OsRelease.display (osRelease first)) (entryName firstName (.left 3)) false,
   itemOf (OsRelease.display (osRelease fooGen)) (entryName (stubPrefix sha fooGen [80, 75]) (.left 3)) false,
   itemOf (OsRelease.display (osRelease newGen)) (entryName newName (.leftDone 0 3)) true]

/-- The content of an image is the text of a generation. -/
def osrelIs (f : Fs) (n : Str) (g : Gen) : Bool :=
  decide (((f.fileAt (entryFile cfg.esp n)).map fun d => readSectionData good d (lit ".osrel")) =
    some (.ok (some (utf8 (OsRelease.display (osRelease g))))))

theorem tried_facts :
    (installed.fileAt (newFile (.left 3)) = some newImage ∧ installed.get (newFile (.leftDone 2 1)) = none ∧
     tried1.fileAt (newFile (.leftDone 2 1)) = some newImage ∧ tried1.get (newFile (.leftDone 1 2)) = none ∧
     tried2.fileAt (newFile (.leftDone 1 2)) = some newImage ∧ tried2.get (newFile (.leftDone 0 3)) = none) ∧
    (∀ e ∈ tried3.nodes, e.1.dropLast = linuxDir cfg.esp → e.1.getLast? ∈ [some (lit "arch.efi"),
      some (entryName firstName (.left 3)), some (entryName (stubPrefix sha fooGen [80, 75]) (.left 3)),
      some (entryName newName (.leftDone 0 3))]) ∧
    osrelIs tried3 (entryName firstName (.left 3)) first = true ∧
    osrelIs tried3 (entryName (stubPrefix sha fooGen [80, 75]) (.left 3)) fooGen = true ∧
    osrelIs tried3 (entryName newName (.leftDone 0 3)) newGen = true ∧
    (tried3.fileAt (entryFile cfg.esp (lit "arch.efi"))).bind good.parse = none := by
  decide +kernel

theorem newGen_mem : newGen ∈ allOf good cfg := by decide +kernel
theorem fooGen_mem : fooGen ∈ allOf good cfg := by decide +kernel

theorem noCounter_of {b : Str} (h : '+' ∉ b) : NoCounter good.uni b := by
  intro a c e
  exact absurd (by rw [e]; simp) h

theorem newName_plain : '+' ∉ newName := by decide +kernel
theorem firstName_plain : '+' ∉ firstName := by decide +kernel
theorem fooName_plain : '+' ∉ stubPrefix sha fooGen [80, 75] := by decide +kernel

theorem newFile_isEntry (c : Counter) : IsEntry cfg.esp (entryFile cfg.esp (entryName newName c)) :=
  isMatch_isEntry (uni := good.uni) (env := good) (g := newGen) (key := [80, 75])
    (isMatch_entryName good.uni (stubPrefix sha newGen [80, 75]) c)

theorem tried_counted : Counted good cfg.esp installed tried3 :=
  .count (c := .leftDone 1 2) (c' := .leftDone 0 3)
    (.count (c := .leftDone 2 1) (c' := .leftDone 1 2)
      (.count (c := .left 3) (c' := .leftDone 2 1) .nil (noCounter_of newName_plain) (newFile_isEntry _) .try_first
        tried_facts.1.1 tried_facts.1.2.1)
      (noCounter_of newName_plain) (newFile_isEntry _) .try_again tried_facts.1.2.2.1 tried_facts.1.2.2.2.1)
    (noCounter_of newName_plain) (newFile_isEntry _) .try_again tried_facts.1.2.2.2.2.1 tried_facts.1.2.2.2.2.2

theorem mem_nodes {f : Fs} {p : Path} (hp : p ≠ []) (h : (f.get p).isSome) : ∃ e ∈ f.nodes, e.1 = p := by
  unfold Fs.get at h
  rw [if_neg hp] at h
  cases hf : f.nodes.find? (fun e => e.1 == p) with
  | none => rw [hf] at h; cases h
  | some e => exact ⟨e, List.mem_of_find?_eq_some hf, by simpa using List.find?_some hf⟩

theorem tried_names {n : Str} (h : (tried3.get (entryFile cfg.esp n)).isSome) :
    n = lit "arch.efi" ∨ n = entryName firstName (.left 3) ∨ n = entryName (stubPrefix sha fooGen [80, 75]) (.left 3) ∨
      n = entryName newName (.leftDone 0 3) := by
  obtain ⟨e, he, e1⟩ := mem_nodes (by simp [entryFile]) h
  have h1 := tried_facts.2.1 e he (by rw [e1]; simp [entryFile, linuxDir])
  have h2 : e.1.getLast? = some n := by rw [e1]; simp [entryFile]
  rw [h2] at h1
  simpa using h1

theorem osrel_of {f : Fs} {n : Str} {g : Gen} (h : osrelIs f n g = true) :
    ∃ d, f.fileAt (entryFile cfg.esp n) = some d ∧
      FileSection good d (lit ".osrel") (utf8 (OsRelease.display (osRelease g))) := by
  have h := of_decide_eq_true h
  obtain ⟨d, h1, h2⟩ := Option.map_eq_some_iff.1 h
  exact ⟨d, h1, (readSectionData_iff _ _ _ _).1 h2⟩

theorem arch_unseen {d : Bytes} {text : Str} (h1 : tried3.fileAt (entryFile cfg.esp (lit "arch.efi")) = some d) :
    ¬ FileSection good d (lit ".osrel") (utf8 text) := by
  rintro ⟨pe, _, _, _, h2, -⟩
  have := tried_facts.2.2.2.2.2
  rw [h1] at this
  have h3 : good.parse d = none := this
  rw [h2] at h3
  cases h3

theorem shown_of {n : Str} {g : Gen} {b : Bool} (h : osrelIs tried3 n g = true) (he : lit ".efi" <:+ n)
    (hb : b = true ↔ TriesUsedUp n) :
    ShowsFile good cfg.esp tried3 n (itemOf (OsRelease.display (osRelease g)) n b) := by
  obtain ⟨d, h1, h2⟩ := osrel_of h
  exact ⟨he, ⟨d, _, h1, h2, rfl⟩, hb⟩

theorem efi_entryName (b : Str) (c : Counter) : lit ".efi" <:+ entryName b c := ⟨_, rfl⟩

theorem shows_first : ShowsFile good cfg.esp tried3 (entryName firstName (.left 3))
    (itemOf (OsRelease.display (osRelease first)) (entryName firstName (.left 3)) false) :=
  shown_of tried_facts.2.2.1 (efi_entryName _ _) (by rw [triesUsedUp_iff firstName_plain]; simp [Counter.tries])
theorem shows_foo : ShowsFile good cfg.esp tried3 (entryName (stubPrefix sha fooGen [80, 75]) (.left 3))
    (itemOf (OsRelease.display (osRelease fooGen)) (entryName (stubPrefix sha fooGen [80, 75]) (.left 3)) false) :=
  shown_of tried_facts.2.2.2.1 (efi_entryName _ _) (by rw [triesUsedUp_iff fooName_plain]; simp [Counter.tries])
theorem shows_new : ShowsFile good cfg.esp tried3 (entryName newName (.leftDone 0 3))
    (itemOf (OsRelease.display (osRelease newGen)) (entryName newName (.leftDone 0 3)) true) :=
  shown_of tried_facts.2.2.2.2.1 (efi_entryName _ _) (by rw [triesUsedUp_iff newName_plain]; simp [Counter.tries])

/-- That is the menu. -/
theorem fallbackMenu_isMenuOf : IsMenuOf good cfg.esp tried3 fallbackMenu where
  sorted := by unfold IsMenu; decide +kernel
  shown := by
    intro n data text _ hd hs
    have hx : (tried3.get (entryFile cfg.esp n)).isSome := by rw [Fs.fileAt_eq_some.1 hd]; rfl
    rcases tried_names hx with rfl | rfl | rfl | rfl
    · exact absurd hs (arch_unseen hd)
    · exact ⟨_, List.Mem.head _, shows_first⟩
    · exact ⟨_, .tail _ (.head _), shows_foo⟩
    · exact ⟨_, .tail _ (.tail _ (.head _)), shows_new⟩
  only := by
    intro i hi
    simp only [fallbackMenu, List.mem_cons, List.not_mem_nil, or_false] at hi
    rcases hi with rfl | rfl | rfl
    · exact Or.inl ⟨_, shows_first⟩
    · exact Or.inl ⟨_, shows_foo⟩
    · exact Or.inl ⟨_, shows_new⟩

theorem first_above_foo : Precedes first fooGen :=
  ⟨by decide +kernel, Or.inr ⟨by decide +kernel, by decide +kernel, by decide +kernel, by decide +kernel⟩⟩

theorem mem_cases {g : Gen} (h : g ∈ allOf good cfg) : g = first ∨ g = fooGen ∨ g = newGen := by
  have : ∀ a ∈ allOf good cfg, a = first ∨ a = fooGen ∨ a = newGen := by decide +kernel
  exact this g h

/-- The entry of generation 2 has no tries left. -/
theorem new_exhausted {n : Str} (hm : IsNameOf good.uni good.sha newGen [80, 75] n)
    (hx : (tried3.get (entryFile cfg.esp n)).isSome) : TriesUsedUp n := by
  rcases tried_names hx with rfl | rfl | rfl | rfl
  · exfalso
    obtain ⟨m, em, h, -⟩ := isMatch_isEntry (esp := cfg.esp) hm.isMatch
    cases entryFile_inj em
    exact absurd h (by decide)
  · have := sameEntry_of unambiguous ⟨newGen_mem, rfl⟩ ⟨first_mem, rfl⟩ hm
      (isNameOf (isMatch_entryName good.uni (stubPrefix sha first [80, 75]) (.left 3)))
    exact absurd this.1 (by decide +kernel)
  · have := sameEntry_of unambiguous ⟨newGen_mem, rfl⟩ ⟨fooGen_mem, rfl⟩ hm
      (isNameOf (isMatch_entryName good.uni (stubPrefix sha fooGen [80, 75]) (.left 3)))
    exact absurd this.1 (by decide +kernel)
  · exact (triesUsedUp_iff newName_plain _).2 rfl

theorem first_best : ∀ g' n', Considers good cfg g' → g' ≠ first → IsNameOf good.uni good.sha g' [80, 75] n' →
    (tried3.get (entryFile cfg.esp n')).isSome → TriesUsedUp n' ∨ Precedes first g' := by
  intro g' n' hg' hne hm hx
  rcases mem_cases (considers_iff.1 hg') with rfl | rfl | rfl
  · exact absurd rfl hne
  · exact Or.inr first_above_foo
  · exact Or.inl (new_exhausted hm hx)

theorem no_other : ∀ m i, ¬ lit "nixos-" <+: m → ShowsFile good cfg.esp tried3 m i →
    i.exhausted = true ∨ KeyBelow first i := by
  intro m i hm hs
  exfalso
  obtain ⟨d, t, h1, h2, -⟩ := hs.item
  rcases tried_names (by rw [Fs.fileAt_eq_some.1 h1]; rfl) with rfl | rfl | rfl | rfl
  · exact arch_unseen h1 h2
  all_goals exact hm (by decide +kernel)

theorem tried_counted' : Counted good cfg.esp (run good cfg (start cfg disk0)).2.fs tried3 := by
  have h := tried_counted
  unfold installed at h
  exact h

theorem first_there : (tried3.get (entryFile cfg.esp (entryName firstName (.left 3)))).isSome := by
  obtain ⟨d, h, -⟩ := osrel_of tried_facts.2.2.1
  rw [Fs.fileAt_eq_some.1 h]; rfl

theorem first_live : ¬ TriesUsedUp (entryName firstName (.left 3)) := by
  rw [triesUsedUp_iff firstName_plain]; simp [Counter.tries]

/-- After three failed attempts to boot generation 2, the boot loader starts generation 1 by itself. -/
example {items : List Item} (hmenu : IsMenuOf good cfg.esp tried3 items) :
    (∃ i, items.head? = some i ∧ ShowsFile good cfg.esp tried3 (entryName firstName (.left 3)) i) ∧
      Boots good cfg.esp tried3 first (entryFile cfg.esp (entryName firstName (.left 3))) :=
  C101_default (env := good) unambiguous sortKeysStand properTexts (properRun fun _ => false) reliable_good tree0 sound0 coherent0 made0 succeeded0
    distinct0 measured0 tried_counted' hmenu (by show good.store _ = _; decide) (considers_iff.2 first_mem)
    (isNameOf (isMatch_entryName good.uni (stubPrefix sha first [80, 75]) (.left 3))) first_there first_live first_best
    no_other

/-- The same after an update from generation 1 alone. -/
example {items : List Item} {fs' : Fs} (hok : Succeeded updated cfg oneGenTried)
    (hc : Counted good cfg.esp (run updated cfg (start cfg oneGenTried)).2.fs fs')
    (hmenu : IsMenuOf good cfg.esp fs' items) {g : Gen} {n : Str} (hg : Considers updated cfg g)
    (hn : IsNameOf good.uni good.sha g [80, 75] n) (hx : (fs'.get (entryFile cfg.esp n)).isSome)
    (hlive : ¬ TriesUsedUp n)
    (hbest : ∀ g' n', Considers updated cfg g' → g' ≠ g → IsNameOf good.uni good.sha g' [80, 75] n' →
      (fs'.get (entryFile cfg.esp n')).isSome → TriesUsedUp n' ∨ Precedes g g')
    (hother : ∀ m i, ¬ lit "nixos-" <+: m → ShowsFile good cfg.esp fs' m i → i.exhausted = true ∨ KeyBelow g i) :
    Boots good cfg.esp fs' g (entryFile cfg.esp n) :=
  (C101_over_time (env := updated) unambiguous tagsStand sortKeysStand properTexts orderly0 sound0 coherent0 made0
    tried_updates measuringUpdated hok distinct_updated hc hmenu (by show updated.store _ = _; decide) hg hn hx hlive
    hbest hother).2

end Verif.Tool.Sample.InMenu
