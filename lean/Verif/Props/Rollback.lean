import Verif.Spec.Rollback
import Verif.Props.Fallback
import Verif.Props.Hook
import Verif.Props.Exact
/-!
# C113: switching back to an older generation

The hook is the same whatever system it is called for: its commands name all the links of the profile
(lanzaboote.nix 25-54), not the system that is passed to it.
-/
namespace Verif.Tool
open Verif StubName Generation BootCounting Menu

variable {env world : Env} {cfg : Config} {esp : Path} {known : Gen → Bytes → Prop}
  {g g' : Gen} {key : Bytes} {n : Str} {fs : Fs}

/-- **C113** (part). What boots after a successful run is the newest generation, if its entry has tries left. So the
current generation is what boots, if it is the newest one. Missing: it is also to be what boots if it is an older one,
which does not hold, see `C113_choice_ignored`. -/
theorem C113_newest_partial (hu : Unambiguous world known) (hsk : SortKeysStand known) (hpt : ProperTexts known)
    (hp : ProperRun world esp known env cfg) (hr : Reliable env.os) (ht : fs.Tree) (hsnd : Sound world esp fs)
    (hcoh : Coherent world esp known fs) (hmade : MadeFor world esp known fs) (hok : Succeeded env cfg fs)
    (hD : ∀ links, cfg.considered env = some links → Distinct env cfg (allOf env links))
    (hM : AllMeasured env cfg fs) (hkey : KeyOf env cfg.signer key) {f : Fs}
    (hf : f = (run env cfg (start cfg fs)).2.fs) {items : List Item} (hmenu : IsMenuOf world esp f items)
    (hnew : Newest env cfg g)
    (hlive : ∀ n, IsNameOf world.uni world.sha g key n → (f.get (entryFile esp n)).isSome → ¬ TriesUsedUp n)
    (hother : ∀ m i, ¬ lit "nixos-" <+: m → ShowsFile world esp f m i → i.exhausted = true ∨ KeyBelow g i) :
    StartsByItself world esp f items g key ∧ ∃ n, IsNameOf world.uni world.sha g key n ∧
      Boots world esp f g (entryFile esp n) := by
  obtain ⟨k, n, hk, hn, hx, -⟩ := C55_one_entry_each hp.safe hp.tools hp.separate hr ht
    (by rw [hp.esp]; exact hsnd.congr hp.inWorld.parse.symm hp.inWorld.sha.symm) hok hD hM hnew.1
  cases hk.unique hkey
  rw [← hf, hp.esp] at hx
  rw [hp.inWorld.uni, hp.inWorld.sha] at hn
  have hx' : (f.get (entryFile esp n)).isSome := by
    obtain ⟨d, hd⟩ := Option.isSome_iff_exists.1 hx
    rw [Fs.fileAt_eq_some.1 hd]; rfl
  obtain ⟨⟨i, h1, h2⟩, h3⟩ := C101_default hu hsk hpt hp hr ht hsnd hcoh hmade hok hD hM (hf ▸ Counted.nil) hmenu hkey
    hnew.1 hn hx' (hlive n hn hx') (fun g' _ hg' hne _ _ => Or.inr (hnew.2 g' hg' hne)) hother
  exact ⟨⟨i, n, h1, h2, hn⟩, n, hn, h3⟩

/-! ### New generations -/

/-- The name that a new boot entry gets does not say that no tries are left. -/
theorem fresh_live (sha : Sha) (g : Gen) (key : Bytes) (t : Nat) : ¬ TriesUsedUp (stubName sha g key t) := by
  rintro ⟨b, c, e, hc⟩
  rw [stubName_eq] at e
  have e : stubPrefix sha g key ++ (initialCounter t).text = b ++ c.text := List.append_cancel_right e
  have digits : ∀ n, '+' ∉ toDec n := fun n => not_mem_toDec (by decide) n
  obtain ⟨r, hr, hm⟩ : ∃ r, c.text = '+' :: r ∧ '+' ∉ r := by
    cases c with
    | none => cases hc
    | left n => exact ⟨toDec n, rfl, digits n⟩
    | leftDone n d => exact ⟨toDec n ++ '-' :: toDec d, by simp [Counter.text], by simp [digits]⟩
  rw [hr] at e
  unfold initialCounter at e
  split at e
  · next ht =>
    have e' : stubPrefix sha g key ++ '+' :: toDec t = b ++ '+' :: r := e
    have := (append_sep_last_inj e' (digits t) hm).2
    have e2 : (Counter.left t).text = c.text := by rw [hr, ← this]; rfl
    cases counter_text_injective e2
    simp only [Counter.tries, Option.some.injEq] at hc
    omega
  · obtain ⟨s, x, hs, hx⟩ := stubPrefix_last sha g key
    have e' : s ++ [x] = b ++ '+' :: r := by rw [← hs, ← e]; simp [Counter.text]
    have hall : ∀ y ∈ c.text, CounterChar (fun _ => false) y := text_counterChar _ c
    have : x ∈ '+' :: r := by
      have h1 : (b ++ '+' :: r).getLast? = some x := by rw [← e']; simp
      rw [List.getLast?_append] at h1
      have h2 : ('+' :: r).getLast? = some (('+' :: r).getLast (by simp)) := List.getLast?_eq_some_getLast _
      rw [h2] at h1
      have h3 : ('+' :: r).getLast (by simp) = x := by simpa using h1
      rw [← h3]; exact List.getLast_mem _
    rw [← hr] at this
    exact not_counterChar _ hx (hall x this)

/-- **C113** (part: a new generation). A generation that the run has installed for the first time is what boots, if it is
the newest one. -/
theorem C113_new_partial (hu : Unambiguous world known) (hsk : SortKeysStand known) (hpt : ProperTexts known)
    (hp : ProperRun world esp known env cfg) (hr : Reliable env.os) (ht : fs.Tree) (hsnd : Sound world esp fs)
    (hcoh : Coherent world esp known fs) (hmade : MadeFor world esp known fs) (hok : Succeeded env cfg fs)
    (hD : ∀ links, cfg.considered env = some links → Distinct env cfg (allOf env links))
    (hM : AllMeasured env cfg fs) (hkey : KeyOf env cfg.signer key) {f : Fs}
    (hf : f = (run env cfg (start cfg fs)).2.fs) {items : List Item} (hmenu : IsMenuOf world esp f items)
    (hnew : Newest env cfg g) (hfresh : ∀ n, IsNameOf world.uni world.sha g key n → fs.fileAt (entryFile esp n) = none)
    (hother : ∀ m i, ¬ lit "nixos-" <+: m → ShowsFile world esp f m i → i.exhausted = true ∨ KeyBelow g i) :
    StartsByItself world esp f items g key ∧ ∃ n, IsNameOf world.uni world.sha g key n ∧
      Boots world esp f g (entryFile esp n) := by
  refine C113_newest_partial hu hsk hpt hp hr ht hsnd hcoh hmade hok hD hM hkey hf hmenu hnew (fun n hn hx => ?_) hother
  have ho := inOrder_after hp hp hu hr ht hsnd hok fun _ h => h
  obtain rfl := hp.esp
  have hfile := ho.files _ (isMatch_isEntry hn.isMatch)
  rw [← hf] at hfile
  cases hget : f.get (entryFile cfg.esp n) with
  | none => rw [hget] at hx; cases hx
  | some node =>
    cases node with
    | dir => exact absurd hget hfile
    | file d =>
      have hd : f.fileAt (entryFile cfg.esp n) = some d := Fs.fileAt_eq_some.2 hget
      rw [hf, run_disk hp.safe] at hd
      obtain ⟨g', k', -, -, e⟩ := C95_new_entries hp.safe (killed_at_end env cfg fs) (isMatch_isEntry hn.isMatch) hd
        (by rw [hfresh n hn]; simp)
      cases entryFile_inj e
      exact fresh_live _ _ _ _

/-- **C113** (the negative). Whichever other generation has been made the current one, that is not what boots after a
successful run, as long as the newest one has tries left: the newest is. -/
theorem C113_choice_ignored (hu : Unambiguous world known) (hsk : SortKeysStand known) (hpt : ProperTexts known)
    (hp : ProperRun world esp known env cfg) (hr : Reliable env.os) (ht : fs.Tree) (hsnd : Sound world esp fs)
    (hcoh : Coherent world esp known fs) (hmade : MadeFor world esp known fs) (hok : Succeeded env cfg fs)
    (hD : ∀ links, cfg.considered env = some links → Distinct env cfg (allOf env links))
    (hM : AllMeasured env cfg fs) (hkey : KeyOf env cfg.signer key) {f : Fs}
    (hf : f = (run env cfg (start cfg fs)).2.fs) {items : List Item} (hmenu : IsMenuOf world esp f items)
    (hnew : Newest env cfg g)
    (hlive : ∀ n, IsNameOf world.uni world.sha g key n → (f.get (entryFile esp n)).isSome → ¬ TriesUsedUp n)
    (hother : ∀ m i, ¬ lit "nixos-" <+: m → ShowsFile world esp f m i → i.exhausted = true ∨ KeyBelow g i)
    {current : Gen} (hcur : Considers env cfg current) (hold : current.version < g.version) :
    ¬ StartsByItself world esp f items current key := by
  rintro ⟨i, m, h1, h2, h3⟩
  obtain ⟨⟨i', n, e1, e2, e3⟩, -⟩ := C113_newest_partial hu hsk hpt hp hr ht hsnd hcoh hmade hok hD hM hkey hf hmenu hnew
    hlive hother
  rw [h1] at e1
  cases e1
  obtain ⟨_, _, _, _, a⟩ := h2.item
  obtain ⟨_, _, _, _, b⟩ := e2.item
  have hid : m = n := by
    have a' : i.id = m := by rw [a]; rfl
    have b' : i.id = n := by rw [b]; rfl
    rw [← a', b']
  subst hid
  have := sameEntry_of hu (hp.known g key hnew.1 hkey) (hp.known current key hcur hkey) e3 h3
  have := this.1
  omega

/-- **C113** (the negative, with a limit). A generation that has been made the current one, but is not among those that
the limit admits, has no boot entry after a successful run: it cannot even be chosen. -/
theorem C113_removed (hu : Unambiguous world known) (hp : ProperRun world esp known env cfg) (hr : Reliable env.os)
    (ht : fs.Tree) (hsnd : Sound world esp fs) (hok : Succeeded env cfg fs)
    (hD : ∀ links, cfg.considered env = some links → Distinct env cfg (allOf env links))
    (hM : AllMeasured env cfg fs) {f : Fs} (hf : f = (run env cfg (start cfg fs)).2.fs)
    {current : Gen} (hknown : known current key)
    (hold : ∀ g, Considers env cfg g → g.version ≠ current.version)
    (hn : IsNameOf world.uni world.sha current key n) : f.get (entryFile esp n) = none := by
  obtain rfl := hp.esp
  have hw := hp.inWorld
  cases hx : f.get (entryFile cfg.esp n) with
  | none => rfl
  | some node =>
    exfalso
    obtain ⟨-, hleft, -⟩ := C54_no_leftovers hp.safe hp.tools hp.separate hr ht
      (hsnd.congr hw.parse.symm hw.sha.symm) hok hD hM hf
    obtain ⟨m, em, hm, -⟩ := isMatch_isEntry (esp := cfg.esp) hn.isMatch
    cases entryFile_inj em
    obtain ⟨-, -, g, k, h1, h2, h3⟩ := hleft (linuxDir cfg.esp) n (List.prefix_refl _) hm
      (by have e : linuxDir cfg.esp ++ [n] = entryFile cfg.esp n := by simp [entryFile, linuxDir]
          rw [e, hx]; rfl)
    rw [hw.uni, hw.sha] at h3
    exact hold g h1 (sameEntry_of hu (hp.known g k h1 h2) hknown h3 hn).1

end Verif.Tool

namespace Verif.Tool.Sample.InMenu
open Verif Verif.Tool StubName Generation BootCounting Menu

/-- The menu after the sample installation. -/
def installedMenu : List Item :=
  [itemOf (OsRelease.display (osRelease newGen)) (entryName newName (.left 3)) false,
   itemOf (OsRelease.display (osRelease first)) (entryName firstName (.left 3)) false,
   itemOf (OsRelease.display (osRelease fooGen)) (entryName (stubPrefix sha fooGen [80, 75]) (.left 3)) false]

theorem installed_facts :
    (∀ e ∈ installed.nodes, e.1.dropLast = linuxDir cfg.esp → e.1.getLast? ∈ [some (lit "arch.efi"),
      some (entryName firstName (.left 3)), some (entryName (stubPrefix sha fooGen [80, 75]) (.left 3)),
      some (entryName newName (.left 3))]) ∧
    osrelIs installed (entryName firstName (.left 3)) first = true ∧
    osrelIs installed (entryName (stubPrefix sha fooGen [80, 75]) (.left 3)) fooGen = true ∧
    osrelIs installed (entryName newName (.left 3)) newGen = true ∧
    (installed.fileAt (entryFile cfg.esp (lit "arch.efi"))).bind good.parse = none := by
  decide +kernel

theorem installed_names {n : Str} (h : (installed.get (entryFile cfg.esp n)).isSome) :
    n = lit "arch.efi" ∨ n = entryName firstName (.left 3) ∨ n = entryName (stubPrefix sha fooGen [80, 75]) (.left 3) ∨
      n = entryName newName (.left 3) := by
  obtain ⟨e, he, e1⟩ := mem_nodes (by simp [entryFile]) h
  have h1 := installed_facts.1 e he (by rw [e1]; simp [entryFile, linuxDir])
  have h2 : e.1.getLast? = some n := by rw [e1]; simp [entryFile]
  rw [h2] at h1
  simpa using h1

theorem installed_arch {d : Bytes} {text : Str} (h1 : installed.fileAt (entryFile cfg.esp (lit "arch.efi")) = some d) :
    ¬ FileSection good d (lit ".osrel") (utf8 text) := by
  rintro ⟨pe, _, _, _, h2, -⟩
  have := installed_facts.2.2.2.2
  rw [h1] at this
  have h3 : good.parse d = none := this
  rw [h2] at h3
  cases h3

theorem installed_shows {b : Str} {g : Gen} (hb : '+' ∉ b) (h : osrelIs installed (entryName b (.left 3)) g = true) :
    ShowsFile good cfg.esp installed (entryName b (.left 3))
      (itemOf (OsRelease.display (osRelease g)) (entryName b (.left 3)) false) := by
  obtain ⟨d, h1, h2⟩ := osrel_of h
  exact ⟨efi_entryName _ _, ⟨d, _, h1, h2, rfl⟩, by
    rw [triesUsedUp_iff hb]
    show false = true ↔ _
    simp [Counter.tries]⟩

theorem installedMenu_isMenuOf : IsMenuOf good cfg.esp installed installedMenu where
  sorted := by unfold IsMenu; decide +kernel
  shown := by
    intro n data text _ hd hs
    have hx : (installed.get (entryFile cfg.esp n)).isSome := by rw [Fs.fileAt_eq_some.1 hd]; rfl
    rcases installed_names hx with rfl | rfl | rfl | rfl
    · exact absurd hs (installed_arch hd)
    · exact ⟨_, .tail _ (.head _), installed_shows firstName_plain installed_facts.2.1⟩
    · exact ⟨_, .tail _ (.tail _ (.head _)), installed_shows fooName_plain installed_facts.2.2.1⟩
    · exact ⟨_, List.Mem.head _, installed_shows newName_plain installed_facts.2.2.2.1⟩
  only := by
    intro i hi
    simp only [installedMenu, List.mem_cons, List.not_mem_nil, or_false] at hi
    rcases hi with rfl | rfl | rfl
    · exact Or.inl ⟨_, installed_shows newName_plain installed_facts.2.2.2.1⟩
    · exact Or.inl ⟨_, installed_shows firstName_plain installed_facts.2.1⟩
    · exact Or.inl ⟨_, installed_shows fooName_plain installed_facts.2.2.1⟩

theorem newest_new : Newest good cfg newGen := by
  refine ⟨considers_iff.2 newGen_mem, fun g' hg' hne => ?_⟩
  rcases mem_cases (considers_iff.1 hg') with rfl | rfl | rfl
  · exact ⟨by decide +kernel, Or.inl (by decide +kernel)⟩
  · exact newPrecedes.2.1
  · exact absurd rfl hne

theorem installed_live {n : Str} (hm : IsNameOf good.uni good.sha newGen [80, 75] n)
    (hx : (installed.get (entryFile cfg.esp n)).isSome) : ¬ TriesUsedUp n := by
  rcases installed_names hx with rfl | rfl | rfl | rfl
  · exfalso
    obtain ⟨m, em, h, -⟩ := isMatch_isEntry (esp := cfg.esp) hm.isMatch
    cases entryFile_inj em
    exact absurd h (by decide)
  · exact first_live
  · rw [triesUsedUp_iff fooName_plain]; simp [Counter.tries]
  · rw [triesUsedUp_iff newName_plain]; simp [Counter.tries]

theorem installed_other : ∀ m i, ¬ lit "nixos-" <+: m → ShowsFile good cfg.esp installed m i →
    i.exhausted = true ∨ KeyBelow newGen i := by
  intro m i hm hs
  exfalso
  obtain ⟨d, t, h1, h2, -⟩ := hs.item
  rcases installed_names (by rw [Fs.fileAt_eq_some.1 h1]; rfl) with rfl | rfl | rfl | rfl
  · exact installed_arch h1 h2
  all_goals exact hm (by decide +kernel)

theorem key_good : KeyOf good cfg.signer [80, 75] := by show good.store _ = _; decide

/-- Generations 1 and 2 are there. Generation 2 is what boots. -/
example : StartsByItself good cfg.esp installed installedMenu newGen [80, 75] :=
  (C113_newest_partial (env := good) unambiguous sortKeysStand properTexts (properRun fun _ => false) reliable_good tree0
    sound0 coherent0 made0 succeeded0 distinct0 measured0 key_good rfl installedMenu_isMenuOf newest_new
    (fun _ => installed_live) installed_other).1

/-- Both generations are new there. -/
example : ∃ n, IsNameOf good.uni good.sha newGen [80, 75] n ∧
    Boots good cfg.esp installed newGen (entryFile cfg.esp n) :=
  (C113_new_partial (env := good) unambiguous sortKeysStand properTexts (properRun fun _ => false) reliable_good tree0
    sound0 coherent0 made0 succeeded0 distinct0 measured0 key_good rfl installedMenu_isMenuOf newest_new
    (fun n hn => by
      cases h : disk0.fileAt (entryFile cfg.esp n) with
      | none => rfl
      | some d => exact absurd h (no_entry (isMatch_isEntry hn.isMatch) d)) installed_other).2

/-- **C113** does not hold: the user has switched back to generation 1, the hook has succeeded, and generation 1 is not
what boots. -/
theorem C113_not_switched : Succeeded good cfg disk0 ∧ Considers good cfg first ∧
    IsMenuOf good cfg.esp installed installedMenu ∧
    ¬ StartsByItself good cfg.esp installed installedMenu first [80, 75] :=
  ⟨succeeded0, considers_iff.2 first_mem, installedMenu_isMenuOf,
    C113_choice_ignored (env := good) unambiguous sortKeysStand properTexts (properRun fun _ => false) reliable_good tree0
      sound0 coherent0 made0 succeeded0 distinct0 measured0 key_good rfl installedMenu_isMenuOf newest_new
      (fun _ => installed_live) installed_other (considers_iff.2 first_mem) (by decide +kernel)⟩

/-- With a limit of one, the run after that removes the entry of generation 1, to which the user has switched back. -/
theorem again_newest : Succeeded good cfgNewest installed := by
  have : (run good cfgNewest (start cfgNewest installed)).1 = .ok () ∧
    (run good cfgNewest (start cfgNewest installed)).2.broken = [] := by decide +kernel
  exact ⟨this.1, this.2⟩

theorem newest_only {g : Gen} (h : Considers good cfgNewest g) : g = newGen := by
  have : ∀ a ∈ allOf good cfgNewest, a = newGen := by decide +kernel
  exact this g (considers_iff.1 h)

theorem properNewest : ProperRun good cfg.esp known good cfgNewest where
  esp := rfl
  inWorld := ⟨rfl, rfl, rfl, fun _ _ _ h => h, fun _ _ _ h => h⟩
  safe := safeInput_of (by decide +kernel)
  tools := faithful _
  separate := separate
  known := by
    intro g key hg hk
    rw [newest_only hg]
    exact known_considered (fun _ => false) newGen key (considers_iff.2 newGen_mem) hk

theorem distinctNewest : ∀ links, cfgNewest.considered good = some links →
    Distinct good cfgNewest (Tool.allOf good links) := by
  intro links hl key _
  have h : links = (cfgNewest.considered good).getD [] := by rw [hl]; rfl
  have hlen : (Tool.allOf good ((cfgNewest.considered good).getD [])).length = 1 := by decide +kernel
  rw [← h] at hlen
  obtain ⟨g, hg⟩ := List.length_eq_one_iff.1 hlen
  rw [hg]
  exact List.pairwise_singleton ..

theorem installed_orderly : Orderly good cfg.esp lockDir known shown installed ∧ Sound good cfg.esp installed :=
  C98_entries_measured unambiguous tagsStand orderly0 sound0 (.run .nil measuringGood succeeded0)

theorem installed_measured : AllMeasured good cfgNewest installed := by
  intro p hpd g key n hg hk hn hx
  cases hpd
  obtain ⟨data, hd⟩ := Option.isSome_iff_exists.1 hx
  obtain ⟨m, hm, -⟩ := installed_orderly.1.measured g key n data (properNewest.known g key hg hk) hn hd
  have hm' : installed.fileAt (measurementFile [lit "var", lit "pcrlock.d"] g) = some m := hm
  rw [hm']; rfl

example : (installed.get (entryFile cfg.esp (entryName firstName (.left 3)))).isSome ∧
    (run good cfgNewest (start cfgNewest installed)).2.fs.get (entryFile cfg.esp (entryName firstName (.left 3))) = none := by
  refine ⟨?_, ?_⟩
  · obtain ⟨d, h, -⟩ := osrel_of installed_facts.2.1
    rw [Fs.fileAt_eq_some.1 h]; rfl
  · exact C113_removed (env := good) (cfg := cfgNewest) (key := [80, 75]) (current := first) unambiguous properNewest
      reliable_good installed_orderly.1.tree installed_orderly.2 again_newest distinctNewest installed_measured rfl
      ⟨first_mem, rfl⟩ (fun g hg => by rw [newest_only hg]; decide +kernel)
      (isNameOf (isMatch_entryName good.uni (stubPrefix sha first [80, 75]) (.left 3)))

end Verif.Tool.Sample.InMenu
