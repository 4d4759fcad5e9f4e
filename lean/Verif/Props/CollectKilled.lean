import Verif.Spec.CollectKilled
import Verif.Props.InstallState
import Verif.Props.Menu
import Verif.Props.History
import Verif.Lemmas.SampleLoader
/-!
# C97: boot entries when the run is killed while it collects garbage
-/
namespace Verif.Tool
open Verif StubName Generation

variable {env : Env} {cfg : Config} {fs : Fs} {done : List Change}

theorem Consistent.bootable {esp : Path} {f : Fs} {data : Bytes} (h : Consistent env esp f) {p : Path}
    (hp : IsEntry esp p) (hd : f.fileAt p = some data) : Bootable env esp f data := by
  obtain ⟨kl, kh, il, ih, h1, h2, h3, h4⟩ := h p hp data hd
  exact ⟨_, _, _, _, h1.2, h2.2, h3, h4⟩

/-- **C97** (partial: an entry that the run is about to remove may not boot). If all boot entries on the ESP can be
booted before the run, then whenever the run is killed each boot entry that is there can be booted, or garbage
collection has started, the entry was there before the run with the same content, and the run would have removed it
had it not been killed. -/
theorem C97_entries_partial (hs : SafeInput env cfg) (hf : FaithfulTools env) (hsep : Separate cfg)
    (hc : Sound env cfg.esp fs) (hb : Consistent env cfg.esp fs) (hk : KilledAfter env cfg fs done) {p : Path}
    (hp : IsEntry cfg.esp p) {data : Bytes} (hd : (fs.replay done).fileAt p = some data) :
    Bootable env cfg.esp (fs.replay done) data ∨
      .collecting ∈ done ∧ fs.fileAt p = some data ∧
        (Reliable env.os → fs.Tree → (run env cfg (start cfg fs)).2.fs.get p = none) := by
  by_cases hcol : .collecting ∈ done
  · obtain ⟨a, b, gens, final, sh⟩ := run_shape hs
      ((used_carried hs hf hsep fs).and (inUse_carried hs hf hsep).all)
      (start cfg fs) ⟨hc, hc⟩ ⟨Used.start hsep fs, by simp⟩ rfl
    rcases sh.phases hk with ⟨-, hn, -⟩ | ⟨-, -, l, hdone, hgc, e, hall, hC⟩
    · exact absurd hcol hn
    · obtain ⟨n, rfl, hn, hn'⟩ := hp
      by_cases hm : entryFile cfg.esp n ∈ final
      · rw [e, kept_entry hsep sh.roots hm hgc] at hd
        obtain ⟨kl, kh, il, ih, h1, h2, h3, h4, ⟨d, h5, h5'⟩, ⟨d', h6, h6'⟩⟩ :=
          hC.gens.1.closed n ⟨n, rfl, hn, hn'⟩ hm data hd
        rw [e]
        exact Or.inl ⟨_, _, _, _, h1.2, h2.2, ⟨d, by rw [kept_ca hsep sh.roots h3 hgc]; exact h5, h5'⟩,
          ⟨d', by rw [kept_ca hsep sh.roots h4 hgc]; exact h6, h6'⟩⟩
      · refine Or.inr ⟨hcol, ?_, fun hr ht => ?_⟩
        · have hmid : (fs.replay a).fileAt (entryFile cfg.esp n) = some data := by
            rw [e, Fs.fileAt_eq_some] at hd
            rw [Fs.fileAt_eq_some]
            rcases GcAny.chain_get hgc (entryFile cfg.esp n) with h | h
            · rw [← h]; exact hd
            · rw [h] at hd; cases hd
          rcases hC.gens.1.old n data ⟨n, rfl, hn, hn'⟩ hmid with h | ⟨_, _, _, _, _, h⟩
          · exact h
          · exact absurd h hm
        · have hne : b ≠ [] := by
            intro hb'
            obtain ⟨t, ht'⟩ := hk
            have : Change.collecting ∈ a := by
              have h1 := sh.log
              rw [hb', List.append_nil] at h1
              have h2 : Change.collecting ∈ (run env cfg (start cfg fs)).2.log := by
                rw [← ht']; exact List.mem_append_left _ hcol
              rw [h1] at h2
              simpa [start] using h2
            exact absurd this (by
              have := sh.phases (done := a) ⟨b, by rw [sh.log]; simp [start]⟩
              rcases this with ⟨-, h, -⟩ | ⟨-, -, l, h, -⟩
              · exact h
              · have := congrArg List.length h; simp at this)
          obtain ⟨-, -, h1, -⟩ := sh.exact hr (sh.steps.inv (J := Fs.Tree) ht fun f c j st => st.tree j) hne
          refine h1 _ ⟨_, .linux ⟨?_, hm, ?_⟩, List.prefix_refl _⟩
          · exact ⟨[n], by simp [linuxDir, entryFile]⟩
          · rw [show entryFile cfg.esp n = linuxDir cfg.esp ++ [n] by simp [entryFile, linuxDir]]
            exact (startsWithNixos_snoc _ n).2 ⟨by rintro rfl; exact absurd hn (by decide), hn⟩
  · exact Or.inl ((C37_before_collection hs hf hb hk hcol).bootable hp hd)

/-- **C97** (the default entry, partial: it must be one that the run keeps). Whenever the run is killed, the entry that
the boot menu has at the top can be booted, if it is not one that the complete run removes. -/
theorem C97_default_partial (hs : SafeInput env cfg) (hf : FaithfulTools env) (hsep : Separate cfg)
    (hr : Reliable env.os) (ht : fs.Tree)
    (hc : Sound env cfg.esp fs) (hb : Consistent env cfg.esp fs) (hk : KilledAfter env cfg fs done) {n : Str}
    (hp : Menu.IsDefault env cfg.esp (fs.replay done) n)
    (hkept : (run env cfg (start cfg fs)).2.fs.get (entryFile cfg.esp n) ≠ none) :
    ∃ data, (fs.replay done).fileAt (entryFile cfg.esp n) = some data ∧
      Bootable env cfg.esp (fs.replay done) data := by
  obtain ⟨i, ⟨⟨data, hd, -⟩, -, -⟩, -⟩ := hp.top
  refine ⟨data, hd, ?_⟩
  rcases C97_entries_partial hs hf hsep hc hb hk hp.entry hd with h | ⟨-, -, h⟩
  · exact h
  · exact absurd (h hr ht) hkept

end Verif.Tool

namespace Verif.Tool.Sample
open Verif StubName Generation Menu InMenu

/-- The name of the boot entry of generation 2. -/
def secondName : Str := stubPrefix sha newGen [80, 75] ++ lit "+3.efi"

/-- Generation 2 has been deleted. The installer runs until it is about to remove the boot entry of that
generation. -/
def untilEntry : List Change :=
  (run good cfg1 (start cfg1 installed)).2.log.takeWhile (· ≠ .unlink (entryFile cfg.esp secondName))

/-- What the killed run leaves. -/
def collectedHalf : Fs := installed.replay untilEntry

def secondImage : Bytes := (installed.fileAt (entryFile cfg.esp secondName)).getD []

theorem consistent_installed : Consistent good cfg.esp installed := by
  have := C39_all_entries_boot safe_good (faithful _) separate reliable_good tree0 sound0 succeeded0
  unfold installed
  exact this

theorem sound_installed : Sound good cfg.esp installed := by
  have := C39_history_sound (.snoc .nil (.run (properRun fun _ => false) trivial (killed_at_end good cfg disk0)) :
    History good cfg.esp known (fun _ _ => True) disk0 _) sound0
  unfold installed
  rw [run_disk safe_good]
  exact this

theorem halves : installed.fileAt (entryFile cfg.esp secondName) = some secondImage ∧
    collectedHalf.fileAt (entryFile cfg.esp secondName) = some secondImage ∧
    (run good cfg1 (start cfg1 installed)).1 = .ok () ∧ Change.collecting ∈ untilEntry ∧
    readSectionData good secondImage (lit ".linux") =
      .ok (some (utf8 (lit "\\EFI\\nixos\\kernel-6.2-w27xa2yhaaaaaaaaaaaaaaaaaaaaaaaaaaaaaaaaaaaaaaaaaaaa.efi"))) ∧
    readSectionData good secondImage (lit ".osrel") = .ok (some (utf8 (OsRelease.display (osRelease newGen)))) := by
  decide +kernel

theorem second_entry : IsEntry cfg.esp (entryFile cfg.esp secondName) := ⟨_, rfl, by decide +kernel, by decide +kernel⟩

/-- The kernel of generation 2 is gone. -/
theorem second_lost : ¬ Bootable good cfg.esp collectedHalf secondImage := by
  rintro ⟨kp, kh, ip, ih, ⟨rel, rfl, h1, -⟩, -, ⟨d, h2, -⟩, -⟩
  have e := StubName.utf8_injective (h1.unique ((readSectionData_iff _ _ _ _).1 halves.2.2.2.2.1))
  have hm := mem_of_fileAt h2 (by simp [cfg])
  have key : (collectedHalf.nodes.all fun x => !cfg.esp.isPrefixOf x.1 ||
      decide (uefiText (x.1.drop cfg.esp.length) ≠
        lit "\\EFI\\nixos\\kernel-6.2-w27xa2yhaaaaaaaaaaaaaaaaaaaaaaaaaaaaaaaaaaaaaaaaaaaa.efi")) = true := by
    decide +kernel
  have := List.all_eq_true.1 key _ hm
  rw [Bool.or_eq_true] at this
  rcases this with h | h
  · have h' : cfg.esp.isPrefixOf (cfg.esp ++ rel) = true := List.isPrefixOf_iff_prefix.2 (List.prefix_append _ _)
    rw [h'] at h; cases h
  · have h := of_decide_eq_true h
    exact h (by rw [List.drop_left]; exact e)

/-- The other boot entries on a disk are those of generation 1. -/
def othersFirst (f : Fs) : Bool := f.nodes.all fun x => match x.2 with
    | .dir => true
    | .file d => !((linuxDir cfg.esp).isPrefixOf x.1 && (lit "nixos-").isPrefixOf (x.1.getLast?.getD [])) ||
        decide (x.1 = entryFile cfg.esp secondName) ||
        (decide (readSectionData good d (lit ".osrel") = .ok (some (utf8 (OsRelease.display (osRelease someGen))))) ||
         decide (readSectionData good d (lit ".osrel") = .ok (some (utf8 (OsRelease.display (osRelease fooGen))))))

theorem others_listed : othersFirst collectedHalf = true ∧ othersFirst installed = true := by decide +kernel

theorem menuCmp_version {t t' k v v' : Str} {id id' : Str} {exhausted : Bool}
    (h1 : (itemOf t id false).sortKey = some k) (h2 : (itemOf t' id' exhausted).sortKey = some k)
    (h3 : (itemOf t id false).version = some v) (h4 : (itemOf t' id' exhausted).version = some v')
    (hk : textCmp k k = .eq) (hv : versionCmp v' v = .lt) :
    menuCmp (itemOf t id false) (itemOf t' id' exhausted) = .lt := by
  have e1 : (itemOf t id false).exhausted = false := rfl
  have e2 : (itemOf t' id' exhausted).exhausted = exhausted := rfl
  unfold menuCmp
  rw [h1, h2, h3, h4, e1, e2]
  cases exhausted
  · simp [hk, hv]
  · rfl

theorem above_others (id : Str) (exhausted : Bool) :
    menuCmp (itemOf (OsRelease.display (osRelease newGen)) secondName false)
      (itemOf (OsRelease.display (osRelease someGen)) id exhausted) = .lt ∧
    menuCmp (itemOf (OsRelease.display (osRelease newGen)) secondName false)
      (itemOf (OsRelease.display (osRelease fooGen)) id exhausted) = .lt := by
  have key : ∀ g, (itemOf (OsRelease.display (osRelease g)) [] false).sortKey = some (lit "lanzaboote") →
      ∀ id ex, (itemOf (OsRelease.display (osRelease g)) id ex).sortKey = some (lit "lanzaboote") := fun _ h _ _ => h
  have ver : ∀ g v, (itemOf (OsRelease.display (osRelease g)) [] false).version = some v →
      ∀ id ex, (itemOf (OsRelease.display (osRelease g)) id ex).version = some v := fun _ _ h _ _ => h
  have n1 : (itemOf (OsRelease.display (osRelease newGen)) [] false).sortKey = some (lit "lanzaboote") ∧
      (itemOf (OsRelease.display (osRelease newGen)) [] false).version = some (lit "Generation 2, 2025-01-31") := by
    decide +kernel
  have n2 : (itemOf (OsRelease.display (osRelease someGen)) [] false).sortKey = some (lit "lanzaboote") ∧
      (itemOf (OsRelease.display (osRelease someGen)) [] false).version = some (lit "Generation 1, 2025-01-31") := by
    decide +kernel
  have n3 : (itemOf (OsRelease.display (osRelease fooGen)) [] false).sortKey = some (lit "lanzaboote") ∧
      (itemOf (OsRelease.display (osRelease fooGen)) [] false).version = some (lit "Generation 1-foo, 2025-01-31") := by
    decide +kernel
  exact ⟨menuCmp_version (key _ n1.1 _ _) (key _ n2.1 _ _) (ver _ _ n1.2 _ _) (ver _ _ n2.2 _ _) (by decide +kernel)
      (by decide +kernel),
    menuCmp_version (key _ n1.1 _ _) (key _ n3.1 _ _) (ver _ _ n1.2 _ _) (ver _ _ n3.2 _ _) (by decide +kernel)
      (by decide +kernel)⟩

theorem default_of {f : Fs} (h : f.fileAt (entryFile cfg.esp secondName) = some secondImage)
    (ho : othersFirst f = true) : IsDefault good cfg.esp f secondName where
  entry := second_entry
  top := by
    refine ⟨itemOf (OsRelease.display (osRelease newGen)) secondName false,
      ⟨⟨_, h, _, (readSectionData_iff _ _ _ _).1 halves.2.2.2.2.2, rfl⟩, rfl, ?_⟩, ?_⟩
    · constructor
      · intro h; cases h
      · unfold OutOfTries
        intro h
        exact absurd h (by decide +kernel)
    · rintro n' i' hn' hne ⟨⟨data, hd, text, ht, hi⟩, hid, hex⟩
      have hm := List.all_eq_true.1 ho _ (mem_of_fileAt hd (by simp [entryFile]))
      obtain ⟨m, hm1, hm2, -⟩ := hn'
      cases entryFile_inj hm1
      have e1 : (linuxDir cfg.esp).isPrefixOf (entryFile cfg.esp n') = true :=
        List.isPrefixOf_iff_prefix.2 ⟨[n'], by simp [linuxDir, entryFile]⟩
      have e2 : (lit "nixos-").isPrefixOf ((entryFile cfg.esp n').getLast?.getD []) = true := by
        unfold entryFile
        rw [List.getLast?_append]
        exact List.isPrefixOf_iff_prefix.2 hm2
      have e3 : decide (entryFile cfg.esp n' = entryFile cfg.esp secondName) = false :=
        decide_eq_false fun h => hne (entryFile_inj h)
      simp only [e1, e2, e3, Bool.and_self, Bool.not_true, Bool.false_or, Bool.or_eq_true, decide_eq_true_eq] at hm
      rcases hm with hm | hm
      · have := StubName.utf8_injective (ht.unique ((readSectionData_iff _ _ _ _).1 hm))
        rw [hi, this]
        exact (above_others _ _).1
      · have := StubName.utf8_injective (ht.unique ((readSectionData_iff _ _ _ _).1 hm))
        rw [hi, this]
        exact (above_others _ _).2

/-- **C97** is false of the code. All boot entries can be booted. Generation 2 is deleted, and the installer is run
again and killed. Then the entry of generation 2 is still there and the default, but its kernel is gone: the machine
does not boot unless another entry is chosen. -/
theorem C97_witness : Consistent good cfg.esp installed ∧ KilledAfter good cfg1 installed untilEntry ∧
    (run good cfg1 (start cfg1 installed)).1 = .ok () ∧
    IsDefault good cfg.esp collectedHalf secondName ∧
    ∃ data, collectedHalf.fileAt (entryFile cfg.esp secondName) = some data ∧
      ¬ Bootable good cfg.esp collectedHalf data :=
  ⟨consistent_installed, List.takeWhile_prefix _, halves.2.2.1, default_of halves.2.1 others_listed.1, _, halves.2.1, second_lost⟩

theorem safeFirst : SafeInput good cfg1 := safeInput_of (by decide +kernel)

theorem separateFirst : Separate cfg1 := fun p h => separate p h

/-- Whenever this run is killed, each entry can be booted or is about to be removed. -/
example (done : List Change) (h : KilledAfter good cfg1 installed done) (p : Path) (hp : IsEntry cfg1.esp p)
    (data : Bytes) (hd : (installed.replay done).fileAt p = some data) :
    Bootable good cfg1.esp (installed.replay done) data ∨
      .collecting ∈ done ∧ installed.fileAt p = some data ∧
        (Reliable good.os → installed.Tree → (run good cfg1 (start cfg1 installed)).2.fs.get p = none) :=
  C97_entries_partial (env := good) (cfg := cfg1) safeFirst (faithful _) separateFirst sound_installed consistent_installed h hp hd

/-- If generation 1 is deleted instead, the entry of generation 2 stays the default and can be booted at every
moment. -/
def cfg2 : Config := { cfg with links := [link2] }

theorem safeSecond : SafeInput good cfg2 := safeInput_of (by decide +kernel)

theorem kept2 : (run good cfg2 (start cfg2 installed)).2.fs.get (entryFile cfg2.esp secondName) ≠ none := by
  decide +kernel

theorem installed_tree : installed.Tree := Verif.Tool.SampleGc.tree_of (by decide +kernel)

example (done : List Change) (h : KilledAfter good cfg2 installed done)
    (hd : IsDefault good cfg2.esp (installed.replay done) secondName) :
    ∃ data, (installed.replay done).fileAt (entryFile cfg2.esp secondName) = some data ∧
      Bootable good cfg2.esp (installed.replay done) data :=
  C97_default_partial safeSecond (faithful _) separate reliable_good installed_tree sound_installed
    consistent_installed h hd kept2

/-- It is, for instance at the start. -/
example : IsDefault good cfg2.esp (installed.replay []) secondName := default_of halves.1 others_listed.2

end Verif.Tool.Sample
