import Verif.Lemmas.Sound
import Verif.Props.InstallFiles
import Verif.Lemmas.SampleSound
/-!
# What can be booted during and after runs of the installer

C37, C38.
-/
namespace Verif.Tool
open Verif StubName Generation

variable {env world : Env} {cfg : Config} {fs : Fs} {done : List Change}

/-! ### C37 -/

/-- **C37** (before garbage collection). On an ESP all of whose boot entries can be booted, they can
all be booted at every moment up to garbage collection, including the new ones. -/
theorem C37_before_collection (hs : SafeInput env cfg) (hf : FaithfulTools env)
    (hc : Consistent env cfg.esp fs) (hk : KilledAfter env cfg fs done) (hn : .collecting ∉ done) :
    Consistent env cfg.esp (fs.replay done) := by
  obtain ⟨a, b, gens, final, sh⟩ := run_plain hs fs
  rcases sh.phases hk with ⟨-, -, hch⟩ | ⟨hcol, -⟩
  · exact hch.inv hc fun f c j st => j.step hs hf st
  · exact absurd hcol hn

theorem uefiText_ca_inj {l l' : Str} {h h' : Bytes}
    (e : utf8 (uefiText (caFile [] l h)) = utf8 (uefiText (caFile [] l' h'))) (esp : Path) :
    caFile esp l h = caFile esp l' h' := by
  have e := utf8_injective e
  unfold uefiText caFile at e
  simp only [List.nil_append, joinWith, List.cons.injEq, true_and] at e
  have e := List.append_cancel_left e
  unfold caFile
  simp only [List.append_assoc] at e ⊢
  simp_all

theorem RefersToCa.agree {esp : Path} {data : Bytes} {p h l l' : Str} {k k' : Bytes}
    (hr : RefersToCa env esp data p h l k)
    (hr' : RefersTo env esp data p h (caFile esp l' k') k') : caFile esp l k = caFile esp l' k' ∧ k = k' := by
  obtain ⟨h1, h2⟩ := hr.section
  obtain ⟨rel, e, h3, h4⟩ := hr'
  rw [caFile_rel esp l' k'] at e
  have e := List.append_cancel_left e
  rw [← e] at h3
  exact ⟨uefiText_ca_inj (h1.unique h3) esp, h2.unique h4⟩

/-- An entry of `g` in use boots `g`. -/
theorem InUse.boots {g : Gen} {f : Fs} {r : List Path} (h : InUse env cfg g f r)
    (hw : InWorld world env cfg) {known : Gen → Bytes → Prop}
    (hj : Coherent world cfg.esp known f) (hk : ∀ key, KeyOf env cfg.signer key → known g key)
    {f' : Fs} (hf : ∀ p ∈ r, IsEntry cfg.esp p ∨ (∃ l h, p = caFile cfg.esp l h) →
      f'.fileAt p = f.fileAt p) :
    ∃ p, IsEntry cfg.esp p ∧ Boots world cfg.esp f' g p := by
  obtain ⟨n, key, data, kl, kh, il, ih, hkey, hm, hd, h1, h2, ⟨c3, c4⟩, r1, r2, r3⟩ := h.ex
  have hent := isMatch_isEntry (esp := cfg.esp) hm
  rw [hw.uni, hw.sha] at hm
  obtain ⟨kernel, initrd, v, he⟩ := hj g key n data (hk key hkey) (isNameOf hm) hd
  have k1 : RefersToCa world cfg.esp data (lit ".linux") (lit ".linuxh") kl kh :=
    ⟨h1.1, h1.2.congr hw.parse⟩
  have k2 : RefersToCa world cfg.esp data (lit ".initrd") (lit ".initrdh") il ih :=
    ⟨h2.1, h2.2.congr hw.parse⟩
  obtain ⟨a1, a2⟩ := k1.agree he.kernel_ref
  obtain ⟨b1, b2⟩ := k2.agree he.initrd_ref
  refine ⟨_, hent, data, kernel, initrd, v, ?_, he, ?_, ?_⟩
  · rw [hf _ r1 (Or.inl hent)]; exact hd
  · obtain ⟨d, d1, d2⟩ := c3
    rw [← a1, ← a2]
    exact ⟨d, by rw [hf _ r2 (Or.inr ⟨_, _, rfl⟩)]; exact d1, by rw [← hw.sha]; exact d2⟩
  · obtain ⟨d, d1, d2⟩ := c4
    rw [← b1, ← b2]
    exact ⟨d, by rw [hf _ r3 (Or.inr ⟨_, _, rfl⟩)]; exact d1, by rw [← hw.sha]; exact d2⟩

/-- **C37** (during garbage collection). From the moment garbage collection starts, whenever the run is
killed, every considered generation has a boot entry that boots it. -/
theorem C37_during_collection (hs : SafeInput env cfg) (hf : FaithfulTools env) (hsep : Separate cfg)
    (hw : InWorld world env cfg) {known : Gen → Bytes → Prop} (hu : Unambiguous world known)
    (hkn : ∀ g key, Considers env cfg g → KeyOf env cfg.signer key → known g key)
    (hc : Sound env cfg.esp fs) (hj : Coherent world cfg.esp known fs)
    (hk : KilledAfter env cfg fs done) (hcol : .collecting ∈ done) {g : Gen}
    (hg : Considers env cfg g) :
    ∃ p, IsEntry cfg.esp p ∧ Boots world cfg.esp (fs.replay done) g p := by
  obtain ⟨a, b, gens, final, sh⟩ := run_shape hs ((inUse_carried hs hf hsep).and
    (J' := Coherent world cfg.esp known) fun f c j st => j.step hs hf hw hu hkn st).all
    (start cfg fs) ⟨hc, hj⟩ (by simp) rfl
  rcases sh.phases hk with ⟨-, hn, -⟩ | ⟨-, -, l, -, hgc, e, hall, hC⟩
  · exact absurd hcol hn
  · rw [e]
    refine (hC.gens g (hall g hg)).boots hw hC.inv.2 (fun key h => hkn g key hg h) ?_
    rintro p hp (⟨n, rfl, -⟩ | ⟨l, h, rfl⟩)
    · exact kept_entry hsep sh.roots hp hgc
    · exact kept_ca hsep sh.roots hp hgc

/-! ### C38 -/

/-- **C38**. After a successful run that could read all bootspecs, or in which no operation failed,
every considered generation and specialisation has a boot entry that boots it. -/
theorem C38_considered_generations_boot (hs : SafeInput env cfg) (hf : FaithfulTools env)
    (hsep : Separate cfg)
    (hw : InWorld world env cfg) {known : Gen → Bytes → Prop} (hu : Unambiguous world known)
    (hkn : ∀ g key, Considers env cfg g → KeyOf env cfg.signer key → known g key)
    (hc : Sound env cfg.esp fs) (hj : Coherent world cfg.esp known fs)
    (hok : (run env cfg (start cfg fs)).1 = .ok ())
    (hb : (run env cfg (start cfg fs)).2.broken = [] ∨ Faultless env) {g : Gen}
    (hg : Considers env cfg g) :
    ∃ p, IsEntry cfg.esp p ∧ Boots world cfg.esp (run env cfg (start cfg fs)).2.fs g p := by
  by_cases hcol : .collecting ∈ (run env cfg (start cfg fs)).2.log
  · rw [run_disk hs]
    exact C37_during_collection hs hf hsep hw hu hkn hc hj (killed_at_end env cfg fs) hcol hg
  · obtain ⟨a, b, gens, final, sh⟩ := run_shape hs ((inUse_carried hs hf hsep).and
      (J' := Coherent world cfg.esp known) fun f c j st => j.step hs hf hw hu hkn st).all
      (start cfg fs) ⟨hc, hj⟩ (by simp) rfl
    have hbe : b = [] := by
      by_cases e : b = []
      · exact e
      · obtain ⟨l, hl, -⟩ := sh.gc e
        exact absurd (by rw [sh.log, hl]; simp) hcol
    have hfl : Faultless env := by
      rcases hb with hb | hb
      · exact absurd hbe (sh.okCollects hok hb)
      · exact hb
    have hC := sh.ok hok
    rw [sh.fs, hbe, List.append_nil]
    exact (hC.gens g (sh.faultless hfl g hg)).boots hw hC.inv.2
      (fun key h => hkn g key hg h) fun _ _ _ => rfl

end Verif.Tool

namespace Verif.Tool.Sample
open Verif StubName Generation

/-! ### Examples: C37 -/

/-- The hypotheses can be met: a machine, and a run that is killed anywhere before garbage collection,
with whatever faults. -/
example (fault : Nat → Bool) (done : List Change) (h : KilledAfter (env fault) cfg disk0 done)
    (hn : .collecting ∉ done) : Consistent (env fault) cfg.esp (disk0.replay done) :=
  C37_before_collection (safe fault) (faithful fault) consistent0 h hn

/-- And the complete run, which includes garbage collection. -/
example (g : Gen) (hg : g ∈ allOf good cfg) : ∃ p, IsEntry cfg.esp p ∧
    Boots good cfg.esp (disk0.replay (run good cfg (start cfg disk0)).2.log) g p :=
  C37_during_collection safe_good (faithful _) separate (inWorld _) unambiguous (known_considered _)
    sound0 coherent0 (killed_at_end good cfg disk0) good0_collecting (considers_iff.2 hg)

/-! ### Examples: C38 -/

/-- The hypotheses can be met: three entries are considered and boot afterwards. -/
example : (allOf good cfg).length = 3 := by decide +kernel

example (g : Gen) (hg : g ∈ allOf good cfg) : ∃ p, IsEntry cfg.esp p ∧
    Boots good cfg.esp (run good cfg (start cfg disk0)).2.fs g p :=
  C38_considered_generations_boot safe_good (faithful _) separate (inWorld _) unambiguous
    (known_considered _) sound0 coherent0 good0_ok (Or.inl good0_broken) (considers_iff.2 hg)

end Verif.Tool.Sample
