import Verif.Props.EfiVars
import Verif.Lemmas.BootLive
/-!
# C59, C60: what the stub needs to start a kernel, and what the boot loader's features are taken to be
-/
namespace Verif.Stub
open Verif Verif.Companion Verif.Stub.Spec

/-- **C59.** The stub starts the kernel if its own image and the files it names are in order, the image
protocol, memory and the initrd protocols are available and the companion directories are readable.
Nothing is assumed about the TPM, the variable store, the device path or measurements: all of these may
be missing or fail at any time. -/
theorem C59_optional_failures_do_not_stop_the_boot {env : Env} {w : World} {pe kpe : PE}
    {kname iname cmdline : Str16} {kernel initrd : Bytes} (hh : Healthy env w)
    (hp : env.parseOwn env.ownImage = some pe) (hw : SectionsWithin pe env.ownImage.length)
    (hk : TextSection pe env.ownImage (lit ".linux") kname)
    (hi : TextSection pe env.ownImage (lit ".initrd") iname)
    (hc : TextSection pe env.ownImage (lit ".cmdline") cmdline)
    (hcl : cmdline.length < 2 ^ 31 - 1)
    (hv : Verified env.sha pe env.ownImage kernel initrd)
    (hfs : ∀ t, ∃ fw, env.fs t = some fw ∧ fw.read kname = some kernel ∧ fw.read iname = some initrd)
    (hkp : env.parseFile kernel = some kpe) (hl : Loadable kpe kernel) :
    ∃ s, Starts env w s :=
  starts_of hh hp hw hk hi hc hcl hv hfs hkp hl

/-- The little-endian number in eight bytes, bit by bit. -/
def SaysBits (d : Bytes) (n : Nat) : Prop :=
  d.length = 8 ∧ ∀ i b, d[i]? = some b → ∀ j < 8, n.testBit (8 * i + j) = b.toNat.testBit j

theorem fromLe_testBit (d : Bytes) (i j : Nat) (hj : j < 8) :
    (fromLe d).testBit (8 * i + j) = match d[i]? with | some b => b.toNat.testBit j | none => false := by
  induction d generalizing i with
  | nil => simp [fromLe]
  | cons x d ih =>
    have hx := x.toNat_lt
    have h0 : fromLe (x :: d) = 2 ^ 8 * fromLe d + x.toNat := by
      show x.toNat + 256 * fromLe d = _
      omega
    rw [h0, Nat.testBit_two_pow_mul_add _ hx]
    cases i with
    | zero => simp [hj]
    | succ i =>
      rw [if_neg (by omega), show 8 * (i + 1) + j - 8 = 8 * i + j by omega, ih]
      rfl

/-- **C60.** The boot loader's features: eight bytes with known bits only are taken as they are, unknown
bits and other sizes are errors, and if the variable cannot be read no feature is assumed. -/
theorem C60_loader_features (env : Env) (w : World) (r : Res Status Nat) (w' : World)
    (h : getLoaderFeatures env w = (r, w')) :
    (w'.vars = w.vars) ∧
    ((∃ st, env.getFault w.tick = some st ∧ r = if st = .bufferTooSmall then .err .badBufferSize else .ok 0) ∨
     env.getFault w.tick = none ∧
      match w.vars (loaderVar "LoaderFeatures") with
      | none => r = .ok 0
      | some d =>
        if d.length ≠ 8 then r = .err .badBufferSize
        else (∃ n, r = .ok n ∧ SaysBits d n ∧ ∀ i, n.testBit i = true → i ≤ 10) ∨
          (r = .err .incompatibleVersion ∧ ∃ i b j, d[i]? = some b ∧ j < 8 ∧ b.toNat.testBit j = true ∧
            10 < 8 * i + j)) := by
  obtain ⟨q, e, hq⟩ := getVariable_run env (loaderVar "LoaderFeatures") 8 w
  have hnp : q ≠ .panic := by
    rw [hq]
    unfold lookup
    split
    · simp
    · split
      · simp
      · split <;> simp
  unfold getLoaderFeatures at h
  rw [RM.bind_run, result_run _ _ (by rw [e]; exact hnp), e] at h
  dsimp only at h
  cases hf : env.getFault w.tick with
  | some st =>
    rw [hf] at hq
    subst hq
    dsimp only at h
    by_cases hst : st = .bufferTooSmall
    · rw [if_pos hst] at h
      cases h
      exact ⟨rfl, Or.inl ⟨st, rfl, by rw [if_pos hst]⟩⟩
    · rw [if_neg hst] at h
      cases h
      exact ⟨rfl, Or.inl ⟨st, rfl, by rw [if_neg hst]⟩⟩
  | none =>
    rw [hf] at hq
    dsimp only at hq
    unfold lookup at hq
    cases hv : w.vars (loaderVar "LoaderFeatures") with
    | none =>
      rw [hv] at hq
      subst hq
      cases h
      exact ⟨rfl, Or.inr ⟨rfl, rfl⟩⟩
    | some d =>
      rw [hv] at hq
      dsimp only at hq ⊢
      by_cases hlong : d.length > 8
      · rw [if_pos hlong] at hq
        subst hq
        cases h
        exact ⟨rfl, Or.inr ⟨rfl, by rw [if_pos (by omega)]⟩⟩
      · rw [if_neg hlong] at hq
        subst hq
        dsimp only at h
        by_cases h8 : d.length ≠ 8
        · rw [if_pos h8] at h
          cases h
          exact ⟨rfl, Or.inr ⟨rfl, by rw [if_pos h8]⟩⟩
        · rw [if_neg h8] at h
          by_cases hk : fromLe d ≤ knownLoaderFeatures
          · rw [if_pos hk] at h
            cases h
            refine ⟨rfl, Or.inr ⟨rfl, ?_⟩⟩
            rw [if_neg h8]
            refine Or.inl ⟨_, rfl, ⟨by omega, fun i b hb j hj => ?_⟩, fun i hi => ?_⟩
            · rw [fromLe_testBit d i j hj, hb]
            · have h1 := Nat.ge_two_pow_of_testBit hi
              have h2 : fromLe d < 2 ^ 11 := Nat.lt_of_le_of_lt hk (by decide)
              have h3 : 2 ^ i < 2 ^ 11 := Nat.lt_of_le_of_lt h1 h2
              have := (Nat.pow_lt_pow_iff_right (by decide : 1 < 2)).1 h3
              omega
          · rw [if_neg hk] at h
            cases h
            refine ⟨rfl, Or.inr ⟨rfl, ?_⟩⟩
            rw [if_neg h8]
            refine Or.inr ⟨rfl, ?_⟩
            have hge : fromLe d ≥ 2 ^ 11 := by
              unfold knownLoaderFeatures at hk
              omega
            obtain ⟨i, hi, hb⟩ := Nat.exists_ge_and_testBit_of_ge_two_pow hge
            have hsplit : i = 8 * (i / 8) + i % 8 := by omega
            rw [hsplit, fromLe_testBit d _ _ (by omega)] at hb
            cases hd : d[i / 8]? with
            | none => rw [hd] at hb; cases hb
            | some b =>
              rw [hd] at hb
              exact ⟨i / 8, b, i % 8, hd, by omega, hb, by omega⟩

/-- The sample machine with a TPM that takes no events, and a variable store that never works. -/
def Sample.broken : Env := { Sample.env true .success with
  eventFault := fun _ => some .unsupported
  extendFault := fun _ => some .unsupported
  getFault := fun _ => some .unsupported
  setFault := fun _ => some .unsupported
  devicePath := fun _ => .error .unsupported
  imagePathText := fun _ => .error .unsupported }

theorem Sample.sectionContents {name : String} {at_ size : UInt32} {b : Bytes} (pre post : List Section)
    (hs : Sample.header.sections = pre ++ Sample.sec name at_ size :: post)
    (hpre : pre.all (fun t => decide (t.name ≠ some (lit name))) = true)
    (hlen : b.length = size.toNat)
    (hb : (List.range b.length).all (fun i => decide (b[i]? = Sample.image[at_.toNat + i]?)) = true) :
    SectionContents Sample.header Sample.image (lit name) b := by
  refine ⟨pre, _, post, hs, rfl, ?_, hlen, ?_⟩
  · intro t ht
    have := List.all_eq_true.1 hpre t ht
    simpa using this
  · intro i hi
    have := List.all_eq_true.1 hb i (List.mem_range.2 hi)
    rw [if_pos (by show i < size.toNat; omega)]
    simpa [Sample.sec] using this

/-- Non-vacuity of C59: the hypotheses hold on the broken machine, so it starts its kernel. -/
example : ∃ s, Starts Sample.broken (Sample.start (some [1]) none) s := by
  refine C59_optional_failures_do_not_stop_the_boot (pe := Sample.header) (kpe := Sample.kernelHeader)
    (kname := lit16 "\\k") (iname := lit16 "\\i") (cmdline := lit16 "quiet") (kernel := Sample.kernelFile)
    (initrd := Sample.initrdFile) ⟨fun _ => rfl, fun _ _ => ⟨_, rfl⟩, fun _ => rfl, ?_, (by intro o h; cases h)⟩
    (by decide +kernel) ?_ ?_ ?_ ?_ (by decide) ⟨?_, ?_⟩ ?_ (by decide +kernel) ?_
  · have hs : ∀ t fw, Sample.broken.fs t = some fw → fw = Sample.volume := fun t fw h => (Option.some.inj h).symm
    have hg : Sample.volume.readDir globalCredDir = some [some { name := lit16 "g.cred", regular := true }] := by
      decide +kernel
    have hd : Sample.volume.readDir Sample.dropin = some [some { name := lit16 "l.cred", regular := true },
        some { name := lit16 "x.raw", regular := true }, some { name := lit16 "d", regular := false }] := by
      decide +kernel
    refine ⟨fun _ _ _ _ => ⟨_, rfl⟩, fun t fw h => hs t fw h ▸ ⟨true, by decide +kernel⟩,
      fun t fw h _ => hs t fw h ▸ ⟨_, hg, ?_⟩, ?_⟩
    · intro e he _
      simp only [List.mem_singleton, Option.some.injEq] at he
      subst he
      decide +kernel
    · intro p hp _ _ _ _ t' fw' h'
      rw [hs t' fw' h']
      have : p = Sample.selfPath := (Option.some.inj (Option.some.inj hp)).symm
      subst this
      refine ⟨_, hd, ?_⟩
      intro e he hr
      simp only [List.mem_cons, Option.some.injEq, List.not_mem_nil, or_false] at he
      rcases he with rfl | rfl | rfl
      · decide +kernel
      · decide +kernel
      · simp at hr
  · intro s hs
    have : Sample.header.sections.all (fun s => decide (s.virtualAddress.toNat +
      min s.virtualSize.toNat s.sizeOfRawData.toNat ≤ Sample.image.length)) = true := by decide +kernel
    exact of_decide_eq_true (List.all_eq_true.1 this s hs)
  · exact ⟨lit "\\k", Sample.sectionContents [Sample.sec ".osrel" 73 2] _ rfl (by decide) (by decide) (by decide),
      by decide, by decide⟩
  · exact ⟨lit "\\i", Sample.sectionContents [Sample.sec ".osrel" 73 2, Sample.sec ".linux" 0 2,
      Sample.sec ".linuxh" 2 32] _ rfl (by decide) (by decide) (by decide), by decide, by decide⟩
  · exact ⟨lit "quiet", Sample.sectionContents [Sample.sec ".osrel" 73 2, Sample.sec ".linux" 0 2,
      Sample.sec ".linuxh" 2 32, Sample.sec ".initrd" 34 2, Sample.sec ".initrdh" 36 32] _ rfl (by decide)
      (by decide) (by decide), by decide, by decide⟩
  · exact Sample.sectionContents [Sample.sec ".osrel" 73 2, Sample.sec ".linux" 0 2] _ rfl (by decide)
      (by decide) (by decide +kernel)
  · exact Sample.sectionContents [Sample.sec ".osrel" 73 2, Sample.sec ".linux" 0 2, Sample.sec ".linuxh" 2 32,
      Sample.sec ".initrd" 34 2] _ rfl (by decide) (by decide) (by decide +kernel)
  · intro t
    exact ⟨Sample.volume, rfl, by decide +kernel, by decide +kernel⟩
  · refine ⟨?_, ?_, rfl, ?_⟩
    · intro s hs
      simp only [Sample.kernelHeader, List.mem_singleton] at hs
      subst hs; decide
    · intro s hs
      simp only [Sample.kernelHeader, List.mem_singleton] at hs
      subst hs; decide
    · exact ⟨_, List.mem_singleton.2 rfl, by decide⟩

/-- Features with bits 0 and 6 are read as such, an unknown bit is refused. -/
example :
    (getLoaderFeatures (Sample.env true .success) { Sample.start none none with
      vars := fun _ => some [0x41, 0, 0, 0, 0, 0, 0, 0] }).1 = .ok 0x41 ∧
    (getLoaderFeatures (Sample.env true .success) { Sample.start none none with
      vars := fun _ => some [0, 8, 0, 0, 0, 0, 0, 0] }).1 = .err .incompatibleVersion := by
  decide +kernel

end Verif.Stub
