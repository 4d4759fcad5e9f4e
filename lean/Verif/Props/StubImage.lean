import Verif.Spec.StubImage
import Verif.Lemmas.InstallRun
import Verif.Lemmas.SampleInstall
import Verif.Props.Measure
import Verif.Lemmas.SampleBoot
/-!
# C52, C53: layout of the stub image, reading sections
-/
namespace Verif.Tool
open Verif Generation

/-! ## C52 -/

/-- The names of the sections, in their order. -/
def addedNames : List Str :=
  [lit ".osrel", lit ".cmdline", lit ".initrd", lit ".linux", lit ".initrdh", lit ".linuxh"]

/-- Addition of a length to an address that does not overflow. -/
theorem vma_add {a : UInt64} {n : Nat} (h : a.toNat + n < 2 ^ 64) :
    (a + UInt64.ofNat n).toNat = a.toNat + n := by
  rw [UInt64.toNat_add, UInt64.toNat_ofNat', Nat.mod_eq_of_lt (show n < 2 ^ 64 by omega)]
  exact Nat.mod_eq_of_lt h

theorem stubSections_contiguous (offset : UInt64) (o c i k ih kh : Bytes)
    (h : offset.toNat + (o.length + c.length + i.length + k.length + ih.length) < 2 ^ 64) :
    Contiguous offset.toNat (stubSections offset o c i k ih kh
      [UInt64.ofNat o.length, UInt64.ofNat c.length, UInt64.ofNat i.length, UInt64.ofNat k.length,
       UInt64.ofNat ih.length]) := by
  have e1 := vma_add (a := offset) (n := o.length) (by omega)
  have e2 := vma_add (a := offset + UInt64.ofNat o.length) (n := c.length) (by omega)
  have e3 := vma_add (a := offset + UInt64.ofNat o.length + UInt64.ofNat c.length) (n := i.length)
    (by omega)
  have e4 := vma_add (a := offset + UInt64.ofNat o.length + UInt64.ofNat c.length +
    UInt64.ofNat i.length) (n := k.length) (by omega)
  have e5 := vma_add (a := offset + UInt64.ofNat o.length + UInt64.ofNat c.length +
    UInt64.ofNat i.length + UInt64.ofNat k.length) (n := ih.length) (by omega)
  refine ⟨rfl, ?_, ?_, ?_, ?_, ?_, trivial⟩
  · exact e1
  · exact e2.trans (by dsimp only; omega)
  · exact e3.trans (by dsimp only; omega)
  · exact e4.trans (by dsimp only; omega)
  · exact e5.trans (by dsimp only; omega)

theorem stubOffset_ends {env : Env} {stub : Bytes} {offset : UInt64} {stop : Nat}
    (h : stubOffset env stub = .ok offset) (hs : LastSectionEnds env stub stop) (hf : stop < 2 ^ 64) :
    offset.toNat = stop := by
  obtain ⟨pe, base, s, h1, h2, h3, h4, rfl⟩ := hs
  unfold stubOffset at h
  rw [h1] at h
  dsimp only at h
  rw [h2] at h
  dsimp only at h
  rw [h3] at h
  dsimp only at h
  rw [Res.ok.injEq] at h
  subst h
  have e : (s.virtualSize + s.virtualAddress).toUInt64.toNat =
      s.virtualAddress.toNat + s.virtualSize.toNat := by
    rw [UInt32.toNat_toUInt64, UInt32.toNat_add, Nat.mod_eq_of_lt (by omega)]
    omega
  rw [UInt64.toNat_add, e, Nat.mod_eq_of_lt (by omega)]
  omega

/-- **C52.** The image `lanzaboote_image` returns is made from the stub by adding six sections in this
order, which follow each other without gaps behind the last section of the stub, as long as the
addresses fit into 64 bits. The first one starts where the last section of the stub ends. -/
theorem C52_contiguous (env : Env) (p : StubParameters) (s s' : State) (image : Bytes)
    (h : lanzabooteImage env p s = (.ok image, s')) :
    ∃ stub t added, env.store p.lanzabooteStorePath = some stub ∧ env.objcopy t stub added = some image ∧
      added.map (·.name) = addedNames ∧
      ∀ stop, LastSectionEnds env stub stop → stop + totalSize added < 2 ^ 64 → Contiguous stop added := by
  have tr := lanzabooteImage_triple env p (A := fun _ _ => True) (P := fun _ => True)
    (fun _ _ _ => trivial) s trivial
  have := tr.post image (by rw [h])
  obtain ⟨-, kd, id, stub, offset, t, -, -, h1, h2, h3⟩ := this
  refine ⟨stub, t, _, h1, h3, rfl, fun stop hstop hfit => ?_⟩
  have e := stubOffset_ends h2 hstop (by omega)
  rw [← e] at hfit ⊢
  refine stubSections_contiguous _ _ _ _ _ _ _ ?_
  simp only [totalSize, stubSections, List.map_cons, List.map_nil, List.sum_cons, List.sum_nil] at hfit
  omega

/-- Sections behind each other do not overlap. -/
theorem Contiguous.ge {a : Nat} {l : List Added} (h : Contiguous a l) : ∀ s ∈ l, a ≤ s.vma.toNat := by
  induction l generalizing a with
  | nil => intro s hs; cases hs
  | cons x l ih =>
    obtain ⟨h1, h2⟩ := h
    intro s hs
    rcases List.mem_cons.1 hs with rfl | hs
    · omega
    · have := ih h2 s hs; omega

theorem Contiguous.pairwise {a : Nat} {l : List Added} (h : Contiguous a l) :
    l.Pairwise fun s t => s.vma.toNat + s.content.length ≤ t.vma.toNat := by
  induction l generalizing a with
  | nil => exact .nil
  | cons x l ih =>
    obtain ⟨h1, h2⟩ := h
    refine .cons (fun t ht => ?_) (ih h2)
    have := h2.ge t ht
    omega

theorem getLast_of_pairwise {secs : List Stub.Section} {last s : Stub.Section}
    (h : secs.Pairwise fun a b => a.virtualAddress.toNat + a.virtualSize.toNat ≤ b.virtualAddress.toNat)
    (hl : secs.getLast? = some last) (hs : s ∈ secs) :
    s.virtualAddress.toNat + s.virtualSize.toNat ≤ last.virtualAddress.toNat + last.virtualSize.toNat := by
  have hne : secs ≠ [] := by rintro rfl; cases hs
  have e : secs = secs.dropLast ++ [last] := by
    rw [List.getLast?_eq_some_getLast hne] at hl
    cases hl
    exact (List.dropLast_concat_getLast hne).symm
  rw [e] at h hs
  rcases List.mem_append.1 hs with hs | hs
  · have := (List.pairwise_append.1 h).2.2 s hs last (by simp)
    omega
  · rw [List.mem_singleton.1 hs]; omega

/-- **C52**, overlaps. Neither do the added sections overlap each other nor a section of the stub. -/
theorem C52_no_overlap (env : Env) (stub : Bytes) (added : List Added) (stop : Nat)
    (hstop : LastSectionEnds env stub stop) (hc : Contiguous stop added) :
    added.Pairwise (fun s t => Disjoint s.vma.toNat s.content.length t.vma.toNat t.content.length) ∧
    ∀ pe base, env.parse stub = some pe → env.imageBase stub = some base → Ascending pe →
      ∀ s ∈ pe.sections, ∀ t ∈ added,
        Disjoint (base.toNat + s.virtualAddress.toNat) s.virtualSize.toNat t.vma.toNat t.content.length := by
  refine ⟨hc.pairwise.imp fun {s t} h a ha => by omega, fun pe base hpe hbase hasc s hs t ht a ha => ?_⟩
  obtain ⟨pe', base', last, h1, h2, h3, h4, rfl⟩ := hstop
  rw [hpe] at h1; cases h1
  rw [hbase] at h2; cases h2
  have g1 := getLast_of_pairwise hasc h3 hs
  have g2 := hc.ge t ht
  omega

/-! ## C53 -/

/-- **C53**, in a file: reading gives the content of the first section with that name. -/
theorem C53_file_section (env : Env) (data : Bytes) (name : Str) (b : Bytes) :
    readSectionData env data name = .ok (some b) ↔ FileSection env data name b :=
  readSectionData_iff env data name b

theorem findSection_none {name : Str} {l : List Stub.Section} :
    findSection name l = .ok none ↔ ∀ s ∈ l, ∃ n, s.name = some n ∧ n ≠ name := by
  induction l with
  | nil => simp [findSection]
  | cons a l ih =>
    unfold findSection
    cases hn : a.name with
    | none =>
      simp only [List.forall_mem_cons, hn]
      constructor
      · intro h; cases h
      · rintro ⟨⟨n, h, -⟩, -⟩; cases h
    | some n =>
      dsimp only
      by_cases e : n = name
      · rw [if_pos e]
        simp only [List.forall_mem_cons, hn]
        constructor
        · intro h; simp at h
        · rintro ⟨⟨m, h, hm⟩, -⟩
          cases h
          exact absurd e hm
      · rw [if_neg e, ih]
        simp only [List.forall_mem_cons, hn]
        exact ⟨fun h => ⟨⟨n, rfl, e⟩, h⟩, fun h => h.2⟩

/-- **C53**, in a file: there is nothing to read if the file is not a PE file or has no such section. -/
theorem C53_file_no_section (env : Env) (data : Bytes) (name : Str) :
    readSectionData env data name = .ok none ↔
      ∀ pe, env.parse data = some pe → ∀ s ∈ pe.sections, ∃ n, s.name = some n ∧ n ≠ name := by
  unfold readSectionData
  cases hp : env.parse data with
  | none => simp
  | some pe =>
    have key : (∀ pe', some pe = some pe' → ∀ s ∈ pe'.sections, ∃ n, s.name = some n ∧ n ≠ name) ↔
        ∀ s ∈ pe.sections, ∃ n, s.name = some n ∧ n ≠ name :=
      ⟨fun h => h pe rfl, fun h pe' e => by cases e; exact h⟩
    rw [key, ← findSection_none]
    dsimp only
    cases hf : findSection name pe.sections with
    | err e => simp
    | panic => simp
    | ok o =>
      cases o with
      | none => simp
      | some s =>
        dsimp only
        simp only [Res.ok.injEq, reduceCtorEq, iff_false]
        split
        · split <;> simp
        · simp

end Verif.Tool

namespace Verif.Stub
open Verif Spec

/-- The first section called `name` has the bytes it takes from the file inside the image. -/
def FirstWithin (pe : PE) (len : Nat) (name : Str) : Prop :=
  ∀ pre s post, pe.sections = pre ++ s :: post → s.name = some name → (∀ t ∈ pre, t.name ≠ some name) →
    s.virtualAddress.toNat + min s.virtualSize.toNat s.sizeOfRawData.toNat ≤ len

/-- **C53**, in memory: reading a section gives its content, as many bytes as its virtual size, what is
not in the file being zero. -/
theorem C53_memory_section (p : Parsed) (name : Str) (d : Bytes) :
    p.sectionData name = .ok (some d) ↔
      SectionContents p.pe p.data name d ∧ FirstWithin p.pe p.data.length name := by
  constructor
  · intro h
    refine ⟨sectionData_contents h, fun pre s post e hn hpre => ?_⟩
    have hf : p.pe.sections.find? (fun s => s.name == some name) = some s := by
      rw [e]
      refine List.find?_eq_some_iff_append.2 ⟨by simpa using hn, pre, post, rfl, fun t ht => ?_⟩
      simpa using hpre t ht
    unfold Parsed.sectionData at h
    rw [hf] at h
    dsimp only at h
    unfold readSection slice at h
    dsimp only at h
    split at h
    · next b hb =>
      split at hb
      · next hc =>
        split at hc
        · next hc' => exact hc'.2
        · cases hc
      · cases hb
      · cases hb
    · cases h
    · cases h
  · rintro ⟨hc, hw⟩
    obtain ⟨pre, s, post, e, hn, hpre, -, -⟩ := id hc
    have hf : p.pe.sections.find? (fun s => s.name == some name) = some s := by
      rw [e]
      refine List.find?_eq_some_iff_append.2 ⟨by simpa using hn, pre, post, rfl, fun t ht => ?_⟩
      simpa using hpre t ht
    have hb := hw pre s post e hn hpre
    have : ∃ d', p.sectionData name = .ok (some d') := by
      unfold Parsed.sectionData
      rw [hf]
      dsimp only
      unfold readSection slice
      dsimp only
      rw [if_pos ⟨by omega, hb⟩]
      exact ⟨_, rfl⟩
    obtain ⟨d', hd'⟩ := this
    rw [hd', SectionContents.unique (sectionData_contents hd') hc]

/-- **C53**, in memory: there is nothing to read exactly if there is no such section. -/
theorem C53_memory_no_section (p : Parsed) (name : Str) :
    p.sectionData name = .ok none ↔ ∀ s ∈ p.pe.sections, s.name ≠ some name := by
  unfold Parsed.sectionData
  cases hf : p.pe.sections.find? (fun s => s.name == some name) with
  | none =>
    simp only [true_iff]
    intro s hs
    have := List.find?_eq_none.1 hf s hs
    simpa using this
  | some s =>
    dsimp only
    have hm := List.mem_of_find?_eq_some hf
    have hn : s.name = some name := by
      have := List.find?_some hf
      simpa using this
    constructor
    · intro h
      split at h <;> cases h
    · intro h
      exact absurd hn (h s hm)

/-- The size read is the virtual size, whatever the file contains. -/
theorem C53_memory_size (p : Parsed) (name : Str) (d : Bytes) (h : p.sectionData name = .ok (some d)) :
    ∃ s ∈ p.pe.sections, s.name = some name ∧ d.length = s.virtualSize.toNat := by
  obtain ⟨pre, s, post, e, hn, -, hl, -⟩ := sectionData_contents h
  exact ⟨s, by rw [e]; simp, hn, hl⟩

end Verif.Stub

/-! ## Examples -/

namespace Verif.Tool.Sample
open Verif

/-- The parameters for the first generation. -/
def params : StubParameters where
  lanzabooteStorePath := storePath "stub.efi"
  kernelCmdline := [lit "init=/x", lit "quiet"]
  osReleaseContents := utf8 (lit "ID=nixos\n")
  kernelStorePath := spec1.kernel
  initrdStorePath := .store (storePath "aaa-initrd")
  kernelPathAtEsp := lit "\\EFI\\nixos\\k.efi"
  initrdPathAtEsp := lit "\\EFI\\nixos\\i.efi"

theorem params_ok : (lanzabooteImage good params (start cfg disk)).1.isOk = true := by decide +kernel

/-- The section of the stub ends at 4096 + 8. -/
theorem stub_ends : LastSectionEnds good stub 4104 :=
  ⟨⟨[⟨some (lit ".text"), 6, 2, 6, 2⟩], 0, false⟩, 4096, ⟨some (lit ".text"), 6, 2, 6, 2⟩,
    by decide +kernel, rfl, rfl, by decide, rfl⟩

/-- The image of the sample is laid out from there. -/
example : ∃ t added image, good.objcopy t stub added = some image ∧ added.map (·.name) = addedNames ∧
    (4104 + totalSize added < 2 ^ 64 → Contiguous 4104 added ∧
      added.Pairwise fun s t => Disjoint s.vma.toNat s.content.length t.vma.toNat t.content.length) := by
  have hok := params_ok
  rcases h : lanzabooteImage good params (start cfg disk) with ⟨r, s'⟩
  rw [h] at hok
  cases r with
  | ok image =>
    obtain ⟨st, t, added, h1, h2, h3, h4⟩ := C52_contiguous good params _ _ image h
    have e : good.store params.lanzabooteStorePath = some stub := by decide +kernel
    rw [e] at h1
    cases h1
    exact ⟨t, added, image, h2, h3, fun hf =>
      ⟨h4 _ stub_ends hf, (C52_no_overlap good stub added _ stub_ends (h4 _ stub_ends hf)).1⟩⟩
  | err e => cases hok
  | panic => cases hok

/-- A stub whose last section ends beyond 32 bits. -/
def hugeEnv : Env := { good with parse := fun _ => some ⟨[⟨some (lit ".text"), 0xFFFFFFFF, 2, 0, 2⟩], 0, false⟩ }

/-- The offset wraps around for a malformed stub: the added sections are then in front of it. -/
theorem C52_wraps : stubOffset hugeEnv stub = .ok 4097 := by decide +kernel

/-- Sections of the sample's boot loader. -/
example : FileSection good loader (lit ".osrel") (utf8 (lit "VERSION=\"257.1\"\n")) :=
  (C53_file_section _ _ _ _).1 (by decide +kernel)

example : readSectionData good loader (lit ".linux") = .ok none :=
  (C53_file_no_section _ _ _).2 fun pe h s hs => by
    have e : good.parse loader = some ⟨[⟨some (lit ".osrel"), 6, 16, 6, 16⟩], 0, false⟩ := by decide +kernel
    rw [e] at h
    cases h
    rw [List.mem_singleton.1 hs]
    exact ⟨_, rfl, by decide⟩

end Verif.Tool.Sample

namespace Verif.Stub.Sample
open Verif

/-- A section of the kernel of the sample, half of it in the file. -/
example : ({ data := [1, 2, 3, 4, 5, 6, 7, 8, 9, 10], pe := kernelHeader } : Parsed).sectionData (lit ".text") =
    .ok (some [5, 6, 7, 0, 0, 0]) := by decide +kernel

example : Spec.SectionContents kernelHeader [1, 2, 3, 4, 5, 6, 7, 8, 9, 10] (lit ".text") [5, 6, 7, 0, 0, 0] :=
  ((C53_memory_section ⟨[1, 2, 3, 4, 5, 6, 7, 8, 9, 10], kernelHeader⟩ (lit ".text") _).1
    (by decide +kernel)).1

end Verif.Stub.Sample
