import Verif.Model.PeLoader
import Verif.Spec.PeImage
import Verif.Lemmas.SampleBoot
/-!
# C16, C17, C18: loading the kernel image
-/
namespace Verif.Stub
open Verif Spec

/-! ## C18: page arithmetic -/

/-- C18: the number of pages covers the length, and one page less does not. -/
theorem C18_pages (n : Nat) (h : n ≤ usizeMax) :
    n ≤ bytesToPages n * 4096 ∧ ∀ k, n ≤ k * 4096 → bytesToPages n ≤ k := by
  unfold bytesToPages
  have hm : pageMask = 4095 := by decide
  have hb : pageBits = 12 := rfl
  rw [hm, hb]
  split
  · rw [Nat.shiftRight_eq_div_pow]
    have h12 : (2 ^ 12 : Nat) = 4096 := by decide
    rw [h12]
    constructor
    · omega
    · intro k hk; omega
  · rename_i hn
    have : usizeMax = 18446744073709551615 := by decide
    rw [this] at h hn
    have : (1 <<< (64 - 12) : Nat) = 4503599627370496 := by decide
    rw [this]
    constructor
    · omega
    · intro k hk; omega

/-- The number of pages is 0 only for an empty image; at the very top of the address space rounding
up still works. -/
example : bytesToPages 0 = 0 ∧ bytesToPages 1 = 1 ∧ bytesToPages 4096 = 1 ∧ bytesToPages 4097 = 2 ∧
    bytesToPages usizeMax = 2 ^ 52 := by decide

/-! ## Memory -/

theorem writeMem_in {mem : Nat → UInt8} {a : Nat} {d : Bytes} {x : Nat} (h1 : a ≤ x)
    (h2 : x < a + d.length) : writeMem mem a d x = d.getD (x - a) 0 := by
  unfold writeMem; rw [if_pos ⟨h1, h2⟩]

theorem writeMem_out {mem : Nat → UInt8} {a : Nat} {d : Bytes} {x : Nat}
    (h : ¬ (a ≤ x ∧ x < a + d.length)) : writeMem mem a d x = mem x := by
  unfold writeMem; rw [if_neg h]

theorem readMem_length (mem : Nat → UInt8) (a n : Nat) : (readMem mem a n).length = n := by
  simp [readMem]

theorem readMem_getElem? {mem : Nat → UInt8} {a n i : Nat} {b : UInt8}
    (h : (readMem mem a n)[i]? = some b) : i < n ∧ mem (a + i) = b := by
  unfold readMem at h
  rw [List.getElem?_map] at h
  by_cases hi : i < n
  · rw [List.getElem?_range hi] at h
    simp only [Option.map_some, Option.some.injEq] at h
    exact ⟨hi, h⟩
  · rw [List.getElem?_eq_none (by simpa using hi)] at h
    simp at h

/-! ## Size of the image -/

theorem imageLength_spec (secs : List Section) :
    (∃ n, imageLength secs = .ok n ∧ IsImageSize secs n ∧ n ≤ u32Max) ∨
    imageLength secs = .err .loadError := by
  induction secs with
  | nil => left; exact ⟨0, rfl, ⟨by simp, Or.inl rfl⟩, by decide⟩
  | cons s rest ih =>
    unfold imageLength
    by_cases hs : s.virtualAddress.toNat + s.virtualSize.toNat ≤ u32Max
    · rw [if_pos hs]
      rcases ih with ⟨n, hn, ⟨h1, h2⟩, h3⟩ | h
      · left
        rw [hn]
        refine ⟨_, rfl, ⟨?_, ?_⟩, by omega⟩
        · intro t ht
          rcases List.mem_cons.1 ht with rfl | ht
          · omega
          · have := h1 t ht; omega
        · by_cases hc : s.virtualAddress.toNat + s.virtualSize.toNat ≤ n
          · rw [Nat.max_eq_right hc]
            rcases h2 with h2 | ⟨t, ht, h2⟩
            · left; exact h2
            · right; exact ⟨t, List.mem_cons_of_mem _ ht, h2⟩
          · right
            exact ⟨s, List.mem_cons_self, by omega⟩
      · right; rw [h]
    · right; rw [if_neg hs]

/-! ## The section loop -/

/-- The offset is provided by the last section that covers it, or by none and unchanged. -/
def PlacedOr (secs : List Section) (file : Bytes) (off : Nat) (old b : UInt8) : Prop :=
  (∃ pre s post, secs = pre ++ s :: post ∧ Provides s off ∧ (∀ t ∈ post, ¬ Provides t off) ∧
      file[s.pointerToRawData.toNat + (off - s.virtualAddress.toNat)]? = some b) ∨
  ((∀ s ∈ secs, ¬ Provides s off) ∧ b = old)

theorem loadSection_run (base len : Nat) (file : Bytes) (s : Section) (w : World) :
    ∃ r mem', loadSection base len file s w = (r, { w with mem := mem' }) ∧ r ≠ .panic ∧
      (∀ x, ¬ (base ≤ x ∧ x < base + len) → mem' x = w.mem x) ∧
      (r = .ok () → ∀ off,
        (Provides s off →
          file[s.pointerToRawData.toNat + (off - s.virtualAddress.toNat)]? = some (mem' (base + off)))
        ∧ (¬ Provides s off → mem' (base + off) = w.mem (base + off))) := by
  unfold loadSection
  by_cases h1 : s.pointerToRawData.toNat + min s.virtualSize.toNat s.sizeOfRawData.toNat > usizeMax
  · refine ⟨.err .loadError, w.mem, ?_, by simp, by simp, by simp⟩
    simp only [if_pos h1, RM.throw_run]
  by_cases h2 : s.virtualAddress.toNat + min s.virtualSize.toNat s.sizeOfRawData.toNat > usizeMax
  · refine ⟨.err .loadError, w.mem, ?_, by simp, by simp, by simp⟩
    simp only [if_neg h1, if_pos h2, RM.throw_run]
  by_cases h3 : s.virtualAddress.toNat + min s.virtualSize.toNat s.sizeOfRawData.toNat > len ∨
      s.pointerToRawData.toNat + min s.virtualSize.toNat s.sizeOfRawData.toNat > file.length
  · refine ⟨.err .loadError, w.mem, ?_, by simp, by simp, by simp⟩
    simp only [if_neg h1, if_neg h2, if_pos h3, RM.throw_run]
  have h3' := not_or.1 h3
  simp only [if_neg h1, if_neg h2, if_neg h3]
  generalize hcs : min s.virtualSize.toNat s.sizeOfRawData.toNat = cs at *
  have hsl : slice file s.pointerToRawData.toNat (s.pointerToRawData.toNat + cs)
      = .ok ((file.drop s.pointerToRawData.toNat).take cs) := by
    unfold slice
    rw [if_pos ⟨by omega, by omega⟩]
    simp
  rw [hsl]
  have hdl : ((file.drop s.pointerToRawData.toNat).take cs).length = cs := by
    rw [List.length_take, List.length_drop]; omega
  simp only
  unfold copyInto
  rw [if_pos ⟨by omega, by omega, by rw [hdl]; omega⟩]
  refine ⟨.ok (), _, rfl, by simp, ?_, ?_⟩
  · intro x hx
    apply writeMem_out
    rw [hdl]; omega
  · intro _ off
    constructor
    · rintro ⟨ha, hb⟩
      rw [hcs] at hb
      rw [writeMem_in (by omega) (by rw [hdl]; omega)]
      have : base + off - (base + s.virtualAddress.toNat) = off - s.virtualAddress.toNat := by omega
      rw [this]
      have hlt : s.pointerToRawData.toNat + (off - s.virtualAddress.toNat) < file.length := by omega
      rw [List.getElem?_eq_getElem hlt, List.getD_eq_getElem?_getD, List.getElem?_take,
        if_pos (by omega), List.getElem?_drop, List.getElem?_eq_getElem hlt]
      rfl
    · intro hp
      apply writeMem_out
      rw [hdl]
      intro hh
      apply hp
      unfold Provides
      rw [hcs]
      omega

theorem loadSections_run (base len : Nat) (file : Bytes) (secs : List Section) (w : World) :
    ∃ r mem', loadSections base len file secs w = (r, { w with mem := mem' }) ∧ r ≠ .panic ∧
      (∀ x, ¬ (base ≤ x ∧ x < base + len) → mem' x = w.mem x) ∧
      (r = .ok () → ∀ off, PlacedOr secs file off (w.mem (base + off)) (mem' (base + off))) := by
  induction secs generalizing w with
  | nil => exact ⟨.ok (), w.mem, rfl, by simp, by simp, fun _ off => Or.inr ⟨by simp, rfl⟩⟩
  | cons s rest ih =>
    obtain ⟨r1, m1, e1, np1, out1, in1⟩ := loadSection_run base len file s w
    unfold loadSections
    rw [RM.bind_run, e1]
    cases r1 with
    | panic => exact absurd rfl np1
    | err e => exact ⟨.err e, m1, rfl, by simp, out1, by simp⟩
    | ok u =>
      obtain ⟨r2, m2, e2, np2, out2, in2⟩ := ih { w with mem := m1 }
      refine ⟨r2, m2, e2, np2, ?_, ?_⟩
      · intro x hx; rw [out2 x hx]; exact out1 x hx
      · intro hr off
        rcases in2 hr off with ⟨pre, t, post, hsplit, hp, hlast, hb⟩ | ⟨hno, hb⟩
        · exact Or.inl ⟨s :: pre, t, post, by rw [hsplit]; rfl, hp, hlast, hb⟩
        · simp only at hb
          have := in1 rfl off
          by_cases hps : Provides s off
          · left
            refine ⟨[], s, rest, rfl, hps, hno, ?_⟩
            rw [hb]; exact this.1 hps
          · right
            refine ⟨?_, ?_⟩
            · intro t ht
              rcases List.mem_cons.1 ht with rfl | ht
              · exact hps
              · exact hno t ht
            · rw [hb]; exact this.2 hps

/-! ## `Image::load` -/

/-- All facts about a load in one place. -/
theorem load_run (env : Env) (file : Bytes) (w : World) :
    ∃ r w', Image.load env file w = (r, w') ∧ r ≠ .panic ∧ w'.trace = w.trace ∧
      w'.vars = w.vars ∧ w'.loaded = w.loaded ∧ w'.protos = w.protos ∧
      ((w'.pages = w.pages ∧ w'.mem = w.mem ∧ ∀ i, r ≠ .ok i) ∨
       ∃ base len, w'.pages = w.pages ++ [(base, bytesToPages len)] ∧ len ≤ usizeMax ∧
        (∀ x, ¬ (base ≤ x ∧ x < base + len) → w'.mem x = w.mem x) ∧
        ∀ img, r = .ok img → img.base = base ∧ img.len = len ∧
          ∃ pe, env.parseFile file = some pe ∧
            IsLoaded pe file (readMem w'.mem base len) img.entry) := by
  unfold Image.load
  cases hp : env.parseFile file with
  | none =>
    exact ⟨.err .loadError, w, rfl, by simp, rfl, rfl, rfl, rfl, Or.inl ⟨rfl, rfl, by simp⟩⟩
  | some pe =>
    rcases imageLength_spec pe.sections with ⟨n, hn, hsize, hmax⟩ | he
    · simp only [hn, RM.bind_run, RM.pure_run, allocatePages, next]
      cases ha : env.allocate w.tick (bytesToPages n) with
      | error st =>
        refine ⟨.err st, { w with tick := w.tick + 1 }, ?_, by simp, rfl, rfl, rfl, rfl,
          Or.inl ⟨rfl, rfl, by simp⟩⟩
        simp only [RM.throw_run]
      | ok base =>
        simp only [RM.bind_run, RM.pure_run, RM.modify_run]
        obtain ⟨r, m, e, np, out, inn⟩ := loadSections_run base n file pe.sections
          { w with tick := w.tick + 1, pages := w.pages ++ [(base, bytesToPages n)],
                   mem := writeMem w.mem base (List.replicate n 0) }
        rw [e]
        have hout : ∀ x, ¬ (base ≤ x ∧ x < base + n) → m x = w.mem x := by
          intro x hx
          rw [out x hx]
          apply writeMem_out
          rwa [List.length_replicate]
        have hn64 : n ≤ usizeMax := by
          have : u32Max ≤ usizeMax := by decide
          omega
        cases r with
        | panic => exact absurd rfl np
        | err st =>
          exact ⟨_, _, rfl, by simp, rfl, rfl, rfl, rfl,
            Or.inr ⟨base, n, rfl, hn64, hout, by simp⟩⟩
        | ok u =>
          simp only
          by_cases hrel : pe.hasRelocations = true
          · rw [if_pos hrel]
            exact ⟨_, _, rfl, by simp, rfl, rfl, rfl, rfl,
              Or.inr ⟨base, n, rfl, hn64, hout, by simp⟩⟩
          · rw [if_neg hrel]
            by_cases hent : pe.entry.toNat ≥ n
            · rw [if_pos hent]
              exact ⟨_, _, rfl, by simp, rfl, rfl, rfl, rfl,
                Or.inr ⟨base, n, rfl, hn64, hout, by simp⟩⟩
            · rw [if_neg hent]
              refine ⟨_, _, rfl, by simp, rfl, rfl, rfl, rfl,
                Or.inr ⟨base, n, rfl, hn64, hout, ?_⟩⟩
              intro img himg
              simp only [Res.ok.injEq] at himg
              subst himg
              refine ⟨rfl, rfl, pe, rfl, ?_, ?_, rfl, ?_, by simpa using hrel⟩
              · rw [readMem_length]; exact hsize
              · intro off b hb
                obtain ⟨hoff, hb⟩ := readMem_getElem? hb
                subst hb
                rcases inn rfl off with h | ⟨hno, hb⟩
                · exact Or.inl h
                · refine Or.inr ⟨hno, ?_⟩
                  refine hb.trans ?_
                  show writeMem w.mem base (List.replicate n 0) (base + off) = 0
                  rw [writeMem_in (by omega) (by rw [List.length_replicate]; omega)]
                  simp [List.getD_eq_getElem?_getD, hoff]
              · rw [readMem_length]; simp only; omega
    · simp only [he, RM.bind_run, RM.throw_run]
      exact ⟨_, w, rfl, by simp, rfl, rfl, rfl, rfl, Or.inl ⟨rfl, rfl, by simp⟩⟩

/-- C16: whatever the kernel file and its section table look like, loading does not panic (no slice
index is out of range), every memory byte that changes lies in the pages it allocated, and on
success the entry point lies inside the image, which lies inside these pages. -/
theorem C16_load_memory_safe (env : Env) (file : Bytes) (w : World) :
    (Image.load env file w).1 ≠ .panic ∧
    (∀ x, (Image.load env file w).2.mem x ≠ w.mem x →
      ∃ base n, (Image.load env file w).2.pages = w.pages ++ [(base, n)] ∧
        base ≤ x ∧ x < base + n * 4096) ∧
    (∀ img, (Image.load env file w).1 = .ok img →
      ∃ n, (Image.load env file w).2.pages = w.pages ++ [(img.base, n)] ∧
        img.entry < img.len ∧ img.len ≤ n * 4096) := by
  obtain ⟨r, w', e, np, -, -, -, -, h⟩ := load_run env file w
  rw [e]
  refine ⟨np, ?_, ?_⟩
  · intro x hx
    rcases h with ⟨-, hm, -⟩ | ⟨base, len, hpg, hlen, hout, -⟩
    · exact absurd (congrFun hm x) hx
    · refine ⟨base, _, hpg, ?_⟩
      have hc := (C18_pages len hlen).1
      by_cases hin : base ≤ x ∧ x < base + len
      · omega
      · exact absurd (hout x hin) hx
  · intro img hi
    rcases h with ⟨-, -, hno⟩ | ⟨base, len, hpg, hlen, -, hok⟩
    · exact absurd hi (hno img)
    · obtain ⟨rfl, rfl, pe, -, hl⟩ := hok img hi
      refine ⟨_, hpg, ?_, (C18_pages _ hlen).1⟩
      have := hl.entry_inside
      rwa [readMem_length] at this

/-- C18: a load that succeeds has allocated the least number of pages that holds the image, whose size
is the largest end of a section. -/
theorem C18_allocated (env : Env) (file : Bytes) (w : World) (img : Image)
    (h : (Image.load env file w).1 = .ok img) :
    ∃ pe n, env.parseFile file = some pe ∧ IsImageSize pe.sections img.len ∧
      (Image.load env file w).2.pages = w.pages ++ [(img.base, n)] ∧
      img.len ≤ n * 4096 ∧ ∀ k, img.len ≤ k * 4096 → n ≤ k := by
  obtain ⟨r, w', e, np, -, -, -, -, hh⟩ := load_run env file w
  rw [e] at h ⊢
  rcases hh with ⟨-, -, hno⟩ | ⟨base, len, hpg, hlen, -, hok⟩
  · exact absurd h (hno img)
  · obtain ⟨rfl, rfl, pe, hp, hl⟩ := hok img h
    refine ⟨pe, _, hp, ?_, hpg, C18_pages _ hlen⟩
    have := hl.size
    rwa [readMem_length] at this

/-- C17: after a successful load the image memory holds the image as the PE format demands: every
byte is the one of the last section providing it, all others are zero. -/
theorem C17_load_contents (env : Env) (file : Bytes) (w : World) (img : Image)
    (h : (Image.load env file w).1 = .ok img) :
    ∃ pe, env.parseFile file = some pe ∧
      IsLoaded pe file (readMem (Image.load env file w).2.mem img.base img.len) img.entry := by
  obtain ⟨r, w', e, np, -, -, -, -, hh⟩ := load_run env file w
  rw [e] at h ⊢
  rcases hh with ⟨-, -, hno⟩ | ⟨base, len, -, -, -, hok⟩
  · exact absurd h (hno img)
  · obtain ⟨rfl, rfl, hl⟩ := hok img h
    exact hl

/-- C17, the image determines itself: two loads of the same file that succeed produce the same
bytes, wherever the firmware puts them. -/
theorem C17_load_deterministic {pe : PE} {file i1 i2 : Bytes} {e1 e2 : Nat}
    (h1 : IsLoaded pe file i1 e1) (h2 : IsLoaded pe file i2 e2) : i1 = i2 ∧ e1 = e2 := by
  have hlen : i1.length = i2.length := by
    obtain ⟨a1, b1⟩ := h1.size
    obtain ⟨a2, b2⟩ := h2.size
    rcases b1 with b1 | ⟨s, hs, b1⟩ <;> rcases b2 with b2 | ⟨t, ht, b2⟩
    · omega
    · have := a1 t ht; omega
    · have := a2 s hs; omega
    · have := a1 t ht; have := a2 s hs; omega
  refine ⟨List.ext_getElem hlen ?_, h1.entry_eq.trans h2.entry_eq.symm⟩
  intro off ho1 ho2
  have c1 := h1.content off _ (List.getElem?_eq_getElem ho1)
  have c2 := h2.content off _ (List.getElem?_eq_getElem ho2)
  rcases c1 with ⟨p1, s1, q1, hs1, pr1, l1, b1⟩ | ⟨n1, b1⟩ <;>
    rcases c2 with ⟨p2, s2, q2, hs2, pr2, l2, b2⟩ | ⟨n2, b2⟩
  · have hsame : s1 = s2 := by
      rw [hs1] at hs2
      rcases List.append_eq_append_iff.1 hs2 with ⟨a, ha, hb⟩ | ⟨a, ha, hb⟩
      · cases a with
        | nil => simp only [List.nil_append, List.cons.injEq] at hb; exact hb.1
        | cons x xs =>
          simp only [List.cons_append, List.cons.injEq] at hb
          exact absurd pr2 (l1 s2 (by rw [hb.2]; simp))
      · cases a with
        | nil => simp only [List.nil_append, List.cons.injEq] at hb; exact hb.1.symm
        | cons x xs =>
          simp only [List.cons_append, List.cons.injEq] at hb
          exact absurd pr1 (l2 s1 (by rw [hb.2]; simp))
    rw [hsame, b2] at b1
    exact (Option.some.inj b1).symm
  · exact absurd pr1 (n2 s1 (by rw [hs1]; simp))
  · exact absurd pr2 (n1 s2 (by rw [hs2]; simp))
  · rw [b1, b2]

/-! ## The cache flush on aarch64 -/

theorem or_fifteen (a : Nat) : a ||| 15 = a / 16 * 16 + 15 := by
  have hq : a = 2 ^ 4 * (a / 16) + a % 16 := by omega
  have hr : ∀ r : Fin 16, r.val ||| 15 = 15 := by decide
  have h1 : 2 ^ 4 * (a / 16) + a % 16 = 2 ^ 4 * (a / 16) ||| a % 16 :=
    Nat.two_pow_add_eq_or_of_lt (by omega) _
  have h2 : 2 ^ 4 * (a / 16) + 15 = 2 ^ 4 * (a / 16) ||| 15 :=
    Nat.two_pow_add_eq_or_of_lt (by omega) _
  have h3 : a ||| 15 = 2 ^ 4 * (a / 16) ||| 15 := by
    conv => lhs; rw [hq, h1, Nat.or_assoc, hr ⟨a % 16, by omega⟩]
  rw [h3, ← h2]
  omega

theorem and_neg_sixteen (a : Nat) (h : a < 2 ^ 64) : a &&& (2 ^ 64 - 16) = a / 16 * 16 := by
  have hq : a = 2 ^ 4 * (a / 16) + a % 16 := by omega
  have hr : ∀ r : Fin 16, r.val &&& (2 ^ 64 - 16) = 0 := by decide
  have h1 : 2 ^ 4 * (a / 16) + a % 16 = 2 ^ 4 * (a / 16) ||| a % 16 :=
    Nat.two_pow_add_eq_or_of_lt (by omega) _
  have h2 : a &&& (2 ^ 64 - 16) = (2 ^ 4 * (a / 16)) &&& (2 ^ 64 - 16) := by
    conv => lhs; rw [hq, h1, Nat.and_or_distrib_right, hr ⟨a % 16, by omega⟩, Nat.or_zero]
  have h3 : (2 ^ 64 - 16 : Nat) = (2 ^ 60 - 1) <<< 4 := by decide
  have h4 : 2 ^ 4 * (a / 16) = (a / 16) <<< 4 := by rw [Nat.shiftLeft_eq, Nat.mul_comm]
  rw [h2, h3, h4, ← Nat.shiftLeft_and_distrib, Nat.and_two_pow_sub_one_eq_mod, Nat.shiftLeft_eq]
  omega

/-- C57: on aarch64 the flushed range consists of whole 16-byte lines, contains the image, and
contains no line that does not overlap it. -/
theorem C57_icache_range (addr len : UInt64) (hlen : len ≠ 0)
    (hfit : addr.toNat + len.toNat + 16 ≤ 2 ^ 64) :
    let r := icacheRange addr len
    r.1.toNat % 16 = 0 ∧ r.2.toNat % 16 = 0 ∧
    r.1.toNat ≤ addr.toNat ∧ addr.toNat < r.1.toNat + 16 ∧
    addr.toNat + len.toNat ≤ r.2.toNat ∧ r.2.toNat < addr.toNat + len.toNat + 16 := by
  have hl : len.toNat ≠ 0 := fun hc => hlen (UInt64.toNat_inj.1 (by simpa using hc))
  have e1 : (icacheRange addr len).1.toNat = addr.toNat / 16 * 16 := by
    have : (0 - 16 : UInt64).toNat = 2 ^ 64 - 16 := by decide
    rw [← and_neg_sixteen addr.toNat addr.toNat_lt, ← this]
    simp only [icacheRange, UInt64.toNat_and]
  have e2 : (icacheRange addr len).2.toNat = (addr.toNat + len.toNat - 1) / 16 * 16 + 16 := by
    simp only [icacheRange]
    rw [UInt64.toNat_add, UInt64.toNat_or]
    have h1 : (addr + len - 1 : UInt64).toNat = addr.toNat + len.toNat - 1 := by
      rw [UInt64.toNat_sub_of_le]
      · rw [UInt64.toNat_add]; simp; omega
      · rw [UInt64.le_iff_toNat_le, UInt64.toNat_add]; simp; omega
    have h15 : (15 : UInt64).toNat = 15 := by decide
    have h11 : (1 : UInt64).toNat = 1 := by decide
    rw [h1, h15, h11, or_fifteen]
    omega
  simp only [e1, e2]
  omega

/-- Non-vacuity of `C57_icache_range`: an image of five bytes across a line boundary. -/
example : icacheRange 0x100D 5 = (0x1000, 0x1020) ∧ (0x100D : UInt64).toNat + (5 : UInt64).toNat + 16 ≤ 2 ^ 64 := by
  decide

/-- The kernel of the sample machine can be loaded: it has one section, which is larger in
memory than in the file, and gets one page. -/
theorem Sample.kernel_loads : ∃ img, (Image.load (Sample.env true .success) Sample.kernelFile
    (Sample.start none none)).1 = .ok img := by
  have : (Image.load (Sample.env true .success) Sample.kernelFile (Sample.start none none)).1.isOk = true := by
    decide +kernel
  cases h : (Image.load (Sample.env true .success) Sample.kernelFile (Sample.start none none)).1 with
  | ok img => exact ⟨img, rfl⟩
  | err e => rw [h] at this; cases this
  | panic => rw [h] at this; cases this

/-- The hypotheses of C16, C17 and C18 can be met. -/
example : ∃ (img : Image) (n : Nat), (Image.load (Sample.env true .success) Sample.kernelFile
      (Sample.start none none)).2.pages = [(0x4000, 2), (img.base, n)] ∧
    img.entry < img.len ∧ img.len ≤ n * 4096 := by
  obtain ⟨img, h⟩ := Sample.kernel_loads
  obtain ⟨n, h1, h2, h3⟩ := (C16_load_memory_safe _ _ _).2.2 img h
  exact ⟨img, n, h1, h2, h3⟩

example : ∃ (img : Image) (pe : PE), (Sample.env true .success).parseFile Sample.kernelFile = some pe ∧
    IsLoaded pe Sample.kernelFile (readMem (Image.load (Sample.env true .success) Sample.kernelFile
      (Sample.start none none)).2.mem img.base img.len) img.entry ∧
    IsImageSize pe.sections img.len := by
  obtain ⟨img, h⟩ := Sample.kernel_loads
  obtain ⟨pe, h1, h2⟩ := C17_load_contents _ _ _ img h
  obtain ⟨pe', n, h1', h3, -⟩ := C18_allocated _ _ _ img h
  rw [h1] at h1'
  cases h1'
  exact ⟨img, pe, h1, h2, h3⟩

end Verif.Stub
