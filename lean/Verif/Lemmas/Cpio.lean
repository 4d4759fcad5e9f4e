import Verif.Model.Cpio
import Verif.Spec.Newc
/-! Lemmas linking the CPIO writer model to the newc reader specification. -/
namespace Verif.Cpio
open Verif

theorem hexVal_lt : ∀ k : Fin 16, Newc.hexVal (hexDigit k.val) = some k.val := by decide

theorem hexDigit_mod (n : Nat) : hexDigit (n % 16) = hexDigit n := by
  simp [hexDigit]

theorem hexVal_hexDigit (n : Nat) : Newc.hexVal (hexDigit n) = some (n % 16) := by
  have h := hexVal_lt ⟨n % 16, Nat.mod_lt _ (by decide)⟩
  simpa [hexDigit_mod] using h

theorem word_length (w : UInt32) : (word w).length = 8 := rfl

theorem hexNum_word (w : UInt32) : Newc.hexNum (word w) = some w.toNat := by
  have hw : w.toNat < 4294967296 := w.toNat_lt
  simp only [word, Newc.hexNum, List.foldl_cons, List.foldl_nil, hexVal_hexDigit]
  congr 1
  generalize w.toNat = n at *
  omega

theorem slice_append {a A x B : Bytes} {o n : Nat} (ha : a = A ++ (x ++ B)) (hA : A.length = o)
    (hn : x.length = n) : Newc.slice a o n = some x := by
  subst ha hA hn
  simp [Newc.slice]

theorem field_append {a A B : Bytes} {w : UInt32} {o i : Nat} (ha : a = A ++ (word w ++ B))
    (hA : A.length = o + 6 + 8 * i) : Newc.field a o i = some w.toNat := by
  have := slice_append (n := 8) ha hA (word_length w)
  simp [Newc.field, this, hexNum_word]

/-- Padding to a multiple of four, as a list. -/
def pad (n : Nat) : Bytes := List.replicate ((4 - n % 4) % 4) 0

theorem pad_length (n : Nat) : (pad n).length = (4 - n % 4) % 4 := by simp [pad]

theorem computePad4_eq (n : Nat) : (computePad4 n).getD [] = pad n := by
  unfold computePad4 pad
  by_cases h : n % 4 = 0
  · simp [h]
  · have : (4 - n % 4) % 4 = 4 - n % 4 := by omega
    simp [h, this]

/-- The thirteen-word header. -/
def fixedHeader (e : Entry) : Bytes :=
  magic ++ word e.ino ++ word e.mode ++ word e.uid ++ word e.gid ++ word e.nlink
      ++ word e.mtime ++ word e.fileSize ++ word e.devMajor ++ word e.devMinor
      ++ word e.rdevMajor ++ word e.rdevMinor ++ word (UInt32.ofNat (e.name.length + 1)) ++ word 0

theorem fixedHeader_length (e : Entry) : (fixedHeader e).length = 110 := by
  simp [fixedHeader, word_length, magic]

/-- The bytes of one header. -/
def headerBytes (e : Entry) : Bytes :=
  fixedHeader e ++ e.name ++ [0] ++ pad (110 + e.name.length + 1)

theorem headerBytes_length (e : Entry) :
    (headerBytes e).length = Newc.up4 (110 + e.name.length + 1) := by
  simp [headerBytes, fixedHeader_length, pad_length, Newc.up4]
  omega

theorem writeHeader_ok (e : Entry) (h : e.name.length + 1 ≤ u32Max) :
    writeHeader e = .ok (headerBytes e, (headerBytes e).length) := by
  have h' : ¬ e.name.length + 1 > u32Max := by omega
  have hp := computePad4_eq (110 + e.name.length + 1)
  have hl := headerBytes_length e
  unfold writeHeader
  simp only [if_neg h', staticHeaderLen]
  change (match (match computePad4 (110 + e.name.length + 1) with
      | some pad => (fixedHeader e ++ e.name ++ [0] ++ pad, 110 + e.name.length + 1 + pad.length)
      | none => (fixedHeader e ++ e.name ++ [0], 110 + e.name.length + 1)) with
    | (out, headerSize) => if headerSize % 4 = 0 then Res.ok (out, headerSize) else Res.panic) = _
  have hpl := pad_length (110 + e.name.length + 1)
  cases hc : computePad4 (110 + e.name.length + 1) with
  | none =>
    rw [hc] at hp
    simp only [Option.getD_none] at hp
    rw [← hp] at hpl
    simp only [List.length_nil] at hpl
    have : (110 + e.name.length + 1) % 4 = 0 := by omega
    simp only [this, if_true]
    simp [headerBytes, ← hp, fixedHeader_length]
    omega
  | some p =>
    rw [hc] at hp
    simp only [Option.getD_some] at hp
    subst hp
    have : (110 + e.name.length + 1 + (pad (110 + e.name.length + 1)).length) % 4 = 0 := by omega
    simp only [this, if_true]
    simp [headerBytes, fixedHeader_length]
    omega

theorem writeHeader_panic (e : Entry) (h : ¬ e.name.length + 1 ≤ u32Max) :
    writeHeader e = .panic := by
  unfold writeHeader
  rw [if_pos (by omega)]

theorem headerBytes_mod (e : Entry) : (headerBytes e).length % 4 = 0 := by
  rw [headerBytes_length]; unfold Newc.up4; omega

/-- The bytes of one member. -/
def entryBytes (e : Entry) (c : Bytes) : Bytes := headerBytes e ++ (c ++ pad c.length)

theorem entryBytes_mod (e : Entry) (c : Bytes) : (entryBytes e c).length % 4 = 0 := by
  have := headerBytes_mod e
  simp [entryBytes, pad_length]
  omega

theorem writeEntry_ok (e : Entry) (c : Bytes) (h : e.name.length + 1 ≤ u32Max) :
    writeEntry e c = .ok (entryBytes e c, (entryBytes e c).length) := by
  have hm := headerBytes_mod e
  have hp := computePad4_eq c.length
  simp only [writeEntry, writeHeader_ok e h, bind, Res.bind, writeContents, hm, if_true]
  cases hc : computePad4 c.length with
  | none =>
    rw [hc] at hp
    simp only [Option.getD_none] at hp
    simp [entryBytes, ← hp, pure]
  | some p =>
    rw [hc] at hp
    simp only [Option.getD_some] at hp
    subst hp
    simp [entryBytes, pure, Nat.add_assoc]

theorem writeEntry_panic (e : Entry) (c : Bytes) (h : ¬ e.name.length + 1 ≤ u32Max) :
    writeEntry e c = .panic := by
  simp [writeEntry, writeHeader_panic e h, bind, Res.bind]

theorem headerBytes_eq_entryBytes (e : Entry) : headerBytes e = entryBytes e [] := by
  simp [entryBytes, pad]

/-- What a reader gets back for an entry. -/
def recOf (e : Entry) (c : Bytes) : Newc.Rec :=
  { ino := e.ino.toNat, mode := e.mode.toNat, uid := e.uid.toNat, gid := e.gid.toNat,
    nlink := e.nlink.toNat, mtime := e.mtime.toNat, devMajor := e.devMajor.toNat,
    devMinor := e.devMinor.toNat, rdevMajor := e.rdevMajor.toNat, rdevMinor := e.rdevMinor.toNat,
    check := 0, name := e.name, data := c }

theorem magic_eq : Newc.magic = magic := by decide

theorem up4_add_mod {a b : Nat} (h : a % 4 = 0) : Newc.up4 (a + b) = a + Newc.up4 b := by
  unfold Newc.up4; omega

/-- The fields of a header written at offset `pre.length`. -/
theorem fields_entry (pre post : Bytes) (e : Entry) (c : Bytes)
    (hn : e.name.length + 1 ≤ u32Max) :
    let a := pre ++ (entryBytes e c ++ post)
    Newc.field a pre.length 0 = some e.ino.toNat ∧
    Newc.field a pre.length 1 = some e.mode.toNat ∧
    Newc.field a pre.length 2 = some e.uid.toNat ∧
    Newc.field a pre.length 3 = some e.gid.toNat ∧
    Newc.field a pre.length 4 = some e.nlink.toNat ∧
    Newc.field a pre.length 5 = some e.mtime.toNat ∧
    Newc.field a pre.length 6 = some e.fileSize.toNat ∧
    Newc.field a pre.length 7 = some e.devMajor.toNat ∧
    Newc.field a pre.length 8 = some e.devMinor.toNat ∧
    Newc.field a pre.length 9 = some e.rdevMajor.toNat ∧
    Newc.field a pre.length 10 = some e.rdevMinor.toNat ∧
    Newc.field a pre.length 11 = some (e.name.length + 1) ∧
    Newc.field a pre.length 12 = some 0 := by
  intro a
  have hns : (UInt32.ofNat (e.name.length + 1)).toNat = e.name.length + 1 := by
    rw [UInt32.toNat_ofNat']
    apply Nat.mod_eq_of_lt
    have : u32Max = 4294967295 := by decide
    omega
  refine ⟨?_, ?_, ?_, ?_, ?_, ?_, ?_, ?_, ?_, ?_, ?_, ?_, ?_⟩
  · exact field_append (A := pre ++ magic) (by
      simp only [a, entryBytes, headerBytes, fixedHeader, List.append_assoc]; rfl) (by simp [magic])
  · exact field_append (A := pre ++ magic ++ word e.ino) (by
      simp only [a, entryBytes, headerBytes, fixedHeader, List.append_assoc]; rfl)
      (by simp [magic, word_length])
  · exact field_append (A := pre ++ magic ++ word e.ino ++ word e.mode) (by
      simp only [a, entryBytes, headerBytes, fixedHeader, List.append_assoc]; rfl)
      (by simp [magic, word_length])
  · exact field_append (A := pre ++ magic ++ word e.ino ++ word e.mode ++ word e.uid) (by
      simp only [a, entryBytes, headerBytes, fixedHeader, List.append_assoc]; rfl)
      (by simp [magic, word_length])
  · exact field_append (A := pre ++ magic ++ word e.ino ++ word e.mode ++ word e.uid
      ++ word e.gid) (by
      simp only [a, entryBytes, headerBytes, fixedHeader, List.append_assoc]; rfl)
      (by simp [magic, word_length])
  · exact field_append (A := pre ++ magic ++ word e.ino ++ word e.mode ++ word e.uid
      ++ word e.gid ++ word e.nlink) (by
      simp only [a, entryBytes, headerBytes, fixedHeader, List.append_assoc]; rfl)
      (by simp [magic, word_length])
  · exact field_append (A := pre ++ magic ++ word e.ino ++ word e.mode ++ word e.uid
      ++ word e.gid ++ word e.nlink ++ word e.mtime) (by
      simp only [a, entryBytes, headerBytes, fixedHeader, List.append_assoc]; rfl)
      (by simp [magic, word_length])
  · exact field_append (A := pre ++ magic ++ word e.ino ++ word e.mode ++ word e.uid
      ++ word e.gid ++ word e.nlink ++ word e.mtime ++ word e.fileSize) (by
      simp only [a, entryBytes, headerBytes, fixedHeader, List.append_assoc]; rfl)
      (by simp [magic, word_length])
  · exact field_append (A := pre ++ magic ++ word e.ino ++ word e.mode ++ word e.uid
      ++ word e.gid ++ word e.nlink ++ word e.mtime ++ word e.fileSize ++ word e.devMajor) (by
      simp only [a, entryBytes, headerBytes, fixedHeader, List.append_assoc]; rfl)
      (by simp [magic, word_length])
  · exact field_append (A := pre ++ magic ++ word e.ino ++ word e.mode ++ word e.uid
      ++ word e.gid ++ word e.nlink ++ word e.mtime ++ word e.fileSize ++ word e.devMajor
      ++ word e.devMinor) (by
      simp only [a, entryBytes, headerBytes, fixedHeader, List.append_assoc]; rfl)
      (by simp [magic, word_length])
  · exact field_append (A := pre ++ magic ++ word e.ino ++ word e.mode ++ word e.uid
      ++ word e.gid ++ word e.nlink ++ word e.mtime ++ word e.fileSize ++ word e.devMajor
      ++ word e.devMinor ++ word e.rdevMajor) (by
      simp only [a, entryBytes, headerBytes, fixedHeader, List.append_assoc]; rfl)
      (by simp [magic, word_length])
  · rw [← hns]
    exact field_append (A := pre ++ magic ++ word e.ino ++ word e.mode ++ word e.uid
      ++ word e.gid ++ word e.nlink ++ word e.mtime ++ word e.fileSize ++ word e.devMajor
      ++ word e.devMinor ++ word e.rdevMajor ++ word e.rdevMinor) (by
      simp only [a, entryBytes, headerBytes, fixedHeader, List.append_assoc]; rfl)
      (by simp [magic, word_length])
  · exact field_append (w := 0) (A := pre ++ magic ++ word e.ino ++ word e.mode ++ word e.uid
      ++ word e.gid ++ word e.nlink ++ word e.mtime ++ word e.fileSize ++ word e.devMajor
      ++ word e.devMinor ++ word e.rdevMajor ++ word e.rdevMinor
      ++ word (UInt32.ofNat (e.name.length + 1))) (by
      simp only [a, entryBytes, headerBytes, fixedHeader, List.append_assoc]; rfl)
      (by simp [magic, word_length])

theorem pad_all (n : Nat) : (pad n).all (· == 0) = true := by
  simp [pad]

/-- Reading an entry where it was written. -/
theorem readAt_entry (pre post : Bytes) (e : Entry) (c : Bytes)
    (hpre : pre.length % 4 = 0) (hn : e.name.length + 1 ≤ u32Max)
    (hc : e.fileSize.toNat = c.length) :
    Newc.readAt (pre ++ (entryBytes e c ++ post)) pre.length
      = some (recOf e c, pre.length + (entryBytes e c).length) := by
  obtain ⟨f0, f1, f2, f3, f4, f5, f6, f7, f8, f9, f10, f11, f12⟩ := fields_entry pre post e c hn
  have hmag : Newc.slice (pre ++ (entryBytes e c ++ post)) pre.length 6 = some Newc.magic := by
    rw [magic_eq]
    exact slice_append (A := pre) (x := magic) (by
      simp only [entryBytes, headerBytes, fixedHeader, List.append_assoc]; rfl) rfl rfl
  have hl := headerBytes_length e
  have hdo : Newc.up4 (pre.length + 110 + (e.name.length + 1))
      = pre.length + (headerBytes e).length := by
    rw [hl]; unfold Newc.up4; omega
  have hnext : Newc.up4 (pre.length + (headerBytes e).length + c.length)
      = pre.length + (entryBytes e c).length := by
    have := headerBytes_mod e
    simp only [entryBytes, List.length_append, pad_length]
    unfold Newc.up4
    omega
  have hname : Newc.slice (pre ++ (entryBytes e c ++ post)) (pre.length + 110) (e.name.length + 1)
      = some (e.name ++ [0]) :=
    slice_append (A := pre ++ fixedHeader e) (x := e.name ++ [0])
      (B := pad (110 + e.name.length + 1) ++ (c ++ (pad c.length ++ post)))
      (by simp only [entryBytes, headerBytes, List.append_assoc])
      (by simp [fixedHeader_length]) (by simp)
  have hdata : Newc.slice (pre ++ (entryBytes e c ++ post)) (pre.length + (headerBytes e).length)
      c.length = some c :=
    slice_append (A := pre ++ headerBytes e) (x := c) (B := pad c.length ++ post)
      (by simp only [entryBytes, List.append_assoc]) (by simp) rfl
  have hpad1 : Newc.slice (pre ++ (entryBytes e c ++ post)) (pre.length + 110 + (e.name.length + 1))
      (pre.length + (headerBytes e).length - (pre.length + 110 + (e.name.length + 1)))
      = some (pad (110 + e.name.length + 1)) :=
    slice_append (A := pre ++ fixedHeader e ++ e.name ++ [0])
      (x := pad (110 + e.name.length + 1)) (B := c ++ (pad c.length ++ post))
      (by simp only [entryBytes, headerBytes, List.append_assoc])
      (by simp [fixedHeader_length]; omega)
      (by rw [hl, pad_length]; unfold Newc.up4; omega)
  have hpad2 : Newc.slice (pre ++ (entryBytes e c ++ post))
      (pre.length + (headerBytes e).length + c.length)
      (pre.length + (entryBytes e c).length - (pre.length + (headerBytes e).length + c.length))
      = some (pad c.length) :=
    slice_append (A := pre ++ headerBytes e ++ c) (x := pad c.length) (B := post)
      (by simp only [entryBytes, List.append_assoc]) (by simp; omega)
      (by simp only [entryBytes, List.length_append]; omega)
  unfold Newc.readAt
  simp only [hmag, f0, f1, f2, f3, f4, f5, f6, f7, f8, f9, f10, f11, f12, hc, hname, hdo, hdata,
    hnext, hpad1, hpad2, Option.bind_eq_bind, Option.bind_some, ne_eq, not_true_eq_false, if_false,
    Nat.add_one_ne_zero, List.all_append, pad_all, Bool.and_self, if_true]
  simp [recOf, pure]

/-- A member written in the middle starts where the reader expects it. -/
theorem entryBytes_pos (e : Entry) (c : Bytes) : 110 < (entryBytes e c).length := by
  simp only [entryBytes, List.length_append, headerBytes_length, Newc.up4]; omega

/-- A list of entries with their data, well-sized. -/
def Sized (es : List (Entry × Bytes)) : Prop :=
  ∀ p ∈ es, p.1.name.length + 1 ≤ u32Max ∧ p.1.fileSize.toNat = p.2.length

def archive (es : List (Entry × Bytes)) : Bytes := es.flatMap fun p => entryBytes p.1 p.2

theorem archive_mod (es : List (Entry × Bytes)) : (archive es).length % 4 = 0 := by
  induction es with
  | nil => rfl
  | cons p es ih =>
    have := entryBytes_mod p.1 p.2
    simp only [archive, List.flatMap_cons, List.length_append] at *
    omega

theorem readFrom_archive (es : List (Entry × Bytes)) (h : Sized es) :
    ∀ (pre : Bytes) (fuel : Nat), pre.length % 4 = 0 → (archive es).length ≤ fuel →
      Newc.readFrom (pre ++ archive es) fuel pre.length = some (es.map fun p => recOf p.1 p.2) := by
  induction es with
  | nil =>
    intro pre fuel _ _
    cases fuel <;> simp [archive, Newc.readFrom]
  | cons p es ih =>
    intro pre fuel hpre hf
    have hp := entryBytes_pos p.1 p.2
    have harch : archive (p :: es) = entryBytes p.1 p.2 ++ archive es := by simp [archive]
    obtain ⟨h1, h2⟩ := h p (by simp)
    rw [harch] at hf ⊢
    simp only [List.length_append] at hf
    cases fuel with
    | zero => omega
    | succ fuel =>
      have hlen : pre.length ≠ (pre ++ (entryBytes p.1 p.2 ++ archive es)).length := by
        simp only [List.length_append]; omega
      simp only [Newc.readFrom, if_neg hlen, readAt_entry pre (archive es) p.1 p.2 hpre h1 h2]
      have := ih (fun q hq => h q (by simp [hq])) (pre ++ entryBytes p.1 p.2) fuel (by
        have := entryBytes_mod p.1 p.2
        simp only [List.length_append]; omega) (by omega)
      rw [List.append_assoc, List.length_append] at this
      simp [this]

theorem readAll_archive (es : List (Entry × Bytes)) (h : Sized es) :
    Newc.readAll (archive es) = some (es.map fun p => recOf p.1 p.2) := by
  have := readFrom_archive es h [] (archive es).length rfl (Nat.le_refl _)
  simpa [Newc.readAll] using this

theorem align4_eq {n : Nat} (h : n ≤ usizeMax - 3) : align4 n = Newc.up4 n := by
  unfold align4
  have hu : usizeMax = 18446744073709551615 := by decide
  rw [if_neg (by omega)]
  have key : ∀ m : Nat, m < 2 ^ 64 → m &&& (usizeMax - (4 - 1)) = m / 4 * 4 := by
    intro m hm
    apply Nat.eq_of_testBit_eq
    intro i
    have h1 : usizeMax - (4 - 1) = (2 ^ 62 - 1) * 2 ^ 2 := by decide
    have h2 : m / 4 * 4 = (m / 2 ^ 2) * 2 ^ 2 := rfl
    rw [Nat.testBit_and, h1, h2, Nat.testBit_mul_two_pow, Nat.testBit_mul_two_pow,
      Nat.testBit_div_two_pow, Nat.testBit_two_pow_sub_one]
    by_cases hi : 2 ≤ i
    · simp only [hi, decide_true, Bool.true_and]
      by_cases h3 : i - 2 < 62
      · simp [h3]; congr 1; omega
      · have : m.testBit i = false := Nat.testBit_lt_two_pow (by
          refine Nat.lt_of_lt_of_le hm (Nat.pow_le_pow_right (by decide) (by omega)))
        have h4 : i - 2 + 2 = i := by omega
        simp [this, h4]
    · simp [hi]
  rw [key _ (by omega)]
  rfl

/-! ### The packing operations -/

def oneEntry (fname contents pfx : Bytes) (m ino : UInt32) : Entry :=
  { name := if pfx ≠ [] then pfx ++ [0x2F] ++ fname else fname
    ino, mode := m ||| 0o100000, uid := 0, gid := 0, nlink := 1, mtime := 0
    fileSize := UInt32.ofNat contents.length
    devMajor := 0, devMinor := 0, rdevMajor := 0, rdevMinor := 0 }

def dirEntry (path : Bytes) (m ino : UInt32) : Entry :=
  { name := path, ino, mode := m ||| 0o040000
    uid := 0, gid := 0, nlink := 1, mtime := 0, fileSize := 0
    devMajor := 0, devMinor := 0, rdevMajor := 0, rdevMinor := 0 }

theorem inode_succ {c : UInt32} (h : c ≠ UInt32.ofNat u32Max) : (c + 1).toNat = c.toNat + 1 := by
  have hlt := c.toNat_lt
  have hne : c.toNat ≠ 4294967295 := by
    intro hc
    apply h
    apply UInt32.toNat.inj
    rw [hc]; rfl
  rw [UInt32.toNat_add]
  have : (1 : UInt32).toNat = 1 := rfl
  omega

theorem emit_ok (b : Bytes) (n : Nat) (s : State) :
    emit (.ok (b, n)) s = (.ok n, { s with buffer := s.buffer ++ b }) := rfl
theorem emit_panic (s : State) : emit .panic s = (.panic, s) := rfl

theorem align4_le (n : Nat) : align4 n ≤ usizeMax := by
  unfold align4
  split
  · exact Nat.le_refl _
  · exact Nat.le_trans Nat.and_le_right (Nat.sub_le _ _)

/-- The three outcomes of `packOne`. -/
theorem packOne_cases (f c p : Bytes) (m : UInt32) (s : State) :
    (∃ e, packOne f c p m s = (.err e, s)) ∨
    (∃ e : Entry, e = oneEntry f c p m (s.inodeCounter + 1) ∧ c.length ≤ u32Max ∧
      s.inodeCounter ≠ UInt32.ofNat u32Max ∧ p.length + f.length < u32Max ∧
      s.buffer.length + (align4 (staticHeaderLen + 1 + p.length + f.length) + align4 c.length)
        ≤ usizeMax ∧
      ((e.name.length + 1 ≤ u32Max ∧
        packOne f c p m s = (.ok (entryBytes e c).length,
          { buffer := s.buffer ++ entryBytes e c, inodeCounter := s.inodeCounter + 1 })) ∨
       (¬ e.name.length + 1 ≤ u32Max ∧
        packOne f c p m s = (.panic, { s with inodeCounter := s.inodeCounter + 1 })))) := by
  generalize hr : packOne f c p m s = r
  unfold packOne at hr
  dsimp only at hr
  by_cases h1 : c.length > u32Max
  · rw [if_pos h1] at hr; exact .inl ⟨_, hr.symm⟩
  rw [if_neg h1] at hr
  by_cases h2 : s.inodeCounter = UInt32.ofNat u32Max
  · rw [if_pos h2] at hr; exact .inl ⟨_, hr.symm⟩
  rw [if_neg h2] at hr
  by_cases h3 : staticHeaderLen + 1 > usizeMax - p.length
  · rw [if_pos h3] at hr; exact .inl ⟨_, hr.symm⟩
  rw [if_neg h3] at hr
  by_cases h4 : staticHeaderLen + 1 + p.length > usizeMax - f.length
  · rw [if_pos h4] at hr; exact .inl ⟨_, hr.symm⟩
  rw [if_neg h4] at hr
  by_cases h5 : p.length + f.length ≥ u32Max
  · rw [if_pos h5] at hr; exact .inl ⟨_, hr.symm⟩
  rw [if_neg h5] at hr
  generalize hA : align4 (staticHeaderLen + 1 + p.length + f.length) = A at *
  by_cases h6 : A = usizeMax
  · rw [if_pos h6] at hr; exact .inl ⟨_, hr.symm⟩
  rw [if_neg h6] at hr
  have hCle := align4_le c.length
  generalize hC : align4 c.length = C at *
  by_cases h7 : C = usizeMax
  · rw [if_pos h7] at hr; exact .inl ⟨_, hr.symm⟩
  rw [if_neg h7] at hr
  by_cases h8 : A > usizeMax - C
  · rw [if_pos h8] at hr; exact .inl ⟨_, hr.symm⟩
  rw [if_neg h8] at hr
  by_cases h9 : s.buffer.length > usizeMax - (A + C)
  · rw [if_pos h9] at hr; exact .inl ⟨_, hr.symm⟩
  rw [if_neg h9] at hr
  right
  refine ⟨_, rfl, by omega, h2, by omega, by omega, ?_⟩
  by_cases hn : (oneEntry f c p m (s.inodeCounter + 1)).name.length + 1 ≤ u32Max
  · left
    refine ⟨hn, ?_⟩
    have := writeEntry_ok (oneEntry f c p m (s.inodeCounter + 1)) c hn
    rw [← hr]
    unfold oneEntry at this ⊢
    rw [this, emit_ok]
  · right
    refine ⟨hn, ?_⟩
    have := writeEntry_panic (oneEntry f c p m (s.inodeCounter + 1)) c hn
    rw [← hr]
    unfold oneEntry at this
    rw [this, emit_panic]

/-- The three outcomes of `packDir`. -/
theorem packDir_cases (path : Bytes) (m : UInt32) (s : State) :
    (∃ e, packDir path m s = (.err e, s)) ∨
    (∃ e : Entry, e = dirEntry path m (s.inodeCounter + 1) ∧
      s.inodeCounter ≠ UInt32.ofNat u32Max ∧
      ((e.name.length + 1 ≤ u32Max ∧
        packDir path m s = (.ok (),
          { buffer := s.buffer ++ entryBytes e [], inodeCounter := s.inodeCounter + 1 })) ∨
       (¬ e.name.length + 1 ≤ u32Max ∧
        packDir path m s = (.panic, { s with inodeCounter := s.inodeCounter + 1 })))) := by
  generalize hr : packDir path m s = r
  unfold packDir at hr
  dsimp only at hr
  by_cases h1 : s.inodeCounter = UInt32.ofNat u32Max
  · rw [if_pos h1] at hr; exact .inl ⟨_, hr.symm⟩
  rw [if_neg h1] at hr
  by_cases h2 : staticHeaderLen > usizeMax - path.length
  · rw [if_pos h2] at hr; exact .inl ⟨_, hr.symm⟩
  rw [if_neg h2] at hr
  by_cases h3 : s.buffer.length = usizeMax
      ∨ s.buffer.length > usizeMax - align4 (staticHeaderLen + path.length)
  · rw [if_pos h3] at hr; exact .inl ⟨_, hr.symm⟩
  rw [if_neg h3] at hr
  right
  refine ⟨_, rfl, h1, ?_⟩
  by_cases hn : (dirEntry path m (s.inodeCounter + 1)).name.length + 1 ≤ u32Max
  · left
    refine ⟨hn, ?_⟩
    have := writeHeader_ok (dirEntry path m (s.inodeCounter + 1)) hn
    rw [headerBytes_eq_entryBytes] at this
    unfold dirEntry at this ⊢
    rw [this, emit_ok] at hr
    exact hr.symm
  · right
    refine ⟨hn, ?_⟩
    have := writeHeader_panic (dirEntry path m (s.inodeCounter + 1)) hn
    unfold dirEntry at this
    rw [this, emit_panic] at hr
    exact hr.symm

/-- The archive state holds exactly the entries `es`, numbered from 1. -/
structure Holds (s : State) (es : List (Entry × Bytes)) : Prop where
  buffer : s.buffer = archive es
  sized : Sized es
  counter : s.inodeCounter.toNat = es.length
  inos : es.map (fun p => p.1.ino.toNat) = List.range' 1 es.length

theorem Holds.new : Holds new [] := ⟨rfl, by simp [Sized], rfl, rfl⟩

theorem Holds.push {s : State} {es : List (Entry × Bytes)} (h : Holds s es) {e : Entry} {c : Bytes}
    (hi : s.inodeCounter ≠ UInt32.ofNat u32Max) (he : e.ino = s.inodeCounter + 1)
    (hn : e.name.length + 1 ≤ u32Max) (hc : e.fileSize.toNat = c.length) :
    Holds { buffer := s.buffer ++ entryBytes e c, inodeCounter := s.inodeCounter + 1 }
      (es ++ [(e, c)]) := by
  refine ⟨?_, ?_, ?_, ?_⟩
  · simp [archive, h.buffer]
  · intro p hp
    rcases List.mem_append.mp hp with hp | hp
    · exact h.sized p hp
    · simp only [List.mem_singleton] at hp; subst hp; exact ⟨hn, hc⟩
  · simp [inode_succ hi, h.counter]
  · simp [h.inos, List.range'_1_concat, he, inode_succ hi, h.counter]
    omega

end Verif.Cpio
