import Mathlib.Data.List.Forall2
import Verif.Lemmas.CpioOps
/-!
# C01–C05: the CPIO writer (`rust/uefi/pio/src/writer.rs`)

Specifications: `Verif/Spec/Newc.lean` (archive format and reader), `Verif/Spec/CpioMembers.lean`
(what each call should add).
-/
namespace Verif.Cpio
open Verif

/-- The calls of a session, seen from an arbitrary state. -/
theorem session (ops : List Op) : ∀ {s : State} {es : List (Entry × Bytes)},
    Holds s es → Plain es → (∀ r ∈ outcomes ops s, r.2 ≠ .panic) →
    ∃ (fs : List (Entry × Bytes)) (parts : List (List Member)),
      Holds (runAll ops s) (es ++ fs) ∧ Plain (es ++ fs) ∧ fs.map asMember = parts.flatten ∧
      List.Forall₂ (fun (call : Op × Res Err Unit) part =>
        part <+: call.1.members ∧ (call.2 = .ok () → part = call.1.members) ∧
        (call.2 ≠ .ok () → part.length < call.1.members.length)) (outcomes ops s) parts := by
  induction ops with
  | nil => intro s es h hp _; exact ⟨[], [], by simpa [runAll] using h, by simpa using hp, rfl, .nil⟩
  | cons o os ih =>
    intro s es h hpl hnp
    obtain ⟨fs, h1, h2, h3, h4, h5⟩ := adds o h (hnp (o, (o.run s).1) (by simp [outcomes]))
    obtain ⟨gs, parts, g1, g2, g3, g4⟩ := ih h1 (hpl.append h2) (fun r hr => hnp r (by
      simp [outcomes, hr]))
    refine ⟨fs ++ gs, fs.map asMember :: parts, ?_, ?_, ?_, ?_⟩
    · simpa [runAll] using g1
    · simpa using g2
    · simp [g3]
    · exact .cons ⟨h3, h4, fun hne => by simpa using h5 hne⟩ g4

theorem holds_readAll {s : State} {es : List (Entry × Bytes)} (h : Holds s es) (hp : Plain es) :
    Newc.readAll s.buffer = some (numbered (es.map asMember)) := by
  rw [h.buffer, readAll_archive es h.sized]
  congr 1
  unfold numbered
  apply List.ext_getElem
  · simp
  · intro i h1 h2
    simp only [List.length_map] at h1
    have hi := congrArg (fun l => l[i]?) h.inos
    simp only [List.getElem?_map, List.getElem?_range', h1, List.getElem?_eq_getElem h1,
      Option.map_some, Option.some.injEq, Nat.one_mul] at hi
    have hpi := hp es[i] (List.getElem_mem h1)
    simp only [List.getElem_map, List.getElem_zipIdx]
    rw [hpi, hi]
    rfl

/-- **C01.** After any session of packing calls, whatever their results (no panic), a newc reader
finds exactly the members of the calls in order: everything for a successful call, and for a failed
one a strictly shorter initial part (nothing at all for `pack_one`, `pack_dir`, `pack_trailer`). -/
theorem C01_cpio_roundtrip (ops : List Op) (hnp : NoPanic ops) :
    ∃ parts : List (List Member),
      Newc.readAll (runAll ops new).buffer = some (numbered parts.flatten) ∧
      List.Forall₂ (fun (call : Op × Res Err Unit) part =>
        part <+: call.1.members ∧ (call.2 = .ok () → part = call.1.members) ∧
        (call.2 ≠ .ok () → part.length < call.1.members.length)) (outcomes ops new) parts := by
  obtain ⟨fs, parts, h1, h2, h3, h4⟩ := session ops Holds.new (by simp [Plain]) hnp
  refine ⟨parts, ?_, h4⟩
  rw [← h3]
  simpa using holds_readAll h1 h2

theorem outcomes_map (ops : List Op) (s : State) : (outcomes ops s).map Prod.fst = ops := by
  induction ops generalizing s with
  | nil => rfl
  | cons o os ih => simp [outcomes, ih]

/-- **C01**, when every call succeeds: the reader finds exactly the members of all the calls. -/
theorem C01_cpio_roundtrip_ok (ops : List Op) (hok : AllOk ops) :
    Newc.readAll (runAll ops new).buffer = some (numbered (ops.flatMap Op.members)) := by
  have hnp : NoPanic ops := fun r hr => by rw [hok r hr]; simp
  obtain ⟨parts, h1, h2⟩ := C01_cpio_roundtrip ops hnp
  rw [h1]
  have : parts = (outcomes ops new).map (fun r => r.1.members) := by
    clear h1
    revert hok h2
    unfold AllOk
    generalize outcomes ops new = l
    intro hok h2
    induction h2 with
    | nil => rfl
    | cons hd _ ih =>
      simp only [List.map_cons]
      rw [hd.2.1 (hok _ (by simp)), ih (fun r hr => hok r (by simp [hr]))]
  have hm := outcomes_map ops new
  have hf : ops.flatMap Op.members
      = ((outcomes ops new).map (fun r => r.1.members)).flatten := by
    conv => lhs; rw [← hm]
    simp [List.flatMap_def, Function.comp_def]
  rw [this, hf]

/-- A session with directories, files with all padding lengths, and the trailer. -/
def demoOps : List Op :=
  [.prefix [0x61, 0x2F, 0x62] 0o500, .one [0x66] [1, 2, 3] [0x61, 0x2F, 0x62] 0o400,
   .one [0x66, 0x67] [1, 2, 3, 4, 5] [] 0o400, .dir [0x64] 0o700, .trailer]

set_option maxRecDepth 100000 in
/-- Non-vacuity of C01. -/
example : AllOk demoOps ∧ NoPanic demoOps ∧ (demoOps.flatMap Op.members).length = 6 := by
  have h : ∀ r ∈ outcomes demoOps new, r.2 = .ok () := by decide
  exact ⟨h, fun r hr => by rw [h r hr]; simp, rfl⟩

/-- **C02.** The archive length is a multiple of four after any session, and two archives can be
concatenated: the reader finds the members of the first followed by those of the second. -/
theorem C02_cpio_alignment (ops ops' : List Op) (h : NoPanic ops) (h' : NoPanic ops') :
    (runAll ops new).buffer.length % 4 = 0 ∧
    ∃ r r', Newc.readAll (runAll ops new).buffer = some r ∧
      Newc.readAll (runAll ops' new).buffer = some r' ∧
      Newc.readAll ((runAll ops new).buffer ++ (runAll ops' new).buffer) = some (r ++ r') := by
  obtain ⟨fs, _, h1, _, _, _⟩ := session ops Holds.new (by simp [Plain]) h
  obtain ⟨gs, _, g1, _, _, _⟩ := session ops' Holds.new (by simp [Plain]) h'
  simp only [List.nil_append] at h1 g1
  refine ⟨by rw [h1.buffer]; exact archive_mod _, fs.map (fun p => recOf p.1 p.2),
    gs.map (fun p => recOf p.1 p.2), ?_, ?_, ?_⟩
  · rw [h1.buffer]; exact readAll_archive _ h1.sized
  · rw [g1.buffer]; exact readAll_archive _ g1.sized
  · have : (runAll ops new).buffer ++ (runAll ops' new).buffer = archive (fs ++ gs) := by
      rw [h1.buffer, g1.buffer]; simp [archive]
    rw [this, readAll_archive _ (fun p hp => by
      rcases List.mem_append.mp hp with hp | hp
      · exact h1.sized p hp
      · exact g1.sized p hp)]
    simp

/-- **C02**, where things are: when `pack_one` succeeds on an archive reached by any session, the
new header starts at an offset divisible by four, so does the file body, and the body is exactly the
packed contents followed by fewer than four zero bytes. -/
theorem C02_cpio_body_alignment (ops : List Op) (hnp : NoPanic ops) (f c p : Bytes) (m : UInt32)
    (n : Nat) (s' : State) (h : packOne f c p m (runAll ops new) = (.ok n, s')) :
    ∃ header padding, s'.buffer = (runAll ops new).buffer ++ header ++ c ++ padding ∧
      (runAll ops new).buffer.length % 4 = 0 ∧
      ((runAll ops new).buffer ++ header).length % 4 = 0 ∧
      s'.buffer.length % 4 = 0 ∧ padding.length < 4 ∧ ∀ b ∈ padding, b = 0 := by
  have ha := (C02_cpio_alignment ops ops hnp hnp).1
  rcases packOne_cases f c p m (runAll ops new) with ⟨e, he⟩ | ⟨e, _, _, _, _, _, ⟨_, hr⟩ | ⟨_, hr⟩⟩
  · rw [he] at h; simp at h
  · rw [hr] at h
    simp only [Prod.mk.injEq] at h
    obtain ⟨_, hs⟩ := h
    have hm := headerBytes_mod e
    refine ⟨headerBytes e, pad c.length, ?_, ha, ?_, ?_, ?_, ?_⟩
    · rw [← hs]; simp [entryBytes]
    · simp only [List.length_append]; omega
    · have := entryBytes_mod e c
      rw [← hs]; simp only [List.length_append]; omega
    · rw [pad_length]; omega
    · intro b hb; exact List.eq_of_mem_replicate hb
  · rw [hr] at h; simp at h

set_option maxRecDepth 100000 in
/-- Non-vacuity of C02's body statement. -/
example : ∃ n s', NoPanic [.dir [0x64] 0o700] ∧
    packOne [0x66] [1, 2, 3] [0x64] 0o400 (runAll [.dir [0x64] 0o700] new) = (.ok n, s') :=
  ⟨_, _, by
    have h : ∀ r ∈ outcomes [.dir [0x64] 0o700] new, r.2 = .ok () := by decide
    exact fun r hr => by rw [h r hr]; simp, rfl⟩

/-- **C03.** The inode numbers in the archive are 1, 2, 3, ... in packing order, and never more than
`2^32 - 1` of them. -/
theorem C03_cpio_inodes (ops : List Op) (hnp : NoPanic ops) :
    ∃ recs, Newc.readAll (runAll ops new).buffer = some recs ∧
      recs.map (·.ino) = List.range' 1 recs.length ∧ (recs.map (·.ino)).Nodup ∧
      recs.length ≤ 2 ^ 32 - 1 := by
  obtain ⟨fs, _, h1, h2, _, _⟩ := session ops Holds.new (by simp [Plain]) hnp
  simp only [List.nil_append] at h1 h2
  refine ⟨fs.map (fun p => recOf p.1 p.2), by rw [h1.buffer]; exact readAll_archive _ h1.sized, ?_⟩
  have hi := h1.inos
  have hc := h1.counter
  have hlt := (runAll ops new).inodeCounter.toNat_lt
  simp only [List.map_map, List.length_map]
  have : ((fun x : Newc.Rec => x.ino) ∘ fun p : Entry × Bytes => recOf p.1 p.2)
      = fun p => p.1.ino.toNat := rfl
  rw [this, hi]
  exact ⟨rfl, List.nodup_range', by omega⟩

/-- **C03**, no wrap-around: once an archive has `2^32 - 1` members every further call fails with
`MaximumInodesReached` and changes nothing (`pack_one` checks the size of the contents first). -/
theorem C03_cpio_inodes_exhausted (ops : List Op) (hnp : NoPanic ops)
    (recs : List Newc.Rec) (hr : Newc.readAll (runAll ops new).buffer = some recs)
    (hfull : recs.length = 2 ^ 32 - 1) :
    (∀ path m, packDir path m (runAll ops new) = (.err .maximumInodesReached, runAll ops new)) ∧
    (∀ f c p m, c.length ≤ 2 ^ 32 - 1 →
      packOne f c p m (runAll ops new) = (.err .maximumInodesReached, runAll ops new)) := by
  obtain ⟨fs, _, h1, h2, _, _⟩ := session ops Holds.new (by simp [Plain]) hnp
  simp only [List.nil_append] at h1 h2
  have hread : Newc.readAll (runAll ops new).buffer = some (fs.map fun p => recOf p.1 p.2) := by
    rw [h1.buffer]; exact readAll_archive _ h1.sized
  rw [hread] at hr
  have hl : fs.length = 2 ^ 32 - 1 := by
    rw [← hfull, ← Option.some.inj hr]; simp
  have hi : (runAll ops new).inodeCounter = UInt32.ofNat u32Max := by
    apply UInt32.toNat.inj
    rw [h1.counter, hl]
    rfl
  constructor
  · intro path m
    unfold packDir
    rw [if_pos hi]
  · intro f c p m hc
    have hu : u32Max = 2 ^ 32 - 1 := rfl
    unfold packOne
    rw [if_neg (by omega), if_pos hi]

/-- **C03**: so of the public calls all fail then, and none changes anything: with `MaximumInodesReached`, or because the
contents are too large for any archive. -/
theorem C03_every_call_fails (ops : List Op) (hnp : NoPanic ops)
    (recs : List Newc.Rec) (hr : Newc.readAll (runAll ops new).buffer = some recs)
    (hfull : recs.length = 2 ^ 32 - 1) (op : Op) :
    op.run (runAll ops new) = (.err .maximumInodesReached, runAll ops new) ∨
    ∃ f c p m, op = .one f c p m ∧ 2 ^ 32 - 1 < c.length ∧
      op.run (runAll ops new) = (.err (.tooLargeFileSize c.length), runAll ops new) := by
  obtain ⟨h1, h2⟩ := C03_cpio_inodes_exhausted ops hnp recs hr hfull
  have bindErr : ∀ {α β : Type} {m : M α} {f : α → M β} {s : State} {e : Err}, m s = (.err e, s) →
      (m >>= f) s = (.err e, s) := fun h => by rw [RM.bind_run, h]
  cases op with
  | one f c p m =>
    by_cases hc : c.length ≤ 2 ^ 32 - 1
    · exact .inl (bindErr (h2 f c p m hc))
    · refine .inr ⟨f, c, p, m, rfl, by omega, bindErr ?_⟩
      unfold packOne
      rw [if_pos (show c.length > u32Max from Nat.lt_of_not_le hc)]
  | dir p m => exact .inl (h1 p m)
  | «prefix» p m =>
    left
    show packPrefix p m _ = _
    unfold packPrefix
    cases hl : (splitSlash p).getLast? with
    | none => exact absurd (List.getLast?_eq_none_iff.1 hl) (splitSlash_ne_nil p)
    | some last =>
      dsimp only
      cases (splitSlash p).dropLast with
      | nil => exact h1 _ _
      | cons c cs => exact bindErr (bindErr (h1 _ _))
  | trailer => exact .inl (bindErr (h2 _ _ _ _ (by simp)))

/-- `n` empty directories can be packed for every `n < 2^32`. -/
theorem pack_many (n : Nat) (hn : n ≤ 2 ^ 32 - 1) :
    ∃ es, Holds (runAll (List.replicate n (.dir [] 0)) new) es ∧ es.length = n ∧
      (runAll (List.replicate n (.dir [] 0)) new).buffer.length = 112 * n ∧
      AllOk (List.replicate n (.dir [] 0)) := by
  have hu : u32Max = 4294967295 := by decide
  have hU : usizeMax = 18446744073709551615 := by decide
  -- generalised over the state
  have key : ∀ k (s : State) (es : List (Entry × Bytes)), Holds s es →
      s.buffer.length = 112 * es.length → es.length + k ≤ 2 ^ 32 - 1 →
      ∃ fs, Holds (runAll (List.replicate k (.dir [] 0)) s) fs ∧ fs.length = es.length + k ∧
        (runAll (List.replicate k (.dir [] 0)) s).buffer.length = 112 * fs.length ∧
        ∀ r ∈ outcomes (List.replicate k (.dir [] 0)) s, r.2 = .ok () := by
    intro k
    induction k with
    | zero => intro s es h hb _; exact ⟨es, h, rfl, hb, by simp [outcomes]⟩
    | succ k ih =>
      intro s es h hb hk
      have hi : s.inodeCounter ≠ UInt32.ofNat u32Max := by
        intro hc
        have := h.counter
        rw [hc] at this
        have : 4294967295 = es.length := this
        omega
      have hA : align4 (staticHeaderLen + ([] : Bytes).length) = 112 := by decide
      have hname : (dirEntry [] 0 (s.inodeCounter + 1)).name.length + 1 ≤ u32Max := by
        change 0 + 1 ≤ u32Max; decide
      have hrun : (Op.dir [] 0).run s = (.ok (),
          ⟨s.buffer ++ entryBytes (dirEntry [] 0 (s.inodeCounter + 1)) [], s.inodeCounter + 1⟩) := by
        have hw := writeHeader_ok (dirEntry [] 0 (s.inodeCounter + 1)) hname
        rw [headerBytes_eq_entryBytes] at hw
        change packDir [] 0 s = _
        unfold packDir
        rw [if_neg hi]
        dsimp only
        rw [if_neg (by decide), hA, if_neg (by omega)]
        unfold dirEntry at hw ⊢
        rw [hw, emit_ok]
      have hlen : (entryBytes (dirEntry [] 0 (s.inodeCounter + 1)) []).length = 112 := by
        rw [← headerBytes_eq_entryBytes, headerBytes_length]
        change Newc.up4 (110 + 0 + 1) = 112; decide
      have hh := h.push (e := dirEntry [] 0 (s.inodeCounter + 1)) (c := []) hi rfl hname rfl
      simp only [List.replicate_succ, runAll, outcomes, hrun]
      obtain ⟨fs, g1, g2, g3, g4⟩ := ih _ _ hh (by
        simp only [List.length_append, hlen, List.length_cons, List.length_nil, hb]; omega) (by
        simp only [List.length_append, List.length_cons, List.length_nil]; omega)
      refine ⟨fs, g1, by rw [g2]; simp; omega, g3, ?_⟩
      intro r hr
      simp only [List.mem_cons] at hr
      rcases hr with rfl | hr
      · rfl
      · exact g4 r hr
  obtain ⟨fs, h1, h2, h3, h4⟩ := key n new [] Holds.new rfl (by simpa using hn)
  exact ⟨fs, h1, by simpa using h2, by simpa [h2] using h3, h4⟩

/-- Non-vacuity of C03: the full archive is reachable. -/
example : ∃ ops recs, NoPanic ops ∧ Newc.readAll (runAll ops new).buffer = some recs ∧
    recs.length = 2 ^ 32 - 1 := by
  obtain ⟨es, h1, h2, _, h4⟩ := pack_many (2 ^ 32 - 1) (Nat.le_refl _)
  exact ⟨_, es.map (fun p => recOf p.1 p.2), fun r hr => by rw [h4 r hr]; simp,
    by rw [h1.buffer]; exact readAll_archive es h1.sized, by simp [h2]⟩

/-- **C04.** A `pack_one` or `pack_dir` that returns an error leaves bytes and inode counter
exactly as they were; a successful one appends, and `pack_one` returns exactly the number of bytes
appended. -/
theorem C04_cpio_atomic (s : State) :
    (∀ f c p m, (∀ e s', packOne f c p m s = (.err e, s') → s' = s) ∧
      (∀ n s', packOne f c p m s = (.ok n, s') →
        ∃ added, s'.buffer = s.buffer ++ added ∧ n = added.length ∧
          s'.inodeCounter.toNat = s.inodeCounter.toNat + 1)) ∧
    (∀ p m, (∀ e s', packDir p m s = (.err e, s') → s' = s) ∧
      (∀ s', packDir p m s = (.ok (), s') →
        ∃ added, s'.buffer = s.buffer ++ added ∧ added ≠ [] ∧
          s'.inodeCounter.toNat = s.inodeCounter.toNat + 1)) := by
  constructor
  · intro f c p m
    rcases packOne_cases f c p m s with ⟨e, he⟩ | ⟨e, _, _, hi, _, _, ⟨_, hr⟩ | ⟨_, hr⟩⟩
    · simp only [he, Prod.mk.injEq, reduceCtorEq, false_and, false_implies, implies_true, and_true]
      intro _ s' h; exact h.2.symm
    · simp only [hr, Prod.mk.injEq, reduceCtorEq, false_and, false_implies, implies_true, true_and]
      rintro n s' ⟨h1, rfl⟩
      exact ⟨_, rfl, (Res.ok.inj h1).symm, inode_succ hi⟩
    · simp [hr]
  · intro p m
    rcases packDir_cases p m s with ⟨e, he⟩ | ⟨e, _, hi, ⟨_, hr⟩ | ⟨_, hr⟩⟩
    · simp only [he, Prod.mk.injEq, reduceCtorEq, false_and, false_implies, implies_true, and_true]
      intro _ s' h; exact h.2.symm
    · simp only [hr, Prod.mk.injEq, reduceCtorEq, false_and, false_implies, implies_true, true_and]
      rintro s' rfl
      refine ⟨_, rfl, ?_, inode_succ hi⟩
      intro h0
      have := entryBytes_pos e []
      rw [h0] at this
      simp at this
    · simp [hr]

/-- Non-vacuity of C04: both outcomes occur. -/
example : (∃ n s', packOne [0x66] [1, 2, 3] [] 0o400 new = (.ok n, s')) ∧
    (∃ e s', packOne [0x66] [] [] 0 ⟨[], UInt32.ofNat u32Max⟩ = (.err e, s')) :=
  ⟨⟨_, _, rfl⟩, ⟨_, _, rfl⟩⟩

/-- **C05 is false of the code at exactly one length**: a non-empty prefix and a name with
`prefix + name = 2^32 - 2` bytes passes the length check (writer.rs:212) although `prefix/name`
plus NUL needs `2^32` bytes; the `expect` (writer.rs:82-84) then panics. -/
theorem C05_cpio_panics_at_boundary :
    ∃ f p : Bytes, p ≠ [] ∧ p.length + f.length = 2 ^ 32 - 2 ∧
      (packOne f [] p 0 new).1 = .panic := by
  refine ⟨List.replicate (2 ^ 32 - 3) 0x61, [0x61], by simp, by
    rw [List.length_replicate]; simp, ?_⟩
  have hu : u32Max = 4294967295 := by decide
  have hU : usizeMax = 18446744073709551615 := by decide
  generalize hf : (List.replicate (2 ^ 32 - 3) (0x61 : UInt8)) = f
  have hfl : f.length = 4294967293 := by rw [← hf, List.length_replicate]
  have hw := writeEntry_panic (oneEntry f [] [0x61] 0 (new.inodeCounter + 1)) [] (by
    simp only [oneEntry, ne_eq, reduceCtorEq, not_false_eq_true, if_true, List.length_append,
      List.length_cons, List.length_nil, hfl, hu]
    omega)
  unfold oneEntry at hw
  unfold packOne
  dsimp only [new] at hw ⊢
  have h4 : staticHeaderLen + 1 + [(0x61 : UInt8)].length = 112 := rfl
  have h6 : align4 (112 + f.length) = 4294967408 := by rw [hfl]; decide
  have h7 : align4 ([] : Bytes).length = 0 := by decide
  have h8 : ([(0x61 : UInt8)].length + f.length) = 4294967294 := by rw [hfl]; rfl
  rw [hw, h4, h6, h7, h8, hfl, if_neg (by decide), if_neg (by decide), if_neg (by decide),
    if_neg (by decide), if_neg (by decide), if_neg (by decide), if_neg (by decide)]
  rfl

/-- **C05, partial** (missing: the boundary case refuted above).  Away from that one length
`pack_one` never panics, and contents or names that do not fit their 32-bit fields are errors. -/
theorem C05_cpio_size_limits_partial (s : State) (f c p : Bytes) (m : UInt32)
    (hb : p = [] ∨ p.length + f.length ≠ 2 ^ 32 - 2) :
    (packOne f c p m s).1 ≠ .panic ∧
    (c.length > 2 ^ 32 - 1 → ∃ e, packOne f c p m s = (.err e, s)) ∧
    ((if p = [] then f else p ++ [0x2F] ++ f).length + 1 > 2 ^ 32 - 1 →
      ∃ e, packOne f c p m s = (.err e, s)) := by
  have hu : u32Max = 2 ^ 32 - 1 := rfl
  have hname : ∀ i, (oneEntry f c p m i).name = if p = [] then f else p ++ [0x2F] ++ f := by
    intro i; simp [oneEntry]
  rcases packOne_cases f c p m s with ⟨e, he⟩ | ⟨e, hee, hc, hi, hl, _, ⟨hn, hr⟩ | ⟨hn, hr⟩⟩
  · rw [he]; simp
  · rw [hee, hname] at hn
    refine ⟨by simp [hr], fun h => by omega, fun h => by omega⟩
  · exfalso
    rw [hee, hname] at hn
    rcases hb with hb | hb
    · subst hb; simp at hn hl; omega
    · by_cases h0 : p = []
      · subst h0; simp at hn hl; omega
      · simp only [h0, if_false, List.length_append, List.length_cons, List.length_nil] at hn
        omega

/-- Non-vacuity of C05: over-long contents exist, and the error is produced. -/
example : ∃ c : Bytes, c.length > 2 ^ 32 - 1 ∧
    packOne [0x66] c [] 0o400 new = (.err (.tooLargeFileSize c.length), new) := by
  refine ⟨List.replicate (2 ^ 32) 0, by rw [List.length_replicate]; decide, ?_⟩
  unfold packOne
  rw [if_pos]
  rw [List.length_replicate]; decide

end Verif.Cpio
