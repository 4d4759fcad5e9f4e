import Verif.Lemmas.Cpio
import Verif.Spec.CpioMembers
/-! Every packing call adds (a prefix of) its members. -/
namespace Verif.Cpio
open Verif

def asMember (p : Entry × Bytes) : Member := ⟨p.1.mode.toNat, p.1.name, p.2⟩

/-- Entry fields the stub always sets to the same value. -/
def Plain (es : List (Entry × Bytes)) : Prop :=
  ∀ p ∈ es, recOf p.1 p.2 = Newc.member p.1.ino.toNat p.1.mode.toNat p.1.name p.2

theorem Plain.append {es fs : List (Entry × Bytes)} (h : Plain es) (h' : Plain fs) :
    Plain (es ++ fs) := by
  intro p hp
  rcases List.mem_append.mp hp with hp | hp
  · exact h p hp
  · exact h' p hp

/-- How one call transforms an archive holding `es`. -/
def Adds (op : Op) (s : State) (es : List (Entry × Bytes)) : Prop :=
  (op.run s).1 ≠ .panic → ∃ fs, Holds (op.run s).2 (es ++ fs) ∧ Plain fs ∧
    fs.map asMember <+: op.members ∧
    ((op.run s).1 = .ok () → fs.map asMember = op.members) ∧
    ((op.run s).1 ≠ .ok () → fs.length < op.members.length)

theorem plain_one (f c p : Bytes) (m i : UInt32) : Plain [(oneEntry f c p m i, c)] := by
  intro q hq
  simp only [List.mem_singleton] at hq
  subst hq
  rfl

theorem plain_dir (p : Bytes) (m i : UInt32) : Plain [(dirEntry p m i, [])] := by
  intro q hq
  simp only [List.mem_singleton] at hq
  subst hq
  rfl

theorem adds_one (f c p : Bytes) (m : UInt32) {s : State} {es : List (Entry × Bytes)}
    (h : Holds s es) : Adds (.one f c p m) s es := by
  intro hp
  have hrun : (Op.one f c p m).run s = match packOne f c p m s with
      | (.ok _, s') => (.ok (), s')
      | (.err e, s') => (.err e, s')
      | (.panic, s') => (.panic, s') := by
    simp only [Op.run, RM.bind_run]
    rcases packOne f c p m s with ⟨_ | _ | _, s'⟩ <;> rfl
  rcases packOne_cases f c p m s with ⟨e, he⟩ | ⟨e, he, hc, hi, -, -, ⟨hn, hr⟩ | ⟨hn, hr⟩⟩
  · rw [he] at hrun
    refine ⟨[], ?_, ?_, ?_, ?_, ?_⟩ <;> simp [hrun, Plain, Op.members, h]
  · rw [hr] at hrun
    simp only [hrun]
    have hfs : e.fileSize.toNat = c.length := by
      have hu : u32Max = 4294967295 := by decide
      have : e.fileSize = UInt32.ofNat c.length := by rw [he]; rfl
      rw [this, UInt32.toNat_ofNat']
      apply Nat.mod_eq_of_lt; omega
    refine ⟨[(e, c)], h.push hi (by rw [he]; rfl) hn hfs, ?_, ?_⟩
    · rw [he]; exact plain_one _ _ _ _ _
    · have : [(e, c)].map asMember = (Op.one f c p m).members := by
        subst he
        simp only [List.map_cons, List.map_nil, asMember, oneEntry, Op.members, UInt32.toNat_or,
          ite_not]
        rfl
      simp only [this]
      simp
  · rw [hr] at hrun
    simp [hrun] at hp

theorem adds_trailer {s : State} {es : List (Entry × Bytes)}
    (h : Holds s es) : Adds .trailer s es := by
  have := adds_one trailerName [] [] 0 h
  have hm : (Op.one trailerName [] [] 0).members = Op.members .trailer := by decide
  have hr : (Op.one trailerName [] [] 0).run = Op.run .trailer := rfl
  unfold Adds at *
  rw [hr, hm] at this
  exact this

theorem adds_dir (p : Bytes) (m : UInt32) {s : State} {es : List (Entry × Bytes)}
    (h : Holds s es) : Adds (.dir p m) s es := by
  intro hp
  have hrun : (Op.dir p m).run s = packDir p m s := rfl
  rcases packDir_cases p m s with ⟨e, he⟩ | ⟨e, he, hi, ⟨hn, hr⟩ | ⟨hn, hr⟩⟩
  · rw [he] at hrun
    refine ⟨[], ?_, ?_, ?_, ?_, ?_⟩ <;> simp [hrun, Plain, Op.members, h]
  · rw [hr] at hrun
    simp only [hrun]
    refine ⟨[(e, [])], h.push hi (by rw [he]; rfl) hn (by rw [he]; rfl), ?_, ?_⟩
    · rw [he]; exact plain_dir _ _ _
    · have : [(e, ([] : Bytes))].map asMember = (Op.dir p m).members := by
        subst he
        simp only [List.map_cons, List.map_nil, asMember, dirEntry, Op.members, UInt32.toNat_or]
        rfl
      simp only [this]
      simp
  · rw [hr] at hrun
    simp [hrun] at hp

/-! #### `pack_prefix` -/

/-- The directories `pack_prefix` makes for the components `cs` below `anc`. -/
def dirNames : Bytes → List Bytes → List Bytes
  | _, [] => []
  | anc, c :: cs => (anc ++ [0x2F] ++ c) :: dirNames (anc ++ [0x2F] ++ c) cs

def dirMember (mode : Nat) (name : Bytes) : Member := ⟨mode ||| Newc.S_IFDIR, name, []⟩

/-- Sequence of `packDir` calls. -/
def packDirs : List (Bytes × UInt32) → M Unit
  | [] => pure ()
  | (p, m) :: rest => do packDir p m; packDirs rest

theorem packAncestors_run (anc : Bytes) (cs : List Bytes) (k : Bytes → M Unit) (s : State) :
    (packAncestors anc cs >>= k) s
      = (packDirs ((dirNames anc cs).map (·, 0o555)) >>= fun _ => k (dirNames anc cs |>.getLastD anc))
          s := by
  induction cs generalizing anc s with
  | nil => rfl
  | cons c cs ih =>
    have := ih (anc ++ [0x2F] ++ c)
    simp only [RM.bind_run] at this
    simp only [packAncestors, dirNames, List.map_cons, packDirs, RM.bind_run, List.getLastD_cons]
    rcases packDir (anc ++ [0x2F] ++ c) 0o555 s with ⟨⟨_⟩ | _ | _, s'⟩
    · exact this s'
    · rfl
    · rfl

theorem packDirs_append (l : List (Bytes × UInt32)) (p : Bytes) (m : UInt32) (s : State) :
    packDirs (l ++ [(p, m)]) s = (packDirs l >>= fun _ => packDir p m) s := by
  induction l generalizing s with
  | nil =>
    simp only [List.nil_append, packDirs, RM.bind_run, RM.pure_run]
    rcases packDir p m s with ⟨_ | _ | _, s'⟩ <;> rfl
  | cons q l ih =>
    obtain ⟨q1, q2⟩ := q
    simp only [List.cons_append, packDirs, RM.bind_run]
    rcases packDir q1 q2 s with ⟨_ | _ | _, s'⟩
    · simpa using ih s'
    · rfl
    · rfl

theorem splitSlash_ne_nil (p : Bytes) : splitSlash p ≠ [] := by
  cases p with
  | nil => simp [splitSlash]
  | cons b r =>
    simp only [splitSlash]
    split
    · simp
    · split <;> simp

/-- Joining the pieces, each with a leading slash. -/
def joinSlash : List Bytes → Bytes
  | [] => []
  | c :: cs => [0x2F] ++ c ++ joinSlash cs

theorem join_split (p : Bytes) : joinSlash (splitSlash p) = [0x2F] ++ p := by
  induction p with
  | nil => rfl
  | cons b r ih =>
    simp only [splitSlash]
    split
    · next h => simp [joinSlash, ih, h]
    · split
      · next h => exact absurd h (splitSlash_ne_nil r)
      · next c cs h =>
        rw [h] at ih
        simp only [joinSlash, List.cons_append, List.nil_append,
          List.cons.injEq, true_and] at ih ⊢
        rw [ih]

theorem dirNames_append (anc : Bytes) (cs : List Bytes) (c : Bytes) :
    dirNames anc (cs ++ [c]) = dirNames anc cs ++ [(dirNames anc cs).getLastD anc ++ [0x2F] ++ c] := by
  induction cs generalizing anc with
  | nil => rfl
  | cons d ds ih => simp only [List.cons_append, dirNames, ih, List.getLastD_cons]

theorem dirNames_prefix (anc : Bytes) (cs : List Bytes) :
    dirNames anc cs = (dirNames [] cs).map (anc ++ ·) := by
  induction cs generalizing anc with
  | nil => rfl
  | cons d ds ih =>
    rw [dirNames, dirNames, ih, ih ([] ++ [0x2F] ++ d)]
    simp

theorem packPrefix_run (path : Bytes) (m : UInt32) (s : State) :
    packPrefix path m s = packDirs (((dirNames [] (splitSlash path)).dropLast.map (·, 0o555))
      ++ [((dirNames [] (splitSlash path)).getLastD [], m)]) s := by
  have hne := splitSlash_ne_nil path
  unfold packPrefix
  rw [List.getLast?_eq_some_getLast hne]
  have hsplit := List.dropLast_concat_getLast hne
  generalize hl : (splitSlash path).getLast hne = last at *
  generalize hd : (splitSlash path).dropLast = init at *
  rw [← hsplit, dirNames_append]
  simp only [List.dropLast_concat, List.getLastD_concat]
  rw [packDirs_append, packAncestors_run]

/-- Names made by `pack_prefix`, in terms of positions of slashes. -/
theorem properAncestors_cons (b : UInt8) (r : Bytes) :
    properAncestors (b :: r) = (if b = 0x2F then [[]] else [])
      ++ (properAncestors r).map (b :: ·) := by
  unfold properAncestors
  simp only [List.length_cons, List.range_succ_eq_map, List.filter_cons, List.getElem?_cons_zero,
    Option.some.injEq, decide_eq_true_eq]
  have h : (List.filter (fun i => decide ((b :: r)[i]? = some 47)) (List.map Nat.succ (List.range r.length)))
      = (List.filter (fun i => decide (r[i]? = some 47)) (List.range r.length)).map Nat.succ := by
    rw [List.filter_map]
    congr 1
  rw [h]
  split <;> simp [List.map_map, Function.comp_def]

theorem dirNames_split (path : Bytes) :
    dirNames [] (splitSlash path)
      = (properAncestors path ++ [path]).map ([0x2F] ++ ·) := by
  induction path with
  | nil => rfl
  | cons b r ih =>
    rw [properAncestors_cons]
    simp only [splitSlash]
    split
    · next h =>
      subst h
      rw [dirNames, dirNames_prefix, ih]
      simp
    · split
      · next h => exact absurd h (splitSlash_ne_nil r)
      · next h c cs hs =>
        rw [hs, dirNames, dirNames_prefix] at ih
        rw [dirNames, dirNames_prefix]
        -- compare the heads
        have key : ∀ l l' : List Bytes, l = l'.map ([0x2F] ++ ·) →
            l.map (fun x => [0x2F] ++ [b] ++ x.drop 1) = (l'.map (b :: ·)).map ([0x2F] ++ ·) := by
          intro l l' hl
          subst hl
          simp
        have := key _ _ ih
        simp only [List.map_cons, List.map_map] at this
        simp only [List.nil_append, List.map_append, List.map_map] at this ⊢
        simpa [Function.comp_def] using this

theorem adds_dirs (l : List (Bytes × UInt32)) :
    ∀ {s : State} {es : List (Entry × Bytes)}, Holds s es →
    (packDirs l s).1 ≠ .panic → ∃ fs, Holds (packDirs l s).2 (es ++ fs) ∧ Plain fs ∧
      fs.map asMember <+: l.map (fun q => dirMember q.2.toNat q.1) ∧
      ((packDirs l s).1 = .ok () → fs.map asMember = l.map (fun q => dirMember q.2.toNat q.1)) ∧
      ((packDirs l s).1 ≠ .ok () → fs.length < l.length) := by
  induction l with
  | nil =>
    intro s es h _
    exact ⟨[], by simpa [packDirs] using h, by simp [Plain], by simp, by simp, by simp [packDirs]⟩
  | cons q l ih =>
    intro s es h hp
    obtain ⟨p, m⟩ := q
    have h1 := adds_dir p m h
    have hrun : (Op.dir p m).run s = packDir p m s := rfl
    unfold Adds at h1
    rw [hrun] at h1
    simp only [packDirs, RM.bind_run] at hp ⊢
    revert h1 hp
    rcases packDir p m s with ⟨⟨_⟩ | e | _, s'⟩
    · intro hp h1
      obtain ⟨fs, hh, hpl, -, hall, -⟩ := h1 (by simp)
      have hall := hall rfl
      obtain ⟨gs, hg, hgp, hgpre, hgall, hglt⟩ := ih hh hp
      refine ⟨fs ++ gs, by simpa using hg, hpl.append hgp, ?_, ?_, ?_⟩
      · have : fs.map asMember = [dirMember m.toNat p] := hall
        rw [List.map_append, this]
        simpa using hgpre
      · intro hok
        rw [List.map_append, hall, hgall hok]
        rfl
      · intro hne
        have := hglt hne
        have hlen : fs.length = 1 := by
          have := congrArg List.length hall
          simpa [Op.members] using this
        simp only [List.length_append, List.length_cons]
        omega
    · intro _ h1
      obtain ⟨fs, hh, hpl, hpre, -, hlt⟩ := h1 (by simp)
      have hlen := hlt (by simp)
      have : fs = [] := by
        cases fs with
        | nil => rfl
        | cons _ _ => simp [Op.members] at hlen
      subst this
      exact ⟨[], hh, by simp [Plain], by simp, by simp, by simp⟩
    · intro hp _
      exact absurd rfl hp

theorem adds_prefix (p : Bytes) (m : UInt32) {s : State} {es : List (Entry × Bytes)}
    (h : Holds s es) : Adds (.prefix p m) s es := by
  have hrun : (Op.prefix p m).run s = packPrefix p m s := rfl
  unfold Adds
  rw [hrun, packPrefix_run, dirNames_split]
  simp only [List.map_append, List.map_cons, List.map_nil, List.dropLast_concat,
    List.getLastD_concat]
  intro hp
  obtain ⟨fs, h1, h2, h3, h4, h5⟩ := adds_dirs _ h hp
  have hm : List.map (fun q : Bytes × UInt32 => dirMember q.2.toNat q.1)
      (List.map (·, 0o555) (List.map ([0x2F] ++ ·) (properAncestors p)) ++ [([0x2F] ++ p, m)])
      = (Op.prefix p m).members := by
    simp only [Op.members, List.map_append, List.map_map, Function.comp_def, List.map_cons,
      List.map_nil]
    rfl
  rw [hm] at h3 h4
  refine ⟨fs, h1, h2, h3, h4, fun hne => ?_⟩
  have := h5 hne
  rw [← hm, List.length_map]
  exact this

theorem adds (op : Op) {s : State} {es : List (Entry × Bytes)} (h : Holds s es) : Adds op s es := by
  cases op with
  | one f c p m => exact adds_one f c p m h
  | dir p m => exact adds_dir p m h
  | «prefix» p m => exact adds_prefix p m h
  | trailer => exact adds_trailer h

end Verif.Cpio
