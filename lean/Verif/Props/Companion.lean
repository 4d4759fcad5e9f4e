import Verif.Model.Companion
import Verif.Props.Cpio
/-!
# C06, C07: companion archives (`cpio.rs`, `companions.rs`)
-/
namespace Verif.Companion
open Verif Verif.Cpio

theorem sortPaths_sorted (l : List Str16) : (sortPaths l).Pairwise (· ≤ ·) := by
  have : (sortPaths l).Pairwise (fun a b => decide (a ≤ b) = true) := by
    apply List.pairwise_isort
    · intro a b c h1 h2
      simp only [decide_eq_true_eq] at *
      exact List.le_trans h1 h2
    · intro a b
      simp only [Bool.or_eq_true, decide_eq_true_eq]
      exact List.le_total a b
  exact this.imp fun h => of_decide_eq_true h

/-- **C06**, the sort: the archive of a file list does not depend on the order of the list. -/
theorem sortPaths_perm {l l' : List Str16} (h : l.Perm l') : sortPaths l = sortPaths l' := by
  have hp (l : List Str16) : (sortPaths l).Pairwise (fun a b => decide (a ≤ b) = true) :=
    (sortPaths_sorted l).imp fun h => decide_eq_true h
  apply List.Perm.eq_of_pairwise (le := fun a b : Str16 => decide (a ≤ b) = true) _ (hp l) (hp l')
  · exact (List.isort_perm l _).trans (h.trans (List.isort_perm l' _).symm)
  · intro a b _ _ h1 h2
    simp only [decide_eq_true_eq] at *
    exact List.le_antisymm h1 h2

/-- Two firmwares that hold the same files but list directories in possibly different order. -/
structure SameUpToOrder (fw fw' : Fw) : Prop where
  readDir : ∀ d, (fw.readDir d = none ∧ fw'.readDir d = none) ∨
    ∃ l l', fw.readDir d = some l ∧ fw'.readDir d = some l' ∧ l.Perm l'
  metadata : fw.metadataIsDir = fw'.metadataIsDir
  tryExists : fw.tryExists = fw'.tryExists
  read : fw.read = fw'.read

theorem findEntries_eq (dir suf : Str16) (es : List (Option DirEnt)) :
    findEntries dir suf es = if none ∈ es then .err .deviceError
      else .ok (es.filterMap fun e => e.bind fun e =>
        if e.regular && (e.name.all fun u => decide (u.toNat < 128)) && suf.isSuffixOf e.name then
          some (dir ++ [sep16] ++ e.name) else none) := by
  induction es with
  | nil => rfl
  | cons e es ih =>
    cases e with
    | none => simp [findEntries]
    | some e =>
      simp only [findEntries, ih, List.mem_cons, reduceCtorEq, false_or, bind, Res.bind, pure]
      by_cases h : none ∈ es
      · simp [h]
      · simp only [h, if_false, List.filterMap_cons, Option.bind_some]
        split <;> rfl

theorem findFiles_perm {fw fw' : Fw} (h : SameUpToOrder fw fw') (d suf : Str16) :
    (findFiles fw d suf = .panic ∧ findFiles fw' d suf = .panic) ∨
    (findFiles fw d suf = .err .deviceError ∧ findFiles fw' d suf = .err .deviceError) ∨
    ∃ l l', findFiles fw d suf = .ok l ∧ findFiles fw' d suf = .ok l' ∧ l.Perm l' := by
  unfold findFiles
  rcases h.readDir d with ⟨h1, h2⟩ | ⟨l, l', h1, h2, hp⟩
  · left; simp [h1, h2]
  · right
    simp only [h1, h2, findEntries_eq]
    by_cases hn : none ∈ l
    · left; simp [hn, hp.mem_iff.mp hn]
    · right
      have hn' : none ∉ l' := fun hc => hn (hp.mem_iff.mpr hc)
      simp only [hn, hn', if_false]
      exact ⟨_, _, rfl, rfl, hp.filterMap _⟩

theorem packFileList_congr {fw fw' : Fw} (h : fw.read = fw'.read) (pfx : Bytes) (am : UInt32)
    (l : List Str16) : packFileList fw pfx am l = packFileList fw' pfx am l := by
  induction l with
  | nil => rfl
  | cons f l ih => simp only [packFileList, h, ih]

theorem packCpio_perm {fw fw' : Fw} (h : fw.read = fw'.read) {l l' : List Str16} (hp : l.Perm l')
    (pfx : Bytes) (dm am : UInt32) : packCpio fw l pfx dm am = packCpio fw' l' pfx dm am := by
  simp only [packCpio, sortPaths_perm hp, packFileList_congr h]

theorem isEmpty_perm {α : Type} {l l' : List α} (h : l.Perm l') : l.isEmpty = l'.isEmpty := by
  have := h.length_eq
  cases l <;> cases l' <;> simp_all

/-- **C06.** The companion initrds, byte for byte, do not depend on the order in which the firmware
lists the files. -/
theorem C06_companions_order_independent {fw fw' : Fw} (h : SameUpToOrder fw fw') :
    (∀ dropin, discoverCredentials fw dropin = discoverCredentials fw' dropin) ∧
    (∀ dir, discoverSystemExtensions fw dir = discoverSystemExtensions fw' dir) ∧
    (∀ files files' pfx dm am, files.Perm files' →
      packCpio fw files pfx dm am = packCpio fw' files' pfx dm am) := by
  have hg : discoverGlobalCredentials fw = discoverGlobalCredentials fw' := by
    unfold discoverGlobalCredentials
    rw [h.tryExists, h.metadata]
    split <;> try rfl
    split <;> try rfl
    rcases findFiles_perm h globalCredDir (lit16 ".cred") with
      ⟨h1, h2⟩ | ⟨h1, h2⟩ | ⟨l, l', h1, h2, hp⟩
    · simp only [h1, h2, bind, Res.bind]
    · simp only [h1, h2, bind, Res.bind]
    · simp only [h1, h2, bind, Res.bind, isEmpty_perm hp, packCpio_perm h.read hp]
  refine ⟨?_, ?_, ?_⟩
  · intro dropin
    unfold discoverCredentials
    rw [hg]
    cases dropin with
    | none => rfl
    | some dir =>
      rcases findFiles_perm h dir (lit16 ".cred") with ⟨h1, h2⟩ | ⟨h1, h2⟩ | ⟨l, l', h1, h2, hp⟩
      · simp only [h1, h2, bind, Res.bind]
      · simp only [h1, h2, bind, Res.bind]
      · simp only [h1, h2, bind, Res.bind, isEmpty_perm hp, packCpio_perm h.read hp]
  · intro dir
    unfold discoverSystemExtensions
    rcases findFiles_perm h dir (lit16 ".raw") with ⟨h1, h2⟩ | ⟨h1, h2⟩ | ⟨l, l', h1, h2, hp⟩
    · simp only [h1, h2, bind, Res.bind]
    · simp only [h1, h2, bind, Res.bind]
    · simp only [h1, h2, bind, Res.bind, isEmpty_perm hp, packCpio_perm h.read hp]
  · intro files files' pfx dm am hp
    exact packCpio_perm h.read hp pfx dm am

/-- A volume with a drop-in directory of three files. -/
def demoFw (order : List (Option DirEnt)) : Fw where
  readDir := fun _ => some order
  metadataIsDir := fun _ => some true
  tryExists := fun _ => some true
  read := fun p => some [UInt8.ofNat p.length]

def demoEntries : List (Option DirEnt) :=
  [some ⟨lit16 "b.cred", true⟩, some ⟨lit16 "a.cred", true⟩, some ⟨lit16 "dir.cred", false⟩]

/-- Non-vacuity of C06: two different orders, and credentials are found. -/
example : SameUpToOrder (demoFw demoEntries) (demoFw demoEntries.reverse) ∧
    demoEntries ≠ demoEntries.reverse ∧
    (findFiles (demoFw demoEntries) (lit16 "\\d") (lit16 ".cred")).toOption
      = some [lit16 "\\d\\b.cred", lit16 "\\d\\a.cred"] :=
  ⟨⟨fun _ => .inr ⟨_, _, rfl, rfl, (List.reverse_perm _).symm⟩, rfl, rfl, rfl⟩,
    by decide, by decide⟩

/-! ### C07 -/

/-- The calls `pack_cpio` makes for the given files with these contents. -/
def cpioOps (contents : Str16 → Bytes) (files : List Str16) (pfx : Bytes) (dm am : UInt32) :
    List Op :=
  .prefix pfx dm :: (files.map fun f => .one (toUtf8 (baseName f)) (contents f) pfx am) ++ [.trailer]

theorem packFileList_ok {fw : Fw} {pfx : Bytes} {am : UInt32} (l : List Str16) :
    ∀ {s s' : State}, packFileList fw pfx am l s = (.ok (), s') →
      (∀ f ∈ l, ∃ c, fw.read f = some c) ∧
      let ops := l.map fun f => Op.one (toUtf8 (baseName f)) ((fw.read f).getD []) pfx am
      (∀ r ∈ outcomes ops s, r.2 = .ok ()) ∧ runAll ops s = s' := by
  induction l with
  | nil => intro s s' h; simp_all [packFileList, outcomes, runAll]
  | cons f l ih =>
    intro s s' h
    simp only [packFileList] at h
    by_cases hb : baseName f = []
    · simp [hb] at h
    · simp only [hb, if_false] at h
      cases hc : fw.read f with
      | none => simp [hc] at h
      | some c =>
        simp only [hc] at h
        simp only [RM.bind_run] at h
        simp only [List.map_cons, outcomes, runAll, hc, Option.getD_some, Op.run, RM.bind_run,
          List.mem_cons, forall_eq_or_imp]
        rcases hp : packOne (toUtf8 (baseName f)) c pfx am s with ⟨n | e | _, s1⟩
        · simp only [hp] at h
          obtain ⟨h1, h2, h3⟩ := ih h
          exact ⟨⟨⟨c, rfl⟩, h1⟩, ⟨rfl, h2⟩, h3⟩
        · simp [hp] at h
        · simp [hp] at h

theorem outcomes_append (l l' : List Op) (s : State) :
    outcomes (l ++ l') s = outcomes l s ++ outcomes l' (runAll l s) := by
  induction l generalizing s with
  | nil => rfl
  | cons o l ih => simp [outcomes, runAll, ih]

theorem runAll_append (l l' : List Op) (s : State) :
    runAll (l ++ l') s = runAll l' (runAll l s) := by
  induction l generalizing s with
  | nil => rfl
  | cons o l ih => simp [runAll, ih]

theorem packCpio_ok {fw : Fw} {files : List Str16} {pfx : Bytes} {dm am : UInt32} {s : State}
    (h : packCpio fw files pfx dm am = .ok s) :
    (∀ f ∈ sortPaths files, ∃ c, fw.read f = some c) ∧
    let ops := cpioOps (fun f => (fw.read f).getD []) (sortPaths files) pfx dm am
    AllOk ops ∧ runAll ops new = s := by
  unfold packCpio at h
  simp only [RM.bind_run] at h
  rcases hp : packPrefix pfx dm new with ⟨⟨_⟩ | e | _, s1⟩
  · simp only [hp] at h
    rcases hf : packFileList fw pfx am (sortPaths files) s1 with ⟨⟨_⟩ | e | _, s2⟩
    · simp only [hf] at h
      rcases ht : packTrailer s2 with ⟨n | e | _, s3⟩
      · simp only [ht] at h
        simp at h
        subst h
        obtain ⟨h1, h2, h3⟩ := packFileList_ok _ hf
        refine ⟨h1, ?_, ?_⟩
        · intro r hr
          simp only [cpioOps, outcomes_append, outcomes, List.cons_append, List.mem_cons,
            List.mem_append, Op.run, hp, h3, RM.bind_run, ht] at hr
          rcases hr with rfl | hr | hr | hr
          · rfl
          · exact h2 r hr
          · rw [hr]; rfl
          · simp at hr
        · simp only [cpioOps, List.cons_append, runAll, runAll_append, Op.run, hp, h3,
            RM.bind_run, ht, RM.pure_run]
      · simp [ht] at h
      · simp [ht] at h
    · simp [hf] at h
    · simp [hf] at h
  · simp [hp] at h
  · simp [hp] at h

/-- A companion file as it should appear in the archive. -/
def fileMember (fw : Fw) (pfx : Bytes) (am : UInt32) (f : Str16) : Member :=
  ⟨am.toNat ||| Newc.S_IFREG, pfx ++ [0x2F] ++ toUtf8 (baseName f), (fw.read f).getD []⟩

theorem numbered_append (a b : List Member) : ∃ b', numbered (a ++ b) = numbered a ++ b' ∧
    b'.map (·.name) = b.map (·.name) := by
  unfold numbered
  rw [List.zipIdx_append, List.map_append]
  refine ⟨_, rfl, ?_⟩
  simp only [List.map_map]
  apply List.ext_getElem
  · simp
  · intro i h1 h2; simp [Newc.member]

theorem numbered_names (a : List Member) : (numbered a).map (·.name) = a.map (·.name) := by
  obtain ⟨b', h1, h2⟩ := numbered_append [] a
  simp only [List.nil_append] at h1
  rw [h1]
  simpa [numbered] using h2

/-- The members of a companion archive (C07): in a companion archive with a non-empty directory prefix, the only member with the
end-of-archive name is the last one; extracting the archive yields the directories and then every
packed file with its full contents. No file name can hide the files after it. -/
theorem trailer_only_last {fw : Fw} {files : List Str16} {pfx : Bytes} {dm am : UInt32}
    {s : State} (h : packCpio fw files pfx dm am = .ok s) (hpfx : pfx ≠ []) :
    Newc.extract s.buffer = some (numbered
      ((Op.prefix pfx dm).members ++ (sortPaths files).map (fileMember fw pfx am))) ∧
    (∃ recs t, Newc.readAll s.buffer = some (recs ++ [t]) ∧ t.name = Newc.trailer ∧
      ∀ r ∈ recs, r.name ≠ Newc.trailer) ∧
    (sortPaths files).Perm files ∧ (∀ f ∈ files, ∃ c, fw.read f = some c) := by
  obtain ⟨hread, hok, hrun⟩ := packCpio_ok h
  have hperm : (sortPaths files).Perm files := List.isort_perm _ _
  have hr := C01_cpio_roundtrip_ok _ hok
  rw [hrun] at hr
  let body : List Member :=
    (Op.prefix pfx dm).members ++ (sortPaths files).map (fileMember fw pfx am)
  have hms : (cpioOps (fun f => (fw.read f).getD []) (sortPaths files) pfx dm am).flatMap Op.members
      = body ++ [⟨Newc.S_IFREG, Newc.trailer, []⟩] := by
    simp only [cpioOps, List.cons_append, List.flatMap_cons, List.flatMap_append, List.flatMap_map,
      List.flatMap_nil, List.append_nil, body, List.append_assoc]
    congr 1
    congr 1
    induction sortPaths files with
    | nil => rfl
    | cons f l ih =>
      simp only [List.flatMap_cons, List.map_cons, ih]
      simp [Op.members, fileMember, hpfx]
  rw [hms] at hr
  obtain ⟨b', hb, hn⟩ := numbered_append body [⟨Newc.S_IFREG, Newc.trailer, []⟩]
  rw [hb] at hr
  obtain ⟨t, rfl⟩ : ∃ t, b' = [t] := by
    have := congrArg List.length hn
    simp only [List.length_map, List.length_cons, List.length_nil] at this
    exact List.length_eq_one_iff.mp this
  have ht : t.name = Newc.trailer := by simpa using hn
  have htr : Newc.trailer = [0x54, 0x52, 0x41, 0x49, 0x4C, 0x45, 0x52, 0x21, 0x21, 0x21] := by decide
  have hbody : ∀ m ∈ body, m.name ≠ Newc.trailer := by
    intro m hm hc
    rcases List.mem_append.mp hm with hm | hm
    · simp only [Op.members, List.mem_append, List.mem_map, List.mem_singleton] at hm
      rcases hm with ⟨a, _, rfl⟩ | rfl <;>
      · rw [htr] at hc
        simp at hc
    · obtain ⟨f, _, rfl⟩ := List.mem_map.mp hm
      have h1 : (0x2F : UInt8) ∈ (fileMember fw pfx am f).name := by simp [fileMember]
      rw [hc, htr] at h1
      simp at h1
  have hrecs : ∀ r ∈ numbered body, r.name ≠ Newc.trailer := by
    intro r hr hc
    have : r.name ∈ (numbered body).map (·.name) := List.mem_map_of_mem hr
    rw [numbered_names] at this
    obtain ⟨m, hm, hmn⟩ := List.mem_map.mp this
    exact hbody m hm (hmn.trans hc)
  refine ⟨?_, ⟨_, t, hr, ht, hrecs⟩, hperm, fun f hf => hread f (hperm.mem_iff.mpr hf)⟩
  unfold Newc.extract
  rw [hr]
  simp only [Option.map_some, Option.some.injEq]
  rw [List.takeWhile_append_of_pos (by intro r hr; simpa using hrecs r hr)]
  simp [ht, body]

set_option maxRecDepth 100000 in
/-- Non-vacuity of C07: a file *named* like the marker is packed and the archive is well formed. -/
example : ∃ s, packCpio (demoFw []) [lit16 "\\TRAILER!!!", lit16 "\\z"] [0x61] 0o500 0o400
    = .ok s := by
  have hs : sortPaths [lit16 "\\TRAILER!!!", lit16 "\\z"] = [lit16 "\\TRAILER!!!", lit16 "\\z"] :=
    List.isort_of_pairwise (by decide)
  have key : (packCpio (demoFw []) [lit16 "\\TRAILER!!!", lit16 "\\z"] [0x61] 0o500 0o400).isOk
      = true := by
    unfold packCpio
    rw [hs]
    decide
  revert key
  generalize packCpio (demoFw []) [lit16 "\\TRAILER!!!", lit16 "\\z"] [0x61] 0o500 0o400 = r
  intro key
  cases r with
  | ok s => exact ⟨s, rfl⟩
  | err e => simp [Res.isOk] at key
  | panic => simp [Res.isOk] at key

/-- For C05, the archives the boot stub actually builds: files that can be read, with non-empty
names shorter than 2^31 bytes, are packed without a panic under any prefix shorter than 2^31. -/
theorem companions_no_panic {fw : Fw} {files : List Str16} {pfx : Bytes} {dm am : UInt32}
    (hread : ∀ f ∈ files, baseName f ≠ [] ∧ (∃ c, fw.read f = some c) ∧
      (toUtf8 (baseName f)).length < 2 ^ 31)
    (hpfx : pfx.length < 2 ^ 31 - 1) : packCpio fw files pfx dm am ≠ .panic := by
  have hu : u32Max = 2 ^ 32 - 1 := rfl
  have hdirs : ∀ (l : List (Bytes × UInt32)) (s : State), (∀ q ∈ l, q.1.length < 2 ^ 32 - 1) →
      (packDirs l s).1 ≠ .panic := by
    intro l
    induction l with
    | nil => intro s _; simp [packDirs]
    | cons q l ih =>
      intro s hq
      obtain ⟨p, m⟩ := q
      simp only [packDirs, RM.bind_run]
      have h0 := hq (p, m) (by simp)
      rcases packDir_cases p m s with ⟨e, he⟩ | ⟨e, he, hi, ⟨hn, hr⟩ | ⟨hn, hr⟩⟩
      · simp [he]
      · rw [hr]; exact ih _ (fun q' hq' => hq q' (by simp [hq']))
      · subst he
        simp only [dirEntry] at hn h0
        omega
  have hpre : (packPrefix pfx dm new).1 ≠ .panic := by
    rw [packPrefix_run, dirNames_split]
    apply hdirs
    intro q hq
    simp only [List.map_append, List.map_cons, List.map_nil, List.dropLast_concat,
      List.getLastD_concat, List.mem_append, List.mem_map, List.mem_singleton] at hq
    rcases hq with ⟨_, ⟨a, ha, rfl⟩, rfl⟩ | rfl
    · unfold properAncestors at ha
      obtain ⟨i, _, rfl⟩ := List.mem_map.mp ha
      simp only [List.length_append, List.length_take, List.length_cons, List.length_nil]
      omega
    · simp only [List.length_append, List.length_cons, List.length_nil]
      omega
  have hfiles : ∀ (l : List Str16) (s : State), (∀ f ∈ l, f ∈ files) →
      (packFileList fw pfx am l s).1 ≠ .panic := by
    intro l
    induction l with
    | nil => intro s _; simp [packFileList]
    | cons f l ih =>
      intro s hf
      obtain ⟨h1, ⟨c, hc⟩, h3⟩ := hread f (hf f (by simp))
      simp only [packFileList, h1, if_false, hc, RM.bind_run]
      have hnp := (C05_cpio_size_limits_partial s (toUtf8 (baseName f)) c pfx am (by omega)).1
      rcases hp : packOne (toUtf8 (baseName f)) c pfx am s with ⟨n | e | _, s'⟩
      · exact ih s' (fun g hg => hf g (by simp [hg]))
      · simp
      · rw [hp] at hnp; simp at hnp
  have hperm : (sortPaths files).Perm files := List.isort_perm _ _
  unfold packCpio
  simp only [RM.bind_run, RM.pure_run]
  rcases hp : packPrefix pfx dm new with ⟨_ | e | _, s1⟩
  · have hnf := hfiles (sortPaths files) s1 (fun f hf => hperm.mem_iff.mp hf)
    rcases hf : packFileList fw pfx am (sortPaths files) s1 with ⟨_ | e | _, s2⟩
    · have hnt := (C05_cpio_size_limits_partial s2 trailerName [] [] 0 (.inl rfl)).1
      rcases ht : packTrailer s2 with ⟨n | e | _, s3⟩
      · simp [hf, ht]
      · simp [hf, ht]
      · have ht' : packOne trailerName [] [] 0 s2 = (.panic, s3) := ht
        rw [ht'] at hnt; simp at hnt
    · simp [hf]
    · rw [hf] at hnf; simp at hnf
  · simp
  · rw [hp] at hpre; simp at hpre

end Verif.Companion
