import Verif.Props.Companion
import Verif.Props.Stub
import Verif.Lemmas.BootLive
import Verif.Spec.Companions
/-!
# C58: companion discovery (`companions.rs`, `main.rs`)
-/
namespace Verif.Companion
open Verif Verif.Cpio Verif.Companion.Spec

theorem append_le_append {p a b : Str16} : p ++ a ≤ p ++ b ↔ a ≤ b := by
  induction p with
  | nil => rfl
  | cons x p ih => rw [List.cons_append, List.cons_append, List.cons_le_cons_iff]; simp [ih]

theorem pairwise_sortPaths (l : List Str16) : (sortPaths l).Pairwise (· ≤ ·) := by
  have : (sortPaths l).Pairwise (fun a b => decide (a ≤ b) = true) := by
    apply List.pairwise_isort
    · intro a b c h1 h2
      simp only [decide_eq_true_eq] at *
      exact List.le_trans h1 h2
    · intro a b
      simp only [Bool.or_eq_true, decide_eq_true_eq]
      exact List.le_total a b
  simpa using this

theorem sortPaths_map (p : Str16) (l : List Str16) :
    sortPaths (l.map (p ++ ·)) = (sortPaths l).map (p ++ ·) := by
  apply List.Perm.eq_of_pairwise (le := fun a b : Str16 => a ≤ b) _ (pairwise_sortPaths _)
  · rw [List.pairwise_map]
    exact (pairwise_sortPaths l).imp fun h => append_le_append.2 h
  · exact (List.isort_perm _ _).trans ((List.isort_perm _ _).symm.map _)
  · intro a b _ _ h1 h2
    exact List.le_antisymm h1 h2

/-- The names found in a directory. -/
def foundNames (suf : Str16) (es : List (Option DirEnt)) : List Str16 :=
  ((es.filterMap id).filter (isCompanion suf)).map (·.name)

theorem findFiles_ok {fw : Fw} {dir suf : Str16} {files : List Str16} (h : findFiles fw dir suf = .ok files) :
    ∃ es, fw.readDir dir = some es ∧ none ∉ es ∧
      files = (foundNames suf es).map ((dir ++ [sep16]) ++ ·) := by
  unfold findFiles at h
  cases hr : fw.readDir dir with
  | none => rw [hr] at h; cases h
  | some es =>
    rw [hr] at h
    dsimp only at h
    rw [findEntries_eq] at h
    split at h
    · cases h
    · next hn =>
      refine ⟨es, rfl, hn, ?_⟩
      rw [Res.ok.injEq] at h
      rw [← h]
      clear h hn hr
      unfold foundNames
      induction es with
      | nil => rfl
      | cons o es ih =>
        cases o with
        | none => simpa using ih
        | some e =>
          simp only [List.filterMap_cons, Option.bind_some, id]
          by_cases hc : isCompanion suf e = true
          · have hc' := hc
            unfold isCompanion at hc
            rw [if_pos hc, List.filter_cons, if_pos hc', List.map_cons, List.map_cons]
            simp only [ih]
            rfl
          · have hc' := hc
            unfold isCompanion at hc
            rw [if_neg hc, List.filter_cons, if_neg hc']
            exact ih

theorem toUtf8_ascii {s : Str16} (h : ∀ u ∈ s, u.toNat < 128) : toUtf8 s = s.map fun u => UInt8.ofNat u.toNat := by
  induction s with
  | nil => rfl
  | cons u s ih =>
    have hu := h u (by simp)
    have ih := ih fun v hv => h v (by simp [hv])
    unfold toUtf8 at ih ⊢
    rw [List.flatMap_cons, ih, List.map_cons]
    have : String.utf8EncodeChar (Char.ofNat u.toNat) = [UInt8.ofNat u.toNat] := by
      have hv : u.toNat.isValidChar := Or.inl (by omega)
      have : (Char.ofNat u.toNat).val.toNat = u.toNat := by
        rw [Char.ofNat, dif_pos hv]; simp [Char.ofNatAux]
      unfold String.utf8EncodeChar
      simp only [this]
      rw [if_pos (by omega)]
    rw [this]; rfl

theorem mem_foundNames {suf n : Str16} {es : List (Option DirEnt)} (h : n ∈ foundNames suf es) :
    ∃ e, some e ∈ es ∧ e.name = n ∧ e.regular = true ∧ (∀ u ∈ n, u.toNat < 128) ∧ suf <:+ n := by
  unfold foundNames at h
  obtain ⟨e, he, rfl⟩ := List.mem_map.1 h
  obtain ⟨h1, h2⟩ := List.mem_filter.1 he
  obtain ⟨o, ho, h3⟩ := List.mem_filterMap.1 h1
  cases o with
  | none => cases h3
  | some e' =>
    simp only [id, Option.some.injEq] at h3
    subst h3
    unfold isCompanion at h2
    simp only [Bool.and_eq_true, List.all_eq_true, decide_eq_true_eq, List.isSuffixOf_iff_suffix] at h2
    exact ⟨e', ho, rfl, h2.1.1, h2.1.2, h2.2⟩

/-- What a successful search and packing amounts to. -/
theorem found_of_pack {fw : Fw} (hp : ProperNames fw) {dir suf : Str16} {files : List Str16} {kind : Kind}
    {place : String} {pfx : Bytes} {dm am : UInt32} {s : State}
    (hpfx : pfx = archiveMembers.ascii ".extra/" ++ archiveMembers.ascii place)
    (hdirs : (Op.prefix pfx dm).members = archiveMembers place dm.toNat am.toNat [])
    (hf : findFiles fw dir suf = .ok files) (hne : files ≠ [])
    (hs : packCpio fw files pfx dm am = .ok s) :
    FoundIn fw dir suf kind place dm.toNat am.toNat [⟨kind, s⟩] := by
  obtain ⟨es, h1, h2, rfl⟩ := findFiles_ok hf
  have hpne : pfx ≠ [] := by
    rw [hpfx]
    intro h
    have := congrArg List.length h
    rw [List.length_append] at this
    have h7 : (archiveMembers.ascii ".extra/").length = 7 := by decide
    simp only [List.length_nil] at this
    omega
  obtain ⟨hx, -, -, hread⟩ := trailer_only_last hs hpne
  rw [sortPaths_map] at hx
  have hperm : (sortPaths (foundNames suf es)).Perm (foundNames suf es) := List.isort_perm _ _
  have hmem : ∀ n ∈ sortPaths (foundNames suf es), ∃ c, fw.read (dir ++ lit16 "\\" ++ n) = some c := fun n hn =>
    hread _ (List.mem_map.2 ⟨n, hperm.mem_iff.1 hn, rfl⟩)
  refine .archive (files := (sortPaths (foundNames suf es)).map fun n =>
    (n, (fw.read (dir ++ lit16 "\\" ++ n)).getD [])) ⟨⟨es, h1, h2, ?_⟩, ?_, ?_⟩ ?_ rfl ?_
  · rw [List.map_map]
    simpa [Function.comp_def, foundNames] using hperm
  · rw [List.map_map]
    simpa [Function.comp_def] using pairwise_sortPaths (foundNames suf es)
  · intro f hf
    obtain ⟨n, hn, rfl⟩ := List.mem_map.1 hf
    obtain ⟨c, hc⟩ := hmem n hn
    dsimp only
    rw [hc]; rfl
  · intro h
    apply hne
    rw [List.map_eq_nil_iff] at h
    rw [h] at hperm
    rw [List.nil_perm.1 hperm]; rfl
  · rw [hx, hdirs]
    congr 2
    unfold archiveMembers
    simp only [List.map_nil, List.cons_append, List.nil_append, List.map_map]
    congr 2
    apply List.map_congr_left
    intro n hn
    obtain ⟨e, he, rfl, -, ha, -⟩ := mem_foundNames (hperm.mem_iff.1 hn)
    simp only [Function.comp_apply, fileMember]
    rw [Stub.baseName_append (hp dir es e h1 he), toUtf8_ascii ha, hpfx, Nat.or_comm]
    congr 1

theorem found_nothing {fw : Fw} {dir suf : Str16} {kind : Kind} {place : String} {dm am : Nat}
    (hf : findFiles fw dir suf = .ok []) : FoundIn fw dir suf kind place dm am [] := by
  obtain ⟨es, h1, h2, h3⟩ := findFiles_ok hf
  refine .nothing ⟨⟨es, h1, h2, ?_⟩, by simp, by simp⟩
  have := List.map_eq_nil_iff.1 h3.symm
  unfold foundNames at this
  rw [this]; exact .refl _

/-- The pattern of the three searches. -/
theorem search_ok {fw : Fw} (hp : ProperNames fw) {dir suf : Str16} {kind : Kind} {place : String}
    {pfx : Bytes} {dm am : UInt32} {before cs : List Companion}
    (hpfx : pfx = archiveMembers.ascii ".extra/" ++ archiveMembers.ascii place)
    (hdirs : (Op.prefix pfx dm).members = archiveMembers place dm.toNat am.toNat [])
    (h : (do
      let files ← findFiles fw dir suf
      if files.isEmpty then return before
      else do
        let cpio ← mapLoadError (packCpio fw files pfx dm am)
        return before ++ [⟨kind, cpio⟩] : Res Companion.Status (List Companion)) = .ok cs) :
    ∃ new, cs = before ++ new ∧ FoundIn fw dir suf kind place dm.toNat am.toNat new := by
  cases hf : findFiles fw dir suf with
  | panic => rw [hf] at h; cases h
  | err e => rw [hf] at h; cases h
  | ok files =>
    rw [hf] at h
    simp only [bind, Res.bind] at h
    cases files with
    | nil =>
      simp only [List.isEmpty_nil, if_true, pure, Res.ok.injEq] at h
      exact ⟨[], by simp [h], found_nothing hf⟩
    | cons f fs =>
      simp only [List.isEmpty_cons, Bool.false_eq_true, if_false] at h
      cases hs : packCpio fw (f :: fs) pfx dm am with
      | panic => rw [hs] at h; cases h
      | err e => rw [hs] at h; cases h
      | ok s =>
        rw [hs] at h
        simp only [mapLoadError, pure, Res.ok.injEq] at h
        exact ⟨_, h.symm, found_of_pack hp hpfx hdirs hf (by simp) hs⟩

theorem discoverGlobal_ok {fw : Fw} (hp : ProperNames fw) {cs : List Companion}
    (h : discoverGlobalCredentials fw = .ok cs) :
    (HasGlobal fw ∧ GlobalCredentials fw cs) ∨ (¬ HasGlobal fw ∧ cs = []) := by
  unfold discoverGlobalCredentials at h
  cases he : fw.tryExists globalCredDir with
  | none => rw [he] at h; cases h
  | some b =>
    rw [he] at h
    cases b with
    | false =>
      dsimp only at h
      rw [Res.ok.injEq] at h
      refine Or.inr ⟨fun hg => ?_, h.symm⟩
      have := hg.1.symm.trans he
      simp at this
    | true =>
      dsimp only at h
      cases hm : fw.metadataIsDir globalCredDir with
      | none => rw [hm] at h; cases h
      | some b =>
        rw [hm] at h
        cases b with
        | false =>
          dsimp only at h
          rw [Res.ok.injEq] at h
          refine Or.inr ⟨fun hg => ?_, h.symm⟩
          have := hg.2.symm.trans hm
          simp at this
        | true =>
          dsimp only at h
          obtain ⟨new, e, hn⟩ := search_ok hp (place := "global_credentials") (before := [])
            (by decide +kernel) (by decide +kernel) h
          rw [List.nil_append] at e
          subst e
          exact Or.inl ⟨⟨he, hm⟩, hn⟩

theorem discoverCredentials_ok {fw : Fw} (hp : ProperNames fw) {dropin : Option Str16} {cs : List Companion}
    (h : discoverCredentials fw dropin = .ok cs) :
    ∃ g c, cs = g ++ c ∧ ((HasGlobal fw ∧ GlobalCredentials fw g) ∨ (¬ HasGlobal fw ∧ g = [])) ∧
      (∀ dir, dropin = some dir → FoundIn fw dir (lit16 ".cred") .credentials "credentials" 0o500 0o400 c) ∧
      (dropin = none → c = []) := by
  unfold discoverCredentials at h
  cases hg : discoverGlobalCredentials fw with
  | panic => rw [hg] at h; cases h
  | err e => rw [hg] at h; cases h
  | ok g =>
    rw [hg] at h
    refine ⟨g, ?_⟩
    have hg' := discoverGlobal_ok hp hg
    cases dropin with
    | none =>
      simp only [bind, Res.bind, pure, Res.ok.injEq] at h
      exact ⟨[], by simp [h], hg', by simp, fun _ => rfl⟩
    | some dir =>
      obtain ⟨new, e, hn⟩ := search_ok hp (place := "credentials") (before := g)
            (by decide +kernel) (by decide +kernel) h
      exact ⟨new, e, hg', fun d hd => by rw [← Option.some.inj hd]; exact hn, by simp⟩

theorem discoverExtensions_ok {fw : Fw} (hp : ProperNames fw) {dir : Str16} {cs : List Companion}
    (h : discoverSystemExtensions fw dir = .ok cs) :
    FoundIn fw dir (lit16 ".raw") .systemExtension "sysext" 0o555 0o444 cs := by
  obtain ⟨new, e, hn⟩ := search_ok hp (place := "sysext") (before := [])
            (by decide +kernel) (by decide +kernel) h
  rw [List.nil_append] at e
  subst e
  exact hn

/-! ### Packing succeeds -/

theorem align4_bound {n : Nat} (h : n ≤ usizeMax - 3) : align4 n ≤ n + 3 := by
  unfold align4
  rw [if_neg (by omega)]
  exact Nat.le_trans Nat.and_le_left (by omega)

/-- `pack_one` succeeds on everything that fits. -/
theorem packOne_fits {f c p : Bytes} {m : UInt32} {s : State} (hc : c.length < 2 ^ 32)
    (hi : s.inodeCounter.toNat < 2 ^ 32 - 1) (hn : p.length + f.length < 2 ^ 32 - 2)
    (hb : s.buffer.length < 2 ^ 63) :
    ∃ n s', packOne f c p m s = (.ok n, s') ∧ s'.inodeCounter.toNat = s.inodeCounter.toNat + 1 ∧
      s'.buffer.length < s.buffer.length + 2 ^ 34 := by
  have hu : u32Max = 4294967295 := rfl
  have hU : usizeMax = 18446744073709551615 := rfl
  have hh : staticHeaderLen = 110 := rfl
  have hino : s.inodeCounter ≠ UInt32.ofNat u32Max := by
    intro h
    rw [h] at hi
    revert hi
    decide
  have hA := align4_bound (n := staticHeaderLen + 1 + p.length + f.length) (by omega)
  have hC := align4_bound (n := c.length) (by omega)
  rcases packOne_cases f c p m s with ⟨e, he⟩ | ⟨e, hee, h1, h2, h3, h4, ⟨h5, h6⟩ | ⟨h5, h6⟩⟩
  · exfalso
    unfold packOne at he
    dsimp only at he
    rw [if_neg (by omega), if_neg hino, if_neg (by omega), if_neg (by omega), if_neg (by omega),
      if_neg (by omega), if_neg (by omega), if_neg (by omega), if_neg (by omega)] at he
    unfold Cpio.emit at he
    split at he <;> simp at he
  · refine ⟨_, _, h6, inode_succ hino, ?_⟩
    simp only [List.length_append, entryBytes, headerBytes_length, pad_length, Newc.up4]
    rw [hee] at h5 ⊢
    omega
  · exfalso
    apply h5
    rw [hee]
    simp only [oneEntry]
    split
    · simp only [List.length_append, List.length_cons, List.length_nil]; omega
    · omega

theorem packDir_fits {p : Bytes} {m : UInt32} {s : State}
    (hi : s.inodeCounter.toNat < 2 ^ 32 - 1) (hn : p.length < 2 ^ 32 - 2)
    (hb : s.buffer.length < 2 ^ 63) :
    ∃ s', packDir p m s = (.ok (), s') ∧ s'.inodeCounter.toNat = s.inodeCounter.toNat + 1 ∧
      s'.buffer.length < s.buffer.length + 2 ^ 34 := by
  have hu : u32Max = 4294967295 := rfl
  have hU : usizeMax = 18446744073709551615 := rfl
  have hh : staticHeaderLen = 110 := rfl
  have hino : s.inodeCounter ≠ UInt32.ofNat u32Max := by
    intro h
    rw [h] at hi
    revert hi
    decide
  have hA := align4_bound (n := staticHeaderLen + p.length) (by omega)
  rcases packDir_cases p m s with ⟨e, he⟩ | ⟨e, hee, h2, ⟨h5, h6⟩ | ⟨h5, h6⟩⟩
  · exfalso
    unfold packDir at he
    dsimp only at he
    rw [if_neg hino, if_neg (by omega), if_neg (by omega)] at he
    unfold Cpio.emit at he
    split at he
    · cases he
    · next h => 
      split at h
      · cases h
      · cases h
    · cases he
  · refine ⟨_, h6, inode_succ hino, ?_⟩
    simp only [List.length_append, entryBytes, headerBytes_length, pad_length, Newc.up4, List.length_nil]
    rw [hee] at h5 ⊢
    omega
  · exfalso
    apply h5
    rw [hee]
    simp only [dirEntry]
    omega

theorem packDirs_fits (l : List (Bytes × UInt32)) : ∀ s : State,
    s.inodeCounter.toNat + l.length < 2 ^ 32 - 1 → (∀ q ∈ l, q.1.length < 2 ^ 32 - 2) →
    s.buffer.length + l.length * 2 ^ 34 < 2 ^ 63 →
    ∃ s', packDirs l s = (.ok (), s') ∧ s'.inodeCounter.toNat = s.inodeCounter.toNat + l.length ∧
      s'.buffer.length ≤ s.buffer.length + l.length * 2 ^ 34 := by
  induction l with
  | nil => intro s _ _ _; exact ⟨s, rfl, by simp, by simp⟩
  | cons q l ih =>
    intro s h1 h2 h3
    obtain ⟨p, m⟩ := q
    simp only [List.length_cons] at h1 h3 ⊢
    obtain ⟨s1, e1, i1, b1⟩ := packDir_fits (p := p) (m := m) (s := s) (by omega) (h2 (p, m) (by simp)) (by omega)
    obtain ⟨s2, e2, i2, b2⟩ := ih s1 (by omega) (fun q hq => h2 q (by simp [hq])) (by omega)
    refine ⟨s2, ?_, by omega, by omega⟩
    simp only [packDirs, RM.bind_run, e1, e2]

theorem packFileList_fits {fw : Fw} {pfx : Bytes} {am : UInt32} (hpfx : pfx.length < 2 ^ 30) (l : List Str16) :
    ∀ s : State, s.inodeCounter.toNat + l.length < 2 ^ 32 - 1 →
    s.buffer.length + l.length * 2 ^ 34 < 2 ^ 63 →
    (∀ f ∈ l, baseName f ≠ [] ∧ (toUtf8 (baseName f)).length < 2 ^ 31 ∧
      ∃ c, fw.read f = some c ∧ c.length < 2 ^ 32) →
    ∃ s', packFileList fw pfx am l s = (.ok (), s') ∧
      s'.inodeCounter.toNat = s.inodeCounter.toNat + l.length ∧
      s'.buffer.length ≤ s.buffer.length + l.length * 2 ^ 34 := by
  induction l with
  | nil => intro s _ _ _; exact ⟨s, rfl, by simp, by simp⟩
  | cons f l ih =>
    intro s h1 h2 h3
    simp only [List.length_cons] at h1 h2 ⊢
    obtain ⟨g1, g2, c, g3, g4⟩ := h3 f (by simp)
    obtain ⟨n, s1, e1, i1, b1⟩ := packOne_fits (f := toUtf8 (baseName f)) (c := c) (p := pfx) (m := am) (s := s)
      g4 (by omega) (by omega) (by omega)
    obtain ⟨s2, e2, i2, b2⟩ := ih s1 (by omega) (by omega) (fun f hf => h3 f (by simp [hf]))
    refine ⟨s2, ?_, by omega, by omega⟩
    simp only [packFileList, if_neg g1, g3, RM.bind_run, e1, e2]

/-- `pack_cpio` succeeds on files that fit. -/
theorem packCpio_fits {fw : Fw} {files : List Str16} {pfx : Bytes} {dm am : UInt32}
    (hpfx : pfx.length < 2 ^ 8) (hl : files.length < 2 ^ 24)
    (hf : ∀ f ∈ files, baseName f ≠ [] ∧ (toUtf8 (baseName f)).length < 2 ^ 31 ∧
      ∃ c, fw.read f = some c ∧ c.length < 2 ^ 32) :
    ∃ s, packCpio fw files pfx dm am = .ok s := by
  have hperm : (sortPaths files).Perm files := List.isort_perm _ _
  have hanc : (properAncestors pfx).length ≤ 2 ^ 8 := by
    unfold properAncestors
    rw [List.length_map]
    have := List.length_filter_le (fun i => decide (pfx[i]? = some 0x2F)) (List.range pfx.length)
    rw [List.length_range] at this
    omega
  unfold packCpio
  simp only [RM.bind_run]
  rw [packPrefix_run, dirNames_split]
  obtain ⟨s1, e1, i1, b1⟩ := packDirs_fits ((List.map (fun x => (x, (0o555 : UInt32))) (List.map (fun x => [0x2F] ++ x) (properAncestors pfx ++ [pfx])).dropLast) ++
      [((List.map (fun x => [0x2F] ++ x) (properAncestors pfx ++ [pfx])).getLastD [], dm)]) new (by
        simp only [List.length_append, List.length_map, List.length_dropLast, List.length_cons, List.length_nil]
        have : new.inodeCounter.toNat = 0 := rfl
        omega) (by
      intro q hq
      simp only [List.map_append, List.map_cons, List.map_nil, List.dropLast_concat,
        List.getLastD_concat, List.mem_append, List.mem_map, List.mem_singleton] at hq
      rcases hq with ⟨_, ⟨a, ha, rfl⟩, rfl⟩ | rfl
      · unfold properAncestors at ha
        obtain ⟨i, _, rfl⟩ := List.mem_map.mp ha
        simp only [List.length_append, List.length_take, List.length_cons, List.length_nil]
        omega
      · simp only [List.length_append, List.length_cons, List.length_nil]
        omega) (by
        simp only [List.length_append, List.length_map, List.length_dropLast, List.length_cons, List.length_nil]
        have : new.buffer.length = 0 := rfl
        omega)
  rw [e1]
  dsimp only
  simp only [List.length_append, List.length_map, List.length_dropLast, List.length_cons, List.length_nil] at i1 b1
  have z1 : new.inodeCounter.toNat = 0 := rfl
  have z2 : new.buffer.length = 0 := rfl
  have hlen := hperm.length_eq
  obtain ⟨s2, e2, i2, b2⟩ := packFileList_fits (fw := fw) (pfx := pfx) (am := am) (by omega) (sortPaths files) s1
    (by omega) (by omega) (fun f h => hf f (hperm.mem_iff.1 h))
  rw [e2]
  dsimp only
  obtain ⟨n, s3, e3, -, -⟩ := packOne_fits (f := trailerName) (c := []) (p := []) (m := 0) (s := s2)
    (by simp) (by omega) (by decide) (by omega)
  have e3' : packTrailer s2 = (.ok n, s3) := e3
  rw [e3']
  exact ⟨s3, rfl⟩

theorem toUtf8_length_le (l : Str16) : (toUtf8 l).length ≤ 4 * l.length := by
  induction l with
  | nil => simp [toUtf8]
  | cons a l ih =>
    have h4 : (String.utf8EncodeChar (Char.ofNat a.toNat)).length ≤ 4 := by
      rw [String.length_utf8EncodeChar]; exact Char.utf8Size_le_four _
    unfold toUtf8 at ih ⊢
    rw [List.flatMap_cons, List.length_append, List.length_cons]
    omega

/-- In an orderly directory the search and the packing succeed. -/
theorem search_succeeds {fw : Fw} (hp : ProperNames fw) {dir suf : Str16} (ho : OrderlyDir fw dir)
    (hsuf : suf ≠ []) {pfx : Bytes} (hpfx : pfx.length < 2 ^ 8) {dm am : UInt32} {α : Type} {none_ : α}
    {some_ : State → α} :
    ∃ r, (do
      let files ← findFiles fw dir suf
      if files.isEmpty then return none_
      else do
        let cpio ← mapLoadError (packCpio fw files pfx dm am)
        return some_ cpio : Res Companion.Status α) = .ok r := by
  obtain ⟨es, h1, h2, h3, h4⟩ := ho.ex
  have hf : ∃ files, findFiles fw dir suf = .ok files := by
    unfold findFiles
    rw [h1]
    dsimp only
    rw [findEntries_eq, if_neg h2]
    exact ⟨_, rfl⟩
  obtain ⟨files, hf⟩ := hf
  obtain ⟨es', h1', -, hfiles⟩ := findFiles_ok hf
  rw [h1] at h1'
  cases h1'
  rw [hf]
  simp only [bind, Res.bind]
  split
  · exact ⟨_, rfl⟩
  · obtain ⟨s, hs⟩ := packCpio_fits (fw := fw) (files := files) (pfx := pfx) (dm := dm) (am := am) hpfx (by
        rw [hfiles, List.length_map]
        unfold foundNames
        rw [List.length_map]
        have g1 := List.length_filter_le (isCompanion suf) (es.filterMap id)
        have g2 := List.length_filterMap_le id es
        omega) (by
        intro f hf
        rw [hfiles] at hf
        obtain ⟨n, hn, rfl⟩ := List.mem_map.1 hf
        obtain ⟨e, he, rfl, hr, -, hs⟩ := mem_foundNames hn
        obtain ⟨hlen, c, hc, hcl⟩ := h4 e he hr
        rw [Stub.baseName_append (hp dir es e h1 he)]
        refine ⟨?_, ?_, c, hc, hcl⟩
        · intro h0
          rw [h0] at hs
          exact hsuf (List.suffix_nil.1 hs)
        · have := toUtf8_length_le e.name
          omega)
    rw [hs]
    exact ⟨_, rfl⟩

theorem discoverCredentials_succeeds {fw : Fw} {ip : Option (Option Str16)} (hp : ProperNames fw)
    (ho : Orderly fw ip) {dropin : Option Str16} (hd : ∀ d, dropin = some d → OrderlyDir fw d) :
    ∃ cs, discoverCredentials fw dropin = .ok cs := by
  have hg : ∃ g, discoverGlobalCredentials fw = .ok g := by
    unfold discoverGlobalCredentials
    obtain ⟨b, hb⟩ := ho.exists_
    rw [show fw.tryExists globalCredDir = some b from hb]
    cases b with
    | false => exact ⟨_, rfl⟩
    | true =>
      obtain ⟨b, hm⟩ := ho.isDir hb
      dsimp only
      rw [show fw.metadataIsDir globalCredDir = some b from hm]
      cases b with
      | false => exact ⟨_, rfl⟩
      | true => exact search_succeeds hp (ho.global ⟨hb, hm⟩) (by decide) (by decide)
  obtain ⟨g, hg⟩ := hg
  unfold discoverCredentials
  rw [hg]
  cases dropin with
  | none => exact ⟨_, rfl⟩
  | some d => exact search_succeeds hp (hd d rfl) (by decide) (by decide)

end Verif.Companion

namespace Verif.Stub
open Verif Verif.Companion Verif.Stub.Spec Verif.Companion.Spec

/-- The image's own directory for companions, as the stub determines it. -/
theorem dropin_ok (env : Env) (fw : Fw) (w : World) : ∃ o, dropinDirectory env fw w = (.ok o, w) ∧
    ∀ d, o = some d ↔ ∃ image, HasOwn fw env.imagePath image ∧ d = image ++ lit16 ".extra" := by
  unfold dropinDirectory HasOwn
  cases hip : env.imagePath with
  | none => exact ⟨none, rfl, by simp⟩
  | some p =>
    cases p with
    | none => exact ⟨none, rfl, by simp⟩
    | some p =>
      dsimp only [getDefaultDropinDirectory]
      cases hm : fw.metadataIsDir (p ++ lit16 ".extra") with
      | none =>
        refine ⟨none, rfl, fun d => ⟨by simp, ?_⟩⟩
        rintro ⟨image, ⟨h1, h2⟩, -⟩
        cases h1
        rw [hm] at h2; cases h2
      | some b =>
        cases b with
        | false =>
          refine ⟨none, rfl, fun d => ⟨by simp, ?_⟩⟩
          rintro ⟨image, ⟨h1, h2⟩, -⟩
          cases h1
          rw [hm] at h2; cases h2
        | true =>
          refine ⟨some (p ++ lit16 ".extra"), rfl, fun d => ⟨?_, ?_⟩⟩
          · intro h
            exact ⟨p, ⟨rfl, hm⟩, (Option.some.inj h).symm⟩
          · rintro ⟨image, ⟨h1, h2⟩, rfl⟩
            cases h1; rfl

theorem volumeNow_run (env : Env) (w : World) :
    volumeNow env w = (.ok ((env.fs w.tick).getD Fw.gone), { w with tick := w.tick + 1 }) := rfl

/-- What the volume shows, if it shows anything. -/
theorem shown {env : Env} {t : Nat} {P : Fw → Prop} (hgone : ¬ P Fw.gone) (h : P ((env.fs t).getD Fw.gone)) :
    ∃ fw, (∃ t, env.fs t = some fw) ∧ P fw := by
  cases hf : env.fs t with
  | none => rw [hf] at h; exact absurd h hgone
  | some fw => rw [hf] at h; exact ⟨fw, ⟨t, hf⟩, h⟩

theorem HasOwn.not_gone {ip : Option (Option Str16)} {image : Str16} : ¬ HasOwn Fw.gone ip image :=
  fun h => by cases h.2

theorem discoverCredentials_gone (o : Option Str16) : discoverCredentials Fw.gone o = .panic := rfl

theorem discoverExtensions_gone (d : Str16) : discoverSystemExtensions Fw.gone d = .panic := rfl

/-- **C58**, first half: no file other than the documented ones gets into a companion initrd, whatever
fails and however the volume changes. -/
theorem discoverCompanions_sound {env : Env} (hp : ∀ t fw, env.fs t = some fw → ProperNames fw) {w : World}
    {cs : List Companion} (h : (discoverCompanions env w).1 = .ok cs) :
    Only (fun fw => ∃ t, env.fs t = some fw) env.imagePath cs := by
  unfold discoverCompanions at h
  rw [RM.bind_run, volumeNow_run] at h
  dsimp only at h
  obtain ⟨o, e, ho⟩ := dropin_ok env ((env.fs w.tick).getD Fw.gone) { w with tick := w.tick + 1 }
  rw [RM.bind_run, e] at h
  dsimp only at h
  rw [RM.bind_run, volumeNow_run] at h
  dsimp only at h
  rw [RM.bind_run] at h
  have hown : ∀ d, o = some d → ∃ fw image, (∃ t, env.fs t = some fw) ∧ HasOwn fw env.imagePath image ∧
      d = image ++ lit16 ".extra" := by
    intro d hd
    obtain ⟨image, hi, rfl⟩ := (ho d).1 hd
    obtain ⟨fw, h1, h2⟩ := shown (P := fun fw => HasOwn fw env.imagePath image) HasOwn.not_gone hi
    exact ⟨fw, image, h1, h2, rfl⟩
  generalize hw2 : ({ w with tick := w.tick + 1 + 1 } : World) = w2 at h
  generalize w.tick + 1 = t2 at h
  have hcred : ∀ (cr : List Companion) (w' : World),
      liftCompanion (discoverCredentials ((env.fs t2).getD Fw.gone) o) [] w2 = (.ok cr, w') → ∃ g c, cr = g ++ c ∧
      (g = [] ∨ ∃ fw, (∃ t, env.fs t = some fw) ∧ HasGlobal fw ∧ GlobalCredentials fw g) ∧
      (c = [] ∨ ∃ fw fw' image, (∃ t, env.fs t = some fw) ∧ HasOwn fw env.imagePath image ∧
        (∃ t, env.fs t = some fw') ∧ ImageCredentials fw' image c) := by
    intro cr w' hl
    cases hf : env.fs t2 with
    | none =>
      rw [hf, Option.getD_none, discoverCredentials_gone] at hl
      cases hl
    | some fw2 =>
    rw [hf, Option.getD_some] at hl
    cases hd : discoverCredentials fw2 o with
    | panic => rw [hd] at hl; cases hl
    | err e =>
      rw [hd] at hl
      cases hl; exact ⟨[], [], rfl, .inl rfl, .inl rfl⟩
    | ok cr' =>
      rw [hd] at hl
      cases hl
      obtain ⟨g, c', rfl, h1, h2, h3⟩ := discoverCredentials_ok (hp _ _ hf) hd
      refine ⟨g, c', rfl, ?_, ?_⟩
      · rcases h1 with h1 | ⟨-, rfl⟩
        · exact .inr ⟨fw2, ⟨_, hf⟩, h1⟩
        · exact .inl rfl
      · cases o with
        | none => exact .inl (h3 rfl)
        | some d =>
          obtain ⟨fw, image, g1, g2, rfl⟩ := hown d rfl
          exact .inr ⟨fw, fw2, image, g1, g2, ⟨_, hf⟩, h2 _ rfl⟩
  rcases hl : liftCompanion (discoverCredentials ((env.fs t2).getD Fw.gone) o) [] w2 with ⟨cr | e | _, w'⟩
  · rw [hl] at h
    dsimp only at h
    obtain ⟨g, c, rfl, hg, hc⟩ := hcred _ w' hl
    cases o with
    | none =>
      cases h
      exact ⟨g, c, [], by simp, hg, hc, .inl rfl⟩
    | some d =>
      dsimp only at h
      rw [RM.bind_run, volumeNow_run] at h
      dsimp only at h
      rw [RM.bind_run] at h
      obtain ⟨fw, image, g1, g2, rfl⟩ := hown d rfl
      cases hf : env.fs w'.tick with
      | none =>
        rw [hf, Option.getD_none, discoverExtensions_gone] at h
        cases h
      | some fw3 =>
      rw [hf, Option.getD_some] at h
      cases hx : discoverSystemExtensions fw3 (image ++ lit16 ".extra") with
      | panic => rw [hx] at h; cases h
      | err e =>
        rw [hx] at h
        simp only [liftCompanion, RM.pure_run, Res.ok.injEq] at h
        exact ⟨g, c, [], h.symm, hg, hc, .inl rfl⟩
      | ok x =>
        rw [hx] at h
        simp only [liftCompanion, RM.pure_run, Res.ok.injEq] at h
        exact ⟨g, c, x, h.symm, hg, hc, .inr ⟨fw, fw3, image, g1, g2, ⟨_, hf⟩, discoverExtensions_ok (hp _ _ hf) hx⟩⟩
  · rw [hl] at h; cases h
  · rw [hl] at h; cases h

/-- **C58**, second half: on an orderly volume that does not change all of them do. -/
theorem discoverCompanions_complete {env : Env} {fw : Fw} (hfw : ∀ t, env.fs t = some fw) (hp : ProperNames fw)
    (ho : Orderly fw env.imagePath)
    {w : World} {cs : List Companion} (h : (discoverCompanions env w).1 = .ok cs) :
    All fw env.imagePath cs := by
  unfold discoverCompanions at h
  rw [RM.bind_run, volumeNow_run, hfw, Option.getD_some] at h
  dsimp only at h
  obtain ⟨o, e, hod⟩ := dropin_ok env fw { w with tick := w.tick + 1 }
  rw [RM.bind_run, e] at h
  dsimp only at h
  rw [RM.bind_run, volumeNow_run, hfw, Option.getD_some] at h
  dsimp only at h
  rw [RM.bind_run] at h
  have hdir : ∀ d, o = some d → OrderlyDir fw d := by
    intro d hd
    obtain ⟨image, hi, rfl⟩ := (hod d).1 hd
    exact ho.own image hi
  obtain ⟨cr, hcr⟩ := discoverCredentials_succeeds hp ho hdir
  obtain ⟨g, c, rfl, hg, hc, hc0⟩ := discoverCredentials_ok hp hcr
  rw [hcr] at h
  simp only [liftCompanion, RM.pure_run] at h
  have hglob : (HasGlobal fw → GlobalCredentials fw g) ∧ (¬ HasGlobal fw → g = []) := by
    rcases hg with ⟨h1, h2⟩ | ⟨h1, h2⟩
    · exact ⟨fun _ => h2, fun h => absurd h1 h⟩
    · exact ⟨fun h => absurd h h1, fun _ => h2⟩
  cases o with
  | none =>
    have hc0 := hc0 rfl
    subst hc0
    cases h
    refine ⟨⟨g, [], [], by simp, hglob.1, hglob.2, ?_, fun _ => ⟨rfl, rfl⟩⟩⟩
    intro image hi
    have := (hod _).2 ⟨image, hi, rfl⟩
    cases this
  | some d =>
    obtain ⟨image, hi, rfl⟩ := (hod d).1 rfl
    dsimp only at h
    rw [RM.bind_run, volumeNow_run, hfw, Option.getD_some] at h
    dsimp only at h
    rw [RM.bind_run] at h
    obtain ⟨x, hx⟩ : ∃ x, discoverSystemExtensions fw (image ++ lit16 ".extra") = .ok x :=
      search_succeeds hp (ho.own image hi) (by decide) (by decide)
    rw [hx] at h
    simp only [RM.pure_run, Res.ok.injEq] at h
    refine ⟨⟨g, c, x, h.symm, hglob.1, hglob.2, ?_, ?_⟩⟩
    · intro image' hi'
      have : image' = image := by
        have := hi'.1.symm.trans hi.1
        simpa using this
      subst this
      exact ⟨hc _ rfl, discoverExtensions_ok hp hx⟩
    · intro hno
      exact absurd hi (hno image)

/-- **C58.** The initrd the kernel gets is the verified initrd followed by the archives of the companion
files of the image: never an archive with anything else in it, even if the volume changes while the stub
runs, and on a volume that answers without errors and does not change exactly all of them, in the order global credentials, credentials, system extensions. With a TPM
these very archives, in this order, are what has been submitted to PCR 12 and 13 before. -/
theorem C58_companions_exact (env : Env) (w : World) (s : Started) (h : Starts env w s)
    (hp : ∀ t fw, env.fs t = some fw → ProperNames fw) :
    ∃ pe kernel initrd, ∃ cs : List Companion, ∃ joined pre, env.parseOwn env.ownImage = some pe ∧
      Verified env.sha pe env.ownImage kernel initrd ∧
      s.initrd = some joined ∧ Joined (initrd :: cs.map fun c => c.cpio.buffer) joined ∧
      (main env w).2.trace = w.trace ++ pre ++ [.start s] ∧
      (env.tpmOpens w.tick = true → ((measurements pre).filter fun m => decide (m.1 = 12 ∨ m.1 = 13)) =
        cs.map fun c => (if c.kind = .systemExtension then 13 else 12, c.cpio.buffer)) ∧
      Only (fun fw => ∃ t, env.fs t = some fw) env.imagePath cs ∧
      ∀ fw, (∀ t, env.fs t = some fw) → Orderly fw env.imagePath → All fw env.imagePath cs := by
  have found : ∀ cs, ((∃ t, env.fs t = none ∧ cs = []) ∨ ∃ w2, (discoverCompanions env w2).1 = .ok cs) →
      Only (fun fw => ∃ t, env.fs t = some fw) env.imagePath cs ∧
      ∀ fw, (∀ t, env.fs t = some fw) → Orderly fw env.imagePath → All fw env.imagePath cs := by
    intro cs h3
    rcases h3 with ⟨t, ht, rfl⟩ | ⟨w2, hd⟩
    · refine ⟨⟨[], [], [], rfl, .inl rfl, .inl rfl, .inl rfl⟩, fun fw hfw _ => ?_⟩
      rw [hfw t] at ht
      cases ht
    · exact ⟨discoverCompanions_sound hp hd, fun fw hfw ho => discoverCompanions_complete hfw (hp 0 fw (hfw 0)) ho hd⟩
  by_cases htpm : env.tpmOpens w.tick = true
  · obtain ⟨pe, kernel, initrd, cs, joined, pre, h0, h1, h2, h4, h5, hm, h3⟩ :=
      companions_measured_found env w s h htpm
    exact ⟨pe, kernel, initrd, cs, joined, pre, h1, h2, h4, h5, h0, fun _ => hm, found cs h3⟩
  · obtain ⟨pe, kernel, initrd, cs, joined, h1, h2, h3, h4, h5⟩ := C12_initrd_handed_over env w s h
    obtain ⟨pre, h0, -⟩ := C08_started_once env w s h
    exact ⟨pe, kernel, initrd, cs, joined, pre, h1, h2, h4, h5, h0, fun h => absurd h htpm, found cs h3⟩

/-- The volume of the sample machine has proper names and is orderly, with files in both directories. -/
theorem Sample.orderly : ProperNames Sample.volume ∧ Orderly Sample.volume (some (some Sample.selfPath)) ∧
    HasGlobal Sample.volume ∧ HasOwn Sample.volume (some (some Sample.selfPath)) Sample.selfPath := by
  have hg : Sample.volume.readDir globalDir = some [some { name := lit16 "g.cred", regular := true }] := by
    decide +kernel
  have hd : Sample.volume.readDir Sample.dropin = some [some { name := lit16 "l.cred", regular := true },
      some { name := lit16 "x.raw", regular := true }, some { name := lit16 "d", regular := false }] := by
    decide +kernel
  have hown : HasOwn Sample.volume (some (some Sample.selfPath)) Sample.selfPath := ⟨rfl, by decide +kernel⟩
  refine ⟨?_, ⟨⟨true, by decide +kernel⟩, fun _ => ⟨true, by decide +kernel⟩, fun _ => ⟨⟨_, hg, by simp, by simp, ?_⟩⟩,
    ?_⟩, ⟨by decide +kernel, by decide +kernel⟩, hown⟩
  · intro dir es e he hm
    by_cases h1 : dir = globalCredDir
    · subst h1
      rw [show Sample.volume.readDir globalCredDir = _ from hg] at he
      cases he
      simp only [List.mem_singleton, Option.some.injEq] at hm
      subst hm; decide +kernel
    · by_cases h2 : dir = Sample.dropin
      · subst h2
        rw [hd] at he
        cases he
        simp only [List.mem_cons, Option.some.injEq, List.not_mem_nil, or_false] at hm
        rcases hm with rfl | rfl | rfl <;> decide +kernel
      · simp [Sample.volume, h1, h2] at he
  · intro e he _
    simp only [List.mem_singleton, Option.some.injEq] at he
    subst he
    exact ⟨by decide +kernel, [1], by decide +kernel, by simp⟩
  · intro image hi
    have : image = Sample.selfPath := by simpa using hi.1.symm
    subst this
    refine ⟨⟨_, hd, by simp, by simp, ?_⟩⟩
    intro e he hr
    simp only [List.mem_cons, Option.some.injEq, List.not_mem_nil, or_false] at he
    rcases he with rfl | rfl | rfl
    · exact ⟨by decide +kernel, [2, 2], by decide +kernel, by simp⟩
    · exact ⟨by decide +kernel, [3, 3, 3], by decide +kernel, by simp⟩
    · simp at hr

/-- Non-vacuity of C58: the sample machine starts its kernel with companions from both directories. -/
example : ∃ s, Starts (Sample.env true .success) (Sample.start (some [1]) none) s ∧
    (∀ t fw, (Sample.env true .success).fs t = some fw →
      ProperNames fw ∧ Orderly fw (Sample.env true .success).imagePath ∧ HasGlobal fw) := by
  obtain ⟨s, h, -⟩ := Sample.starts_exists (tpm := true) (st := .success) (sb := some [1])
    (o := none) (by decide +kernel)
  refine ⟨s, h, fun t fw hfw => ?_⟩
  cases hfw
  exact ⟨Sample.orderly.1, Sample.orderly.2.1, Sample.orderly.2.2.1⟩

end Verif.Stub
