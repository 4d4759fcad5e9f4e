import Verif.Spec.StubFootprint
import Verif.Lemmas.Boot
import Verif.Lemmas.SampleBoot
import Verif.Props.Companion
import Verif.Props.Pcr
import Verif.Props.BootStarts
/-!
# C82: what the stub does depends on few files only
-/
namespace Verif.Companion
open Verif Verif.Companion.Spec Verif.Stub.Spec

theorem findEntries_names (dir suf : Str16) (es : List (Option DirEnt)) (h : none ∉ es) :
    findEntries dir suf es =
      .ok ((((es.filterMap id).filter (isCompanion suf)).map (·.name)).map ((dir ++ [sep16]) ++ ·)) := by
  rw [findEntries_eq, if_neg h]
  congr 1
  clear h
  induction es with
  | nil => rfl
  | cons e es ih =>
    cases e with
    | none => simpa using ih
    | some e =>
      rw [List.filterMap_cons, List.filterMap_cons]
      simp only [Option.bind_some, id]
      rw [List.filter_cons]
      by_cases hc : isCompanion suf e = true
      · have hc' := hc
        unfold isCompanion at hc'
        simp only [hc, hc', if_true, List.map_cons, ih]
        rfl
      · have hc' := hc
        unfold isCompanion at hc'
        simp only [hc, hc', ih]
        rfl

theorem sep16_lit : lit16 "\\" = [sep16] := by decide

/-- Searching on both volumes. -/
theorem findFiles_same {fw fw' : Fw} {dir suf : Str16} (h : SameFiles fw fw' dir suf) :
    (findFiles fw dir suf = .panic ∧ findFiles fw' dir suf = .panic) ∨
    (findFiles fw dir suf = .err .deviceError ∧ findFiles fw' dir suf = .err .deviceError) ∨
    ∃ l l', findFiles fw dir suf = .ok l ∧ findFiles fw' dir suf = .ok l' ∧ l.Perm l' ∧
      ∀ p ∈ l, fw.read p = fw'.read p := by
  cases h with
  | unreadable h h' => left; simp [findFiles, h, h']
  | @listed es es' h h' hf hn hc =>
    right
    simp only [findFiles, h, h']
    by_cases he : none ∈ es
    · left
      rw [findEntries_eq, findEntries_eq, if_pos he, if_pos (hf.1 he)]
      exact ⟨rfl, rfl⟩
    · right
      have he' : none ∉ es' := fun x => he (hf.2 x)
      rw [findEntries_names _ _ _ he, findEntries_names _ _ _ he']
      refine ⟨_, _, rfl, rfl, hn.map _, fun p hp => ?_⟩
      simp only [List.mem_map, List.mem_filter] at hp
      obtain ⟨n, ⟨e, ⟨h1, h2⟩, rfl⟩, rfl⟩ := hp
      have := hc e h1 h2
      rwa [sep16_lit] at this

theorem packFileList_same {fw fw' : Fw} (pfx : Bytes) (am : UInt32) (l : List Str16)
    (h : ∀ p ∈ l, fw.read p = fw'.read p) : packFileList fw pfx am l = packFileList fw' pfx am l := by
  induction l with
  | nil => rfl
  | cons f l ih => simp only [packFileList, h f (by simp), ih fun p hp => h p (by simp [hp])]

theorem packCpio_same {fw fw' : Fw} {l l' : List Str16} (hp : l.Perm l') (h : ∀ p ∈ l, fw.read p = fw'.read p)
    (pfx : Bytes) (dm am : UInt32) : packCpio fw l pfx dm am = packCpio fw' l' pfx dm am := by
  unfold packCpio
  dsimp only
  rw [← sortPaths_perm hp, packFileList_same pfx am (sortPaths l) fun p hp => h p (List.mem_isort.1 hp)]

variable {image : Option (Option Str16)} {fw fw' : Fw}

theorem global_same (h : SameCompanions image fw fw') :
    discoverGlobalCredentials fw = discoverGlobalCredentials fw' := by
  have e : globalCredDir = globalDir := rfl
  unfold discoverGlobalCredentials
  rw [e, h.globalExists, ← h.globalIsDir]
  split <;> try rfl
  split <;> try rfl
  next hd =>
  rcases findFiles_same (h.global hd) with ⟨h1, h2⟩ | ⟨h1, h2⟩ | ⟨l, l', h1, h2, hp, hr⟩
  · simp only [h1, h2, bind, Res.bind]
  · simp only [h1, h2, bind, Res.bind]
  · simp only [h1, h2, bind, Res.bind, isEmpty_perm hp, packCpio_same hp hr]

theorem credentials_same (h : SameCompanions image fw fw') {dropin : Option Str16}
    (hd : ∀ dir, dropin = some dir → SameFiles fw fw' dir (lit16 ".cred")) :
    discoverCredentials fw dropin = discoverCredentials fw' dropin := by
  unfold discoverCredentials
  rw [global_same h]
  cases dropin with
  | none => rfl
  | some dir =>
    rcases findFiles_same (hd dir rfl) with ⟨h1, h2⟩ | ⟨h1, h2⟩ | ⟨l, l', h1, h2, hp, hr⟩
    · simp only [h1, h2, bind, Res.bind]
    · simp only [h1, h2, bind, Res.bind]
    · simp only [h1, h2, bind, Res.bind, isEmpty_perm hp, packCpio_same hp hr]

theorem extensions_same {dir : Str16} (hd : SameFiles fw fw' dir (lit16 ".raw")) :
    discoverSystemExtensions fw dir = discoverSystemExtensions fw' dir := by
  unfold discoverSystemExtensions
  rcases findFiles_same hd with ⟨h1, h2⟩ | ⟨h1, h2⟩ | ⟨l, l', h1, h2, hp, hr⟩
  · simp only [h1, h2, bind, Res.bind]
  · simp only [h1, h2, bind, Res.bind]
  · simp only [h1, h2, bind, Res.bind, isEmpty_perm hp, packCpio_same hp hr]

end Verif.Companion

namespace Verif.Stub
open Verif Verif.Companion Verif.Companion.Spec Verif.Stub.Spec

variable {env : Env} {fs' : Nat → Option Fw} {α β : Type}

/-- Nothing is different if the volume cannot be accessed. -/
theorem sameFiles_refl (fw : Fw) (dir suf : Str16) : SameFiles fw fw dir suf := by
  cases h : fw.readDir dir with
  | none => exact .unreadable h h
  | some es => exact .listed h h Iff.rfl (List.Perm.refl _) fun _ _ _ => rfl

theorem sameCompanions_refl (image : Option (Option Str16)) (fw : Fw) : SameCompanions image fw fw :=
  ⟨rfl, rfl, fun _ => sameFiles_refl _ _ _, fun _ _ => rfl, fun _ _ => sameFiles_refl _ _ _,
    fun _ _ => sameFiles_refl _ _ _⟩

namespace SameRun

theorem m_congr {m : M α} {f g : α → M β} (h : ∀ a, f a = g a) : m >>= f = m >>= g := by
  rw [funext h]

theorem bind_lift {r : Res Status α} {f g : α → M β} (h : ∀ a, r = .ok a → f a = g a) :
    lift r >>= f = lift r >>= g := by
  cases r with
  | ok a => exact h a rfl
  | err e => rfl
  | panic => rfl

/-- Looking at the volume. -/
theorem bind_volumeNow {f g : Fw → M β}
    (h : ∀ t, f ((env.fs t).getD Fw.gone) = g ((fs' t).getD Fw.gone)) :
    volumeNow env >>= f = volumeNow { env with fs := fs' } >>= g := by
  funext w
  simp only [volumeNow, RM.bind_run, next, RM.pure_run]
  rw [h]

/-- Finding the volume. -/
theorem bind_getImageFileSystem {f : Option Fw → M β} {g : Option Fw → M β}
    (h : ∀ t, f (env.fs t) = g (fs' t)) :
    getImageFileSystem env >>= f = getImageFileSystem { env with fs := fs' } >>= g := by
  funext w
  simp only [getImageFileSystem, RM.bind_run, next, RM.pure_run]
  rw [h]

theorem expectSome_some (a : α) (f : α → M β) : expectSome (some a) >>= f = f a := rfl

end SameRun
open SameRun

theorem sameGetD {S : Fw → Fw → Prop} (hr : ∀ fw, S fw fw) (hv : ∀ t, (env.fs t).isSome = (fs' t).isSome)
    (h : ∀ t fw fw', env.fs t = some fw → fs' t = some fw' → S fw fw') (t : Nat) :
    S ((env.fs t).getD Fw.gone) ((fs' t).getD Fw.gone) := by
  have hv := hv t
  cases h1 : env.fs t with
  | none =>
    rw [h1] at hv
    cases h2 : fs' t with
    | none => exact hr _
    | some _ => rw [h2] at hv; cases hv
  | some fw =>
    rw [h1] at hv
    cases h2 : fs' t with
    | none => rw [h2] at hv; cases hv
    | some fw' => exact h t fw fw' h1 h2

theorem readFile_same (h : SameVolumes env env.fs fs') {pe : PE} (hp : env.parseOwn env.ownImage = some pe)
    {name : Str16} (hn : TextSection pe env.ownImage (lit ".linux") name ∨
      TextSection pe env.ownImage (lit ".initrd") name) :
    readFile env name = readFile { env with fs := fs' } name := by
  refine bind_volumeNow fun t => ?_
  have := sameGetD (S := fun fw fw' => fw.read name = fw'.read name) (fun _ => rfl) h.there
    (fun t fw fw' h1 h2 => h.named pe hp t fw fw' h1 h2 name hn) t
  rw [this]

theorem loadFromPe_same (h : SameVolumes env env.fs fs') : loadFromPe env = loadFromPe { env with fs := fs' } := by
  unfold loadFromPe
  refine bind_lift fun p hp => ?_
  have hpe : env.parseOwn env.ownImage = some p.pe ∧ p.data = env.ownImage := by
    unfold parseOwnImage at hp
    split at hp
    · next pe e => cases hp; exact ⟨e, rfl⟩
    · cases hp
  refine bind_lift fun kn hk => m_congr fun kh => bind_lift fun inm hi => m_congr fun ih =>
    m_congr fun cl => bind_getImageFileSystem fun t => ?_
  have hk := extractString_spec hk
  have hi := extractString_spec hi
  rw [hpe.2] at hk hi
  have hv := h.there t
  cases h1 : env.fs t with
  | none =>
    rw [h1] at hv
    cases h2 : fs' t with
    | none => rfl
    | some _ => rw [h2] at hv; cases hv
  | some fw =>
    rw [h1] at hv
    cases h2 : fs' t with
    | none => rw [h2] at hv; cases hv
    | some fw' =>
      rw [expectSome_some, expectSome_some, ← readFile_same h hpe.1 (.inl hk)]
      refine m_congr fun k => m_congr fun k => ?_
      rw [← readFile_same h hpe.1 (.inr hi)]
      rfl

theorem discoverCompanions_same (h : SameVolumes env env.fs fs') :
    discoverCompanions env = discoverCompanions { env with fs := fs' } := by
  have hS := sameGetD (S := SameCompanions env.imagePath) (sameCompanions_refl _) h.there h.companions
  unfold discoverCompanions
  refine bind_volumeNow fun t => ?_
  have e : dropinDirectory env ((env.fs t).getD Fw.gone) =
      dropinDirectory { env with fs := fs' } ((fs' t).getD Fw.gone) := by
    unfold dropinDirectory
    cases hi : env.imagePath with
    | none => rfl
    | some p =>
      cases p with
      | none => rfl
      | some p =>
        unfold getDefaultDropinDirectory
        simp only [(hS t).ownIsDir p hi]
  rw [e]
  have key : ∀ d, (∀ dir, d = some dir → ∃ p, env.imagePath = some (some p) ∧ dir = p ++ lit16 ".extra") →
      (do
        let fw ← volumeNow env
        let creds ← liftCompanion (discoverCredentials fw d) []
        match d with
        | none => pure creds
        | some dir => do
          let fw ← volumeNow env
          let exts ← liftCompanion (discoverSystemExtensions fw dir) []
          pure (creds ++ exts) : M (List Companion)) =
      (do
        let fw ← volumeNow { env with fs := fs' }
        let creds ← liftCompanion (discoverCredentials fw d) []
        match d with
        | none => pure creds
        | some dir => do
          let fw ← volumeNow { env with fs := fs' }
          let exts ← liftCompanion (discoverSystemExtensions fw dir) []
          pure (creds ++ exts)) := by
    intro d hd
    refine bind_volumeNow fun t => ?_
    rw [credentials_same (hS t) fun dir hdir => by
      obtain ⟨p, hp, rfl⟩ := hd dir hdir
      exact (hS t).credentials p hp]
    refine m_congr fun creds => ?_
    cases d with
    | none => rfl
    | some dir =>
      obtain ⟨p, hp, rfl⟩ := hd dir rfl
      refine bind_volumeNow fun t => ?_
      rw [extensions_same ((hS t).extensions p hp)]
  have hd : ∀ fw w, ∀ d w', dropinDirectory { env with fs := fs' } fw w = (.ok d, w') →
      ∀ dir, d = some dir → ∃ p, env.imagePath = some (some p) ∧ dir = p ++ lit16 ".extra" := by
    rintro fw w d w' hd dir rfl
    unfold dropinDirectory at hd
    cases hi : env.imagePath with
    | none => simp [hi] at hd
    | some p =>
      cases p with
      | none => simp [hi, getDefaultDropinDirectory, liftCompanion] at hd
      | some p =>
        refine ⟨p, rfl, ?_⟩
        simp only [hi, getDefaultDropinDirectory] at hd
        cases hm : fw.metadataIsDir (p ++ lit16 ".extra") with
        | none => simp [hm, liftCompanion] at hd
        | some b =>
          cases b with
          | false => simp [hm, liftCompanion] at hd
          | true =>
            simp only [hm, liftCompanion, RM.pure_run, Prod.mk.injEq, Res.ok.injEq, Option.some.injEq] at hd
            exact hd.1.symm
  funext w
  rw [RM.bind_run, RM.bind_run]
  rcases hr : dropinDirectory { env with fs := fs' } ((fs' t).getD Fw.gone) w with ⟨r, w'⟩
  cases r with
  | ok d => exact congrFun (key d (hd _ _ _ _ hr)) w'
  | err e => rfl
  | panic => rfl

theorem measureSections_same (p : Parsed) (k i : Bytes) (us : List Uni) :
    measureSections env p k i us = measureSections { env with fs := fs' } p k i us := by
  induction us with
  | nil => rfl
  | cons u us ih =>
    unfold measureSections
    rw [ih]
    rfl

theorem measureImageIf_same (tpm : Bool) (c : Components) :
    measureImageIf env tpm c = measureImageIf { env with fs := fs' } tpm c := by
  have : measureImage env c.kernel c.initrd = measureImage { env with fs := fs' } c.kernel c.initrd := by
    unfold measureImage
    refine bind_lift fun p _ => ?_
    rw [measureSections_same (fs' := fs')]
    rfl
  unfold measureImageIf
  rw [this]

theorem measureCompanionLoop_same (cs : List Companion) :
    measureCompanionLoop env cs = measureCompanionLoop { env with fs := fs' } cs := by
  induction cs with
  | nil => rfl
  | cons c cs ih =>
    unfold measureCompanionLoop
    rw [ih]
    rfl

theorem measureCompanionsIf_same (tpm : Bool) (cs : List Companion) :
    measureCompanionsIf env tpm cs = measureCompanionsIf { env with fs := fs' } tpm cs := by
  unfold measureCompanionsIf measureCompanions
  rw [measureCompanionLoop_same (fs' := fs')]
  rfl

theorem companionBlock_same (h : SameVolumes env env.fs fs') (tpm : Bool) :
    companionBlock env tpm = companionBlock { env with fs := fs' } tpm := by
  unfold companionBlock
  refine bind_getImageFileSystem fun t => ?_
  have hv := h.there t
  cases h1 : env.fs t with
  | none =>
    rw [h1] at hv
    cases h2 : fs' t with
    | none => rfl
    | some _ => rw [h2] at hv; cases hv
  | some fw =>
    rw [h1] at hv
    cases h2 : fs' t with
    | none => rw [h2] at hv; cases hv
    | some fw' =>
      show (discoverCompanions env >>= _) = (discoverCompanions { env with fs := fs' } >>= _)
      rw [← discoverCompanions_same h]
      refine m_congr fun cs => ?_
      rw [measureCompanionsIf_same (fs' := fs')]

/-- C82: a boot depends on no other file of the volume than the kernel and the initrd named in the image, the
`.cred` files in the directory for all images and the `.cred` and `.raw` files in the directory of this image.
If volumes agree on these, then everything is the same: the result, every interaction with the firmware, what is
started. Other files, other directories, the order of listings and everything about other images are
irrelevant. -/
theorem C82_boot_footprint (env : Env) (fs' : Nat → Option Fw) (h : SameVolumes env env.fs fs') (w : World) :
    main env w = main { env with fs := fs' } w := by
  refine congrFun (?_ : main env = main { env with fs := fs' }) w
  unfold main
  refine m_congr fun tpm => m_congr fun _ => ?_
  rw [← loadFromPe_same h]
  refine m_congr fun c => ?_
  rw [← measureImageIf_same (env := env) (fs' := fs')]
  refine m_congr fun _ => ?_
  rw [← companionBlock_same h]
  rfl

/-- The file is none of those a boot may read. -/
theorem C82_other_file (env : Env) (p : Str16) (data : Option Bytes)
    (hn : ∀ pe, env.parseOwn env.ownImage = some pe →
      ¬ (TextSection pe env.ownImage (lit ".linux") p ∨ TextSection pe env.ownImage (lit ".initrd") p))
    (hg : ¬ globalDir ++ lit16 "\\" <+: p)
    (ho : ∀ q, env.imagePath = some (some q) → ¬ q ++ lit16 ".extra" ++ lit16 "\\" <+: p) (w : World) :
    main env w = main { env with fs := fun t => (env.fs t).map (withFile p data) } w := by
  have hr : ∀ (fw : Fw) q, q ≠ p → fw.read q = (withFile p data fw).read q := fun fw q hq => by
    simp only [withFile, if_neg hq]
  have hf : ∀ (fw : Fw) dir suf, ¬ dir ++ lit16 "\\" <+: p → SameFiles fw (withFile p data fw) dir suf := by
    intro fw dir suf hd
    cases h : fw.readDir dir with
    | none => exact .unreadable h h
    | some es =>
      exact .listed h h Iff.rfl (List.Perm.refl _) fun e _ _ => hr _ _ fun hq => hd ⟨_, hq⟩
  refine C82_boot_footprint env _ ⟨fun t => by simp, fun t fw fw' h h' => ?_, fun pe hpe t fw fw' h h' => ?_⟩ w
  · rw [h] at h'
    cases h'
    exact ⟨rfl, rfl, fun _ => hf _ _ _ hg, fun _ _ => rfl, fun q hq => hf _ _ _ (ho q hq),
      fun q hq => hf _ _ _ (ho q hq)⟩
  · rw [h] at h'
    cases h'
    exact fun q hq => hr _ _ fun e => hn pe hpe (e ▸ hq)

end Verif.Stub

namespace Verif.Stub.Sample
open Verif Verif.Companion Verif.Companion.Spec Verif.Stub Verif.Stub.Spec

/-- Another volume: other files besides, listed in another order, and a file not on the first one. -/
def volume' : Fw where
  readDir d :=
    if d = globalCredDir then some [some { name := lit16 "notes.txt", regular := true },
      some { name := lit16 "g.cred", regular := true }]
    else if d = dropin then some [some { name := lit16 "x.raw", regular := true },
      some { name := lit16 "y.cred", regular := false }, some { name := lit16 "l.cred", regular := true }]
    else some []
  metadataIsDir d := some (decide (d = globalCredDir ∨ d = dropin))
  tryExists d := some (decide (d = globalCredDir ∨ d = dropin))
  read f := if f = lit16 "\\loader\\credentials\\notes.txt" then some [9] else volume.read f

theorem namesKernel : TextSection header image (lit ".linux") (lit16 "\\k") :=
  ⟨lit "\\k", sectionContents [sec ".osrel" 73 2] _ rfl (by decide) (by decide) (by decide), by decide, by decide⟩

theorem namesInitrd : TextSection header image (lit ".initrd") (lit16 "\\i") :=
  ⟨lit "\\i", sectionContents [sec ".osrel" 73 2, sec ".linux" 0 2, sec ".linuxh" 2 32] _ rfl (by decide)
    (by decide) (by decide), by decide, by decide⟩

theorem named_eq {pe : PE} (hpe : (env true .success).parseOwn image = some pe) {n : Str16}
    (h : TextSection pe image (lit ".linux") n ∨ TextSection pe image (lit ".initrd") n) :
    n = lit16 "\\k" ∨ n = lit16 "\\i" := by
  have : pe = header := by
    simp only [env, if_true, Option.some.injEq] at hpe
    exact hpe.symm
  subst this
  rcases h with h | h
  · obtain ⟨c, hc⟩ := textSection_contents h
    exact .inl (textSection_same h namesKernel hc hc)
  · obtain ⟨c, hc⟩ := textSection_contents h
    exact .inr (textSection_same h namesInitrd hc hc)

/-- What is in the directory of the image. -/
def listing : List (Option DirEnt) :=
  [some { name := lit16 "l.cred", regular := true }, some { name := lit16 "x.raw", regular := true },
    some { name := lit16 "d", regular := false }]
/-- What is in it on the other volume. -/
def listing' : List (Option DirEnt) :=
  [some { name := lit16 "x.raw", regular := true }, some { name := lit16 "y.cred", regular := false },
    some { name := lit16 "l.cred", regular := true }]

/-- The volumes differ, but not where it matters. -/
theorem sameVolumes : SameVolumes (env true .success) (env true .success).fs (fun _ => some volume') := by
  refine ⟨fun _ => rfl, ?_, ?_⟩
  · rintro t fw fw' h h'
    cases h; cases h'
    refine ⟨rfl, rfl, fun _ => ?_, fun p hp => rfl, fun p hp => ?_, fun p hp => ?_⟩
    · exact .listed rfl rfl (by decide +kernel) (by decide +kernel) (by decide +kernel)
    · cases hp
      exact .listed (es := listing) (es' := listing') (by decide +kernel) (by decide +kernel) (by decide +kernel)
        (by decide +kernel) (by decide +kernel)
    · cases hp
      exact .listed (es := listing) (es' := listing') (by decide +kernel) (by decide +kernel) (by decide +kernel)
        (by decide +kernel) (by decide +kernel)
  · rintro pe hpe t fw fw' h h' name hn
    cases h; cases h'
    rcases named_eq hpe hn with rfl | rfl <;> decide +kernel

/-- Non-vacuity of C82_boot_footprint: the second volume has other listings and another file, and the kernel is
started from it with the same command line. -/
example : volume.readDir dropin ≠ volume'.readDir dropin ∧
    volume.read (lit16 "\\loader\\credentials\\notes.txt") ≠ volume'.read (lit16 "\\loader\\credentials\\notes.txt") ∧
    main (env true .success) (start (some [1]) none) =
      main { env true .success with fs := fun _ => some volume' } (start (some [1]) none) ∧
    (kernelStart true .success (some [1]) none).isSome = true :=
  ⟨by decide +kernel, by decide +kernel, C82_boot_footprint _ _ sameVolumes _, by decide +kernel⟩

/-- The condition is not too strong: with another credential the boot is a different one. -/
example : (main (env true .success) (start (some [1]) none)).2.trace ≠
    (main { env true .success with fs := fun _ => some (withFile (lit16 "\\s.efi.extra\\l.cred") (some [4]) volume) }
      (start (some [1]) none)).2.trace := by decide +kernel

/-- Non-vacuity of C82_other_file: the stub of another generation. -/
example (data : Option Bytes) (w : World) : main (env true .success) w =
    main { env true .success with fs := fun _ => some (withFile (lit16 "\\EFI\\Linux\\other.efi") data volume) } w :=
  C82_other_file _ _ data (fun pe hpe h => by rcases named_eq hpe h with h | h <;> revert h <;> decide)
    (by decide +kernel) (fun q hq => by cases hq; decide +kernel) w

end Verif.Stub.Sample
