import Verif.Model.Install
import Verif.Lemmas.EspPaths
import Verif.Lemmas.FsOps
/-!
# Which paths the installer records as being in use
-/
namespace Verif.Tool
open Verif Verif.Generation

/-- `m` leaves the paths in use as they are. -/
def KeepsRoots {α : Type} (m : M α) : Prop := ∀ s, (m s).2.roots = s.roots

namespace KeepsRoots
variable {α β : Type}

theorem pure (a : α) : KeepsRoots (Pure.pure a : M α) := fun _ => rfl
theorem throw : KeepsRoots (RM.throw () : M α) := fun _ => rfl
theorem panic : KeepsRoots (RM.panic : M α) := fun _ => rfl
theorem next : KeepsRoots Tool.next := fun _ => rfl
theorem change (c : Change) : KeepsRoots (Tool.change c) := fun _ => rfl
theorem getFs : KeepsRoots Tool.getFs := fun _ => rfl
theorem get : KeepsRoots (RM.get : M State) := fun _ => rfl

theorem bind {m : M α} {f : α → M β} (h : KeepsRoots m) (hf : ∀ a, KeepsRoots (f a)) :
    KeepsRoots (m >>= f) := by
  intro s
  rw [RM.bind_run]
  have := h s
  rcases hm : m s with ⟨r, s'⟩
  rw [hm] at this
  cases r with
  | ok a => exact (hf a s').trans this
  | err e => exact this
  | panic => exact this

theorem attempt {m : M α} (h : KeepsRoots m) : KeepsRoots (RM.attempt m) := by
  intro s
  unfold RM.attempt
  have := h s
  rcases hm : m s with ⟨r, s'⟩
  rw [hm] at this
  cases r <;> exact this

theorem ite {c : Prop} [Decidable c] {m m' : M α} (h : KeepsRoots m) (h' : KeepsRoots m') :
    KeepsRoots (if c then m else m') := by split <;> assumption

theorem require (b : Bool) : KeepsRoots (Tool.require b) := by
  unfold Tool.require; exact .ite (.pure _) .throw
theorem faulty (os : Os) : KeepsRoots (Tool.faulty os) := .bind .next fun _ => .pure _
theorem guarded (os : Os) : KeepsRoots (Tool.guarded os) := .bind (.faulty os) fun _ => .require _

/-- Decompose. -/
macro "keeps" : tactic => `(tactic| repeat' (first
  | exact KeepsRoots.pure _ | exact KeepsRoots.throw | exact KeepsRoots.panic
  | exact KeepsRoots.next | exact KeepsRoots.change _ | exact KeepsRoots.getFs
  | exact KeepsRoots.guarded _ | exact KeepsRoots.faulty _ | exact KeepsRoots.require _
  | assumption
  | (refine KeepsRoots.bind ?_ fun _ => ?_) | (refine KeepsRoots.attempt ?_)
  | split))

theorem ofOption (o : Option α) : KeepsRoots (Tool.ofOption o) := by unfold Tool.ofOption; keeps
theorem ofRes (o : Res Unit α) : KeepsRoots (Tool.ofRes o) := by unfold Tool.ofRes; keeps
theorem expectSome (o : Option α) : KeepsRoots (Tool.expectSome o) := by unfold Tool.expectSome; keeps
theorem pathExists (os : Os) (p : Path) : KeepsRoots (Tool.pathExists os p) := by
  unfold Tool.pathExists; keeps
theorem readFs (os : Os) (p : Path) : KeepsRoots (Tool.readFs os p) := by unfold Tool.readFs; keeps
theorem mkdir (os : Os) (p : Path) : KeepsRoots (Tool.mkdir os p) := by unfold Tool.mkdir; keeps
theorem createFile (os : Os) (p : Path) : KeepsRoots (Tool.createFile os p) := by
  unfold Tool.createFile; keeps
theorem writePartials (p : Path) (l : List Bytes) : KeepsRoots (Tool.writePartials p l) := by
  induction l with
  | nil => exact .pure _
  | cons d l ih => exact .bind (.change _) fun _ => ih
theorem writeFile (os : Os) (p : Path) (d : Bytes) : KeepsRoots (Tool.writeFile os p d) := by
  unfold Tool.writeFile
  exact .bind .next fun _ => .bind (.writePartials _ _) fun _ => .bind (.guarded _) fun _ => .change _
theorem fsync (os : Os) (p : Path) : KeepsRoots (Tool.fsync os p) := by unfold Tool.fsync; keeps
theorem rename (os : Os) (a b : Path) : KeepsRoots (Tool.rename os a b) := by
  unfold Tool.rename; keeps
theorem setPermissionBits (os : Os) (p : Path) (m : Nat) : KeepsRoots (Tool.setPermissionBits os p m) := by
  unfold Tool.setPermissionBits; keeps
theorem syncFs (os : Os) (p : Path) : KeepsRoots (Tool.syncFs os p) := by unfold Tool.syncFs; keeps
theorem mkdirMissing (os : Os) (l : List Path) : KeepsRoots (Tool.mkdirMissing os l) := by
  induction l with
  | nil => exact .pure _
  | cons p l ih =>
    unfold Tool.mkdirMissing
    exact .bind .getFs fun _ => .ite ih (.bind (.mkdir _ _) fun _ => ih)
theorem ensureParentDir (os : Os) (p : Path) : KeepsRoots (Tool.ensureParentDir os p) := by
  unfold Tool.ensureParentDir Tool.createDirAll
  split
  · exact .bind (.attempt (.mkdirMissing _ _)) fun _ => .pure _
  · exact .pure _
theorem readDir (os : Os) (p : Path) : KeepsRoots (Tool.readDir os p) := by unfold Tool.readDir; keeps

theorem readSrc (env : Env) (src : Src) : KeepsRoots (Tool.readSrc env src) := by
  unfold Tool.readSrc
  exact .bind (.guarded _) fun _ => .ofOption _
theorem hashSrc (env : Env) (src : Src) : KeepsRoots (Tool.hashSrc env src) :=
  .bind (.readSrc _ _) fun _ => .pure _
theorem hashFs (env : Env) (p : Path) : KeepsRoots (Tool.hashFs env p) :=
  .bind (.readFs _ _) fun _ => .pure _
theorem writeSecureFile (env : Env) (d : Bytes) : KeepsRoots (Tool.writeSecureFile env d) := by
  unfold Tool.writeSecureFile; keeps
theorem fileSize (env : Env) (d : Bytes) : KeepsRoots (Tool.fileSize env d) := by
  unfold Tool.fileSize; keeps
theorem wrapInPe (env : Env) (d : Bytes) (l : List Added) : KeepsRoots (Tool.wrapInPe env d l) :=
  .bind (.guarded _) fun _ => .bind .next fun _ => .ofOption _
theorem lanzabooteImage (env : Env) (p : StubParameters) : KeepsRoots (Tool.lanzabooteImage env p) := by
  unfold Tool.lanzabooteImage
  repeat' (first | exact .writeSecureFile _ _ | exact .hashSrc _ _ | exact .readSrc _ _ |
    exact .ofRes _ | exact .fileSize _ _ | exact .wrapInPe _ _ _ | refine .bind ?_ fun _ => ?_)
theorem appendInitrdSecrets (env : Env) (p : Path) (d : Bytes) :
    KeepsRoots (Tool.appendInitrdSecrets env p d) :=
  .bind (.guarded _) fun _ => .bind .next fun _ => .ofOption _
theorem getPublicKey (env : Env) (s : Signer) : KeepsRoots (s.getPublicKey env) := by
  cases s with
  | empty => exact .pure _
  | «local» a b => exact .readSrc _ _
theorem writeOut (env : Env) (p : Path) (d : Bytes) : KeepsRoots (Tool.writeOut env p d) :=
  .bind (.createFile _ _) fun _ => .writeFile _ _ _
theorem failedOutput (env : Env) (p : Path) : KeepsRoots (Tool.failedOutput env p) :=
  .bind (.createFile _ _) fun _ => .bind .next fun _ => .writePartials _ _
theorem signAndCopy (env : Env) (src : Src) (to : Path) (s : Signer) :
    KeepsRoots (s.signAndCopy env src to) := by
  cases s with
  | empty =>
    refine .bind (.readSrc _ _) fun _ => .bind (.createFile _ _) fun _ => .bind (.guarded _) fun _ => ?_
    exact .bind (.change _) fun _ => .writeFile _ _ _
  | «local» a b =>
    refine .bind (.readSrc _ _) fun _ => .bind .next fun _ => ?_
    split
    · exact .writeOut _ _ _
    · exact .bind (.failedOutput _ _) fun _ => .throw
theorem verifyPath (env : Env) (p : Path) (s : Signer) : KeepsRoots (s.verifyPath env p) := by
  cases s with
  | empty => exact .pure _
  | «local» a b => unfold Signer.verifyPath; keeps
theorem lockPe (env : Env) (src : Src) (p : Path) : KeepsRoots (Tool.lockPe env src p) := by
  unfold Tool.lockPe
  refine .bind (.readSrc _ _) fun _ => .bind (.ensureParentDir _ _) fun _ => .bind .next fun _ => ?_
  split
  · exact .writeOut _ _ _
  · exact .bind (.failedOutput _ _) fun _ => .throw
theorem installSigned (env : Env) (s : Signer) (src : Src) (to : Path) :
    KeepsRoots (Tool.installSigned env s src to) := by
  unfold Tool.installSigned
  repeat' (first | exact .signAndCopy _ _ _ _ | exact .ensureParentDir _ _ | exact .rename _ _ _ |
    refine .bind ?_ fun _ => ?_)
theorem atomicCopy (env : Env) (src : Src) (to : Path) : KeepsRoots (Tool.atomicCopy env src to) := by
  unfold Tool.atomicCopy
  repeat' (first | exact .readSrc _ _ | exact .writeOut _ _ _ | exact .createFile _ _ |
    exact .writeFile _ _ _ | exact .fsync _ _ | exact .rename _ _ _ | refine .bind ?_ fun _ => ?_)
theorem forceInstall (env : Env) (src : Src) (to : Path) : KeepsRoots (Tool.forceInstall env src to) := by
  unfold Tool.forceInstall
  repeat' (first | exact .atomicCopy _ _ _ | exact .ensureParentDir _ _ |
    exact .setPermissionBits _ _ _ | refine .bind ?_ fun _ => ?_)
theorem needsInstall (env : Env) (src : Src) (to : Path) : KeepsRoots (Tool.needsInstall env src to) := by
  unfold Tool.needsInstall
  repeat' (first | exact .hashSrc _ _ | exact .hashFs _ _ | exact .pathExists _ _ |
    exact .pure _ | refine .attempt ?_ | refine .bind ?_ fun _ => ?_ | split)
theorem install (env : Env) (src : Src) (to : Path) : KeepsRoots (Tool.install env src to) := by
  unfold Tool.install
  repeat' (first | exact .needsInstall _ _ _ | exact .forceInstall _ _ _ | exact .pathExists _ _ |
    exact .pure _ | refine .bind ?_ fun _ => ?_ | split)

theorem newerSystemdBoot (env : Env) (src to : Path) : KeepsRoots (Tool.newerSystemdBoot env src to) := by
  unfold Tool.newerSystemdBoot Tool.installedVersion
  repeat' (first | exact .pathExists _ _ | exact .readSrc _ _ | exact .readFs _ _ | exact .ofRes _ |
    exact .pure _ | refine .attempt ?_ | refine .bind ?_ fun _ => ?_ | split)
theorem replaceSystemdBoot (env : Env) (cfg : Config) : KeepsRoots (Tool.replaceSystemdBoot env cfg) := by
  unfold Tool.replaceSystemdBoot Tool.measureNext Tool.measurementDone
  repeat' (first | exact .lockPe _ _ _ | exact .installSigned _ _ _ _ | exact .rename _ _ _ |
    exact .pure _ | refine .bind ?_ fun _ => ?_ | split)
theorem installSystemdBoot (env : Env) (cfg : Config) : KeepsRoots (Tool.installSystemdBoot env cfg) := by
  unfold Tool.installSystemdBoot Tool.orM Tool.andM Tool.measurementExists
  repeat' (first | exact .newerSystemdBoot _ _ _ | exact .verifyPath _ _ _ | exact .pathExists _ _ |
    exact .replaceSystemdBoot _ _ | exact .install _ _ _ |
    exact .pure _ | refine .bind ?_ fun _ => ?_ | split)

end KeepsRoots

variable {env : Env} {cfg : Config}

/-! ### A logic for the paths in use -/

/-- If `m` succeeds with `a`, it has recorded paths `l` with `D a l`. -/
def Adds {α : Type} (m : M α) (D : α → List Path → Prop) : Prop :=
  ∀ s a, (m s).1 = .ok a → ∃ l, (m s).2.roots = s.roots ++ l ∧ D a l

namespace Adds
variable {α β : Type}

theorem keep {m : M α} (h : KeepsRoots m) : Adds m fun _ l => l = [] :=
  fun s _ _ => ⟨[], by simp [h s], rfl⟩

theorem keeping {m : M α} (h : KeepsRoots m) {Q : α → Prop} {A : Fs → Change → Prop}
    (hT : Triple (fun _ => True) m A fun a _ => Q a) : Adds m fun a l => l = [] ∧ Q a :=
  fun s a ha => ⟨[], by simp [h s], rfl, (hT s trivial).post a ha⟩

theorem bind {m : M α} {f : α → M β} {D : α → List Path → Prop} {E : β → List Path → Prop}
    (h : Adds m D) (hf : ∀ a l, D a l → Adds (f a) fun b l' => E b (l ++ l')) :
    Adds (m >>= f) E := by
  intro s b hb
  rw [RM.bind_run] at hb ⊢
  have := h s
  rcases hm : m s with ⟨r, s'⟩
  rw [hm] at this hb
  cases r with
  | ok a =>
    obtain ⟨l, h1, h2⟩ := this a rfl
    obtain ⟨l', h3, h4⟩ := hf a l h2 s' b hb
    exact ⟨l ++ l', by
      show (f a s').2.roots = _
      rw [h3, show s'.roots = s.roots ++ l from h1, List.append_assoc], h4⟩
  | err e => cases hb
  | panic => cases hb

theorem bindKeep {m : M α} {f : α → M β} {E : β → List Path → Prop}
    (h : KeepsRoots m) (hf : ∀ a, Adds (f a) E) : Adds (m >>= f) E :=
  bind (keep h) fun a l hl => by subst hl; simpa using hf a

theorem bindKeeping {m : M α} {f : α → M β} {E : β → List Path → Prop} (h : KeepsRoots m)
    {Q : α → Prop} {A : Fs → Change → Prop} (hT : Triple (fun _ => True) m A fun a _ => Q a)
    (hf : ∀ a, Q a → Adds (f a) E) : Adds (m >>= f) E :=
  bind (keeping h hT) fun a l hl => by obtain ⟨rfl, hq⟩ := hl; simpa using hf a hq

theorem extend (ps : List Path) : Adds (extendRoots ps) fun _ l => l = ps :=
  fun _ _ _ => ⟨ps, rfl, rfl⟩

theorem bindExtend {ps : List Path} {f : Unit → M β} {E : β → List Path → Prop}
    (hf : Adds (f ()) fun b l => E b (ps ++ l)) : Adds (extendRoots ps >>= f) E :=
  bind (extend ps) fun _ l hl => by subst hl; exact hf

theorem pure {a : α} {E : α → List Path → Prop} (h : E a []) : Adds (Pure.pure a : M α) E := by
  intro s b hb
  cases hb
  exact ⟨[], by simp, h⟩

theorem post {m : M α} {D E : α → List Path → Prop} (h : Adds m D) (hE : ∀ a l, D a l → E a l) :
    Adds m E := fun s a ha => let ⟨l, h1, h2⟩ := h s a ha; ⟨l, h1, hE a l h2⟩

end Adds

/-- What is recorded, along with other facts. -/
theorem Triple.adds {α : Type} {m : M α} {P : State → Prop} {A : Fs → Change → Prop}
    {Q : α → State → Prop} {D : α → List Path → Prop} {R : List Path} (h : Triple P m A Q)
    (hD : Adds m D) : Triple (fun s => P s ∧ s.roots = R) m A
      (fun a s => Q a s ∧ ∃ l, s.roots = R ++ l ∧ D a l) := by
  rintro s ⟨hs, rfl⟩
  obtain ⟨hc, hr, hb, hp⟩ := h s hs
  refine ⟨hc, hr, hb, fun a e => ⟨hp a e, hD s a e⟩⟩

/-- Nothing is recorded. -/
theorem Triple.keepRoots {α : Type} {m : M α} {P : State → Prop} {A : Fs → Change → Prop}
    {Q : α → State → Prop} {R : List Path} (h : Triple P m A Q)
    (hD : KeepsRoots m) : Triple (fun s => P s ∧ s.roots = R) m A (fun a s => Q a s ∧ s.roots = R) := by
  rintro s ⟨hs, rfl⟩
  obtain ⟨hc, hr, hb, hp⟩ := h s hs
  exact ⟨hc, hr, hb, fun a e => ⟨hp a e, hD s⟩⟩

/-! ### A new generation -/

/-- The measurement of a generation, if there is one. -/
def measurements (cfg : Config) (g : Gen) : List Path :=
  match cfg.pcrlockDirectory with
  | none => []
  | some p => [measurementFile p g]

theorem Triple.facts {α : Type} {m : M α} {A : Fs → Change → Prop} {Q : α → State → Prop}
    {F : α → Prop} (h : Triple (fun _ => True) m A Q) (hF : ∀ a s, Q a s → F a) :
    Triple (fun _ => True) m A fun a _ => F a := h.post hF

theorem installNixosCa_adds (env : Env) (cfg : Config) (src : Src) {label : Str} (hl : '/' ∉ label) :
    Adds (installNixosCa env cfg src label) fun to l => ∃ d, env.content src = some d ∧
      to = caFile cfg.esp label (env.sha.hash d) ∧ l = [to] := by
  unfold installNixosCa
  refine Adds.bindKeeping (.hashSrc _ _) (A := NoChange)
    ((hashSrc_triple (P := fun _ => True) (fun _ _ h => h) env src).facts fun h s q => q.2) fun h hh => ?_
  obtain ⟨d, hd, rfl⟩ := hh
  rw [kernel_target cfg hl]
  refine Adds.bindExtend (Adds.bindKeep (.install _ _ _) fun _ => Adds.pure ?_)
  exact ⟨d, hd, rfl, rfl⟩

theorem KeepsRoots.initrdLocation (env : Env) (b : BootSpec) : KeepsRoots (initrdLocation env b) := by
  unfold Tool.initrdLocation
  split
  · exact .bind (.ofOption _) fun _ => .bind (.readSrc _ _) fun _ =>
      .bind (.writeSecureFile _ _) fun _ => .bind (.appendInitrdSecrets _ _ _) fun _ => .pure _
  · exact .bind (.expectSome _) fun _ => .pure _

theorem KeepsRoots.stubParameters (cfg : Config) (g : Gen) (src : Src) (k i : Path) :
    KeepsRoots (stubParameters cfg g src k i) := by
  unfold Tool.stubParameters
  exact .bind (.ofOption _) fun _ => .bind (.ofOption _) fun _ => .pure _

theorem measureImage_adds {g : Gen} (hg : SafeGen g) (image : Bytes) :
    Adds (measureImage env cfg g image) fun _ l => l = measurements cfg g := by
  unfold measureImage Config.pcrlock measurements
  cases hp : cfg.pcrlockDirectory with
  | none => exact Adds.pure rfl
  | some p =>
    dsimp only [Option.map_some]
    rw [measurement_target p hg]
    exact Adds.bindKeep (.lockPe _ _ _) fun _ => Adds.extend _

end Verif.Tool
