import Verif.Lemmas.Twin
import Verif.Lemmas.LoaderFiles
/-!
# What the installer does while other processes do anything
-/
namespace Verif.Tool
open Verif Generation StubName

variable {env : Env} {cfg : Config} {o : Others} {α β : Type} {K : List Path}

/-- Where files are moved to. -/
inductive Home (cfg : Config) : Path → Prop
  | nixos (n : Str) : Home cfg (nixosDir cfg.esp ++ [n])
  | linux (n : Str) : Home cfg (linuxDir cfg.esp ++ [n])
  | boot {q : Path} (h : q = fallbackFile cfg ∨ q = systemdFile cfg ∨ q = confFile cfg) : Home cfg q

/-- A change that installs something; `roots` are kept by garbage collection. -/
def Installs (cfg : Config) (roots : List Path) : Change → Prop
  | .mkdir p => p ≠ [] ∧ ∃ q, Owned cfg q ∧ p <+: q
  | .create p => Owned cfg p
  | .write p _ => Owned cfg p
  | .fsync p => Owned cfg p
  | .chmod p _ => Owned cfg p
  | .rename a b _ => Owned cfg a ∧ Owned cfg b ∧
      (Home cfg b ∧ b ∈ roots ∨ ∃ d, cfg.pcrlockDirectory = some d ∧ b = currentFile d)
  | .syncfs _ => True
  | _ => False

theorem Installs.mono {r r' : List Path} (h : ∀ p ∈ r, p ∈ r') {c : Change} (hc : Installs cfg r c) :
    Installs cfg r' c := by
  cases c <;> try exact hc
  exact ⟨hc.1, hc.2.1, hc.2.2.imp_left fun ⟨a, b⟩ => ⟨a, h _ b⟩⟩

/-- `m` installs things only, whatever the disk is like, if at least `K` is kept. -/
def Acts (cfg : Config) (K : List Path) (m : M α) : Prop :=
  ∀ s, (∀ p ∈ K, p ∈ s.roots) → ∃ l, (m s).2.log = s.log ++ l ∧ (∀ p ∈ s.roots, p ∈ (m s).2.roots) ∧
    ∀ c ∈ l, Installs cfg (m s).2.roots c

namespace Acts

theorem quiet {m : M α} (h : ∀ s, (m s).2.log = s.log ∧ (m s).2.roots = s.roots) : Acts cfg K m := fun s _ =>
  ⟨[], by simp [h], by simp [h], nofun⟩

theorem pure (a : α) : Acts cfg K (Pure.pure a) := quiet fun _ => ⟨rfl, rfl⟩
theorem throw : Acts (α := α) cfg K (RM.throw ()) := quiet fun _ => ⟨rfl, rfl⟩
theorem panic : Acts (α := α) cfg K RM.panic := quiet fun _ => ⟨rfl, rfl⟩
theorem next : Acts cfg K Tool.next := quiet fun _ => ⟨rfl, rfl⟩
theorem getFs : Acts cfg K Tool.getFs := quiet fun _ => ⟨rfl, rfl⟩
theorem get : Acts cfg K RM.get := quiet fun _ => ⟨rfl, rfl⟩
theorem disturb : Acts cfg K (Tool.disturb o) := quiet fun _ => ⟨rfl, rfl⟩

theorem bind {m : M α} {f : α → M β} (h : Acts cfg K m) (hf : ∀ a, Acts cfg K (f a)) : Acts cfg K (m >>= f) := by
  intro s hs
  obtain ⟨l, h1, h2, h3⟩ := h s hs
  rw [RM.bind_run]
  rcases hm : m s with ⟨r, t⟩
  rw [hm] at h1 h2 h3
  dsimp only at h1 h2 h3
  cases r with
  | ok a =>
    obtain ⟨l', g1, g2, g3⟩ := hf a t fun p hp => h2 p (hs p hp)
    refine ⟨l ++ l', by simp only [g1, h1, List.append_assoc], fun p hp => g2 p (h2 p hp), fun c hc => ?_⟩
    rcases List.mem_append.1 hc with hc | hc
    · exact (h3 c hc).mono g2
    · exact g3 c hc
  | err e => exact ⟨l, h1, h2, h3⟩
  | panic => exact ⟨l, h1, h2, h3⟩

theorem after {m : M α} (h : Acts cfg K m) : Acts cfg K (Tool.disturb o >>= fun _ => m) := bind disturb fun _ => h

theorem bind_ofOption {x : Option α} {f : α → M β} (hf : ∀ a, x = some a → Acts cfg K (f a)) :
    Acts cfg K (Tool.ofOption x >>= f) := by
  cases x with
  | none => exact throw
  | some a => exact hf a rfl

theorem attempt {m : M α} (h : Acts cfg K m) : Acts cfg K (RM.attempt m) := fun s hs => by
  have := h s hs
  unfold RM.attempt
  rcases hm : m s with ⟨r, t⟩
  rw [hm] at this
  cases r <;> exact this

theorem extendRoots (ps : List Path) : Acts cfg K (Tool.extendRoots ps) := fun s _ =>
  ⟨[], by simp [Tool.extendRoots, RM.modify], fun p hp => by simp [Tool.extendRoots, RM.modify, hp], nofun⟩

/-- What is registered is kept from then on. -/
theorem bind_extend {ps : List Path} {m : M β} (h : Acts cfg (ps ++ K) m) :
    Acts cfg K (Tool.extendRoots ps >>= fun _ => m) := fun s hs => by
  obtain ⟨l, h1, h2, h3⟩ := h { s with roots := s.roots ++ ps } fun p hp => by
    rcases List.mem_append.1 hp with hp | hp
    · simp [hp]
    · simp [hs p hp]
  exact ⟨l, h1, fun p hp => h2 p (by simp [hp]), h3⟩

theorem change {c : Change} (hc : ∀ r, (∀ p ∈ K, p ∈ r) → Installs cfg r c) : Acts cfg K (Tool.change c) := fun s hs =>
  ⟨[c], rfl, fun _ h => h, fun c' h => by
    obtain rfl : c' = c := by simpa using h
    exact hc _ hs⟩

theorem require (b : Bool) : Acts cfg K (Tool.require b) := by
  cases b
  · exact throw
  · exact pure _
theorem faulty (os : Os) : Acts cfg K (Tool.faulty os) := bind next fun _ => pure _
theorem guarded (os : Os) : Acts cfg K (Tool.guarded os) := bind (faulty _) fun _ => require _
theorem ofOption (x : Option α) : Acts cfg K (Tool.ofOption x) := by
  cases x
  · exact throw
  · exact pure _
theorem ofRes (x : Res Unit α) : Acts cfg K (Tool.ofRes x) := by
  cases x
  · exact pure _
  · exact throw
  · exact panic
theorem expectSome (x : Option α) : Acts cfg K (Tool.expectSome x) := by
  cases x
  · exact panic
  · exact pure _
theorem ite {c : Prop} [Decidable c] {a b : M α} (h : Acts cfg K a) (h' : Acts cfg K b) :
    Acts cfg K (if c then a else b) := by
  split
  · exact h
  · exact h'

/-! ### Functions of std -/

theorem pathExists (os : Os) (p : Path) : Acts cfg K (Busy.pathExists o os p) :=
  after <| bind (faulty _) fun _ => bind getFs fun _ => pure _
theorem readFs (os : Os) (p : Path) : Acts cfg K (Busy.readFs o os p) :=
  after <| bind (guarded _) fun _ => bind getFs fun f => by
    cases f.fileAt p
    · exact throw
    · exact pure _
theorem mkdir (os : Os) {p q : Path} (hq : Owned cfg q) (hp : p <+: q) (hn : p ≠ []) : Acts cfg K (Busy.mkdir o os p) :=
  after <| bind (guarded _) fun _ => bind getFs fun _ => bind (require _) fun _ => change fun _ _ => ⟨hn, q, hq, hp⟩
theorem createFile (os : Os) {p : Path} (hp : Owned cfg p) : Acts cfg K (Busy.createFile o os p) :=
  after <| bind (guarded _) fun _ => bind getFs fun _ => bind (require _) fun _ => change fun _ _ => hp
theorem writePartials {p : Path} (hp : Owned cfg p) : (l : List Bytes) → Acts cfg K (Busy.writePartials o p l)
  | [] => pure _
  | _ :: l => after <| bind (change fun _ _ => hp) fun _ => writePartials hp l
theorem writeFile (os : Os) {p : Path} (hp : Owned cfg p) (d : Bytes) : Acts cfg K (Busy.writeFile o os p d) :=
  bind next fun _ => bind (writePartials hp _) fun _ => bind (guarded _) fun _ => after <| change fun _ _ => hp
theorem fsync (os : Os) {p : Path} (hp : Owned cfg p) : Acts cfg K (Busy.fsync o os p) :=
  after <| bind (guarded _) fun _ => change fun _ _ => hp
theorem rename (os : Os) {a b : Path} (ha : Owned cfg a) (hb : Owned cfg b)
    (h : Home cfg b ∧ b ∈ K ∨ ∃ d, cfg.pcrlockDirectory = some d ∧ b = currentFile d) :
    Acts cfg K (Busy.rename o os a b) :=
  after <| bind (guarded _) fun _ => bind getFs fun f => by
    cases f.fileAt a with
    | none => exact throw
    | some d =>
      exact bind (require _) fun _ => ite (pure _) (change fun r hr => ⟨ha, hb, h.imp_left fun ⟨x, y⟩ => ⟨x, hr _ y⟩⟩)
theorem setPermissionBits (os : Os) {p : Path} (hp : Owned cfg p) (m : Nat) :
    Acts cfg K (Busy.setPermissionBits o os p m) :=
  after <| bind (guarded _) fun _ => bind getFs fun _ => bind (require _) fun _ => bind (guarded _) fun _ =>
    after <| change fun _ _ => hp
theorem syncFs (os : Os) (p : Path) : Acts cfg K (Busy.syncFs o os p) :=
  after <| bind (guarded _) fun _ => bind getFs fun _ => bind (require _) fun _ => bind (guarded _) fun _ =>
    after <| change fun _ _ => trivial
theorem mkdirMissing (os : Os) {q : Path} (hq : Owned cfg q) : (l : List Path) → (∀ p ∈ l, p <+: q ∧ p ≠ []) →
    Acts cfg K (Busy.mkdirMissing o os l)
  | [], _ => pure _
  | p :: l, hl => after <| bind getFs fun _ => ite (mkdirMissing os hq l fun r hr => hl r (by simp [hr]))
      (bind (mkdir os hq (hl p (by simp)).1 (hl p (by simp)).2) fun _ => mkdirMissing os hq l fun r hr => hl r (by simp [hr]))
theorem ensureParentDir (os : Os) {p : Path} (hp : Owned cfg p) : Acts cfg K (Busy.ensureParentDir o os p) := by
  unfold Busy.ensureParentDir
  cases hq : p.parent with
  | none => exact pure _
  | some q =>
    have hq : q = p.dropLast := by
      unfold Path.parent at hq
      split at hq
      · cases hq
      · cases hq; rfl
    subst hq
    exact bind (attempt (mkdirMissing os hp _ fun q hq => ⟨(ancestors_prefix hq).trans (List.dropLast_prefix _), ancestors_ne_nil hq⟩))
      fun _ => pure _
theorem readDir (os : Os) (p : Path) : Acts cfg K (Busy.readDir o os p) :=
  after <| bind (guarded _) fun _ => bind next fun _ => bind getFs fun _ => bind (require _) fun _ => pure _

/-! ### pe.rs, signature, pcrlock.rs -/

theorem readSrc (src : Src) : Acts cfg K (Tool.readSrc env src) := bind (guarded _) fun _ => ofOption _
theorem hashSrc (src : Src) : Acts cfg K (Tool.hashSrc env src) := bind (readSrc src) fun _ => pure _
theorem hashFs (p : Path) : Acts cfg K (Busy.hashFs o env p) := bind (readFs _ _) fun _ => pure _
theorem writeSecureFile (d : Bytes) : Acts cfg K (Tool.writeSecureFile env d) := bind (guarded _) fun _ => pure _
theorem fileSize (d : Bytes) : Acts cfg K (Tool.fileSize env d) := bind (guarded _) fun _ => pure _
theorem wrapInPe (d : Bytes) (l : List Added) : Acts cfg K (Tool.wrapInPe env d l) :=
  bind (guarded _) fun _ => bind next fun _ => ofOption _
theorem lanzabooteImage (p : StubParameters) : Acts cfg K (Tool.lanzabooteImage env p) :=
  bind (writeSecureFile _) fun _ => bind (writeSecureFile _) fun _ => bind (hashSrc _) fun _ =>
  bind (writeSecureFile _) fun _ => bind (writeSecureFile _) fun _ => bind (hashSrc _) fun _ =>
  bind (writeSecureFile _) fun _ => bind (writeSecureFile _) fun _ => bind (readSrc _) fun _ =>
  bind (ofRes _) fun _ => bind (fileSize _) fun _ => bind (fileSize _) fun _ => bind (fileSize _) fun _ =>
  bind (fileSize _) fun _ => bind (fileSize _) fun _ => bind (readSrc _) fun _ => wrapInPe _ _
theorem appendInitrdSecrets (p : Path) (d : Bytes) : Acts cfg K (Tool.appendInitrdSecrets env p d) :=
  bind (guarded _) fun _ => bind next fun _ => ofOption _
theorem getPublicKey (s : Signer) : Acts cfg K (s.getPublicKey env) := by
  cases s
  · exact pure _
  · exact readSrc _

theorem writeOut {p : Path} (hp : Owned cfg p) (d : Bytes) : Acts cfg K (Busy.writeOut o env p d) :=
  bind (createFile _ hp) fun _ => writeFile _ hp _
theorem failedOutput {p : Path} (hp : Owned cfg p) : Acts cfg K (Busy.failedOutput o env p) :=
  bind (createFile _ hp) fun _ => bind next fun _ => writePartials hp _
theorem copyFile (src : Src) {p : Path} (hp : Owned cfg p) : Acts cfg K (Busy.copyFile o env src p) :=
  bind (readSrc _) fun _ => bind (createFile _ hp) fun _ => bind (guarded _) fun _ =>
    after <| bind (change fun _ _ => hp) fun _ => writeFile _ hp _
theorem signAndCopy (src : Src) {p : Path} (hp : Owned cfg p) (s : Signer) :
    Acts cfg K (Busy.signAndCopy o env src p s) := by
  cases s with
  | empty => exact copyFile _ hp
  | «local» pub priv =>
    refine bind (readSrc _) fun d => bind next fun t => ?_
    cases env.sbsign t priv pub d with
    | none => exact bind (failedOutput hp) fun _ => throw
    | some x => exact writeOut hp _
theorem verifyPath (p : Path) (s : Signer) : Acts cfg K (Busy.verifyPath o env p s) := by
  refine after ?_
  cases s with
  | empty => exact pure _
  | «local» pub priv =>
    refine bind (guarded _) fun _ => bind (faulty _) fun _ => bind getFs fun f => ?_
    cases f.fileAt p <;> exact pure _
theorem lockPe (src : Src) {p : Path} (hp : Owned cfg p) : Acts cfg K (Busy.lockPe o env src p) := by
  refine bind (readSrc _) fun d => bind (ensureParentDir _ hp) fun _ => bind next fun t => ?_
  cases env.lockPe t d with
  | none => exact bind (failedOutput hp) fun _ => throw
  | some x => exact writeOut hp _

/-! ### install.rs -/

/-- A place for a file to be installed. -/
structure _root_.Verif.Tool.Slot (cfg : Config) (K : List Path) (p : Path) : Prop where
  owned : Owned cfg p
  tmp : Owned cfg (tmpOf p)
  home : Home cfg p
  kept : p ∈ K

theorem installSigned (s : Signer) (src : Src) {p : Path} (hp : Slot cfg K p) :
    Acts cfg K (Busy.installSigned o env s src p) :=
  bind (ensureParentDir _ hp.tmp) fun _ => bind (signAndCopy _ hp.tmp _) fun _ =>
    rename _ hp.tmp hp.owned (.inl ⟨hp.home, hp.kept⟩)
theorem atomicCopy (src : Src) {p : Path} (hp : Slot cfg K p) : Acts cfg K (Busy.atomicCopy o env src p) :=
  bind (readSrc _) fun _ => bind (createFile _ hp.tmp) fun _ => bind (writeFile _ hp.tmp _) fun _ =>
    bind (fsync _ hp.tmp) fun _ => rename _ hp.tmp hp.owned (.inl ⟨hp.home, hp.kept⟩)
theorem forceInstall (src : Src) {p : Path} (hp : Slot cfg K p) : Acts cfg K (Busy.forceInstall o env src p) :=
  bind (ensureParentDir _ hp.owned) fun _ => bind (atomicCopy _ hp) fun _ => setPermissionBits _ hp.owned _
theorem needsInstall (src : Src) (p : Path) : Acts cfg K (Busy.needsInstall o env src p) :=
  bind (pathExists _ _) fun _ => ite (pure _) (bind (hashSrc _) fun _ => bind (hashFs _) fun _ => pure _)
theorem install (src : Src) {p : Path} (hp : Slot cfg K p) : Acts cfg K (Busy.install o env src p) :=
  bind (needsInstall _ _) fun _ => ite (forceInstall _ hp) (pure _)

theorem sectionPath (d : Bytes) (n : Str) : Acts cfg K (Tool.sectionPath env cfg d n) :=
  bind (ofRes _) fun _ => bind (ofOption _) fun _ => ofRes _
theorem readInstalledGeneration (x : Str) : Acts cfg K (Busy.readInstalledGeneration o env cfg x) :=
  bind (readDir _ _) fun _ => bind (ofOption _) fun _ => bind (readFs _ _) fun _ => bind (sectionPath _ _) fun _ =>
  bind (sectionPath _ _) fun _ => bind (pathExists _ _) fun _ => ite throw (bind (pathExists _ _) fun _ =>
  ite throw (pure _))
theorem registerMeasurement (g : Gen) : Acts cfg K (Busy.registerMeasurement o env cfg g) := by
  unfold Busy.registerMeasurement
  cases cfg.pcrlock with
  | none => exact pure _
  | some p => exact bind (pathExists _ _) fun _ => ite (bind (extendRoots _) fun _ => pure _) (pure _)
theorem registerInstalledGeneration (g : Gen) : Acts cfg K (Busy.registerInstalledGeneration o env cfg g) :=
  bind (getPublicKey _) fun _ => bind (attempt (readInstalledGeneration _)) fun x => by
    rcases x with _ | ⟨a, b, c⟩
    · exact pure _
    · exact bind (extendRoots _) fun _ => registerMeasurement g

theorem installNixosCa (src : Src) {l : Str} (hl : '/' ∉ l) : Acts cfg K (Busy.installNixosCa o env cfg src l) := by
  refine bind (hashSrc _) fun h => ?_
  dsimp only
  rw [kernel_target cfg hl]
  refine bind_extend (bind (install _ ?_) fun _ => pure _)
  rw [caFile_nixosDir]
  refine ⟨owned_nixos _, ?_, .nixos _, by simp⟩
  rw [tmpOf_snoc _ (caName_plain hl _).ne_dots]
  exact owned_nixos _

theorem initrdLocation (b : BootSpec) : Acts cfg K (Tool.initrdLocation env b) := by
  unfold Tool.initrdLocation
  cases b.initrdSecrets with
  | none => exact bind (expectSome _) fun _ => pure _
  | some s =>
    exact bind (ofOption _) fun _ => bind (readSrc _) fun _ => bind (writeSecureFile _) fun _ =>
      bind (appendInitrdSecrets _ _) fun _ => pure _
theorem stubParameters (g : Gen) (i : Src) (a b : Path) : Acts cfg K (Tool.stubParameters cfg g i a b) :=
  bind (ofOption _) fun _ => bind (ofOption _) fun _ => pure _
theorem measureImage {g : Gen} (hg : SafeGen g) (d : Bytes) : Acts cfg K (Busy.measureImage o env cfg g d) := by
  unfold Busy.measureImage Config.pcrlock
  cases hp : cfg.pcrlockDirectory with
  | none => exact pure _
  | some p =>
    dsimp only [Option.map_some]
    rw [measurement_target p hg]
    exact bind (lockPe _ (owned_measurement hp)) fun _ => extendRoots _

theorem installNewGeneration {g : Gen} (hg : SafeGen g) : Acts cfg K (Busy.installNewGeneration o env cfg g) :=
  bind (guarded _) fun _ => bind_ofOption fun v hv =>
  bind (installNixosCa _ (kernelVersion_label hg hv _ (by decide))) fun _ => bind (initrdLocation _) fun _ =>
  bind (installNixosCa _ (kernelVersion_label hg hv _ (by decide))) fun _ => bind (stubParameters _ _ _ _) fun _ =>
  bind (lanzabooteImage _) fun _ => bind (measureImage hg _) fun _ => bind (getPublicKey _) fun key => by
    dsimp only
    rw [stub_target hg]
    refine bind_extend (installSigned _ _ ?_)
    have hn := stubName_nixos env.sha g key cfg.tries
    rw [entryFile_linuxDir]
    refine ⟨.entry (List.prefix_refl _) hn.1 (List.prefix_refl _), ?_, .linux _, by simp⟩
    rw [tmpOf_snoc _ (stubName_plain hg _ _).ne_dots]
    exact .entry (List.prefix_refl _) (hn.2.trans (List.prefix_append _ _)) (List.prefix_refl _)

theorem installGeneration {g : Gen} (hg : SafeGen g) : Acts cfg K (Busy.installGeneration o env cfg g) :=
  bind (registerInstalledGeneration g) fun _ => ite (pure _) (installNewGeneration hg)
theorem installAll : (gens : List Gen) → (∀ g ∈ gens, SafeGen g) → Acts cfg K (Busy.installAll o env cfg gens)
  | [], _ => pure _
  | g :: gens, h => bind (installGeneration (h g (by simp))) fun _ => installAll gens fun g hg => h g (by simp [hg])

theorem installGenerationsFromLinks (hs : SafeInput env cfg) {links : List Link}
    (hl : cfg.considered env = some links) : Acts cfg K (Busy.installGenerationsFromLinks o env cfg links) := by
  intro s hsub
  obtain ⟨gs, t, b, he, h, -⟩ := readGenerations_spec env links s
  unfold Busy.installGenerationsFromLinks
  rw [RM.bind_run, he]
  dsimp only
  refine ite (K := K) throw (bind (installAll _ fun g hg => ?_) fun _ => syncFs _ _) _ hsub
  obtain ⟨x, hx, hgx⟩ := List.mem_flatMap.1 hg
  obtain ⟨link, hlink, j, hj, rfl⟩ := h x hx
  exact hs g ⟨links, link, j, hl, hlink, hj, hgx⟩

theorem installedVersion (p : Path) : Acts cfg K (Busy.installedVersion o env p) := bind (readFs _ _) fun _ => ofRes _
theorem newerSystemdBoot (a p : Path) : Acts cfg K (Busy.newerSystemdBoot o env a p) :=
  bind (pathExists _ _) fun _ => ite (pure _) (bind (readSrc _) fun _ => bind (ofRes _) fun _ =>
    bind (attempt (installedVersion _)) fun x => by cases x <;> exact pure _)
theorem orM {a b : M Bool} (h : Acts cfg K a) (h' : Acts cfg K b) : Acts cfg K (Tool.orM a b) :=
  bind h fun _ => ite (pure _) h'
theorem andM {a b : M Bool} (h : Acts cfg K a) (h' : Acts cfg K b) : Acts cfg K (Tool.andM a b) :=
  bind h fun _ => ite h' (pure _)
theorem measurementExists : Acts cfg K (Busy.measurementExists o env cfg) := by
  unfold Busy.measurementExists
  cases cfg.pcrlock
  · exact pure _
  · exact pathExists _ _
theorem measureNext : Acts cfg K (Busy.measureNext o env cfg) := by
  unfold Busy.measureNext Config.pcrlock
  cases hp : cfg.pcrlockDirectory with
  | none => exact pure _
  | some p =>
    dsimp only [Option.map_some]
    rw [next_target]
    exact lockPe _ (.bootloader hp (.inl rfl))
theorem measurementDone : Acts cfg K (Busy.measurementDone o env cfg) := by
  unfold Busy.measurementDone Config.pcrlock
  cases hp : cfg.pcrlockDirectory with
  | none => exact pure _
  | some p =>
    dsimp only [Option.map_some]
    rw [next_target, current_target]
    exact rename _ (.bootloader hp (.inl rfl)) (.bootloader hp (.inr rfl)) (.inr ⟨p, hp, rfl⟩)

theorem place_boot {q : Path} (h : q = fallbackFile cfg ∨ q = systemdFile cfg ∨ q = confFile cfg) (ho : Owned cfg q)
    (ht : IsTmp (tmpOf q)) (hk : q ∈ K) : Slot cfg K q :=
  ⟨ho, .tmp h (tmpOf_dropLast _) ht, .boot h, hk⟩

variable (hK : ∀ q, q = fallbackFile cfg ∨ q = systemdFile cfg ∨ q = confFile cfg → q ∈ K)
include hK

theorem place_fallback : Slot cfg K (fallbackFile cfg) :=
  place_boot (.inl rfl) .fallback (by rw [fallbackFile_snoc]; exact isTmp_tmpOf _ (efiFallbackFilename_plain _))
    (hK _ (.inl rfl))
theorem place_systemd : Slot cfg K (systemdFile cfg) :=
  place_boot (.inr (.inl rfl)) .systemd (by rw [systemdFile_snoc]; exact isTmp_tmpOf _ (systemdFilename_plain _))
    (hK _ (.inr (.inl rfl)))
theorem place_conf : Slot cfg K (confFile cfg) :=
  place_boot (.inr (.inr rfl)) .conf (by rw [confFile_snoc]; exact isTmp_tmpOf _ loaderConf_plain)
    (hK _ (.inr (.inr rfl)))

theorem replaceSystemdBoot : Acts cfg K (Busy.replaceSystemdBoot o env cfg) := by
  unfold Busy.replaceSystemdBoot
  rw [fallback_target, systemd_target]
  exact bind measureNext fun _ => bind (installSigned _ _ (place_fallback hK)) fun _ =>
    bind (installSigned _ _ (place_systemd hK)) fun _ => measurementDone

theorem installSystemdBoot : Acts cfg K (Busy.installSystemdBoot o env cfg) := by
  unfold Busy.installSystemdBoot
  rw [fallback_target, systemd_target, conf_target]
  exact bind (orM (newerSystemdBoot _ _) (newerSystemdBoot _ _)) fun _ =>
    bind (andM (verifyPath _ _) (verifyPath _ _)) fun _ =>
    bind measurementExists fun _ => ite (bind (replaceSystemdBoot hK) fun _ => install _ (place_conf hK))
      (install _ (place_conf hK))

end Acts

/-! ### Garbage collection -/

/-- A change that removes something that is not kept, from one of the installer's directories. -/
def Collects (cfg : Config) (roots : List Path) : Change → Prop
  | .unlink p => ∃ x, DoomedAny cfg roots x ∧ x <+: p
  | .rmdir p => ∃ x, DoomedAny cfg roots x ∧ x <+: p
  | _ => False

/-- Neither what is kept nor what is malformed changes. -/
def KeepsRest (s t : State) : Prop := t.roots = s.roots ∧ t.broken = s.broken

/-- `m` makes only such changes. -/
def Sweeps (A : List Path → Change → Prop) (m : M α) : Prop :=
  ∀ s, ∃ l, (m s).2.log = s.log ++ l ∧ KeepsRest s (m s).2 ∧ ∀ c ∈ l, A s.roots c

namespace Sweeps
variable {A : List Path → Change → Prop}

theorem quiet {m : M α} (h : ∀ s, (m s).2.log = s.log ∧ KeepsRest s (m s).2) : Sweeps A m := fun s =>
  ⟨[], by simp [h], (h s).2, nofun⟩
theorem pure (a : α) : Sweeps A (Pure.pure a) := quiet fun _ => ⟨rfl, rfl, rfl⟩
theorem throw : Sweeps (α := α) A (RM.throw ()) := quiet fun _ => ⟨rfl, rfl, rfl⟩
theorem next : Sweeps A Tool.next := quiet fun _ => ⟨rfl, rfl, rfl⟩
theorem getFs : Sweeps A Tool.getFs := quiet fun _ => ⟨rfl, rfl, rfl⟩
theorem disturb : Sweeps A (Tool.disturb o) := quiet fun _ => ⟨rfl, rfl, rfl⟩

theorem bind_at {m : M α} {f : α → M β} {s : State}
    (h : ∃ l, (m s).2.log = s.log ++ l ∧ KeepsRest s (m s).2 ∧ ∀ c ∈ l, A s.roots c)
    (hf : ∀ a, (m s).1 = .ok a → ∃ l, (f a (m s).2).2.log = (m s).2.log ++ l ∧ KeepsRest (m s).2 (f a (m s).2).2 ∧
      ∀ c ∈ l, A (m s).2.roots c) :
    ∃ l, ((m >>= f) s).2.log = s.log ++ l ∧ KeepsRest s ((m >>= f) s).2 ∧ ∀ c ∈ l, A s.roots c := by
  obtain ⟨l, h1, h2, h3⟩ := h
  rw [RM.bind_run]
  rcases hm : m s with ⟨r, t⟩
  rw [hm] at h1 h2 hf
  dsimp only at h1 h2 hf
  cases r with
  | ok a =>
    obtain ⟨l', g1, g2, g3⟩ := hf a rfl
    refine ⟨l ++ l', by simp only [g1, h1, List.append_assoc], ⟨g2.1.trans h2.1, g2.2.trans h2.2⟩, fun c hc => ?_⟩
    rcases List.mem_append.1 hc with hc | hc
    · exact h3 c hc
    · exact h2.1 ▸ g3 c hc
  | err e => exact ⟨l, h1, h2, h3⟩
  | panic => exact ⟨l, h1, h2, h3⟩

theorem bind {m : M α} {f : α → M β} (h : Sweeps A m) (hf : ∀ a, Sweeps A (f a)) : Sweeps A (m >>= f) := fun s =>
  bind_at (h s) fun a _ => hf a _

theorem after {m : M α} (h : Sweeps A m) : Sweeps A (Tool.disturb o >>= fun _ => m) := bind disturb fun _ => h
theorem attempt {m : M α} (h : Sweeps A m) : Sweeps A (RM.attempt m) := fun s => by
  have := h s
  unfold RM.attempt
  rcases hm : m s with ⟨r, t⟩
  rw [hm] at this
  cases r <;> exact this
theorem require (b : Bool) : Sweeps A (Tool.require b) := by
  cases b
  · exact throw
  · exact pure _
theorem guarded (os : Os) : Sweeps A (Tool.guarded os) :=
  bind (bind next fun _ => pure _) fun _ => require _
theorem ite {c : Prop} [Decidable c] {a b : M α} (h : Sweeps A a) (h' : Sweeps A b) :
    Sweeps A (if c then a else b) := by
  split
  · exact h
  · exact h'
theorem change {c : Change} (hc : ∀ r, A r c) : Sweeps A (Tool.change c) := fun s =>
  ⟨[c], rfl, ⟨rfl, rfl⟩, fun c' h => by
    obtain rfl : c' = c := by simpa using h
    exact hc _⟩

/-- Sweeping when the roots are known. -/
theorem removeFile (os : Os) {p : Path} (h : ∀ r, A r (.unlink p)) : Sweeps A (Busy.removeFile o os p) :=
  after <| bind (guarded _) fun _ => bind getFs fun f => by
    cases f.fileAt p
    · exact throw
    · exact change h
theorem removeDir (os : Os) {p : Path} (h : ∀ r, A r (.rmdir p)) : Sweeps A (Busy.removeDir o os p) :=
  after <| bind (guarded _) fun _ => bind getFs fun _ => bind (require _) fun _ => change h
theorem removeOne (os : Os) {p : Path} (h : ∀ r, A r (.unlink p)) (h' : ∀ r, A r (.rmdir p)) :
    Sweeps A (Busy.removeOne o os p) :=
  after <| bind getFs fun _ => ite (removeDir os h') (removeFile os h)
theorem removeEach (os : Os) : (l : List Path) → (∀ p ∈ l, ∀ r, A r (.unlink p) ∧ A r (.rmdir p)) →
    Sweeps A (Busy.removeEach o os l)
  | [], _ => pure _
  | p :: l, h => bind (removeOne os (fun r => (h p (by simp) r).1) fun r => (h p (by simp) r).2) fun _ =>
      removeEach os l fun q hq => h q (by simp [hq])

theorem mem_walked {os : Os} {t : Nat} {f : Fs} {p q : Path} (h : q ∈ Busy.walked o os t f p) : p <+: q := by
  unfold Busy.walked at h
  rcases List.mem_append.1 h with h | h
  · have h := os.list_sub _ _ _ h
    unfold Fs.subtree at h
    exact List.isPrefixOf_iff_prefix.1 (List.mem_filter.1 h).2
  · exact List.isPrefixOf_iff_prefix.1 (List.mem_filter.1 h).2

theorem removeDirAll (os : Os) {p : Path} (h : ∀ q r, p <+: q → A r (.unlink q) ∧ A r (.rmdir q)) :
    Sweeps A (Busy.removeDirAll o os p) :=
  after <| bind next fun _ => bind getFs fun _ => removeEach os _ fun q hq r =>
    h q r (mem_walked ((List.isort_perm _ _).mem_iff.1 hq))
theorem collectEntry (os : Os) {p : Path} (h : ∀ q r, p <+: q → A r (.unlink q) ∧ A r (.rmdir q)) :
    Sweeps A (Busy.collectEntry o os p) :=
  after <| bind getFs fun _ => ite (removeDirAll os h)
    (bind (attempt (removeFile os fun r => (h p r (List.prefix_refl _)).1)) fun _ => pure _)
theorem collectEach (os : Os) : (l : List Path) → (∀ p ∈ l, ∀ q r, p <+: q → A r (.unlink q) ∧ A r (.rmdir q)) →
    Sweeps A (Busy.collectEach o os l)
  | [], _ => pure _
  | p :: l, h => bind (collectEntry os (h p (by simp))) fun _ => collectEach os l fun q hq => h q (by simp [hq])

theorem collectGarbageWithFilter (os : Os) {d : Path} {pr : Path → Bool}
    (h : ∀ x r, Doomed d pr r x → DoomedAny cfg r x) :
    Sweeps (Collects cfg) (Busy.collectGarbageWithFilter o os d pr) := by
  refine after (bind next fun t => ?_)
  intro s
  have key : Sweeps (fun _ => Collects cfg s.roots) (Busy.collectEach o os
      ((Busy.walked o os t s.fs d).filter (isGarbage s.roots pr))) := by
    refine collectEach os _ fun x hx q r hq => ?_
    obtain ⟨h1, h2⟩ := List.mem_filter.1 hx
    unfold isGarbage at h2
    simp only [Bool.and_eq_true, Bool.not_eq_true', List.contains_eq_mem, decide_eq_false_iff_not] at h2
    have hd := h x s.roots ⟨mem_walked h1, h2.1, h2.2⟩
    exact ⟨⟨x, hd, hq⟩, ⟨x, hd, hq⟩⟩
  exact key s

theorem collectMeasurements : Sweeps (Collects cfg) (Busy.collectMeasurements o env cfg) := by
  unfold Busy.collectMeasurements Config.pcrlock
  cases hp : cfg.pcrlockDirectory with
  | none => exact pure _
  | some p =>
    have e : (PcrlockPaths.new p).lanzaboote = lockDir p := pcrlock_lanzaboote p
    dsimp only [Option.map_some]
    rw [e]
    exact collectGarbageWithFilter _ fun _ _ => .lock hp

/-- Garbage collection after its announcement. -/
theorem swept : Sweeps (Collects cfg) (do
    Busy.collectGarbage o env.os cfg.paths.nixos
    Busy.collectGarbageWithFilter o env.os cfg.paths.linux startsWithNixos
    Busy.collectMeasurements o env cfg) := by
  rw [paths_nixos', paths_linux']
  exact bind (collectGarbageWithFilter _ fun _ _ => .nixos) fun _ =>
    bind (collectGarbageWithFilter _ fun _ _ => .linux) fun _ => collectMeasurements

/-- What there is to know of the installer's changes, whatever others do. -/
theorem _root_.Verif.Tool.Busy.run_acts (hs : SafeInput env cfg) (f : Fs) :
    ∃ l l' : List Change, ∃ roots : List Path, (Busy.run o env cfg (start cfg f)).2.log = l ++ l' ∧
      (∀ p ∈ (start cfg f).roots, p ∈ roots) ∧ (∀ c ∈ l, Installs cfg roots c) ∧
      (l' = [] ∨ (Busy.run o env cfg (start cfg f)).2.broken = [] ∧
        ∃ l2, l' = .collecting :: l2 ∧ ∀ c ∈ l2, Collects cfg roots c) := by
  have h : Acts cfg (start cfg f).roots (ofOption (cfg.considered env) >>= fun links =>
      Busy.installGenerationsFromLinks o env cfg links >>= fun _ => Busy.installSystemdBoot o env cfg) :=
    Acts.bind_ofOption fun links hl => .bind (.installGenerationsFromLinks hs hl) fun _ =>
      .installSystemdBoot fun q hq => by
        rcases hq with rfl | rfl | rfl
        · exact fallback_root cfg f
        · exact systemd_root cfg f
        · exact conf_root cfg f
  have e : Busy.run o env cfg = ((ofOption (cfg.considered env) >>= fun links =>
      Busy.installGenerationsFromLinks o env cfg links >>= fun _ => Busy.installSystemdBoot o env cfg) >>=
      fun _ => Busy.collect o env cfg) := by
    funext s
    unfold Busy.run
    simp only [RM.bind_run]
    rcases ofOption (cfg.considered env) s with ⟨_ | _ | _, t⟩
    · dsimp only
      rcases Busy.installGenerationsFromLinks o env cfg _ t with ⟨_ | _ | _, t'⟩ <;> rfl
    · rfl
    · rfl
  obtain ⟨l, h1, h2, h3⟩ := h (start cfg f) fun _ hp => hp
  rw [e, RM.bind_run]
  generalize (ofOption (cfg.considered env) >>= fun links =>
      Busy.installGenerationsFromLinks o env cfg links >>= fun _ => Busy.installSystemdBoot o env cfg)
      (start cfg f) = x at h1 h2 h3 ⊢
  obtain ⟨r, t⟩ := x
  dsimp only at h1 h2 h3
  have h1 : t.log = l := h1
  cases r with
  | err e => exact ⟨l, [], t.roots, by simp [h1], h2, h3, .inl rfl⟩
  | panic => exact ⟨l, [], t.roots, by simp [h1], h2, h3, .inl rfl⟩
  | ok a =>
    dsimp only
    unfold Busy.collect
    rw [RM.bind_run, RM.get_run]
    dsimp only
    by_cases hb : t.broken = []
    · rw [if_pos hb, RM.bind_run]
      obtain ⟨l2, g1, g2, g3⟩ := swept (o := o) (env := env) (cfg := cfg) (Tool.change .collecting t).2
      refine ⟨l, .collecting :: l2, t.roots, ?_, h2, h3, .inr ⟨g2.2.trans hb, l2, rfl, g3⟩⟩
      refine g1.trans ?_
      show (t.log ++ [.collecting]) ++ l2 = _
      rw [h1]; simp
    · rw [if_neg hb]
      exact ⟨l, [], t.roots, by simp [h1], h2, h3, .inl rfl⟩

end Sweeps

/-- Where files are moved to is out of reach for garbage collection. -/
theorem home_not_doomed (hsep : Separate cfg) {f : Fs} {final : List Path} (hr : ∀ p ∈ (start cfg f).roots, p ∈ final)
    {b : Path} (hb : Home cfg b ∧ b ∈ final ∨ ∃ d, cfg.pcrlockDirectory = some d ∧ b = currentFile d)
    {q : Path} (hq : q <+: b) : ¬ DoomedAny cfg final q := by
  have below : ∀ {d n : Str}, cfg.esp ++ [lit "EFI", d] ∈ (start cfg f).roots → (cfg.esp ++ [lit "EFI", d]) ++ [n] ∈ final →
      ∀ q, cfg.esp <+: q → q <+: (cfg.esp ++ [lit "EFI", d]) ++ [n] → q ∈ final := by
    intro d n hd hn q h1 h2
    have e' : cfg.esp ++ [lit "EFI", d] = (cfg.esp ++ [lit "EFI"]) ++ [d] := by simp
    rcases prefix_snoc_iff.1 h2 with h2 | rfl
    · rw [e'] at h2
      rcases prefix_snoc_iff.1 h2 with h2 | rfl
      · rcases prefix_snoc_iff.1 h2 with h2 | rfl
        · have : q = cfg.esp := List.IsPrefix.eq_of_length_le h2 h1.length_le
          rw [this]; exact hr _ (esp_root cfg f)
        · exact hr _ (efi_root cfg f)
      · rw [← e']; exact hr _ hd
    · exact hn
  rcases hb with ⟨hb, hk⟩ | ⟨d, hd, rfl⟩
  · cases hb with
    | nixos n => exact not_doomed hsep (by simp) (below (nixosDir_root cfg f) hk) hq
    | linux n => exact not_doomed hsep (by simp) (below (linuxDir_root cfg f) hk) hq
    | boot h =>
      rcases h with rfl | rfl | rfl
      · rw [fallbackFile_snoc] at hk hq
        exact not_doomed hsep (by simp) (below (bootDir_root cfg f) hk) hq
      · rw [systemdFile_snoc] at hk hq
        exact not_doomed hsep (by simp) (below (systemdDir_root cfg f) hk) hq
      · rw [confFile_snoc] at hk hq
        refine not_doomed hsep (by simp) (fun q h1 h2 => ?_) hq
        rcases prefix_snoc_iff.1 h2 with h2 | rfl
        · rcases prefix_snoc_iff.1 h2 with h2 | rfl
          · have : q = cfg.esp := List.IsPrefix.eq_of_length_le h2 h1.length_le
            rw [this]; exact hr _ (esp_root cfg f)
          · exact hr _ (loader_root cfg f)
        · exact hk
  · intro h
    cases h with
    | nixos h => exact below_esp_not_above hsep hd (.inl rfl) (by decide) (h.below.trans hq)
    | linux h => exact below_esp_not_above hsep hd (.inr rfl) (by decide) (h.below.trans hq)
    | @lock p hp h =>
      obtain rfl : p = d := by rw [hp] at hd; exact Option.some.inj hd
      have := h.below.trans hq
      unfold lockDir currentFile at this
      rw [List.prefix_append_right_inj] at this
      exact absurd (List.cons_prefix_cons.1 this).1 (by decide)

end Verif.Tool
