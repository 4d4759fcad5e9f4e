import Verif.Lemmas.EspPaths
import Verif.Lemmas.FsOps
/-!
# The changes the installer makes before garbage collection

`InstallStep` describes every change in the state in which it is made. The functions of the
installer make no other changes; the properties follow by induction along the changes.
-/
namespace Verif.Tool
open Verif StubName Generation

/-! ### Reading PE sections -/

theorem findSection_ok {name : Str} {l : List Stub.Section} {s : Stub.Section}
    (h : findSection name l = .ok (some s)) : ∃ pre post, l = pre ++ s :: post ∧
      s.name = some name ∧ ∀ x ∈ pre, ∃ n, x.name = some n ∧ n ≠ name := by
  induction l with
  | nil => simp [findSection] at h
  | cons a l ih =>
    unfold findSection at h
    split at h
    · simp at h
    · next n hn =>
      split at h
      · next e =>
        simp at h
        subst h
        exact ⟨[], l, rfl, by rw [hn, e], by simp⟩
      · next e =>
        obtain ⟨pre, post, hl, hs, hp⟩ := ih h
        refine ⟨a :: pre, post, by simp [hl], hs, ?_⟩
        intro x hx
        rcases List.mem_cons.1 hx with rfl | hx
        · exact ⟨n, hn, e⟩
        · exact hp x hx

theorem findSection_of {name : Str} {pre post : List Stub.Section} {s : Stub.Section}
    (hs : s.name = some name) (hp : ∀ x ∈ pre, ∃ n, x.name = some n ∧ n ≠ name) :
    findSection name (pre ++ s :: post) = .ok (some s) := by
  induction pre with
  | nil => simp [findSection, hs]
  | cons a pre ih =>
    obtain ⟨n, hn, hne⟩ := hp a (by simp)
    simp only [List.cons_append, findSection, hn, hne, if_false]
    exact ih fun x hx => hp x (by simp [hx])

theorem take_drop_getElem? {d : Bytes} {a n : Nat} (h : a + n ≤ d.length) (b : Bytes) :
    b = (d.drop a).take n ↔ b.length = n ∧ ∀ i < b.length, b[i]? = d[a + i]? := by
  constructor
  · rintro rfl
    have hl : ((d.drop a).take n).length = n := by simp; omega
    refine ⟨hl, fun i hi => ?_⟩
    rw [hl] at hi
    rw [List.getElem?_take_of_lt hi, List.getElem?_drop]
  · rintro ⟨hl, hb⟩
    apply List.ext_getElem?
    intro i
    by_cases hi : i < n
    · rw [hb i (hl ▸ hi), List.getElem?_take_of_lt hi, List.getElem?_drop]
    · rw [List.getElem?_eq_none (by omega), List.getElem?_eq_none (by simp; omega)]

/-- **C53** (tool). `read_section_data` returns exactly the content of the first section with that
name. -/
theorem readSectionData_iff (env : Env) (data : Bytes) (name : Str) (b : Bytes) :
    readSectionData env data name = .ok (some b) ↔ FileSection env data name b := by
  constructor
  · intro h
    unfold readSectionData at h
    split at h
    · simp at h
    · next pe hpe =>
      split at h
      · simp at h
      · simp at h
      · simp at h
      · next s hs =>
        obtain ⟨pre, post, e, hn, hp⟩ := findSection_ok hs
        dsimp only at h
        split at h
        · next h1 =>
          split at h
          · next h2 =>
            simp only [Res.ok.injEq, Option.some.injEq, Nat.add_sub_cancel_left] at h
            have := (take_drop_getElem? h2 b).1 h.symm
            exact ⟨pe, pre, s, post, hpe, e, hn, hp, h1, h2, this.1, this.2⟩
          · simp at h
        · simp at h
  · rintro ⟨pe, pre, s, post, hpe, e, hn, hp, h1, h2, h3, h4⟩
    unfold readSectionData
    rw [hpe]
    simp only [e, findSection_of hn hp, h1, h2, if_true, Nat.add_sub_cancel_left]
    rw [← (take_drop_getElem? h2 b).2 ⟨h3, h4⟩]

theorem FileSection.unique {env : Env} {data : Bytes} {name : Str} {b b' : Bytes}
    (h : FileSection env data name b) (h' : FileSection env data name b') : b = b' := by
  have e := (readSectionData_iff env data name b).2 h
  rw [(readSectionData_iff env data name b').2 h'] at e
  simpa using e.symm

/-! ### The description of changes -/

/-- Path of a kernel. -/
abbrev kernelFile (env : Env) (cfg : Config) (v : Str) (d : Bytes) : Path :=
  caFile cfg.esp (lit "kernel-" ++ v) (env.sha.hash d)

/-- Path of an initrd. -/
abbrev initrdFile (env : Env) (cfg : Config) (v : Str) (d : Bytes) : Path :=
  caFile cfg.esp (lit "initrd-" ++ v) (env.sha.hash d)

/-- Command line of a generation. -/
def cmdlineOf (g : Gen) : Str :=
  joinWith [' '] ((lit "init=/" ++ joinWith ['/'] g.spec.init) :: g.spec.kernelParams)

/-- The sections added to the stub of `g`. -/
def sectionsOf (env : Env) (g : Gen) (v : Str) (kernel initrd : Bytes) (offset : UInt64)
    (sizes : List UInt64) : List Added :=
  stubSections offset (utf8 (OsRelease.display (osRelease g))) (utf8 (cmdlineOf g))
    (utf8 (uefiText [lit "EFI", lit "nixos", caName (lit "initrd-" ++ v) (env.sha.hash initrd)]))
    (utf8 (uefiText [lit "EFI", lit "nixos", caName (lit "kernel-" ++ v) (env.sha.hash kernel)]))
    (env.sha.hash initrd) (env.sha.hash kernel) sizes

/-- `image` is an unsigned stub for `g`. -/
def ImageOf (env : Env) (cfg : Config) (g : Gen) (v : Str) (kernel initrd image : Bytes) : Prop :=
  ∃ stub offset t, env.store cfg.lanzabooteStub = some stub ∧ stubOffset env stub = .ok offset ∧
    env.objcopy t stub (sectionsOf env g v kernel initrd offset
      [UInt64.ofNat (utf8 (OsRelease.display (osRelease g))).length,
       UInt64.ofNat (utf8 (cmdlineOf g)).length,
       UInt64.ofNat (utf8 (uefiText [lit "EFI", lit "nixos",
        caName (lit "initrd-" ++ v) (env.sha.hash initrd)])).length,
       UInt64.ofNat (utf8 (uefiText [lit "EFI", lit "nixos",
        caName (lit "kernel-" ++ v) (env.sha.hash kernel)])).length,
       UInt64.ofNat (env.sha.hash initrd).length]) = some image

/-- What a part of the installer works on: some generations, the boot loader or not; and whether it may
sync the file system. -/
structure Scope where
  gens : Gen → Prop
  loader : Prop
  sync : Prop

/-- Everything. -/
abbrev Scope.all : Scope := ⟨fun _ => True, True, True⟩
/-- One generation. -/
abbrev Scope.one (g : Gen) : Scope := ⟨(· = g), False, False⟩
/-- The boot loader. -/
abbrev Scope.ofLoader : Scope := ⟨fun _ => False, True, True⟩
/-- Only the configuration of the boot loader. -/
abbrev Scope.conf : Scope := ⟨fun _ => False, False, False⟩

variable (env : Env) (cfg : Config) (ld : Scope)

/-- The paths that are replaced, and whether the new content is synced before. Only what is in `ld`
is replaced. -/
inductive Target : Bool → Path → Prop
  | kernel {g : Gen} {v : Str} {d : Bytes} {q : Path} (hg : Considers env cfg g) (ho : ld.gens g)
      (hv : kernelVersion g.spec.kernel = some v) (hd : env.store g.spec.kernel = some d)
      (e : q = kernelFile env cfg v d) : Target true q
  | initrd {g : Gen} {v : Str} {d : Bytes} {q : Path} (hg : Considers env cfg g) (ho : ld.gens g)
      (hv : kernelVersion g.spec.kernel = some v) (hd : InitrdOf env g.spec d)
      (e : q = initrdFile env cfg v d) : Target true q
  | entry {g : Gen} {key : Bytes} {q : Path} (hg : Considers env cfg g) (ho : ld.gens g)
      (hk : KeyOf env cfg.signer key)
      (e : q = entryFile cfg.esp (stubName env.sha g key cfg.tries)) : Target false q
  | loader {q : Path} (hl : ld.loader) (e : q = fallbackFile cfg ∨ q = systemdFile cfg) : Target false q
  | conf {q : Path} (e : q = confFile cfg) : Target true q

/-- The content with which `q` is replaced in the state `f`. -/
inductive NewContent (f : Fs) (q : Path) (out : Bytes) : Prop
  | kernel {g : Gen} {v : Str} (hg : Considers env cfg g) (ho : ld.gens g)
      (hv : kernelVersion g.spec.kernel = some v) (hd : env.store g.spec.kernel = some out)
      (e : q = kernelFile env cfg v out)
  | initrd {g : Gen} {v : Str} (hg : Considers env cfg g) (ho : ld.gens g)
      (hv : kernelVersion g.spec.kernel = some v) (hd : InitrdOf env g.spec out)
      (e : q = initrdFile env cfg v out)
  | entry {g : Gen} {key kd id image : Bytes} {v : Str} (hg : Considers env cfg g) (ho : ld.gens g)
      (hk : KeyOf env cfg.signer key) (hv : kernelVersion g.spec.kernel = some v)
      (hkd : env.store g.spec.kernel = some kd) (hid : InitrdOf env g.spec id)
      (him : ImageOf env cfg g v kd id image) (hs : SignedBy env cfg.signer image out)
      (pk : Present env f (kernelFile env cfg v kd) (env.sha.hash kd))
      (pi : Present env f (initrdFile env cfg v id) (env.sha.hash id))
      (e : q = entryFile cfg.esp (stubName env.sha g key cfg.tries))
  | loader {d : Bytes} (hl : ld.loader) (hd : env.store (loaderSource cfg) = some d)
      (hs : SignedBy env cfg.signer d out)
      (hm : ∀ p, cfg.pcrlockDirectory = some p → ∃ t m, env.lockPe t d = some m ∧
        f.fileAt (nextFile p) = some m)
      (e : q = fallbackFile cfg ∨ q = systemdFile cfg)
  | conf (hd : env.store cfg.loaderConfig = some out) (e : q = confFile cfg)

/-- One change of the installer before garbage collection. -/
inductive InstallStep (f : Fs) (c : Change) : Prop
  | replace {to : Path} {durable : Bool} (ht : Target env cfg ld durable to)
      (h : Replaces to (NewContent env cfg ld f to) durable f c)
  | measured {g : Gen} {p : Path} (hg : Considers env cfg g) (ho : ld.gens g) (hp : cfg.pcrlockDirectory = some p)
      (h : Outputs (measurementFile p g) f c)
  | next {p : Path} (hl : ld.loader) (hp : cfg.pcrlockDirectory = some p) (h : Outputs (nextFile p) f c)
  | current {p : Path} {t : Nat} {d m out out' : Bytes} (hl : ld.loader)
      (hp : cfg.pcrlockDirectory = some p) (hd : env.store (loaderSource cfg) = some d)
      (hm : env.lockPe t d = some m) (hf : f.fileAt (nextFile p) = some m)
      (h1 : f.fileAt (fallbackFile cfg) = some out) (h1s : SignedBy env cfg.signer d out)
      (h2 : f.fileAt (systemdFile cfg) = some out') (h2s : SignedBy env cfg.signer d out')
      (hn : f.get (currentFile p) ≠ some .dir)
      (e : c = .rename (nextFile p) (currentFile p) m)
  | sync (h : ld.sync) (e : c = .syncfs cfg.esp)

variable {env cfg ld}

theorem Replaces.imp {to : Path} {S S' : Bytes → Prop} {dur : Bool} {f : Fs} {c : Change}
    (h : Replaces to S dur f c) (hS : ∀ d, S d → S' d) : Replaces to S' dur f c := by
  cases h with
  | mkdir a b c => exact .mkdir a b c
  | create a b => exact .create a b
  | write a => exact .write a
  | fsync => exact .fsync
  | rename a b c d e g => exact .rename a (hS _ b) c d e g
  | chmod => exact .chmod
  | bits => exact .bits

theorem ancestors_ne_nil {p q : Path} (h : q ∈ ancestors p) : q ≠ [] := by
  unfold ancestors at h
  simp only [List.mem_map, List.mem_range] at h
  obtain ⟨i, hi, rfl⟩ := h
  intro e
  rw [List.take_eq_nil_iff] at e
  rcases e with e | e
  · omega
  · subst e; simp at hi

/-- What `Replaces` does to a path other than the temporary file. -/
theorem Replaces.get {to : Path} {S : Bytes → Prop} {dur : Bool} {f : Fs} {c : Change}
    (h : Replaces to S dur f c) (q : Path) (hq : q ≠ tmpOf to) :
    (f.apply c).get q = f.get q ∨ (f.get q = none ∧ (f.apply c).get q = some .dir) ∨
    (q = to ∧ ∃ d, S d ∧ f.get to ≠ some .dir ∧ (f.apply c).get q = some (.file d) ∧
      c = .rename (tmpOf to) to d) := by
  cases h with
  | @mkdir x a b c =>
    rw [Fs.get_mkdir (ancestors_ne_nil a)]
    by_cases e : q = x
    · subst e; simp [b]
    · simp [e]
  | create a b =>
    have : tmpOf to ≠ [] := by intro e; rw [e] at a; simp at a
    rw [Fs.get_create this]
    simp [hq]
  | write a =>
    rw [Fs.get_write (fileAt_isSome_ne a)]
    simp [hq]
  | fsync => simp
  | @rename d a b c e g i =>
    have h1 := Fs.fileAt_ne_nil a
    have h2 : to ≠ [] := by intro x; rw [x] at e; simp at e
    rw [Fs.get_rename h1 h2]
    by_cases e' : q = to
    · subst e'
      exact Or.inr (Or.inr ⟨rfl, d, b, e, by simp, rfl⟩)
    · simp [e', hq]
  | chmod => simp
  | bits => simp

theorem Outputs.get {p : Path} {f : Fs} {c : Change} (h : Outputs p f c) (q : Path) (hq : q ≠ p) :
    (f.apply c).get q = f.get q ∨ (f.get q = none ∧ (f.apply c).get q = some .dir) := by
  cases h with
  | @mkdir x a b c =>
    rw [Fs.get_mkdir (ancestors_ne_nil a)]
    by_cases e : q = x
    · subst e; simp [b]
    · simp [e]
  | create a b =>
    have : p ≠ [] := by intro e; rw [e] at a; simp at a
    rw [Fs.get_create this]
    simp [hq]
  | write a =>
    rw [Fs.get_write (fileAt_isSome_ne a)]
    simp [hq]
  | chmod => simp

theorem kernelVersion_label {g : Gen} {v : Str} (hg : SafeGen g)
    (hv : kernelVersion g.spec.kernel = some v) (l : Str) (hl : '/' ∉ l) : '/' ∉ l ++ v := by
  simp only [List.mem_append, not_or]
  exact ⟨hl, kernelVersion_not_mem (fun c hc => (hg.kernel c hc).1) hv⟩

theorem Target.tmp {dur : Bool} {q : Path} (hs : SafeInput env cfg) (h : Target env cfg ld dur q) :
    IsTmp (tmpOf q) ∧ ¬ IsTmp q ∧ tmpOf q ≠ q := by
  cases h with
  | @kernel g v d _ hg ho hv hd e =>
    subst e
    have hl := kernelVersion_label (hs g hg) hv (lit "kernel-") (by decide)
    refine ⟨?_, ?_, caFile_tmp_ne _ hl _⟩
    · rw [kernelFile, caFile_snoc]; exact isTmp_tmpOf _ (caName_plain hl _)
    · rw [kernelFile, caFile_snoc]; exact not_isTmp_snoc (caName_not_tmp _ _)
  | @initrd g v d _ hg ho hv hd e =>
    subst e
    have hl := kernelVersion_label (hs g hg) hv (lit "initrd-") (by decide)
    refine ⟨?_, ?_, caFile_tmp_ne _ hl _⟩
    · rw [initrdFile, caFile_snoc]; exact isTmp_tmpOf _ (caName_plain hl _)
    · rw [initrdFile, caFile_snoc]; exact not_isTmp_snoc (caName_not_tmp _ _)
  | @entry g key _ hg ho hk e =>
    subst e
    refine ⟨?_, ?_, entryFile_tmp_ne _ (hs g hg) _ _⟩
    · rw [entryFile_snoc]; exact isTmp_tmpOf _ (stubName_plain (hs g hg) _ _)
    · rw [entryFile_snoc]; exact not_isTmp_snoc (stubName_not_tmp _ _ _ _)
  | loader hl e =>
    rcases e with rfl | rfl
    · refine ⟨?_, ?_, fallbackFile_tmp_ne _⟩
      · rw [fallbackFile_snoc]; exact isTmp_tmpOf _ (efiFallbackFilename_plain _)
      · rw [fallbackFile_snoc]; exact not_isTmp_snoc (efiFallback_not_tmp _)
    · refine ⟨?_, ?_, systemdFile_tmp_ne _⟩
      · rw [systemdFile_snoc]; exact isTmp_tmpOf _ (systemdFilename_plain _)
      · rw [systemdFile_snoc]; exact not_isTmp_snoc (systemdFilename_not_tmp _)
  | conf e =>
    subst e
    refine ⟨?_, ?_, confFile_tmp_ne _⟩
    · rw [confFile_snoc]; exact isTmp_tmpOf _ loaderConf_plain
    · rw [confFile_snoc]; exact not_isTmp_snoc loaderConf_not_tmp

/-- The effect of a step on a path that is neither a temporary file nor a measurement. -/
theorem InstallStep.get (hs : SafeInput env cfg) {f : Fs} {c : Change}
    (h : InstallStep env cfg ld f c) {q : Path} (ht : ¬ IsTmp q) (hm : ¬ IsMeasurement cfg q) :
    (f.apply c).get q = f.get q ∨ (f.get q = none ∧ (f.apply c).get q = some .dir) ∨
    (∃ d, NewContent env cfg ld f q d ∧ (∃ dur, Target env cfg ld dur q ∧
        Replaces q (NewContent env cfg ld f q) dur f c) ∧ f.get q ≠ some .dir ∧
      (f.apply c).get q = some (.file d) ∧ c = .rename (tmpOf q) q d) := by
  cases h with
  | @replace to dur t r =>
    rcases r.get q (fun e => ht (e ▸ (t.tmp hs).1)) with h | h | ⟨rfl, d, hd, hn, hg, hc⟩
    · exact Or.inl h
    · exact Or.inr (Or.inl h)
    · exact Or.inr (Or.inr ⟨d, hd, ⟨dur, t, r⟩, hn, hg, hc⟩)
  | @measured g p hg ho hp o =>
    rcases o.get q (fun e => hm ⟨p, hp, Or.inl ⟨g, e⟩⟩) with h | h
    · exact Or.inl h
    · exact Or.inr (Or.inl h)
  | @next p hl hp o =>
    rcases o.get q (fun e => hm ⟨p, hp, Or.inr (Or.inl e)⟩) with h | h
    · exact Or.inl h
    · exact Or.inr (Or.inl h)
  | @current p t d m out out' hl hp hd hlm hf h1 h1s h2 h2s hn e =>
    subst e
    rw [Fs.get_rename (Fs.fileAt_ne_nil hf) (by simp [currentFile])]
    have e1 : q ≠ currentFile p := fun e => hm ⟨p, hp, Or.inr (Or.inr e)⟩
    have e2 : q ≠ nextFile p := fun e => hm ⟨p, hp, Or.inr (Or.inl e)⟩
    simp [e1, e2]
  | sync _ e => subst e; simp

/-! ### Paths that are no measurements -/

theorem not_isMeasurement_of {q : Path} {d n : Str} (h : lastTwo q = some (d, n))
    (h1 : d ≠ lit "635-lanzaboote.pcrlock.d") (h2 : d ≠ lit "630-bootloader.pcrlock.d") :
    ¬ IsMeasurement cfg q := by
  rintro ⟨p, -, ⟨g, rfl⟩ | rfl | rfl⟩
  · rw [measurementFile_lastTwo] at h; exact h1 (by simp at h; exact h.1.symm)
  · rw [nextFile_lastTwo] at h; exact h2 (by simp at h; exact h.1.symm)
  · rw [currentFile_lastTwo] at h; exact h2 (by simp at h; exact h.1.symm)

theorem caFile_not_isMeasurement (esp : Path) (l : Str) (h : Bytes) :
    ¬ IsMeasurement cfg (caFile esp l h) :=
  not_isMeasurement_of (caFile_lastTwo esp l h) (by decide) (by decide)

theorem entryFile_not_isMeasurement (esp : Path) (n : Str) : ¬ IsMeasurement cfg (entryFile esp n) :=
  not_isMeasurement_of (entryFile_lastTwo esp n) (by decide) (by decide)

theorem fallbackFile_not_isMeasurement : ¬ IsMeasurement cfg (fallbackFile cfg) :=
  not_isMeasurement_of (fallbackFile_lastTwo cfg) (by decide) (by decide)

theorem systemdFile_not_isMeasurement : ¬ IsMeasurement cfg (systemdFile cfg) :=
  not_isMeasurement_of (systemdFile_lastTwo cfg) (by decide) (by decide)

theorem confFile_not_isMeasurement : ¬ IsMeasurement cfg (confFile cfg) :=
  not_isMeasurement_of (confFile_lastTwo cfg) (by decide) (by decide)

theorem caFile_not_isTmp (esp : Path) (l : Str) (h : Bytes) : ¬ IsTmp (caFile esp l h) := by
  rw [caFile_snoc]; exact not_isTmp_snoc (caName_not_tmp l h)

theorem caFile_inj {esp esp' : Path} {l l' : Str} {h h' : Bytes} (hh : h.length = 32)
    (hh' : h'.length = 32) (e : caFile esp l h = caFile esp' l' h') : l = l' ∧ h = h' := by
  have := congrArg lastTwo e
  rw [caFile_lastTwo, caFile_lastTwo] at this
  simp at this
  exact caName_hash_inj hh hh' this

/-- New content of a kernel or initrd has the hash in its name. -/
theorem NewContent.ca {f : Fs} {l : Str} {h : Bytes} {d : Bytes} (hh : h.length = 32)
    (hn : NewContent env cfg ld f (caFile cfg.esp l h) d) : env.sha.hash d = h := by
  cases hn with
  | kernel _ _ _ _ e => exact (caFile_inj hh (env.sha.len _) e).2.symm
  | initrd _ _ _ _ e => exact (caFile_inj hh (env.sha.len _) e).2.symm
  | entry _ _ _ _ _ _ _ _ _ _ e =>
    have := congrArg lastTwo e
    rw [caFile_lastTwo, entryFile_lastTwo] at this
    simp at this
    exact absurd this.1 (by decide)
  | loader _ _ _ _ e =>
    rcases e with e | e
    all_goals
      have := congrArg lastTwo e
      simp only [caFile_lastTwo, fallbackFile_lastTwo, systemdFile_lastTwo] at this
      simp at this
      exact absurd this.1 (by decide)
  | conf _ e =>
    have := congrArg lastTwo e
    simp only [caFile_lastTwo, confFile_lastTwo] at this
    simp at this
    exact absurd this.1 (by decide)

/-- A kernel or initrd with the right hash stays. -/
theorem InstallStep.present (hs : SafeInput env cfg) {f : Fs} {c : Change}
    (h : InstallStep env cfg ld f c) {l : Str} {k : Bytes} (hk : k.length = 32)
    (hp : Present env f (caFile cfg.esp l k) k) :
    Present env (f.apply c) (caFile cfg.esp l k) k := by
  obtain ⟨d, hd, hh⟩ := hp
  rw [Fs.fileAt_eq_some] at hd
  rcases h.get hs (caFile_not_isTmp cfg.esp l k) (caFile_not_isMeasurement cfg.esp l k) with
    e | ⟨e, -⟩ | ⟨d', hn, -, -, e, -⟩
  · exact ⟨d, Fs.fileAt_eq_some.2 (e.trans hd), hh⟩
  · rw [e] at hd; simp at hd
  · exact ⟨d', Fs.fileAt_eq_some.2 e, hn.ca hk⟩

theorem isMeasurement_not_isTmp {q : Path} (h : IsMeasurement cfg q) : ¬ IsTmp q := by
  obtain ⟨p, -, ⟨g, rfl⟩ | rfl | rfl⟩ := h
  · have : measurementFile p g = (p ++ [lit "635-lanzaboote.pcrlock.d"]) ++
      [g.versionTag ++ lit ".pcrlock"] := by simp [measurementFile]
    rw [this]
    exact not_isTmp_snoc (not_isTmpName_append (by decide) (by decide))
  · have : nextFile p = (p ++ [lit "630-bootloader.pcrlock.d"]) ++ [lit "next.pcrlock"] := by
      simp [nextFile]
    rw [this]
    exact not_isTmp_snoc fun h => absurd (isTmpName_last h) (by decide)
  · have : currentFile p = (p ++ [lit "630-bootloader.pcrlock.d"]) ++ [lit "current.pcrlock"] := by
      simp [currentFile]
    rw [this]
    exact not_isTmp_snoc fun h => absurd (isTmpName_last h) (by decide)

theorem Target.not_isMeasurement {dur : Bool} {q : Path} (h : Target env cfg ld dur q) :
    ¬ IsMeasurement cfg q := by
  cases h with
  | kernel _ _ _ _ e => rw [e]; exact caFile_not_isMeasurement _ _ _
  | initrd _ _ _ _ e => rw [e]; exact caFile_not_isMeasurement _ _ _
  | entry _ _ _ e => rw [e]; exact entryFile_not_isMeasurement _ _
  | loader _ e =>
    rcases e with rfl | rfl
    · exact fallbackFile_not_isMeasurement
    · exact systemdFile_not_isMeasurement
  | conf e => rw [e]; exact confFile_not_isMeasurement

/-- Replacing a target changes no measurement. -/
theorem Replaces.get_measurement (hs : SafeInput env cfg) {to : Path} {S : Bytes → Prop} {dur : Bool}
    {f : Fs} {c : Change} (h : Replaces to S dur f c) (ht : Target env cfg ld dur to) {q : Path}
    (hq : IsMeasurement cfg q) {d : Bytes} (hd : f.fileAt q = some d) :
    (f.apply c).fileAt q = some d := by
  rw [Fs.fileAt_eq_some] at hd ⊢
  rcases h.get q (fun e => isMeasurement_not_isTmp hq (e ▸ (ht.tmp hs).1)) with
    e | ⟨e, -⟩ | ⟨rfl, -⟩
  · rw [e, hd]
  · rw [e] at hd; simp at hd
  · exact absurd hq ht.not_isMeasurement

end Verif.Tool
