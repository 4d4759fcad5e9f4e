import Verif.Spec.Enroll
import Verif.Props.Rotation
import Verif.Props.Interference
/-!
# Automatic enrolment of keys

C108.
-/
namespace Verif.Tool
open Verif StubName Generation BootCounting

variable {env world : Env} {cfg : Config} {fs f : Fs} {known : Gen → Bytes → Prop} {esp : Path}
  {accepts : Bytes → Bytes → Prop} {auth : Str → Bytes}

theorem enroll_paths {c : Change} (hc : c ∈ enrollChanges esp auth f) :
    ∃ q, esp ++ [lit "loader"] <+: q ∧ (c = .mkdir q ∨ c = .create q ∨ ∃ d, c = .write q d) := by
  rcases List.mem_append.1 hc with hc | hc
  · obtain ⟨q, hq, rfl⟩ := List.mem_map.1 hc
    refine ⟨q, ?_, .inl rfl⟩
    have := (List.mem_filter.1 hq).1
    simp only [List.mem_cons, List.not_mem_nil, or_false] at this
    rcases this with rfl | rfl | rfl
    · exact List.prefix_refl _
    · exact ⟨[lit "keys"], by simp⟩
    · exact ⟨[lit "keys", lit "auto"], by simp⟩
  · obtain ⟨n, -, hc⟩ := List.mem_flatMap.1 hc
    refine ⟨enrollFile esp n, ⟨[lit "keys", lit "auto", n], by simp [enrollFile]⟩, ?_⟩
    simp only [List.mem_cons, List.not_mem_nil, or_false] at hc
    rcases hc with rfl | rfl
    · exact .inr (.inl rfl)
    · exact .inr (.inr ⟨_, rfl⟩)

theorem get_replay_below {top p : Path} (ht : top ≠ []) (hp : ¬ top <+: p) {l : List Change}
    (hl : ∀ c ∈ l, ∃ q, top <+: q ∧ (c = .mkdir q ∨ c = .create q ∨ ∃ d, c = .write q d)) {f : Fs} :
    (f.replay l).get p = f.get p := by
  induction l generalizing f with
  | nil => rfl
  | cons c l ih =>
    rw [Fs.replay_cons, ih fun c hc => hl c (List.mem_cons_of_mem _ hc)]
    obtain ⟨q, hq, h⟩ := hl c List.mem_cons_self
    have hne : q ≠ [] := by rintro rfl; exact ht (List.prefix_nil.1 hq)
    have hpq : p ≠ q := by rintro rfl; exact hp hq
    rcases h with rfl | rfl | ⟨d, rfl⟩
    · rw [Fs.get_mkdir hne, if_neg hpq]
    · rw [Fs.get_create hne, if_neg hpq]
    · rw [Fs.get_write hne, if_neg hpq]

/-- Nothing outside the directory `loader` is changed before the installer is called. -/
theorem enroll_elsewhere {p : Path} (hp : ¬ esp ++ [lit "loader"] <+: p) :
    (f.replay (enrollChanges esp auth f)).get p = f.get p :=
  get_replay_below (by simp) hp fun _ hc => enroll_paths hc

theorem loader_apart {p : Path} (h : IsEntry esp p ∨ nixosDir esp <+: p) : ¬ esp ++ [lit "loader"] <+: p := by
  have hE : esp ++ [lit "EFI"] <+: p := by
    rcases h with ⟨n, rfl, -⟩ | h
    · exact ⟨[lit "Linux", n], by simp [entryFile]⟩
    · exact List.IsPrefix.trans ⟨[lit "nixos"], by simp [nixosDir]⟩ h
  intro hl
  rcases List.prefix_or_prefix_of_prefix hE hl with h | h
  · have := (List.prefix_append_right_inj esp).1 h
    revert this
    decide
  · have := (List.prefix_append_right_inj esp).1 h
    revert this
    decide

theorem mem_enrollNames {n : Str} : n ∈ enrollNames ↔ n = lit "PK.auth" ∨ n = lit "KEK.auth" ∨ n = lit "db.auth" := by
  simp [enrollNames]

theorem enrollFile_inj {n m : Str} (h : enrollFile esp n = enrollFile esp m) : n = m := by
  have := List.append_cancel_left h
  simpa using this

/-- The files for the enrolment are there when the installer is called. -/
theorem enroll_written {n : Str} (hn : n ∈ enrollNames) :
    (f.replay (enrollChanges esp auth f)).get (enrollFile esp n) = some (.file (auth n)) := by
  unfold enrollChanges
  rw [Fs.replay_append]
  generalize f.replay (enrollDirs esp f) = f'
  have hne : ∀ m, enrollFile esp m ≠ [] := fun m => by simp [enrollFile]
  have ne : ∀ {a b : Str}, a ≠ b → ¬ enrollFile esp a = enrollFile esp b := fun h e => h (enrollFile_inj e)
  simp only [enrollFiles, enrollNames, List.flatMap_cons, List.flatMap_nil, List.append_nil, List.cons_append,
    List.nil_append, Fs.replay_cons, Fs.replay_nil]
  have e1 : lit "PK.auth" ≠ lit "KEK.auth" := by decide
  have e2 : lit "PK.auth" ≠ lit "db.auth" := by decide
  have e3 : lit "KEK.auth" ≠ lit "db.auth" := by decide
  rw [Fs.get_write (hne _), Fs.get_create (hne _), Fs.get_write (hne _), Fs.get_create (hne _), Fs.get_write (hne _)]
  rcases mem_enrollNames.1 hn with rfl | rfl | rfl
  · rw [if_neg (ne e2), if_neg (ne e2), if_neg (ne e1), if_neg (ne e1), if_pos rfl]
  · rw [if_neg (ne e3), if_neg (ne e3), if_pos rfl]
  · rw [if_pos rfl]

/-- The installer does not touch the files for the enrolment. -/
theorem enroll_foreign (hl : ∀ p, cfg.pcrlockDirectory = some p → ¬ p <+: cfg.esp ∧ ¬ cfg.esp <+: p) (n : Str) :
    ¬ Owned cfg (enrollFile cfg.esp n) := by
  have hE : ¬ cfg.esp ++ [lit "EFI"] <+: enrollFile cfg.esp n := by
    intro h
    have := (List.prefix_append_right_inj cfg.esp).1 h
    simp at this
    revert this
    decide
  have lock : ∀ {p q : Path}, cfg.pcrlockDirectory = some p → p <+: q → q ≠ enrollFile cfg.esp n := by
    rintro p q hp h rfl
    rcases List.prefix_or_prefix_of_prefix h (List.prefix_append cfg.esp _) with h | h
    · exact (hl p hp).1 h
    · exact (hl p hp).2 h
  have efi : ∀ {q : Path} (r : Path), q = cfg.esp ++ (lit "EFI" :: r) → q ≠ enrollFile cfg.esp n := by
    rintro q r rfl e
    exact hE (e ▸ ⟨r, by simp⟩)
  intro h
  generalize hq : enrollFile cfg.esp n = q at h
  cases h with
  | nixos h => exact hE (hq ▸ List.IsPrefix.trans ⟨[lit "nixos"], by simp [nixosDir]⟩ h)
  | entry h hn hp =>
    exact hE (hq ▸ List.IsPrefix.trans ⟨[lit "Linux"], by simp [linuxDir]⟩
      (h.trans ((List.prefix_append _ _).trans hp)))
  | fallback => exact efi _ rfl hq.symm
  | systemd => exact efi _ rfl hq.symm
  | conf =>
    have := congrArg List.length hq
    simp [enrollFile, confFile] at this
  | tmp h hd ht =>
    have e := congrArg List.length (hq ▸ hd)
    rcases h with rfl | rfl | rfl <;> simp [enrollFile, confFile, fallbackFile, systemdFile] at e
  | lock hp h => exact lock hp ((List.prefix_append _ _).trans h) hq.symm
  | bootloader hp h =>
    rcases h with rfl | rfl
    · exact lock hp (List.prefix_append _ _) hq.symm
    · exact lock hp (List.prefix_append _ _) hq.symm

/-- A successful run after any history, with keys: a machine that has them enrolled can be booted. -/
theorem bootsWithKey_of_run (hu : Unambiguous world known)
    (h₀ : Sound world esp fs) (hc : Coherent world esp known fs) (hj : NamedForKey accepts world esp known fs)
    (hist : History world esp known (AcceptsSigned accepts) fs f)
    (hp : ProperRun world esp known env cfg) (ha : AcceptsSigned accepts env cfg)
    (hr : Reliable env.os) (ht : f.Tree) (hok : Succeeded env cfg f) :
    ∃ key, KeyOf env cfg.signer key ∧ BootsWithKey accepts world env cfg key (run env cfg (start cfg f)).2.fs := by
  obtain rfl := hp.esp
  obtain ⟨key, hk, h1, h2⟩ := C89_only_current_key hu h₀ hj hist hp ha hr ht hok
  refine ⟨key, hk, h2, ?_, fun g hg => ?_⟩
  · rintro p ⟨n, rfl, hn, -⟩ hx
    have es : entryFile cfg.esp n = linuxDir cfg.esp ++ [n] := by simp [entryFile, linuxDir]
    rw [es] at hx ⊢
    exact h1 _ n (List.prefix_refl _) hn hx
  · obtain ⟨-, p, -, -, h3, -, -, h4⟩ := C89_considered_resigned hu h₀ hc hj hist hp ha hok.ok (.inl hok.read) hg
    exact ⟨p, h3, h4⟩

/-- **C108** (what holds). When the service has done its work without I/O errors, the keys will be enrolled and a machine
that has them enrolled can be booted, whatever signed or unsigned installations there were before. -/
theorem C108_after_service_partial (hu : Unambiguous world known)
    (h₀ : Sound world esp fs) (hc : Coherent world esp known fs) (hj : NamedForKey accepts world esp known fs)
    (hist : History world esp known (AcceptsSigned accepts) fs f)
    (hp : ProperRun world esp known env cfg) (ha : AcceptsSigned accepts env cfg)
    (hl : ∀ p, cfg.pcrlockDirectory = some p → ¬ p <+: cfg.esp ∧ ¬ cfg.esp <+: p)
    (hr : Reliable env.os) (ht : (f.replay (enrollChanges esp auth f)).Tree)
    (hok : Succeeded env cfg (f.replay (enrollChanges esp auth f))) :
    WillEnroll esp (f.replay (enrollService env cfg auth f)) ∧
    ∃ key, KeyOf env cfg.signer key ∧ BootsWithKey accepts world env cfg key (f.replay (enrollService env cfg auth f)) := by
  obtain rfl := hp.esp
  have e : f.replay (enrollService env cfg auth f) =
      (run env cfg (start cfg (f.replay (enrollChanges cfg.esp auth f)))).2.fs := by
    unfold enrollService
    rw [Fs.replay_append, ← run_disk hp.safe]
  rw [e]
  have hist' : History world cfg.esp known (AcceptsSigned accepts) fs (f.replay (enrollChanges cfg.esp auth f)) :=
    .snoc hist (.other fun p hpp => enroll_elsewhere (loader_apart hpp))
  refine ⟨fun n hn => ⟨auth n, ?_⟩, bootsWithKey_of_run hu h₀ hc hj hist' hp ha hr ht hok⟩
  rw [Fs.fileAt_eq_some, ← enroll_written (mem_enrollNames.2 hn), run_disk hp.safe]
  rcases C31_foreign_files hp.safe (killed_at_end env cfg (f.replay (enrollChanges cfg.esp auth f)))
    (enroll_foreign hl n) with h | ⟨h, -⟩
  · exact h
  · rw [enroll_written (mem_enrollNames.2 hn)] at h
    cases h

/-- **C108** (a way out). If the service has been interrupted, at whatever moment, a successful run of the installer before
the machine is restarted makes it bootable with the keys. -/
theorem C108_repaired {env' : Env} {cfg' : Config} {done : List Change} (hu : Unambiguous world known)
    (h₀ : Sound world esp fs) (hc : Coherent world esp known fs) (hj : NamedForKey accepts world esp known fs)
    (hist : History world esp known (AcceptsSigned accepts) fs f)
    (hp : ProperRun world esp known env cfg) (ha : AcceptsSigned accepts env cfg)
    (hd : done <+: enrollService env cfg auth f)
    (hp' : ProperRun world esp known env' cfg') (ha' : AcceptsSigned accepts env' cfg')
    (hr : Reliable env'.os) (ht : (f.replay done).Tree) (hok : Succeeded env' cfg' (f.replay done)) :
    ∃ key, KeyOf env' cfg'.signer key ∧
      BootsWithKey accepts world env' cfg' key (run env' cfg' (start cfg' (f.replay done))).2.fs := by
  refine bootsWithKey_of_run hu h₀ hc hj ?_ hp' ha' hr ht hok
  obtain rfl := hp.esp
  unfold enrollService at hd
  rcases List.prefix_or_prefix_of_prefix hd (List.prefix_append _ _) with h | ⟨r, rfl⟩
  · exact .snoc hist (.other fun p hpp => get_replay_below (by simp) (loader_apart hpp)
      fun _ hc => enroll_paths (h.subset hc))
  · rw [Fs.replay_append]
    exact .snoc (.snoc hist (.other fun p hpp => enroll_elsewhere (loader_apart hpp)))
      (.run hp ha ((List.prefix_append_right_inj _).1 hd))

end Verif.Tool

namespace Verif.Tool.Sample
open Verif Verif.Tool Generation StubName BootCounting

/-- At first there are no keys. -/
def cfgKeyless : Config := { cfg with signer := .empty }

/-- The disk after an installation without keys. -/
def keylessDisk : Fs := (run good cfgKeyless (start cfgKeyless disk0)).2.fs

/-- What a machine with this certificate accepts; one that does not check signatures accepts all. -/
def acceptedBy (key d : Bytes) : Prop := key = utf8 (lit "unsigned") ∨ d.getLast? = some 83

def knownU (g : Gen) (key : Bytes) : Prop := g ∈ allOf good cfg ∧ key ∈ [utf8 (lit "unsigned"), [80, 75]]

theorem unambiguousU : Unambiguous good knownU where
  same := by
    rintro g k g' k' ⟨h, -⟩ ⟨h', -⟩ hs
    have key : ∀ a ∈ allOf good cfg, ∀ b ∈ allOf good cfg, a.spec.toplevel = b.spec.toplevel →
        a.spec = b.spec := by decide +kernel
    have := key g h g' h' hs.2.2.1
    rw [this]
    exact ⟨rfl, rfl, rfl, rfl, rfl⟩
  apart := by
    rintro g k g' k' ⟨h, hk⟩ ⟨h', hk'⟩ hc
    have key : ∀ a ∈ allOf good cfg, ∀ k ∈ ([utf8 (lit "unsigned"), [80, 75]] : List Bytes),
        ∀ b ∈ allOf good cfg, ∀ k' ∈ ([utf8 (lit "unsigned"), [80, 75]] : List Bytes),
        sha.hash (hashed a k) = sha.hash (hashed b k') → hashed a k = hashed b k' := by decide +kernel
    exact hc.1 (key g h k hk g' h' k' hk' hc.2)

theorem proper_keyless : ProperRun good cfg.esp knownU good cfgKeyless where
  esp := rfl
  inWorld := ⟨rfl, rfl, rfl, fun _ _ _ h => h, fun _ _ _ h => h⟩
  safe := fun g hg => safe_good g ⟨hg.ex⟩
  tools := faithful _
  separate := fun p h => separate p h
  known := fun g key hg hk => ⟨considers_iff.1 ⟨hg.ex⟩, by
    have hk : key = utf8 (lit "unsigned") := hk
    rw [hk]
    exact List.mem_cons_self⟩

theorem proper_keys : ProperRun good cfg.esp knownU good cfg :=
  { properRun fun _ => false with
    known := fun _ _ hg hk => ⟨considers_iff.1 hg, by rw [key_old hk]; simp⟩ }

theorem machine_keyless : AcceptsSigned acceptedBy good cfgKeyless where
  signing _ _ _ hk _ := .inl hk
  verifying _ _ hk _ := .inl hk

theorem machine_keys : AcceptsSigned acceptedBy good cfg where
  signing key d out hk hs := by
    have := accepts_old.signing key d out hk hs
    rw [key_old hk] at this
    exact .inr this
  verifying key d hk hv := by
    have := accepts_old.verifying key d hk hv
    rw [key_old hk] at this
    exact .inr this

theorem history_keyless : History good cfg.esp knownU (AcceptsSigned acceptedBy) disk0 keylessDisk := by
  refine .snoc .nil ?_
  unfold keylessDisk
  rw [run_disk proper_keyless.safe]
  exact .run proper_keyless machine_keyless (killed_at_end good cfgKeyless disk0)

/-- What sbctl has exported. -/
def exported (n : Str) : Bytes := utf8 n

/-- The disk when the files for the enrolment are on it, but nothing is signed yet. -/
def halfway : Fs := keylessDisk.replay (enrollChanges cfg.esp exported keylessDisk)

def signedFile (f : Fs) (p : Path) : Bool :=
  match f.fileAt p with
  | some d => decide (d.getLast? = some 83)
  | none => false

/-- The installation without keys has worked; no boot loader and none of the three boot entries is signed before the
installer has run again, which it does with success. -/
def enrolling : Bool :=
  decide ((run good cfgKeyless (start cfgKeyless disk0)).1 = .ok ()) && SampleGc.isTree halfway &&
    decide ((run good cfg (start cfg halfway)).1 = .ok ()) && decide ((run good cfg (start cfg halfway)).2.broken = []) &&
    [fallbackFile cfg, systemdFile cfg].all (fun p => (halfway.fileAt p).isSome && !signedFile halfway p) &&
    (let entries := (halfway.nodes.map (·.1)).filter fun p => decide (p.dropLast = linuxDir cfg.esp) &&
        (lit "nixos-").isPrefixOf (p.getLast?.getD [])
     decide (entries.length = 3) && entries.all fun p => !signedFile halfway p)

theorem enrolling_ok : enrolling = true := by decide +kernel

theorem enrolling_parts : (run good cfgKeyless (start cfgKeyless disk0)).1 = .ok () ∧ SampleGc.isTree halfway = true ∧
    Succeeded good cfg halfway ∧ signedFile halfway (systemdFile cfg) = false ∧
    (halfway.fileAt (systemdFile cfg)).isSome := by
  have h := enrolling_ok
  simp only [enrolling, Bool.and_eq_true, decide_eq_true_eq, List.all_cons, List.all_nil, Bool.not_eq_true'] at h
  exact ⟨h.1.1.1.1.1, h.1.1.1.1.2, ⟨h.1.1.1.2, h.1.1.2⟩, h.1.2.2.1.2, h.1.2.2.1.1⟩

/-- **C108** is false: if the machine is switched off when the files for the enrolment have been written and nothing is
signed yet, the keys will be enrolled and the machine does not accept its boot loader. -/
theorem C108_locked_out : ∃ done, done <+: enrollService good cfg exported keylessDisk ∧
    WillEnroll cfg.esp (keylessDisk.replay done) ∧
    ∀ key, KeyOf good cfg.signer key → ∀ world, ¬ BootsWithKey acceptedBy world good cfg key (keylessDisk.replay done) := by
  refine ⟨enrollChanges cfg.esp exported keylessDisk, List.prefix_append _ _, ?_, ?_⟩
  · intro n hn
    exact ⟨exported n, Fs.fileAt_eq_some.2 (enroll_written (mem_enrollNames.2 hn))⟩
  · intro key hk world h
    obtain ⟨d, hd, ha⟩ := h.loaders (systemdFile cfg) (.inr rfl)
    have hs := enrolling_parts.2.2.2.1
    have hd : halfway.fileAt (systemdFile cfg) = some d := hd
    unfold signedFile at hs
    rw [hd] at hs
    rw [key_old hk] at ha
    rcases ha with ha | ha
    · revert ha; decide
    · exact of_decide_eq_false hs ha

/-- When the service has ended, the machine can be booted with the keys. -/
example : WillEnroll cfg.esp (keylessDisk.replay (enrollService good cfg exported keylessDisk)) ∧
    BootsWithKey acceptedBy good good cfg [80, 75] (keylessDisk.replay (enrollService good cfg exported keylessDisk)) := by
  obtain ⟨-, h2, h3, -⟩ := enrolling_parts
  obtain ⟨h4, key, h5, h6⟩ := C108_after_service_partial (env := good) (cfg := cfg) (auth := exported) unambiguousU sound0
    (fun _ _ _ data _ hm hd => absurd hd (no_entry (isMatch_isEntry hm.isMatch) data))
    (fun _ _ _ _ _ hm hd => absurd hd (no_entry (isMatch_isEntry hm.isMatch) _)) history_keyless proper_keys machine_keys
    (fun p hp => by
      have e : cfg.pcrlockDirectory = some [lit "var", lit "pcrlock.d"] := rfl
      rw [e] at hp
      rw [← Option.some.inj hp]
      decide) reliable_good (SampleGc.tree_of h2) h3
  rw [key_old h5] at h6
  exact ⟨h4, h6⟩

/-- Switched off halfway and repaired. -/
example : BootsWithKey acceptedBy good good cfg [80, 75] (run good cfg (start cfg halfway)).2.fs := by
  obtain ⟨-, h2, h3, -⟩ := enrolling_parts
  have ht : halfway.Tree := SampleGc.tree_of h2
  unfold halfway at ht h3 ⊢
  obtain ⟨key, h5, h6⟩ := C108_repaired (env := good) (cfg := cfg) (env' := good) (cfg' := cfg) (f := keylessDisk)
    (done := enrollChanges cfg.esp exported keylessDisk) (auth := exported) unambiguousU sound0
    (fun _ _ _ data _ hm hd => absurd hd (no_entry (isMatch_isEntry hm.isMatch) data))
    (fun _ _ _ _ _ hm hd => absurd hd (no_entry (isMatch_isEntry hm.isMatch) _)) history_keyless proper_keys machine_keys
    (List.prefix_append _ _) proper_keys machine_keys reliable_good ht h3
  have e := key_old h5
  subst e
  exact h6

end Verif.Tool.Sample
