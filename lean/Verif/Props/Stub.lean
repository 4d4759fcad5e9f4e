import Verif.Lemmas.Boot
import Verif.Lemmas.SampleBoot
/-!
# C08 to C13, C20, C23: a whole boot

`main env w` is a run of the stub on the firmware `env` starting in the state `w`. The firmware may
answer every call differently every time, including with errors; the kernel may do what it likes.
-/
namespace Verif.Stub
open Verif Verif.Companion Spec

/-! ## Initrd concatenation -/

theorem padTo4_mul (b : Bytes) : (padTo4 b).length % 4 = 0 := by
  unfold padTo4
  rw [List.length_append, List.length_replicate]
  omega

theorem appendInitrds_joined (extras : List Bytes) (acc : Bytes) (h : acc.length % 4 = 0) :
    ∃ j, Joined extras j ∧ appendInitrds acc extras = acc ++ j := by
  induction extras generalizing acc with
  | nil => exact ⟨[], .nil, by simp [appendInitrds]⟩
  | cons e rest ih =>
    obtain ⟨j, hj, hap⟩ := ih (padTo4 (acc ++ e)) (padTo4_mul _)
    refine ⟨e ++ List.replicate ((4 - (acc ++ e).length % 4) % 4) 0 ++ j,
      .cons hj (by omega) ?_ rfl, ?_⟩
    · rw [List.length_append]; omega
    · rw [appendInitrds, hap, padTo4]
      simp [List.append_assoc]

/-- The initrd handed to the kernel is made of the verified initrd and the companion archives. -/
theorem C12_concatenation (initrd : Bytes) (extras : List Bytes) :
    Joined (initrd :: extras) (appendInitrds (padTo4 initrd) extras) := by
  obtain ⟨j, hj, hap⟩ := appendInitrds_joined extras (padTo4 initrd) (padTo4_mul _)
  rw [hap]
  exact .cons hj (by omega) (by omega) rfl

/-- The concatenation is determined by its parts. -/
theorem Joined.unique {parts : List Bytes} {a b : Bytes} (ha : Joined parts a) (hb : Joined parts b) :
    a = b := by
  induction ha generalizing b with
  | nil => cases hb; rfl
  | cons h hfill hmul hrest ih =>
    cases hb with
    | cons h' hfill' hmul' hrest' =>
      rw [hrest, hrest', ih h']
      congr 3
      omega

/-- Every part starts at a multiple of four. -/
theorem Joined.aligned {parts : List Bytes} {joined : Bytes} (h : Joined parts joined)
    {pre post : List Bytes} {part : Bytes} (hs : parts = pre ++ part :: post) :
    ∃ before after, joined = before ++ part ++ after ∧ before.length % 4 = 0 ∧ Joined pre before := by
  induction h generalizing pre with
  | nil => simp at hs
  | @cons p rest joined parts fill h hfill hmul hrest ih =>
    cases pre with
    | nil =>
      simp only [List.nil_append, List.cons.injEq] at hs
      obtain ⟨rfl, rfl⟩ := hs
      exact ⟨[], List.replicate fill 0 ++ joined, by simp [hrest], rfl, .nil⟩
    | cons q qs =>
      simp only [List.cons_append, List.cons.injEq] at hs
      obtain ⟨rfl, hs⟩ := hs
      obtain ⟨b, a, e, hb, hj⟩ := ih hs
      refine ⟨p ++ List.replicate fill 0 ++ b, a, by simp [hrest, e], ?_, .cons hj hfill hmul rfl⟩
      simp only [List.length_append, List.length_replicate]
      omega

/-! ## What is known about a started kernel -/

/-- The kernel was started during the run. -/
def Starts (env : Env) (w : World) (s : Started) : Prop :=
  ∃ evs, (main env w).2.trace = w.trace ++ evs ∧ .start s ∈ evs

theorem Sample.starts {tpm : Bool} {st : Status} {sb o : Option Bytes} {s : Started}
    (h : Sample.kernelStart tpm st sb o = some s) : Starts (Sample.env tpm st) (Sample.start sb o) s := by
  refine ⟨_, (List.nil_append _).symm, ?_⟩
  obtain ⟨e, he, hs⟩ := List.exists_of_findSome?_eq_some h
  cases e <;> simp at hs
  subst hs
  exact he

theorem Sample.starts_exists {tpm : Bool} {st : Status} {sb o : Option Bytes}
    (h : (Sample.kernelStart tpm st sb o).isSome = true) :
    ∃ s, Starts (Sample.env tpm st) (Sample.start sb o) s ∧ Sample.kernelStart tpm st sb o = some s := by
  obtain ⟨s, hs⟩ := Option.isSome_iff_exists.1 h
  exact ⟨s, Sample.starts hs, hs⟩

/-- A machine with Secure Boot on and a TPM starts its kernel: the hypothesis of the theorems below. -/
theorem Sample.secure : ∃ s, Starts (Sample.env true .success) (Sample.start (some [1]) (some [1, 2])) s ∧
    s.options = optionsOf (lit16 "quiet") := by
  obtain ⟨s, h, hs⟩ := Sample.starts_exists (tpm := true) (st := .success) (sb := some [1])
    (o := some [1, 2]) (by decide +kernel)
  refine ⟨s, h, ?_⟩
  have : (Sample.kernelStart true .success (some [1]) (some [1, 2])).map (·.options) =
    some (optionsOf (lit16 "quiet")) := by decide +kernel
  rw [hs] at this
  exact Option.some.inj this

/-- A machine with Secure Boot off takes the command line of the boot loader. -/
theorem Sample.insecure : ∃ s, Starts (Sample.env true .success) (Sample.start (some [0]) (some [1, 2])) s ∧
    s.options = [1, 2] := by
  obtain ⟨s, h, hs⟩ := Sample.starts_exists (tpm := true) (st := .success) (sb := some [0])
    (o := some [1, 2]) (by decide +kernel)
  refine ⟨s, h, ?_⟩
  have : (Sample.kernelStart true .success (some [0]) (some [1, 2])).map (·.options) =
    some [1, 2] := by decide +kernel
  rw [hs] at this
  exact Option.some.inj this

structure Facts (env : Env) (w : World) (s : Started) (w1 w2 wk : World) (c : Components)
    (cs : List Companion) (pe : PE) (kname iname : Str16) (r r2 : Res Status Bytes)
    (img mid comp m : List Event) : Prop where
  ready : Ready env w w1 c cs pe kname iname r img mid comp
  quiet : Quiet NoStart (fun _ => False) w1 w2
  trace2 : w2.trace = w1.trace ++ (.readVar secureBootVar r2 :: m)
  sb : r2 = (match env.getFault w1.tick with
        | some st => .err st
        | none => lookup w1.vars secureBootVar 1)
  cmdline : (s.options = optionsOf c.cmdline ∧ (m = [] ∨ SaysOff r2 ∧ ∃ passed o t,
          m = [.measure 4 passed cmdlineDescription o] ∧ o = outcomeAt env t ∧
            (o = .notBuilt ∨ o = .rejected))) ∨
       (s.options ≠ optionsOf c.cmdline ∧ SaysOff r2 ∧ w1.loaded.options = some s.options ∧ ∃ o t,
          m = [.measure 4 s.options cmdlineDescription o] ∧ o = outcomeAt env t ∧
            (o = .extended ∨ o = .noTpm))
  ran : Ran env c.kernel s.options
    (appendInitrds (padTo4 c.initrd) (cs.map fun c => c.cpio.buffer)) w2 s wk
  trace : (main env w).2.trace = w2.trace ++ [.start s]
  after : ((main env w).1 = .panic ∧ ∃ t, env.freeFault t ≠ none ∨ env.uninstallFault t ≠ none) ∨
        ((main env w).2.loaded = w2.loaded ∧ (main env w).2.protos.Perm w2.protos ∧
          (main env w).2.vars = (env.kernel wk).vars ∧
          (main env w).2.pages.Perm (w2.pages ++ (env.kernel wk).morePages) ∧
          ((main env w).1 =
            if (env.kernel wk).status = .success then .ok () else .err (env.kernel wk).status))

theorem noStart_trace {w w' : World} {K : VarKey → Prop} (h : Quiet NoStart K w w') {evs : List Event}
    (ht : w'.trace = w.trace ++ evs) : ∀ s, .start s ∉ evs := by
  intro s hs
  obtain ⟨evs', ht', hn⟩ := h.trace
  rw [ht] at ht'
  rw [List.append_cancel_left ht'] at hs
  exact (hn _ hs).1 s rfl

theorem started_facts {env : Env} {w : World} {s : Started} (h : Starts env w s) :
    ∃ w1 w2 wk c cs pe kname iname r r2 img mid comp m,
      Facts env w s w1 w2 wk c cs pe kname iname r r2 img mid comp m := by
  obtain ⟨evs, ht, hs⟩ := h
  rcases main_shape env w with ⟨-, hq⟩ | ⟨w1, c, cs, pe, kname, iname, r, img, mid, comp, hready, hmain⟩
  · exact absurd hs (noStart_trace hq ht s)
  obtain ⟨r2, cmd, w2, m, hc, hr2, hq2, ht2, hcmd⟩ := getCmdline_run env c.cmdline w1
  have hmain2 : main env w = bootLinuxUnchecked env c.kernel cmd
      (appendInitrds (padTo4 c.initrd) (cs.map fun c => c.cpio.buffer)) w2 := by
    rw [hmain, bootLinux, RM.bind_run, hc]
  rcases bootLinuxUnchecked_run env c.kernel cmd
      (appendInitrds (padTo4 c.initrd) (cs.map fun c => c.cpio.buffer)) w2 with
    ⟨ht3, -⟩ | ⟨s', wk, hran, ht3, hafter⟩
  · rw [← hmain2] at ht3
    have q := hready.quiet.trans (hq2.mono (fun _ h => h) fun _ h => h.elim)
    exact absurd hs (noStart_trace q (ht3.symm.trans ht) s)
  · rw [← hmain2] at ht3 hafter
    have q := hready.quiet.trans (hq2.mono (fun _ h => h) fun _ h => h.elim)
    obtain ⟨pre, hpre, -⟩ := q.trace
    have hev : evs = pre ++ [.start s'] := by
      rw [ht, hpre, List.append_assoc] at ht3
      exact List.append_cancel_left ht3
    have hss : s = s' := by
      rw [hev] at hs
      rcases List.mem_append.1 hs with h | h
      · exact absurd h (noStart_trace q hpre s)
      · simpa using h
    subst hss
    have ho := hran.options
    subst ho
    exact ⟨w1, w2, wk, c, cs, pe, kname, iname, r, r2, img, mid, comp, m, hready, hq2, ht2, hr2, hcmd,
      hran, ht3, hafter⟩

theorem TextSection.unique {pe : PE} {own : Bytes} {n : Str} {a b : Str16}
    (ha : TextSection pe own n a) (hb : TextSection pe own n b) : a = b := by
  obtain ⟨x, hx, hxe, -⟩ := ha
  obtain ⟨y, hy, hye, -⟩ := hb
  have := SectionContents.unique hx hy
  rw [hxe, hye, StubName.utf8_injective this]

/-! ## C08 -/

/-- C08: a kernel is only ever started from a file with the hash recorded in the stub's image, loaded
as the PE format says, with an initrd that begins with a file with the recorded hash; both files were
read under the recorded names. -/
theorem C08_only_verified_started (env : Env) (w : World) (s : Started) (h : Starts env w s) :
    ∃ pe kpe kernel initrd kname iname extras joined,
      env.parseOwn env.ownImage = some pe ∧
      Verified env.sha pe env.ownImage kernel initrd ∧
      TextSection pe env.ownImage (lit ".linux") kname ∧
      TextSection pe env.ownImage (lit ".initrd") iname ∧
      (∃ t fw, env.fs t = some fw ∧ fw.read kname = some kernel) ∧
      (∃ t fw, env.fs t = some fw ∧ fw.read iname = some initrd) ∧
      env.parseFile kernel = some kpe ∧ IsLoaded kpe kernel s.image s.entry ∧
      s.initrd = some joined ∧ Joined (initrd :: extras) joined := by
  obtain ⟨w1, w2, wk, c, cs, pe, kname, iname, r, r2, img, mid, comp, m, f⟩ := started_facts h
  obtain ⟨kpe, hk, hl⟩ := f.ran.image
  exact ⟨pe, kpe, c.kernel, c.initrd, kname, iname, _, _, f.ready.parsed, f.ready.verified,
    f.ready.kernelName, f.ready.initrdName, f.ready.volume.1, f.ready.volume.2, hk, hl, f.ran.initrd,
    C12_concatenation _ _⟩

/-- C08: at most one kernel is started, and it is the last thing the stub does that can be observed. -/
theorem C08_started_once (env : Env) (w : World) (s : Started) (h : Starts env w s) :
    ∃ pre, (main env w).2.trace = w.trace ++ pre ++ [.start s] ∧ ∀ s', .start s' ∉ pre := by
  obtain ⟨w1, w2, wk, c, cs, pe, kname, iname, r, r2, img, mid, comp, m, f⟩ := started_facts h
  have q := f.ready.quiet.trans (f.quiet.mono (fun _ h => h) fun _ h => h.elim)
  obtain ⟨pre, hpre, -⟩ := q.trace
  exact ⟨pre, by rw [f.trace, hpre], fun s' => noStart_trace q hpre s'⟩

/-- C08: a kernel or initrd with another hash stops the boot: the stub panics (which resets the
machine) without starting anything. Here for every file the volume could serve under the name. -/
theorem C08_mismatch_stops (env : Env) (w : World) (pe : PE) (name : Str16) (hash : Bytes)
    (file hashes : Str)
    (hwhich : file = lit ".linux" ∧ hashes = lit ".linuxh" ∨ file = lit ".initrd" ∧ hashes = lit ".initrdh")
    (hp : env.parseOwn env.ownImage = some pe)
    (hn : TextSection pe env.ownImage file name)
    (hh : SectionContents pe env.ownImage hashes hash)
    (hbad : ∀ t fw b, env.fs t = some fw → fw.read name = some b → env.sha.hash b ≠ hash) :
    (main env w).1 = .panic ∧ ∀ s, ¬ Starts env w s := by
  have hno : ∀ w1 c cs pe' kname' iname r img mid comp,
      ¬ Ready env w w1 c cs pe' kname' iname r img mid comp := by
    intro w1 c cs pe' kname' iname r img mid comp hr
    have hpp : pe' = pe := by
      have := hr.parsed
      rw [hp] at this
      exact (Option.some.inj this).symm
    subst hpp
    obtain ⟨⟨t, fw, h1, h2⟩, ⟨t', fw', h1', h3⟩⟩ := hr.volume
    rcases hwhich with ⟨rfl, rfl⟩ | ⟨rfl, rfl⟩
    · have hname := TextSection.unique hr.kernelName hn
      subst hname
      exact hbad t fw _ h1 h2 (SectionContents.unique hr.verified.kernel hh)
    · have hname := TextSection.unique hr.initrdName hn
      subst hname
      exact hbad t' fw' _ h1' h3 (SectionContents.unique hr.verified.initrd hh)
  rcases main_shape env w with ⟨h1, hq⟩ | ⟨w1, c, cs, pe', kname', iname, r, img, mid, comp, hr, -⟩
  · refine ⟨h1, ?_⟩
    rintro s ⟨evs, ht, hs⟩
    exact noStart_trace hq ht s hs
  · exact absurd hr (hno _ _ _ _ _ _ _ _ _ _)

/-- The hypotheses of `C08_mismatch_stops` are met when the volume holds another kernel. -/
example : ∃ env : Env, env.parseOwn env.ownImage = some Sample.header ∧
    TextSection Sample.header env.ownImage (lit ".linux") (lit16 "\\k") ∧
    SectionContents Sample.header env.ownImage (lit ".linuxh") (Sample.sha.hash Sample.kernelFile) ∧
    (∀ t fw b, env.fs t = some fw → fw.read (lit16 "\\k") = some b →
      env.sha.hash b ≠ Sample.sha.hash Sample.kernelFile) ∧
    ∃ t fw, env.fs t = some fw ∧ (fw.read (lit16 "\\k")).isSome = true := by
  refine ⟨{ Sample.env true .success with
    fs := fun _ => some { Sample.volume with
      read := fun f => if f = lit16 "\\k" then some [0, 0, 0] else Sample.volume.read f } },
    by decide +kernel, ⟨lit "\\k", ?_, by decide, by decide⟩, ?_, ?_, 0, _, rfl, by decide⟩
  · exact ⟨[Sample.sec ".osrel" 73 2], Sample.sec ".linux" 0 2, _, rfl, rfl, by decide, by decide,
      by decide +kernel⟩
  · exact ⟨[Sample.sec ".osrel" 73 2, Sample.sec ".linux" 0 2], Sample.sec ".linuxh" 2 32, _, rfl, rfl,
      by decide, by decide, by decide +kernel⟩
  · intro t fw b hfw hb
    simp only [Option.some.injEq] at hfw
    subst hfw
    simp only [if_pos, Option.some.injEq] at hb
    subst hb
    decide

/-- A volume that serves the right kernel the first time and another one from then on, and likewise the
initrd: the stub reads each file once, so the right kernel is started. -/
def Sample.changing : Env :=
  { Sample.env true .success with
    fs := fun t => some { Sample.volume with
      read := fun f => if f = lit16 "\\k" ∧ t ≠ 3 then some [0, 0, 0] else
        if f = lit16 "\\i" ∧ t ≠ 4 then some [0] else Sample.volume.read f } }

theorem starts_of_any {env : Env} {w : World} (h0 : w.trace = [])
    (h : (main env w).2.trace.any (fun e => match e with | .start _ => true | _ => false) = true) :
    ∃ s, Starts env w s := by
  obtain ⟨e, he, hs⟩ := List.any_eq_true.1 h
  cases e with
  | start s => exact ⟨s, _, by rw [h0, List.nil_append], he⟩
  | _ => cases hs

/-- The hypothesis of `C08_only_verified_started` is met although the volume changes; and reading the
kernel again would have given another one. -/
example : ∃ s, Starts Sample.changing (Sample.start (some [1]) none) s ∧
    ∃ t t' fw fw' d d', Sample.changing.fs t = some fw ∧ Sample.changing.fs t' = some fw' ∧
      fw.read (lit16 "\\k") = some d ∧ fw'.read (lit16 "\\k") = some d' ∧
      Sample.sha.hash d ≠ Sample.sha.hash d' := by
  obtain ⟨s, hs⟩ := starts_of_any (env := Sample.changing) (w := Sample.start (some [1]) none) rfl
    (by decide +kernel)
  exact ⟨s, hs, 3, 4, _, _, Sample.kernelFile, [0, 0, 0], rfl, rfl, by decide, by decide, by decide⟩

/-! ## C09, C10, C11 -/

/-- C11: Secure Boot is taken to be off only if the variable holds exactly the byte 0 or the firmware
says that there is no such variable; errors, other sizes and other values mean on. -/
theorem C11_secure_boot_fails_closed (env : Env) (w : World) :
    ∃ on r, getSecureBootStatus env w = (.ok on,
        { w with tick := w.tick + 1, trace := w.trace ++ [.readVar secureBootVar r] }) ∧
      (on = false ↔
        (env.getFault w.tick = some .notFound ∨
         env.getFault w.tick = none ∧ (w.vars secureBootVar = some [0] ∨ w.vars secureBootVar = none))) := by
  obtain ⟨r, h, hr⟩ := getSecureBootStatus_run env w
  refine ⟨_, r, h, ?_⟩
  rw [decodeSecureBoot_false, hr]
  unfold SaysOff
  cases env.getFault w.tick with
  | some st => simp
  | none =>
    simp only [lookup]
    cases w.vars secureBootVar with
    | none => simp
    | some d =>
      by_cases hd : d.length > 1
      · have : d ≠ [0] := by intro hc; rw [hc] at hd; simp at hd
        simp [hd, this]
      · simp [hd]

/-- The variables the stub writes are not the SecureBoot variable. -/
theorem secureBootVar_kept {w w1 : World} {K : Event → Prop}
    (h : Quiet K LoaderKey w w1) : w1.vars secureBootVar = w.vars secureBootVar :=
  h.vars _ (by unfold LoaderKey; decide)

/-- C09: with Secure Boot on, and also if its state cannot be determined, the kernel gets exactly the
command line embedded in the signed stub, whatever the boot loader passed. -/
theorem C09_embedded_cmdline (env : Env) (w : World) (s : Started) (h : Starts env w s)
    (hvar : w.vars secureBootVar ≠ none ∧ w.vars secureBootVar ≠ some [0])
    (hfault : ∀ t, env.getFault t ≠ some .notFound) :
    ∃ pe embedded, env.parseOwn env.ownImage = some pe ∧
      TextSection pe env.ownImage (lit ".cmdline") embedded ∧ s.options = optionsOf embedded := by
  obtain ⟨w1, w2, wk, c, cs, pe, kname, iname, r, r2, img, mid, comp, m, f⟩ := started_facts h
  refine ⟨pe, c.cmdline, f.ready.parsed, f.ready.cmdline, ?_⟩
  rcases f.cmdline with ⟨h, -⟩ | ⟨-, hoff, -⟩
  · exact h
  · exfalso
    have hv := secureBootVar_kept f.ready.quiet
    rw [f.sb] at hoff
    unfold SaysOff at hoff
    cases hg : env.getFault w1.tick with
    | some st =>
      rw [hg] at hoff
      simp only at hoff
      rcases hoff with h | h
      · simp at h
      · simp only [Res.err.injEq] at h; exact hfault _ (h ▸ hg)
    | none =>
      rw [hg] at hoff
      simp only [lookup, hv] at hoff
      cases hw : w.vars secureBootVar with
      | none => exact hvar.1 hw
      | some d =>
        rw [hw] at hoff
        simp only at hoff
        rcases hoff with h | h
        · split at h
          · simp at h
          · simp only [Res.ok.injEq] at h; exact hvar.2 (h ▸ hw)
        · split at h <;> simp at h

/-- Its hypotheses are met by a machine whose boot loader passes something else. -/
example : ∃ s, Starts (Sample.env true .success) (Sample.start (some [1]) (some [1, 2])) s ∧
    (Sample.start (some [1]) (some [1, 2])).vars secureBootVar = some [1] ∧
    (∀ t, (Sample.env true .success).getFault t ≠ some .notFound) ∧ s.options ≠ [1, 2] := by
  obtain ⟨s, h, ho⟩ := Sample.secure
  exact ⟨s, h, by decide, by simp [Sample.env], by rw [ho]; decide⟩

/-- C09: in any case the command line is the embedded one or the one the boot loader passed. -/
theorem C09_cmdline_sources (env : Env) (w : World) (s : Started) (h : Starts env w s) :
    ∃ pe embedded, env.parseOwn env.ownImage = some pe ∧
      TextSection pe env.ownImage (lit ".cmdline") embedded ∧
      (s.options = optionsOf embedded ∨ w.loaded.options = some s.options) := by
  obtain ⟨w1, w2, wk, c, cs, pe, kname, iname, r, r2, img, mid, comp, m, f⟩ := started_facts h
  refine ⟨pe, c.cmdline, f.ready.parsed, f.ready.cmdline, ?_⟩
  rcases f.cmdline with ⟨h, -⟩ | ⟨-, -, hl, -⟩
  · exact Or.inl h
  · exact Or.inr (f.ready.quiet.loaded ▸ hl)

/-- C10: a command line other than the embedded one is used only if Secure Boot is off, it is the one
the boot loader passed, and the last thing before the start was to measure it into PCR 4: the PCR was
extended with it, or there was no usable TPM at that time. -/
theorem C10_custom_cmdline_measured (env : Env) (w : World) (s : Started) (h : Starts env w s)
    (pe : PE) (embedded : Str16) (hp : env.parseOwn env.ownImage = some pe)
    (he : TextSection pe env.ownImage (lit ".cmdline") embedded)
    (hc : s.options ≠ optionsOf embedded) :
    ∃ pre sb o t, (main env w).2.trace = w.trace ++ pre ++ [.readVar secureBootVar sb,
        .measure 4 s.options (lit "Custom user provided kernel cmdline") o, .start s] ∧
      SaysOff sb ∧ w.loaded.options = some s.options ∧
      (o = .extended ∨ o = .noTpm ∧ env.tpmOpens t = false) := by
  obtain ⟨w1, w2, wk, c, cs, pe', kname, iname, r, r2, img, mid, comp, m, f⟩ := started_facts h
  have hpp : pe' = pe := by
    have := f.ready.parsed
    rw [hp] at this
    exact (Option.some.inj this).symm
  subst hpp
  have hcc : c.cmdline = embedded := TextSection.unique f.ready.cmdline he
  rcases f.cmdline with ⟨h, -⟩ | ⟨-, hoff, hl, o, t, hm, ho, hoo⟩
  · rw [hcc] at h; exact absurd h hc
  · obtain ⟨pre, hpre, -⟩ := f.ready.quiet.trace
    refine ⟨pre, r2, o, t, ?_, hoff, f.ready.quiet.loaded ▸ hl, ?_⟩
    · rw [f.trace, f.trace2, hpre, hm]
      simp [cmdlineDescription]
    · rcases hoo with h | h
      · exact Or.inl h
      · refine Or.inr ⟨h, ?_⟩
        rw [ho] at h
        unfold outcomeAt at h
        split at h
        · split at h
          · simp at h
          · split at h <;> simp at h
        · rename_i hf; simpa using hf

/-- Its hypotheses are met: Secure Boot off, another command line. -/
example : ∃ s, Starts (Sample.env true .success) (Sample.start (some [0]) (some [1, 2])) s ∧
    (Sample.env true .success).parseOwn (Sample.env true .success).ownImage = some Sample.header ∧
    TextSection Sample.header Sample.image (lit ".cmdline") (lit16 "quiet") ∧
    s.options ≠ optionsOf (lit16 "quiet") := by
  obtain ⟨s, h, ho⟩ := Sample.insecure
  refine ⟨s, h, by decide +kernel, ⟨lit "quiet", ?_, by decide, by decide⟩, by rw [ho]; decide⟩
  exact ⟨Sample.header.sections.take 5, Sample.sec ".cmdline" 68 5, [], by decide, rfl, by decide, by decide,
    by decide +kernel⟩

/-! ## C12, C13, C14: what is handed over and what is measured -/

theorem res_bind_ok {ε α β : Type} {x : Res ε α} {f : α → Res ε β} {b : β} (h : (x >>= f) = .ok b) :
    ∃ a, x = .ok a ∧ f a = .ok b := by
  cases x with
  | ok a => exact ⟨a, rfl, h⟩
  | err e => exact absurd h (by intro hc; cases hc)
  | panic => exact absurd h (by intro hc; cases hc)

theorem res_pure_ok {ε α : Type} {a b : α} (h : (pure a : Res ε α) = .ok b) : a = b := by
  cases h; rfl

/-- Only credentials and system extensions are picked up, system extensions last. -/
theorem discovered_parts {env : Env} {w : World} {cs : List Companion}
    (h : (discoverCompanions env w).1 = .ok cs) :
    ∃ creds exts, cs = creds ++ exts ∧
      (∀ c ∈ creds, c.kind = .credentials ∨ c.kind = .globalCredentials) ∧
      ∀ c ∈ exts, c.kind = .systemExtension := by
  have hg : ∀ fw l, discoverGlobalCredentials fw = .ok l → ∀ c ∈ l, c.kind = .globalCredentials := by
    intro fw l hl c hc
    unfold discoverGlobalCredentials at hl
    split at hl
    · simp at hl
    · simp only [Res.ok.injEq] at hl; subst hl; simp at hc
    · split at hl
      · simp at hl
      · simp only [Res.ok.injEq] at hl; subst hl; simp at hc
      · obtain ⟨files, -, hl⟩ := res_bind_ok hl
        split at hl
        · have := res_pure_ok hl; subst this; simp at hc
        · obtain ⟨cpio, -, hl⟩ := res_bind_ok hl
          have := res_pure_ok hl
          subst this
          simp only [List.mem_singleton] at hc
          subst hc
          rfl
  have hcred : ∀ fw d l, discoverCredentials fw d = .ok l →
      ∀ c ∈ l, c.kind = .credentials ∨ c.kind = .globalCredentials := by
    intro fw d l hl c hc
    unfold discoverCredentials at hl
    obtain ⟨g, hg1, hl⟩ := res_bind_ok hl
    split at hl
    · have := res_pure_ok hl; subst this; exact Or.inr (hg _ _ hg1 c hc)
    · obtain ⟨files, -, hl⟩ := res_bind_ok hl
      split at hl
      · have := res_pure_ok hl; subst this; exact Or.inr (hg _ _ hg1 c hc)
      · obtain ⟨cpio, -, hl⟩ := res_bind_ok hl
        have := res_pure_ok hl
        subst this
        rcases List.mem_append.1 hc with h | h
        · exact Or.inr (hg _ _ hg1 c h)
        · simp only [List.mem_singleton] at h
          subst h
          exact Or.inl rfl
  have hext : ∀ fw d l, discoverSystemExtensions fw d = .ok l → ∀ c ∈ l, c.kind = .systemExtension := by
    intro fw d l hl c hc
    unfold discoverSystemExtensions at hl
    obtain ⟨files, -, hl⟩ := res_bind_ok hl
    split at hl
    · have := res_pure_ok hl; subst this; simp at hc
    · obtain ⟨cpio, -, hl⟩ := res_bind_ok hl
      have := res_pure_ok hl
      subst this
      simp only [List.mem_singleton] at hc
      subst hc
      rfl
  have hlift : ∀ {r : Res Companion.Status (List Companion)} {w w' : World} {l : List Companion},
      liftCompanion r [] w = (.ok l, w') → l = [] ∨ r = .ok l := by
    intro r w w' l h
    cases r with
    | ok a => simp only [liftCompanion, RM.pure_run, Prod.mk.injEq, Res.ok.injEq] at h; exact Or.inr (by rw [h.1])
    | err e => simp only [liftCompanion, RM.pure_run, Prod.mk.injEq, Res.ok.injEq] at h; exact Or.inl h.1.symm
    | panic => simp [liftCompanion] at h
  have hrun : discoverCompanions env w = (.ok cs, (discoverCompanions env w).2) := by
    rw [← h]
  unfold discoverCompanions at hrun
  obtain ⟨fw1, v1, -, hrun⟩ := bind_ok hrun
  obtain ⟨dropin, w1, -, hrun⟩ := bind_ok hrun
  obtain ⟨fw2, v2, -, hrun⟩ := bind_ok hrun
  obtain ⟨creds, w2, h2, hrun⟩ := bind_ok hrun
  have hc1 : ∀ c ∈ creds, c.kind = .credentials ∨ c.kind = .globalCredentials := by
    rcases hlift h2 with rfl | h
    · simp
    · exact hcred _ _ _ h
  cases dropin with
  | none =>
    simp only [RM.pure_run, Prod.mk.injEq, Res.ok.injEq] at hrun
    exact ⟨creds, [], by rw [← hrun.1, List.append_nil], hc1, by simp⟩
  | some dir =>
    simp only at hrun
    obtain ⟨fw3, v3, -, hrun⟩ := bind_ok hrun
    obtain ⟨exts, w3, h3, hrun⟩ := bind_ok hrun
    simp only [RM.pure_run, Prod.mk.injEq, Res.ok.injEq] at hrun
    refine ⟨creds, exts, hrun.1.symm, hc1, ?_⟩
    rcases hlift h3 with rfl | h
    · simp
    · exact hext _ _ _ h

/-- Only credentials and system extensions are picked up. -/
theorem discovered_kinds {env : Env} {w : World} {cs : List Companion}
    (h : (discoverCompanions env w).1 = .ok cs) (c : Companion) (hc : c ∈ cs) :
    c.kind = .credentials ∨ c.kind = .globalCredentials ∨ c.kind = .systemExtension := by
  obtain ⟨creds, exts, rfl, h1, h2⟩ := discovered_parts h
  rcases List.mem_append.1 hc with hc | hc
  · rcases h1 c hc with h | h
    · exact Or.inl h
    · exact Or.inr (Or.inl h)
  · exact Or.inr (Or.inr (h2 c hc))

theorem measurements_neutral {l : List Event} (h : ∀ e ∈ l, Neutral e) : measurements l = [] := by
  unfold measurements
  rw [List.filterMap_eq_nil_iff]
  intro e he
  rcases h e he with ⟨k, r, rfl⟩ | ⟨k, d, r, rfl, -⟩ <;> rfl

/-- C12: the initrd the kernel is served consists of the verified initrd and one archive per kind of
companion files, in this order, each part filled up with zeros to a multiple of four bytes. -/
theorem C12_initrd_handed_over (env : Env) (w : World) (s : Started) (h : Starts env w s) :
    ∃ pe kernel initrd cs joined, env.parseOwn env.ownImage = some pe ∧
      Verified env.sha pe env.ownImage kernel initrd ∧
      ((∃ t, env.fs t = none ∧ cs = []) ∨
        ∃ w2, (discoverCompanions env w2).1 = .ok cs) ∧
      s.initrd = some joined ∧ Joined (initrd :: cs.map fun c => c.cpio.buffer) joined := by
  obtain ⟨w1, w2, wk, c, cs, pe, kname, iname, r, r2, img, mid, comp, m, f⟩ := started_facts h
  exact ⟨pe, c.kernel, c.initrd, cs, _, f.ready.parsed, f.ready.verified, f.ready.found, f.ran.initrd,
    C12_concatenation _ _⟩

/-- All measurements of a boot with a TPM, in order: the sections of the image in canonical
order to PCR 11, the companion archives to PCR 12 and 13, a command line from outside to PCR 4; and where the companions come from. -/
theorem boot_measurements_found (env : Env) (w : World) (s : Started) (h : Starts env w s)
    (htpm : env.tpmOpens w.tick = true) :
    ∃ pe kernel initrd embedded contents, ∃ cs : List Companion, ∃ pre cmdline joined,
      (main env w).2.trace = w.trace ++ pre ++ [.start s] ∧
      env.parseOwn env.ownImage = some pe ∧
      Verified env.sha pe env.ownImage kernel initrd ∧
      TextSection pe env.ownImage (lit ".cmdline") embedded ∧
      contents (lit ".linux") = kernel ∧ contents (lit ".initrd") = initrd ∧
      (∀ n ∈ canonicalOrder, n ∈ sectionNames pe → n ≠ lit ".linux" → n ≠ lit ".initrd" →
        SectionContents pe env.ownImage n (contents n)) ∧
      s.initrd = some joined ∧ Joined (initrd :: cs.map fun c => c.cpio.buffer) joined ∧
      (∀ c ∈ cs, c.kind = .credentials ∨ c.kind = .globalCredentials ∨ c.kind = .systemExtension) ∧
      measurements pre = imageMeasurements (sectionNames pe) contents ++
        cs.filterMap companionMeasurement ++ cmdline ∧
      (cmdline = [] ∧ s.options = optionsOf embedded ∨
        ∃ passed, cmdline = [(4, passed)] ∧ (s.options = passed ∨ s.options = optionsOf embedded)) ∧
      ((∃ t, env.fs t = none ∧ cs = []) ∨
        ∃ w2, (discoverCompanions env w2).1 = .ok cs) := by
  obtain ⟨w1, w2, wk, c, cs, pe, kname, iname, r, r2, img, mid, comp, m, f⟩ := started_facts h
  have himg := f.ready.image
  rw [if_pos htpm] at himg
  obtain ⟨wA, hnp, hA⟩ := himg
  obtain ⟨evs, contents, hevs, hk, hi, hs, hm⟩ := C14_pcr11_sequence env c.kernel c.initrd wA pe
    f.ready.parsed hnp
  rw [hA] at hevs
  have hevs := List.append_cancel_left hevs
  subst hevs
  have hcomp := f.ready.companions
  rw [if_pos htpm] at hcomp
  have hcm : measurements comp = cs.filterMap companionMeasurement := by
    rcases hcomp with ⟨rfl, rfl⟩ | ⟨wC, hC⟩
    · rfl
    · obtain ⟨-, evs, he, hme⟩ := C13_companions_submitted env cs wC
      rw [hC] at he
      rw [List.append_cancel_left he]
      exact hme
  refine ⟨pe, c.kernel, c.initrd, c.cmdline, contents, cs, .probeTpm (env.tpmOpens w.tick) ::
      .readFile kname (some c.kernel) :: .readFile iname (some c.initrd) :: .readVar secureBootVar r ::
        (img ++ (mid ++ (comp ++ .readVar secureBootVar r2 :: m))), measurements m, _, ?_, f.ready.parsed,
    f.ready.verified, f.ready.cmdline, hk, hi, hs, f.ran.initrd, C12_concatenation _ _, ?_, ?_, ?_,
    f.ready.found⟩
  · rw [f.trace, f.trace2, f.ready.trace]
    simp [List.append_assoc]
  · intro x hx
    rcases f.ready.found with ⟨t, -, rfl⟩ | ⟨w2, hd⟩
    · simp at hx
    · exact discovered_kinds hd x hx
  · have e : ∀ (b : Bool) (a a' : Str16) (x x' : Option Bytes) (k : VarKey) (y : Res Status Bytes) (l : List Event),
        measurements (.probeTpm b :: .readFile a x :: .readFile a' x' :: .readVar k y :: l) =
          measurements l := fun _ _ _ _ _ _ _ _ => rfl
    have e2 : ∀ (k : VarKey) (y : Res Status Bytes) (l : List Event),
        measurements (.readVar k y :: l) = measurements l := fun _ _ _ => rfl
    rw [e, measurements_append, measurements_append,
      measurements_append, e2, measurements_neutral f.ready.neutral, hm, hcm]
    simp [List.append_assoc]
  · rcases f.cmdline with ⟨h, rfl | ⟨-, passed, o, t, rfl, -⟩⟩ | ⟨-, -, -, o, t, rfl, -⟩
    · exact Or.inl ⟨rfl, h⟩
    · exact Or.inr ⟨passed, rfl, Or.inr h⟩
    · exact Or.inr ⟨s.options, rfl, Or.inl rfl⟩

/-- C13, C14: all measurements of a boot with a TPM, in order: the sections of the image in canonical
order to PCR 11, the companion archives to PCR 12 and 13, a command line from outside to PCR 4. -/
theorem C14_boot_measurements (env : Env) (w : World) (s : Started) (h : Starts env w s)
    (htpm : env.tpmOpens w.tick = true) :
    ∃ pe kernel initrd embedded contents, ∃ cs : List Companion, ∃ pre cmdline joined,
      (main env w).2.trace = w.trace ++ pre ++ [.start s] ∧
      env.parseOwn env.ownImage = some pe ∧
      Verified env.sha pe env.ownImage kernel initrd ∧
      TextSection pe env.ownImage (lit ".cmdline") embedded ∧
      contents (lit ".linux") = kernel ∧ contents (lit ".initrd") = initrd ∧
      (∀ n ∈ canonicalOrder, n ∈ sectionNames pe → n ≠ lit ".linux" → n ≠ lit ".initrd" →
        SectionContents pe env.ownImage n (contents n)) ∧
      s.initrd = some joined ∧ Joined (initrd :: cs.map fun c => c.cpio.buffer) joined ∧
      (∀ c ∈ cs, c.kind = .credentials ∨ c.kind = .globalCredentials ∨ c.kind = .systemExtension) ∧
      measurements pre = imageMeasurements (sectionNames pe) contents ++
        cs.filterMap companionMeasurement ++ cmdline ∧
      (cmdline = [] ∧ s.options = optionsOf embedded ∨
        ∃ passed, cmdline = [(4, passed)] ∧ (s.options = passed ∨ s.options = optionsOf embedded)) := by
  obtain ⟨pe, kernel, initrd, embedded, contents, cs, pre, cmdline, joined, h1, h2, h3, h4, h5, h6, h7,
    h8, h9, hk, hm, hcmd, -⟩ := boot_measurements_found env w s h htpm
  exact ⟨pe, kernel, initrd, embedded, contents, cs, pre, cmdline, joined, h1, h2, h3, h4, h5, h6, h7,
    h8, h9, hk, hm, hcmd⟩

/-- With a TPM, every part appended to the verified initrd was submitted for measurement to PCR 12
or 13 before the kernel was started; and where the companions come from. -/
theorem companions_measured_found (env : Env) (w : World) (s : Started) (h : Starts env w s)
    (htpm : env.tpmOpens w.tick = true) :
    ∃ pe kernel initrd, ∃ cs : List Companion, ∃ joined pre, (main env w).2.trace = w.trace ++ pre ++ [.start s] ∧
      env.parseOwn env.ownImage = some pe ∧ Verified env.sha pe env.ownImage kernel initrd ∧
      s.initrd = some joined ∧ Joined (initrd :: cs.map fun c => c.cpio.buffer) joined ∧
      ((measurements pre).filter fun m => decide (m.1 = 12 ∨ m.1 = 13)) =
        (cs.map fun c => (if c.kind = .systemExtension then 13 else 12, c.cpio.buffer)) ∧
      ((∃ t, env.fs t = none ∧ cs = []) ∨
        ∃ w2, (discoverCompanions env w2).1 = .ok cs) := by
  obtain ⟨pe, kernel, initrd, embedded, contents, cs, pre, cmdline, joined, h1, h2, h3, h4, h5, h6, h7,
    h8, h9, hk, hm, hcmd, hfound⟩ := boot_measurements_found env w s h htpm
  refine ⟨pe, kernel, initrd, cs, joined, pre, h1, h2, h3, h8, h9, ?_, hfound⟩
  rw [hm, List.filter_append, List.filter_append]
  have e1 : (imageMeasurements (sectionNames pe) contents).filter
      (fun m => decide (m.1 = 12 ∨ m.1 = 13)) = [] := by
    rw [List.filter_eq_nil_iff]
    intro m hm
    unfold imageMeasurements at hm
    obtain ⟨n, -, hm⟩ := List.mem_flatMap.1 hm
    obtain ⟨l, hl, hm⟩ := List.mem_flatten.1 hm
    rw [List.eq_of_mem_replicate hl] at hm
    simp only [sectionMeasurements, List.mem_cons, List.not_mem_nil, or_false] at hm
    rcases hm with rfl | rfl <;> simp
  have e2 : cmdline.filter (fun m => decide (m.1 = 12 ∨ m.1 = 13)) = [] := by
    rcases hcmd with ⟨rfl, -⟩ | ⟨passed, rfl, -⟩ <;> simp
  rw [e1, e2, List.append_nil, List.nil_append]
  clear hm h9 h8 h1 hfound
  induction cs with
  | nil => rfl
  | cons c rest ih =>
    have ih := ih fun c hc => hk c (List.mem_cons_of_mem _ hc)
    have : companionMeasurement c =
        some (if c.kind = .systemExtension then 13 else 12, c.cpio.buffer) := by
      rcases hk c (by simp) with h | h | h <;> simp [companionMeasurement, h]
    rw [List.filterMap_cons, this]
    simp only [List.map_cons]
    rw [List.filter_cons, if_pos (by split <;> simp), ih]

/-- C13: with a TPM, every part appended to the verified initrd was submitted for measurement to PCR 12
or 13 before the kernel was started. -/
theorem C13_companions_measured (env : Env) (w : World) (s : Started) (h : Starts env w s)
    (htpm : env.tpmOpens w.tick = true) :
    ∃ pe kernel initrd, ∃ cs : List Companion, ∃ joined pre, (main env w).2.trace = w.trace ++ pre ++ [.start s] ∧
      env.parseOwn env.ownImage = some pe ∧ Verified env.sha pe env.ownImage kernel initrd ∧
      s.initrd = some joined ∧ Joined (initrd :: cs.map fun c => c.cpio.buffer) joined ∧
      ((measurements pre).filter fun m => decide (m.1 = 12 ∨ m.1 = 13)) =
        cs.map fun c => (if c.kind = .systemExtension then 13 else 12, c.cpio.buffer) := by
  obtain ⟨pe, kernel, initrd, cs, joined, pre, h1, h2, h3, h8, h9, hm, -⟩ :=
    companions_measured_found env w s h htpm
  exact ⟨pe, kernel, initrd, cs, joined, pre, h1, h2, h3, h8, h9, hm⟩

/-- Three companion archives are measured and appended on the sample machine. -/
example : ∃ s, Starts (Sample.env true .success) (Sample.start (some [1]) none) s ∧
    (Sample.env true .success).tpmOpens (Sample.start (some [1]) none).tick = true ∧
    (((measurements (main (Sample.env true .success) (Sample.start (some [1]) none)).2.trace).map
      Prod.fst) = [11, 11, 11, 11, 11, 11, 11, 11, 12, 12, 13]) := by
  obtain ⟨s, h, -⟩ := Sample.starts_exists (tpm := true) (st := .success) (sb := some [1])
    (o := none) (by decide +kernel)
  exact ⟨s, h, rfl, by decide +kernel⟩

/-! ## C20 -/

/-- C20: when the kernel returns and freeing and uninstalling work, the loaded image record is the old
one, the protocols on the image handle are the old ones, the only new pages are the kernel's own, and
the kernel's status is returned. -/
theorem C20_state_restored (env : Env) (w : World) (s : Started) (h : Starts env w s)
    (hfree : ∀ t, env.freeFault t = none) (huninstall : ∀ t, env.uninstallFault t = none) :
    ∃ wk, wk.trace = (main env w).2.trace ∧
      (main env w).2.loaded = w.loaded ∧
      (main env w).2.protos.Perm w.protos ∧
      (main env w).2.vars = (env.kernel wk).vars ∧
      (main env w).2.pages.Perm (w.pages ++ (env.kernel wk).morePages) ∧
      (main env w).1 =
        (if (env.kernel wk).status = .success then .ok () else .err (env.kernel wk).status) := by
  obtain ⟨w1, w2, wk, c, cs, pe, kname, iname, r, r2, img, mid, comp, m, f⟩ := started_facts h
  have q : Quiet NoStart LoaderKey w w2 := f.ready.quiet.trans (f.quiet.mono (fun _ h => h) fun _ h => h.elim)
  rcases f.after with ⟨-, t, h | h⟩ | ⟨h1, h2, h3, h4, h5⟩
  · exact absurd (hfree t) h
  · exact absurd (huninstall t) h
  · refine ⟨wk, ?_, h1.trans q.loaded, ?_, h3, ?_, h5⟩
    · rw [f.ran.trace, f.trace]
    · rw [q.protos] at h2; exact h2
    · rw [q.pages] at h4; exact h4

/-- A kernel that returns an error on a machine on which nothing else fails. -/
example : ∃ s, Starts (Sample.env true .loadError) (Sample.start (some [1]) none) s ∧
    (∀ t, (Sample.env true .loadError).freeFault t = none) ∧
    (∀ t, (Sample.env true .loadError).uninstallFault t = none) ∧
    (main (Sample.env true .loadError) (Sample.start (some [1]) none)).1 = .err .loadError := by
  obtain ⟨s, h, -⟩ := Sample.starts_exists (tpm := true) (st := .loadError) (sb := some [1])
    (o := none) (by decide +kernel)
  exact ⟨s, h, fun _ => rfl, fun _ => rfl, by decide +kernel⟩

/-- C20: a failure to free or to uninstall is not passed over: the run ends in a panic. -/
theorem C20_restored_or_panic (env : Env) (w : World) (s : Started) (h : Starts env w s) :
    (main env w).1 = .panic ∨
      ((main env w).2.loaded = w.loaded ∧ (main env w).2.protos.Perm w.protos) := by
  obtain ⟨w1, w2, wk, c, cs, pe, kname, iname, r, r2, img, mid, comp, m, f⟩ := started_facts h
  have q : Quiet NoStart LoaderKey w w2 := f.ready.quiet.trans (f.quiet.mono (fun _ h => h) fun _ h => h.elim)
  rcases f.after with ⟨h, -⟩ | ⟨h1, h2, -⟩
  · exact Or.inl h
  · rw [q.protos] at h2
    exact Or.inr ⟨h1.trans q.loaded, h2⟩

/-- C20: a run in which no kernel is started does not report success; unless it panics, the status is
the one with which a protocol could not be installed. -/
theorem C20_failure_reported (env : Env) (w : World) (h : ∀ s, ¬ Starts env w s) :
    (main env w).2.loaded = w.loaded ∧
    ((main env w).1 = .panic ∨ ∃ st t, (main env w).1 = .err st ∧ env.installFault t = some st) := by
  rcases main_shape env w with ⟨hp, hq⟩ | ⟨w1, c, cs, pe, kname, iname, r, img, mid, comp, hready, hmain⟩
  · exact ⟨hq.loaded, Or.inl hp⟩
  obtain ⟨r2, cmd, w2, m, hc, hr2, hq2, ht2, hcmd⟩ := getCmdline_run env c.cmdline w1
  have hmain2 : main env w = bootLinuxUnchecked env c.kernel cmd
      (appendInitrds (padTo4 c.initrd) (cs.map fun c => c.cpio.buffer)) w2 := by
    rw [hmain, bootLinux, RM.bind_run, hc]
  have q := hready.quiet.trans (hq2.mono (fun _ h => h) fun _ h => h.elim)
  rcases bootLinuxUnchecked_run env c.kernel cmd
      (appendInitrds (padTo4 c.initrd) (cs.map fun c => c.cpio.buffer)) w2 with
    ⟨-, hl, -, hr⟩ | ⟨s', wk, hran, ht3, hafter⟩
  · rw [← hmain2] at hr hl
    refine ⟨hl.trans q.loaded, ?_⟩
    rcases hr with h | ⟨st, h, ⟨t, ht⟩, -⟩
    · exact Or.inl h
    · exact Or.inr ⟨st, t, h, ht⟩
  · obtain ⟨pre, hpre, -⟩ := q.trace
    refine absurd ⟨pre ++ [.start s'], ?_, by simp⟩ (h s')
    rw [hmain2, ht3, hpre, List.append_assoc]

/-- The machine of the sample, but the second protocol cannot be installed. -/
def Sample.noLoadFile2 : Env :=
  { Sample.env false .success with installFault := fun t => if t = 27 then some (.other 9) else none }

/-- Its hypothesis is met. -/
example : (∀ s, ¬ Starts Sample.noLoadFile2 (Sample.start (some [1]) none) s) ∧
    (main Sample.noLoadFile2 (Sample.start (some [1]) none)).1 = .err (.other 9) := by
  refine ⟨?_, by decide +kernel⟩
  rintro s ⟨evs, ht, hs⟩
  have : (main Sample.noLoadFile2 (Sample.start (some [1]) none)).2.trace.all
      (fun e => match e with | .start _ => false | _ => true) = true := by decide +kernel
  rw [ht, List.all_eq_true] at this
  exact absurd (this _ (List.mem_append_right _ hs)) (by simp)

/-- C20: the status of the failure is returned, but then the kernel image stays allocated and the device
path protocol may stay installed: on this machine both happens. -/
theorem C20_leak_on_install_failure :
    (main Sample.noLoadFile2 (Sample.start (some [1]) none)).1 = .err (.other 9) ∧
    (main Sample.noLoadFile2 (Sample.start (some [1]) none)).2.protos = [.initrdDevicePath] ∧
    (main Sample.noLoadFile2 (Sample.start (some [1]) none)).2.pages = [(0x4000, 2), (0x1000, 1)] := by
  decide +kernel

end Verif.Stub
