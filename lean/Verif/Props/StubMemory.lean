import Verif.Spec.StubMemory
import Verif.Props.Stub
/-!
# The memory a boot writes to, and what a failed boot leaves behind (C103)
-/
namespace Verif.Stub
open Verif Verif.Companion Spec

/-- What loading the kernel does to memory. -/
theorem load_memory (env : Env) (file : Bytes) (w : World) :
    let w' := (Image.load env file w).2
    (w'.pages = w.pages ∧ w'.mem = w.mem) ∨
    ∃ base n, Given env base n ∧ w'.pages = w.pages ++ [(base, n)] ∧
      ∀ a, ¬ InPages base n a → w'.mem a = w.mem a := by
  intro w'
  obtain ⟨r, w1, e, -, -, -, -, -, h⟩ := load_run env file w
  have hw : w' = w1 := congrArg Prod.snd e
  rcases h with ⟨h1, h2, -⟩ | ⟨base, len, h1, h2, h3, -⟩
  · exact Or.inl ⟨by rw [hw, h1], by rw [hw, h2]⟩
  right
  refine ⟨base, bytesToPages len, ?_, by rw [hw, h1], fun a ha => ?_⟩
  · have hp : w'.pages = w.pages ++ [(base, bytesToPages len)] := by rw [hw, h1]
    revert hp
    show (Image.load env file w).2.pages = _ → _
    unfold Image.load
    cases env.parseFile file with
    | none => intro hp; simp at hp
    | some pe =>
      rcases imageLength_spec pe.sections with ⟨n, hn, -, -⟩ | he
      · simp only [hn, RM.bind_run, RM.pure_run, allocatePages, next]
        cases ha : env.allocate w.tick (bytesToPages n) with
        | error st => intro hp; simp [RM.throw_run] at hp
        | ok base' =>
          simp only [RM.bind_run, RM.pure_run, RM.modify_run]
          obtain ⟨r, m, e, -, -, -⟩ := loadSections_run base' n file pe.sections
            { w with tick := w.tick + 1, pages := w.pages ++ [(base', bytesToPages n)],
                     mem := writeMem w.mem base' (List.replicate n 0) }
          rw [e]
          intro hp
          have hp' : w.pages ++ [(base', bytesToPages n)] = w.pages ++ [(base, bytesToPages len)] := by
            rw [← hp]
            cases r with
            | panic => rfl
            | err st => rfl
            | ok u =>
              simp only
              split
              · rfl
              · split <;> rfl
          have := List.append_cancel_left hp'
          simp only [List.cons.injEq, Prod.mk.injEq, and_true] at this
          rw [← this.1, ← this.2]
          exact ⟨_, ha⟩
      · simp only [he, RM.bind_run, RM.throw_run]
        intro hp
        simp at hp
  · rw [hw]
    refine h3 a fun hh => ha ⟨hh.1, ?_⟩
    have := (C18_pages len h2).1
    omega

/-- `m` changes the byte at `a` only if the kernel does. -/
def KeepsByte (a : Nat) {α : Type} (m : M α) : Prop := ∀ w, (m w).2.mem a = w.mem a

theorem KeepsByte.bind {a : Nat} {α β : Type} {m : M α} {f : α → M β} (h : KeepsByte a m)
    (h' : ∀ x, KeepsByte a (f x)) : KeepsByte a (m >>= f) := fun w => by
  rw [RM.bind_run]
  have := h w
  revert this
  generalize m w = r
  obtain ⟨r, w'⟩ := r
  intro e
  cases r with
  | ok x => exact (h' x w').trans e
  | err _ => exact e
  | panic => exact e

theorem KeepsByte.expect {a : Nat} {α : Type} {m : M α} (h : KeepsByte a m) : KeepsByte a (expect m) := fun w => by
  have := h w
  revert this
  unfold Stub.expect
  generalize m w = r
  obtain ⟨r, w'⟩ := r
  cases r <;> exact id

theorem keeps_installProtocol (env : Env) (a : Nat) (p : Proto) : KeepsByte a (installProtocol env p) := fun w => by
  unfold installProtocol
  simp only [RM.bind_run, next]
  cases env.installFault w.tick <;> rfl

theorem keeps_uninstallProtocol (env : Env) (a : Nat) (p : Proto) : KeepsByte a (uninstallProtocol env p) := fun w => by
  unfold uninstallProtocol
  simp only [RM.bind_run, next]
  cases env.uninstallFault w.tick <;> rfl

theorem keeps_openLoadedImage (env : Env) (a : Nat) : KeepsByte a (openLoadedImage env) := fun w => by
  unfold openLoadedImage failIf
  simp only [RM.bind_run, next]
  cases env.openLoadedImageFault w.tick <;> rfl

theorem keeps_start {env : Env} {a : Nat} (hk : KernelLeaves env a) (img : Image) (options : Bytes) :
    KeepsByte a (Image.start env img options) := by
  unfold Image.start
  refine KeepsByte.bind (KeepsByte.expect (keeps_openLoadedImage env a)) fun ours => ?_
  split
  · exact fun _ => rfl
  · intro w
    simp only [RM.bind_run, RM.modify_run, RM.get, emit, next]
    cases env.freeFault w.tick
    · exact hk _
    · exact hk _

theorem keeps_rest {env : Env} {a : Nat} (hk : KernelLeaves env a) (img : Image) (cmdline initrd : Bytes) :
    KeepsByte a (do
      InitrdLoader.new env initrd
      let st ← Image.start env img cmdline
      InitrdLoader.uninstallAndDrop env initrd
      statusToResult st) := by
  unfold InitrdLoader.new InitrdLoader.uninstallAndDrop statusToResult
  refine KeepsByte.bind (KeepsByte.bind (keeps_installProtocol env a _) fun _ => keeps_installProtocol env a _)
    fun _ => KeepsByte.bind (keeps_start hk img cmdline) fun st => KeepsByte.bind
    (KeepsByte.expect (KeepsByte.bind (keeps_uninstallProtocol env a _) fun _ => keeps_uninstallProtocol env a _))
    fun _ => ?_
  split
  · exact fun _ => rfl
  · exact fun _ => rfl

theorem bootLinuxUnchecked_memory (env : Env) (kernel cmdline initrd : Bytes) (w : World) {a : Nat}
    (hk : KernelLeaves env a) (h : (bootLinuxUnchecked env kernel cmdline initrd w).2.mem a ≠ w.mem a) :
    ∃ base n, Given env base n ∧ InPages base n a := by
  have hl : (Image.load env kernel w).2.mem a ≠ w.mem a := by
    intro e
    apply h
    unfold bootLinuxUnchecked
    rw [RM.bind_run]
    have e' : (expect (Image.load env kernel) w).2.mem a = w.mem a := by
      rw [← e]
      unfold expect
      generalize Image.load env kernel w = r
      obtain ⟨r, w'⟩ := r
      cases r <;> rfl
    revert e'
    generalize expect (Image.load env kernel) w = r
    obtain ⟨r, w'⟩ := r
    intro e'
    cases r with
    | ok img => exact (keeps_rest hk img cmdline initrd w').trans e'
    | err _ => exact e'
    | panic => exact e'
  rcases load_memory env kernel w with ⟨-, h2⟩ | ⟨base, n, h1, -, h2⟩
  · exact absurd (congrFun h2 a) hl
  · refine ⟨base, n, h1, ?_⟩
    by_cases hin : InPages base n a
    · exact hin
    · exact absurd (h2 a hin) hl

/-- **C103.** Whatever the files, the variables and the companions are and whatever fails: the stub changes a byte of
memory only if it lies in pages that the firmware has given to it, or the kernel has changed it. -/
theorem C103_memory (env : Env) (w : World) {a : Nat} (hk : KernelLeaves env a)
    (h : (main env w).2.mem a ≠ w.mem a) : ∃ base n, Given env base n ∧ InPages base n a := by
  rcases main_shape env w with ⟨-, hq⟩ | ⟨w1, c, cs, pe, kname, iname, r, img, mid, comp, hready, hmain⟩
  · exact absurd (congrFun hq.mem a) h
  · obtain ⟨r2, cmd, w2, m, hc, -, hq2, -, -⟩ := getCmdline_run env c.cmdline w1
    rw [hmain, bootLinux, RM.bind_run, hc] at h
    refine bootLinuxUnchecked_memory env c.kernel cmd _ w2 hk fun e => h (e.trans ?_)
    rw [hq2.mem, hready.quiet.mem]

/-- A start that does not end in a panic is recorded. -/
theorem start_recorded (env : Env) (img : Image) (options initrd : Bytes) (w : World) :
    let x := (do
      let st ← Image.start env img options
      InitrdLoader.uninstallAndDrop env initrd
      statusToResult st) w
    x.1 = .panic ∨ x.2.trace.length = w.trace.length + 1 := by
  intro x
  have hx : x = (do
      let st ← Image.start env img options
      InitrdLoader.uninstallAndDrop env initrd
      statusToResult st) w := rfl
  have hs : (Image.start env img options w).1 = .panic ∨ (∃ st, (Image.start env img options w).1 = .ok st) ∧
      (Image.start env img options w).2.trace.length = w.trace.length + 1 := by
    have ho : (expect (openLoadedImage env) w).1 = .panic ∨ expect (openLoadedImage env) w =
        (.ok w.loaded, { w with tick := w.tick + 1 }) := by
      unfold expect openLoadedImage failIf
      simp only [RM.bind_run, next]
      cases env.openLoadedImageFault w.tick with
      | some st => exact Or.inl rfl
      | none => exact Or.inr rfl
    unfold Image.start
    rw [RM.bind_run]
    rcases ho with ho | ho
    · revert ho
      generalize expect (openLoadedImage env) w = r
      obtain ⟨r, w'⟩ := r
      rintro rfl
      exact Or.inl rfl
    · rw [ho]
      dsimp only
      split
      · exact Or.inl rfl
      · simp only [RM.bind_run, RM.modify_run, emit, next, RM.get]
        cases env.freeFault (w.tick + 1) with
        | some _ => exact Or.inl rfl
        | none => exact Or.inr ⟨⟨_, rfl⟩, by simp⟩
  rw [RM.bind_run] at hx
  revert hs hx
  generalize Image.start env img options w = r
  obtain ⟨r, w1⟩ := r
  intro hx hs
  rcases hs with rfl | ⟨⟨st, rfl⟩, ht⟩
  · left; rw [hx]
  · simp only [RM.bind_run, InitrdLoader.uninstallAndDrop, expect, uninstallProtocol, next] at hx
    rw [hx]
    cases env.uninstallFault w1.tick with
    | some _ => exact Or.inl rfl
    | none =>
      simp only [RM.modify_run]
      cases env.uninstallFault (w1.tick + 1) with
      | some _ => exact Or.inl rfl
      | none =>
        right
        unfold statusToResult
        dsimp only [RM.modify_run]
        split <;> exact ht

theorem bootLinuxUnchecked_left (env : Env) (kernel cmdline initrd : Bytes) (w : World)
    (hp : (bootLinuxUnchecked env kernel cmdline initrd w).1 ≠ .panic)
    (ht : (bootLinuxUnchecked env kernel cmdline initrd w).2.trace = w.trace) :
    let w' := (bootLinuxUnchecked env kernel cmdline initrd w).2
    ∃ base n, Given env base n ∧ w'.pages = w.pages ++ [(base, n)] ∧
      ∀ a, ¬ InPages base n a → w'.mem a = w.mem a := by
  rcases bootLinuxUnchecked_run env kernel cmdline initrd w with ⟨-, -, -, h⟩ | ⟨s, wk, -, h, -⟩
  rotate_left
  · rw [ht] at h
    exact absurd (congrArg List.length h) (by simp)
  rcases h with h | ⟨st, hst, ⟨t, hi⟩, -, b, hb⟩
  · exact absurd h hp
  intro w'
  have hw : w'.pages = (Image.load env kernel w).2.pages ∧ w'.mem = (Image.load env kernel w).2.mem := by
    have hx : w' = (bootLinuxUnchecked env kernel cmdline initrd w).2 := rfl
    unfold bootLinuxUnchecked at hx hp ht
    rw [RM.bind_run] at hx hp ht
    have he : expect (Image.load env kernel) w = (match (Image.load env kernel w).1 with
      | .ok i => .ok i
      | .err _ => .panic
      | .panic => .panic, (Image.load env kernel w).2) := by
      unfold expect
      generalize Image.load env kernel w = r
      obtain ⟨r, w'⟩ := r
      cases r <;> rfl
    rw [he] at hx hp ht
    have h1 : (Image.load env kernel w).2.trace = w.trace := by
      obtain ⟨r, w1, e, -, h, -⟩ := load_run env kernel w
      rw [e]; exact h
    revert hx hp ht h1
    generalize Image.load env kernel w = r
    obtain ⟨r, w1⟩ := r
    intro hp ht hx h1
    cases r with
    | err _ => exact absurd rfl hp
    | panic => exact absurd rfl hp
    | ok img =>
      simp only [RM.bind_run, InitrdLoader.new, installProtocol, next] at hx hp ht
      cases hi1 : env.installFault w1.tick with
      | some st => rw [hi1] at hx; rw [hx]; exact ⟨rfl, rfl⟩
      | none =>
        rw [hi1] at hx hp ht
        simp only [RM.modify_run] at hx hp ht
        cases hi2 : env.installFault (w1.tick + 1) with
        | some st => rw [hi2] at hx; rw [hx]; exact ⟨rfl, rfl⟩
        | none =>
          rw [hi2] at hx hp ht
          simp only [RM.modify_run] at hx hp ht
          rcases start_recorded env img cmdline initrd { w1 with
            tick := w1.tick + 1 + 1
            protos := w1.protos ++ [Proto.initrdDevicePath] ++ [Proto.loadFile2 initrd] } with h | h
          · exact absurd h hp
          · have := congrArg List.length (Eq.trans ht h1.symm)
            exact absurd (h.symm.trans this) (by simp)
  rcases load_memory env kernel w with ⟨h1, -⟩ | ⟨base, n, h1, h2, h3⟩
  · rw [← hw.1] at h1
    exact absurd (congrArg List.length (h1.symm.trans hb)) (by simp)
  · exact ⟨base, n, h1, hw.1.trans h2, fun a ha => (congrFun hw.2 a).trans (h3 a ha)⟩

/-- **C103.** If the stub returns without having started a kernel, then it has left behind the pages for the kernel
image and at most one protocol, the device path of the initrd; the rest of memory and the loaded-image record are as
before. -/
theorem C103_left_behind (env : Env) (w : World) (h : ∀ s, ¬ Starts env w s) (hp : (main env w).1 ≠ .panic) :
    (∃ st, (main env w).1 = .err st) ∧ (main env w).2.loaded = w.loaded ∧
    ((main env w).2.protos = w.protos ∨ (main env w).2.protos = w.protos ++ [.initrdDevicePath]) ∧
    ∃ base n, Given env base n ∧ (main env w).2.pages = w.pages ++ [(base, n)] ∧
      ∀ a, ¬ InPages base n a → (main env w).2.mem a = w.mem a := by
  rcases main_shape env w with ⟨hq, -⟩ | ⟨w1, c, cs, pe, kname, iname, r, img, mid, comp, hready, hmain⟩
  · exact absurd hq hp
  obtain ⟨r2, cmd, w2, m, hc, -, hq2, -, -⟩ := getCmdline_run env c.cmdline w1
  have hmain2 : main env w = bootLinuxUnchecked env c.kernel cmd
      (appendInitrds (padTo4 c.initrd) (cs.map fun c => c.cpio.buffer)) w2 := by
    rw [hmain, bootLinux, RM.bind_run, hc]
  have q := hready.quiet.trans (hq2.mono (fun _ h => h) fun _ h => h.elim)
  rcases bootLinuxUnchecked_run env c.kernel cmd
      (appendInitrds (padTo4 c.initrd) (cs.map fun c => c.cpio.buffer)) w2 with
    ⟨ht, hl, -, hr⟩ | ⟨s', wk, hran, ht3, hafter⟩
  · have hleft := bootLinuxUnchecked_left env c.kernel cmd _ w2 (by rw [← hmain2]; exact hp) ht
    rw [← hmain2] at hr hl hleft
    rw [q.pages, q.mem] at hleft
    rcases hr with hr | ⟨st, hr, -, hpr, -⟩
    · exact absurd hr hp
    · rw [q.protos] at hpr
      exact ⟨⟨st, hr⟩, hl.trans q.loaded, hpr, hleft⟩
  · obtain ⟨pre, hpre, -⟩ := q.trace
    refine absurd ⟨pre ++ [.start s'], ?_, by simp⟩ (h s')
    rw [hmain2, ht3, hpre, List.append_assoc]

/-! ## Examples -/

namespace Sample

/-- A kernel that returns without having changed memory. -/
def calm : Env := { env true .loadError with kernel := fun w => {
    status := .loadError, mem := w.mem, vars := w.vars, loaded := w.loaded, morePages := [] } }

theorem calm_changed : (main calm (start (some [1]) none)).2.mem 0x1004 ≠ (start (some [1]) none).mem 0x1004 := by
  decide +kernel

/-- The first byte of the section of the kernel. -/
example : ∃ base n, Given calm base n ∧ InPages base n 0x1004 :=
  C103_memory calm (start (some [1]) none) (fun _ => rfl) calm_changed

theorem noLoadFile2_no_start (s : Started) : ¬ Starts noLoadFile2 (start (some [1]) none) s := by
  rintro ⟨evs, ht, hs⟩
  have : (main noLoadFile2 (start (some [1]) none)).2.trace.all
      (fun e => match e with | .start _ => false | _ => true) = true := by decide +kernel
  rw [ht, List.all_eq_true] at this
  exact absurd (this _ (List.mem_append_right _ hs)) (by simp)

/-- A protocol cannot be installed. -/
example : ∃ base n, Given noLoadFile2 base n ∧
    (main noLoadFile2 (start (some [1]) none)).2.pages = (start (some [1]) none).pages ++ [(base, n)] ∧
    ∀ a, ¬ InPages base n a → (main noLoadFile2 (start (some [1]) none)).2.mem a = (start (some [1]) none).mem a :=
  (C103_left_behind noLoadFile2 (start (some [1]) none) noLoadFile2_no_start
    (by rw [C20_leak_on_install_failure.1]; simp)).2.2.2

end Sample

end Verif.Stub
