import Verif.Lemmas.RunLive
import Verif.Lemmas.Trees
import Verif.Props.History
/-!
# However a run ends, there is room for the next one
-/
namespace Verif.Tool
open Verif StubName Generation BootCounting

variable {env env' : Env} {cfg cfg' : Config} {f : Fs} {c : Change}

/-! ### The same places -/

theorem IsLoader.congr (he : cfg'.esp = cfg.esp) (ha : cfg'.arch = cfg.arch) {p : Path} (h : IsLoader cfg p) :
    IsLoader cfg' p := by
  unfold IsLoader fallbackFile systemdFile at h ⊢
  rw [he, ha]; exact h

theorem Place.congr (he : cfg'.esp = cfg.esp) (ha : cfg'.arch = cfg.arch)
    (hp : cfg'.pcrlockDirectory = cfg.pcrlockDirectory) {p : Path} (h : Place cfg p) : Place cfg' p := by
  cases h with
  | nixos n => rw [← he]; exact .nixos n
  | linux n h => rw [← he]; exact .linux n h
  | loader h => exact .loader (h.congr he ha)
  | loaderTmp d n hd hn => rw [← he]; exact .loaderTmp d n hd hn
  | conf n h => rw [← he]; exact .conf n h
  | lock h n => exact .lock (hp.trans h) n
  | bootloader h h' => exact .bootloader (hp.trans h) h'

theorem LookedUp.congr (he : cfg'.esp = cfg.esp) (ha : cfg'.arch = cfg.arch) {p : Path} {name : Str}
    (h : LookedUp cfg p name) : LookedUp cfg' p name := by
  cases h with
  | kernel h => exact .kernel (he ▸ h)
  | initrd h => exact .initrd (he ▸ h)
  | release h => exact .release (h.congr he ha)

theorem Room.congr (he : cfg'.esp = cfg.esp) (ha : cfg'.arch = cfg.arch)
    (hp : cfg'.pcrlockDirectory = cfg.pcrlockDirectory) (hq : env'.parse = env.parse) (h : Room env cfg f) :
    Room env' cfg' f where
  tree := h.tree
  esp := by rw [he]; exact h.esp
  room p h' := h.room p (h'.congr he.symm ha.symm hp.symm)
  legible p name hl data hd := by
    have := h.legible p name (hl.congr he.symm ha.symm) data hd
    unfold Legible at this ⊢
    rw [hq]; exact this

theorem NotNested.congr (he : cfg'.esp = cfg.esp) (hp : cfg'.pcrlockDirectory = cfg.pcrlockDirectory)
    (h : NotNested cfg) : NotNested cfg' := by
  unfold NotNested at h ⊢
  rw [he, hp]; exact h

theorem NotNested.separate (h : NotNested cfg) : Separate cfg := fun p hp =>
  ⟨fun h' => (h p hp).2 ((List.prefix_append _ _).trans h'),
   fun h' => (h p hp).1 ((List.prefix_append _ _).trans h'),
   fun h' => (h p hp).1 ((List.prefix_append _ _).trans h')⟩

/-! ### One change -/

/-- Temporary files are not looked at. -/
theorem LookedUp.not_tmp {p : Path} {name : Str} (h : LookedUp cfg p name) : ¬ IsTmp p := by
  cases h with
  | kernel h => exact isEntry_not_tmp h
  | initrd h => exact isEntry_not_tmp h
  | release h =>
    rcases h with rfl | rfl
    · exact fallback_not_tmp cfg
    · exact systemd_not_tmp cfg

theorem Target.pair {ld : Scope} {dur : Bool} {q : Path} (hs : SafeInput env cfg) (h : Target env cfg ld dur q) :
    PlacePair cfg q := by
  cases h with
  | @kernel g v d _ hg ho hv hd e =>
    subst e; exact caFile_pair cfg (kernelVersion_label (hs g hg) hv (lit "kernel-") (by decide)) _
  | @initrd g v d _ hg ho hv hd e =>
    subst e; exact caFile_pair cfg (kernelVersion_label (hs g hg) hv (lit "initrd-") (by decide)) _
  | @entry g key _ hg ho hk e => subst e; exact entry_pair cfg (hs g hg) key
  | loader _ e =>
    rcases e with rfl | rfl
    · exact fallback_pair cfg
    · exact systemd_pair cfg
  | conf e => subst e; exact conf_pair cfg

theorem Room.mkdir (hd : NotNested cfg) (h : Room env cfg f) {p q : Path} (hp : Place cfg p)
    (hq : q ∈ ancestors p.dropLast) (ht : (f.apply (.mkdir q)).Tree) : Room env cfg (f.apply (.mkdir q)) := by
  refine h.changed' hd ht fun x => ?_
  rw [Fs.get_mkdir (ancestors_ne_nil hq)]
  by_cases e : x = q
  · subst e
    exact Or.inr (Or.inl ⟨hp.above (h.room _ hp).ne_nil (ancestors_prefix hq), by simp⟩)
  · exact Or.inl (by simp [e])

/-- A file that is not looked at is created or written. -/
theorem Room.put (hd : NotNested cfg) (h : Room env cfg f) {p : Path} (hp : Place cfg p)
    (hl : ∀ name, ¬ LookedUp cfg p name) {d : Bytes} {f' : Fs} (ht : f'.Tree)
    (hg : ∀ x, f'.get x = if x = p then some (.file d) else f.get x) : Room env cfg f' := by
  refine h.changed' hd ht fun x => ?_
  rw [hg]
  by_cases e : x = p
  · subst e
    exact Or.inr (Or.inr (Or.inr ⟨hp, d, by simp, fun name hn => absurd hn (hl name)⟩))
  · exact Or.inl (by simp [e])

/-- A file is renamed. -/
theorem Room.renamed (hd : NotNested cfg) (h : Room env cfg f) {a b : Path} (ha : Place cfg a) (hb : Place cfg b)
    {d : Bytes} (hl : ∀ name, LookedUp cfg b name → Legible env d name)
    (ht : (f.apply (.rename a b d)).Tree) : Room env cfg (f.apply (.rename a b d)) := by
  refine h.changed' hd ht fun x => ?_
  rw [Fs.get_rename (h.room _ ha).ne_nil (h.room _ hb).ne_nil]
  by_cases e : x = b
  · subst e
    exact Or.inr (Or.inr (Or.inr ⟨hb, d, by simp, hl⟩))
  · by_cases e' : x = a
    · subst e'
      exact Or.inr (Or.inr (Or.inl ⟨fun e => (esp_above cfg).not_place hd (e ▸ ha), by simp [e]⟩))
    · exact Or.inl (by simp [e, e'])

theorem Room.outputs (hd : NotNested cfg) (h : Room env cfg f) {p : Path} (hp : Place cfg p)
    (hl : ∀ name, ¬ LookedUp cfg p name) (ho : Outputs p f c) : Room env cfg (f.apply c) := by
  have ht := ho.tree h.tree
  have hne := (h.room _ hp).ne_nil
  cases ho with
  | mkdir hq _ _ => exact h.mkdir hd hp hq ht
  | create _ _ => exact h.put hd hp hl ht (Fs.get_create hne)
  | write _ => exact h.put hd hp hl ht (Fs.get_write hne)
  | chmod => exact h.of_nodes rfl

/-- What is put in place can be looked at. -/
theorem NewContent.legible {ld : Scope} (hs : SafeInput env cfg) (hf : FaithfulTools env)
    (hload : ∀ d, env.store (loaderSource cfg) = some d → ∃ r, HasRelease env d r) {q : Path} {out : Bytes}
    (h : NewContent env cfg ld f q out) {name : Str} (hl : LookedUp cfg q name) : Legible env out name := by
  cases h with
  | kernel _ _ _ _ e => subst e; exact absurd hl not_lookedUp_ca
  | initrd _ _ _ _ e => subst e; exact absurd hl not_lookedUp_ca
  | @entry g key kd id image v hg ho hk hv hkd hid him hsig pk pi e =>
    have hr := him.refs hf (hs g hg) hv hsig
    cases hl with
    | kernel _ =>
      obtain ⟨-, rel, -, h1, -⟩ := hr.kernel
      exact .of_section h1 (uefiText_ne _)
    | initrd _ =>
      obtain ⟨-, rel, -, h1, -⟩ := hr.initrd
      exact .of_section h1 (uefiText_ne _)
    | release h' =>
      exfalso
      subst e
      rcases h' with e | e
      · exact absurd (List.cons.inj (List.cons.inj (List.append_cancel_left e)).2).1 (by decide)
      · exact absurd (List.cons.inj (List.cons.inj (List.append_cancel_left e)).2).1 (by decide)
  | @loader d _ hdd hsig _ e =>
    obtain ⟨r, hr⟩ := hload d hdd
    cases hl with
    | kernel h' =>
      exfalso
      obtain ⟨n, e', -⟩ := h'
      rw [e'] at e
      rcases e with e | e
      · exact absurd (List.cons.inj (List.cons.inj (List.append_cancel_left e)).2).1 (by decide)
      · exact absurd (List.cons.inj (List.cons.inj (List.append_cancel_left e)).2).1 (by decide)
    | initrd h' =>
      exfalso
      obtain ⟨n, e', -⟩ := h'
      rw [e'] at e
      rcases e with e | e
      · exact absurd (List.cons.inj (List.cons.inj (List.append_cancel_left e)).2).1 (by decide)
      · exact absurd (List.cons.inj (List.cons.inj (List.append_cancel_left e)).2).1 (by decide)
    | release _ =>
      obtain ⟨b, h1, h2⟩ := hr.legible
      exact hsig.legible hf h1 h2
  | conf _ e => subst e; exact absurd hl not_lookedUp_conf

/-- Every change before garbage collection. -/
theorem Room.step {ld : Scope} (hd : NotNested cfg) (hs : SafeInput env cfg) (hf : FaithfulTools env)
    (hload : ∀ d, env.store (loaderSource cfg) = some d → ∃ r, HasRelease env d r) (h : Room env cfg f)
    (st : InstallStep env cfg ld f c) : Room env cfg (f.apply c) := by
  have ht := st.tree h.tree
  cases st with
  | @replace to dur htar hr =>
    have hp := htar.pair hs
    have hl : ∀ name, ¬ LookedUp cfg (tmpOf to) name := fun name hn => hn.not_tmp (htar.tmp hs).1
    have hne := (h.room _ hp.tmp).ne_nil
    cases hr with
    | mkdir hq _ _ => exact h.mkdir hd hp.here hq ht
    | create _ _ => exact h.put hd hp.tmp hl ht (Fs.get_create hne)
    | write _ => exact h.put hd hp.tmp hl ht (Fs.get_write hne)
    | fsync => exact h.of_nodes rfl
    | rename _ hS _ _ _ _ => exact h.renamed hd hp.tmp hp.here (fun _ hn => hS.legible hs hf hload hn) ht
    | chmod => exact h.of_nodes rfl
    | bits => exact h.of_nodes rfl
  | @measured g p hg _ hp ho =>
    refine h.outputs hd (measurement_place hp g) (fun _ => not_lookedUp_lock hd hp ?_) ho
    exact List.prefix_append _ _
  | @next p _ hp ho =>
    refine h.outputs hd (.bootloader hp (Or.inl rfl)) (fun _ => not_lookedUp_lock hd hp ?_) ho
    exact List.prefix_append _ _
  | @current p t d m out out' _ hp _ _ _ _ _ _ _ _ e =>
    subst e
    refine h.renamed hd (.bootloader hp (Or.inl rfl)) (.bootloader hp (Or.inr rfl)) (fun name hn => ?_) ht
    exact absurd hn (not_lookedUp_lock hd hp (List.prefix_append _ _))
  | sync _ e => subst e; exact h.of_nodes rfl

/-- Garbage collection. -/
theorem Room.collected (hd : NotNested cfg) {roots : List Path} (h : Room env cfg f)
    (st : GcAny cfg roots f c) : Room env cfg (f.apply c) := by
  refine h.changed' hd (st.tree h.tree) fun x => ?_
  obtain ⟨p, q, h1, h2, -, hg⟩ := st.removes
  rw [hg]
  by_cases e : x = p
  · subst e
    refine Or.inr (Or.inr (Or.inl ⟨?_, by simp⟩))
    rintro rfl
    cases h1 with
    | nixos h => exact absurd (h.below.trans h2).length_le (by simp [nixosDir])
    | linux h => exact absurd (h.below.trans h2).length_le (by simp [linuxDir])
    | lock hp h => exact (hd _ hp).2 ((List.prefix_append _ _).trans (h.below.trans h2))
  · exact Or.inl (by simp [e])

/-- However a run ends, there is room for the next one. -/
theorem Room.killed (hd : NotNested cfg) (hs : SafeInput env cfg) (hf : FaithfulTools env)
    (hload : ∀ d, env.store (loaderSource cfg) = some d → ∃ r, HasRelease env d r) (h : Room env cfg f)
    {done : List Change} (hk : KilledAfter env cfg f done) : Room env cfg (f.replay done) := by
  obtain ⟨a, b, gens, final, sh⟩ := run_plain hs f
  rcases sh.phases hk with ⟨-, -, hch⟩ | ⟨-, hst, l, -, hgc, e, -⟩
  · exact hch.inv h fun f c j st => j.step hd hs hf hload st
  · rw [e]
    refine hgc.inv (J := Room env cfg) ?_ fun f c j st => j.collected hd st
    exact (hst.inv h fun f c j st => j.step hd hs hf hload st)

/-- A boot entry is renamed for boot counting. -/
theorem Room.count (hd : NotNested cfg) (h : Room env cfg f) {base : Str} {k k' : Counter} {data : Bytes}
    (he : IsEntry cfg.esp (entryFile cfg.esp (entryName base k))) (hc : CounterStep k k')
    (hf : f.fileAt (entryFile cfg.esp (entryName base k)) = some data)
    (hn : f.get (entryFile cfg.esp (entryName base k')) = none) :
    Room env cfg (f.apply (.rename (entryFile cfg.esp (entryName base k))
        (entryFile cfg.esp (entryName base k')) data)) := by
  have he' := isEntry_count hc he
  refine h.renamed hd he.place he'.place (fun name hl => ?_) ?_
  · refine h.legible (entryFile cfg.esp (entryName base k)) name ?_ data hf
    cases hl with
    | kernel _ => exact .kernel he
    | initrd _ => exact .initrd he
    | release h' =>
      exfalso
      rcases h' with e | e
      · exact absurd (List.cons.inj (List.cons.inj (List.append_cancel_left e)).2).1 (by decide)
      · exact absurd (List.cons.inj (List.cons.inj (List.append_cancel_left e)).2).1 (by decide)
  · have hpar : f.get (entryFile cfg.esp (entryName base k)).dropLast = some .dir :=
      h.tree.parent _ (by simp [entryFile]) (by rw [Fs.fileAt_eq_some.1 hf]; simp)
    refine h.tree.rename hf (by simp [entryFile]) (fun e => ?_) (by rw [hn]; simp) ?_
    · rw [Fs.fileAt_eq_some, e, hn] at hf; cases hf
    · simpa [entryFile] using hpar

theorem Attempts.room (hd : NotNested cfg) {fs : Fs} (h : Room env cfg fs) (ha : Attempts env cfg fs f) :
    Room env cfg f := by
  induction ha with
  | nil => exact h
  | run _ a hk ih =>
    have ih' := ih.congr (env' := _) (cfg' := _) a.esp a.arch a.pcrlock a.parse
    exact (ih'.killed (hd.congr a.esp a.pcrlock) a.safe a.faithful a.loader hk).congr a.esp.symm a.arch.symm
      a.pcrlock.symm a.parse.symm
  | count _ he hc hf hn ih => exact ih.count hd he hc hf hn

end Verif.Tool
