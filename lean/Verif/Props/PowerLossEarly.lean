import Verif.Lemmas.Untouched
import Verif.Props.PowerLoss
/-!
# C93: a power failure during an update does no harm to what could be booted before
-/
namespace Verif.Tool
open Verif StubName Generation

variable {env world : Env} {cfg : Config} {fs : Fs} {done : List Change}

theorem Fs.dirty_apply {f : Fs} {c : Change} {q : Path} (h : q ∈ (f.apply c).dirty) :
    q ∈ f.dirty ∨ c = .create q ∨ (∃ x, c = .write q x) ∨ ∃ a d, c = .rename a q d := by
  cases c with
  | mkdir p => exact Or.inl h
  | create p =>
    rcases List.mem_cons.1 h with rfl | h
    · exact Or.inr (Or.inl rfl)
    · exact Or.inl h
  | write p x =>
    rcases List.mem_cons.1 h with rfl | h
    · exact Or.inr (Or.inr (Or.inl ⟨x, rfl⟩))
    · exact Or.inl h
  | fsync p => exact Or.inl (List.mem_filter.1 h).1
  | rename a b d =>
    simp only [Fs.apply] at h
    split at h
    · rcases List.mem_cons.1 h with rfl | h
      · exact Or.inr (Or.inr (Or.inr ⟨a, d, rfl⟩))
      · exact Or.inl (List.mem_filter.1 h).1
    · exact Or.inl (List.mem_filter.1 h).1
  | chmod p m => exact Or.inl h
  | syncfs p => exact Or.inl (List.mem_filter.1 h).1
  | unlink p => exact Or.inl h
  | rmdir p => exact Or.inl h
  | collecting => exact Or.inl h

/-- A boot entry changes, or gets data that is not on the disk, only if it is replaced. -/
theorem InstallStep.entry_same (hs : SafeInput env cfg) {ld : Scope} {f : Fs} {c : Change}
    (st : InstallStep env cfg ld f c) {p : Path} (hp : IsEntry cfg.esp p) (hn : ∀ q d, c ≠ .rename q p d)
    {data : Bytes} (hd : f.fileAt p = some data) (hc : p ∉ f.dirty) :
    (f.apply c).fileAt p = some data ∧ p ∉ (f.apply c).dirty := by
  have ht := isEntry_not_tmp hp
  have hm := isEntry_not_measurement (cfg := cfg) hp
  constructor
  · rw [Fs.fileAt_eq_some] at hd ⊢
    rcases st.get hs ht hm with e | ⟨e, -⟩ | ⟨d, -, -, -, -, e⟩
    · rw [e, hd]
    · rw [hd] at e; cases e
    · exact absurd e (hn _ _)
  · intro hq
    have out : ∀ {m : Path}, IsMeasurement cfg m → Outputs m f c → c ≠ .create p ∧ ∀ x, c ≠ .write p x := by
      intro m h o
      cases o <;> simp <;> rintro rfl <;> exact hm h
    have main : c ≠ .create p ∧ ∀ x, c ≠ .write p x := by
      cases st with
      | replace t r =>
        cases r <;> simp <;> rintro rfl <;> exact ht (t.tmp hs).1
      | @measured g q _ _ hq o => exact out ⟨q, hq, Or.inl ⟨g, rfl⟩⟩ o
      | @next q _ hq o => exact out ⟨q, hq, Or.inr (Or.inl rfl)⟩ o
      | current _ _ _ _ _ _ _ _ _ _ e => subst e; simp
      | sync _ e => subst e; simp
    rcases Fs.dirty_apply hq with h | h | ⟨x, h⟩ | ⟨a, d, h⟩
    · exact hc h
    · exact main.1 h
    · exact main.2 x h
    · exact hn a d h

theorem Fs.Chain.with_mem {A : Fs → Change → Prop} {f : Fs} {l : List Change} (h : Fs.Chain A f l) :
    Fs.Chain (fun f c => A f c ∧ c ∈ l) f l := by
  have : ∀ (l' : List Change) (f : Fs), (∀ c ∈ l', c ∈ l) → Fs.Chain A f l' →
      Fs.Chain (fun f c => A f c ∧ c ∈ l) f l' := by
    intro l'
    induction l' with
    | nil => exact fun _ _ _ => trivial
    | cons c l' ih => exact fun f hm h => ⟨⟨h.1, hm c (by simp)⟩, ih _ (fun x hx => hm x (by simp [hx])) h.2⟩
  exact this l f (fun _ h => h) h

/-- A boot entry that is not replaced boots after a power failure before garbage collection, if it had
booted before the run. -/
theorem boots_after_power_loss (hs : SafeInput env cfg) (hsha : env.sha = world.sha) (hd : OnDisk cfg.esp fs)
    {g : Gen} {p : Path} (hp : IsEntry cfg.esp p) (hb : Boots world cfg.esp fs g p)
    (hk : KilledAfter env cfg fs done) (hnc : .collecting ∉ done) (hn : ∀ q d, .rename q p d ∉ done)
    {fs' : Fs} (hl : AfterPowerLoss fs done fs') : Boots world cfg.esp fs' g p := by
  obtain ⟨a, b, gens, final, sh⟩ := run_plain hs fs
  have chain : ∀ kept lost, done = kept ++ lost → Fs.Chain (InstallStep env cfg .all) fs kept := by
    intro kept lost e
    have hk' : KilledAfter env cfg fs kept := List.IsPrefix.trans ⟨lost, e.symm⟩ hk
    rcases sh.phases hk' with ⟨-, -, h⟩ | ⟨h, -⟩
    · exact h
    · exact absurd (by rw [e]; exact List.mem_append_left _ h) hnc
  obtain ⟨data, kernel, initrd, v, h1, h2, h3, h4⟩ := hb
  have file : ∀ {l : Str} {h : Bytes}, Present world fs (caFile cfg.esp l h) h → h.length = 32 →
      Present world fs' (caFile cfg.esp l h) h := by
    intro l h hpr hlen
    have hpr : Present env fs (caFile cfg.esp l h) h := by
      obtain ⟨d, x1, x2⟩ := hpr
      exact ⟨d, x1, by rw [hsha]; exact x2⟩
    obtain ⟨kept, lost, ek, -, hx⟩ := hl (caFile cfg.esp l h)
    have hdata : IsData cfg (caFile cfg.esp l h) := Or.inl ⟨l, h, rfl⟩
    obtain ⟨ht, hm, htf⟩ := hdata.plain (env := env)
    obtain ⟨⟨d, y1, y2⟩, y3⟩ := (chain kept lost ek).inv
      (J := fun f => Present env f (caFile cfg.esp l h) h ∧ caFile cfg.esp l h ∉ f.dirty)
      ⟨hpr, hd _ (Or.inr ⟨l, h, rfl⟩)⟩ fun f c j st => ⟨st.present hs hlen j.1, fun hq => by
        rcases st.dirty hs hq with h | h | h | h
        · exact j.2 h
        · exact ht h
        · exact hm h
        · exact htf _ h⟩
    refine ⟨d, ?_, by rw [← hsha]; exact y2⟩
    rcases hx with e | ⟨h, -⟩
    · rw [Fs.fileAt_eq_some] at y1 ⊢; rw [e, y1]
    · exact absurd h y3
  refine ⟨data, kernel, initrd, v, ?_, h2, file h3 (world.sha.len _), file h4 (world.sha.len _)⟩
  obtain ⟨kept, lost, ek, -, hx⟩ := hl p
  obtain ⟨y1, y2⟩ := (chain kept lost ek).with_mem.inv (J := fun f => f.fileAt p = some data ∧ p ∉ f.dirty)
    ⟨h1, hd p (Or.inl hp)⟩
    fun f c j st => st.1.entry_same hs hp (fun q d e => hn q d (by
      rw [ek]; exact List.mem_append_left _ (e ▸ st.2))) j.1 j.2
  rcases hx with e | ⟨h, -⟩
  · rw [Fs.fileAt_eq_some] at y1 ⊢; rw [e, y1]
  · exact absurd h y2

/-- **C93**. If the boot entries are in order and on the disk, then whenever the power fails before garbage
collection, every boot entry that could be booted before the run can be booted after it, whether the
generation is still considered or not. -/
theorem C93_entries_survive (hr : Reliable env.os) (hs : SafeInput env cfg) (hf : FaithfulTools env)
    (hsep : Separate cfg) (hsha : env.sha = world.sha) (ho : InOrder env cfg fs) (hd : OnDisk cfg.esp fs)
    (hk : KilledAfter env cfg fs done) (hnc : .collecting ∉ done) {fs' : Fs} (hl : AfterPowerLoss fs done fs')
    {g : Gen} {p : Path} (hp : IsEntry cfg.esp p) (hb : Boots world cfg.esp fs g p) :
    Boots world cfg.esp fs' g p := by
  refine boots_after_power_loss hs hsha hd hp hb hk hnc (fun q d h => ?_) hl
  refine run_spares hr hs hf hsep ho _ (hk.subset h) p hp ?_ q d rfl
  obtain ⟨data, _, _, _, h1, -⟩ := hb
  rw [Fs.fileAt_eq_some.1 h1]; rfl

/-- **C93** (at any moment). If the boot entries are in order and on the disk, then a generation that is
considered and could be booted before the run can be booted after a power failure at any moment of it. -/
theorem C93_still_bootable (hr : Reliable env.os) (hs : SafeInput env cfg) (hf : FaithfulTools env)
    (hsep : Separate cfg) (hw : InWorld world env cfg) {known : Gen → Bytes → Prop} (hu : Unambiguous world known)
    (hkn : ∀ g key, Considers env cfg g → KeyOf env cfg.signer key → known g key)
    (hc : Sound env cfg.esp fs) (hj : Coherent world cfg.esp known fs)
    (ho : InOrder env cfg fs) (hd : OnDisk cfg.esp fs)
    (hk : KilledAfter env cfg fs done) {fs' : Fs} (hl : AfterPowerLoss fs done fs')
    {g : Gen} (hg : Considers env cfg g) (hb : ∃ p, IsEntry cfg.esp p ∧ Boots world cfg.esp fs g p) :
    ∃ p, IsEntry cfg.esp p ∧ Boots world cfg.esp fs' g p := by
  by_cases hsync : .syncfs cfg.esp ∈ done
  · exact C92_synced_boots hs hf hsep hw hu hkn hc hj hk hsync (Or.inr hr.fault) hl hg
  · obtain ⟨p, hp, hb⟩ := hb
    refine ⟨p, hp, C93_entries_survive hr hs hf hsep hw.sha ho hd hk ?_ hl hp hb⟩
    intro hcol
    obtain ⟨a, b, c, gens, r, final, sh⟩ := run_synced hs (Carried.trivial env cfg).all fs trivial (by simp)
    have hk' : done <+: a ++ (b ++ c) := by rw [← sh.log]; exact hk
    rcases prefix_append_split hk' with h | ⟨e, rfl, he⟩
    · exact sh.calm (h.subset hcol)
    · have hce : .collecting ∈ e := by
        rcases List.mem_append.1 hcol with h | h
        · exact absurd h sh.calm
        · exact h
      have hne : b ++ c ≠ [] := by
        intro h
        have := he.subset hce
        rw [h] at this; cases this
      obtain ⟨l, hbl⟩ := sh.sync hne
      cases e with
      | nil => cases hce
      | cons x e =>
        rw [hbl, List.cons_append, List.cons_prefix_cons] at he
        exact hsync (by rw [he.1]; simp)

end Verif.Tool
