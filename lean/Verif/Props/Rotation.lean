import Verif.Spec.Rotation
import Verif.Props.History
import Verif.Props.InstallState
import Verif.Props.InstallLoader
/-!
# Changes of the signing key

C89.
-/
namespace Verif.Tool
open Verif StubName Generation BootCounting

variable {env world : Env} {cfg : Config} {fs fs' : Fs} {esp : Path} {known : Gen → Bytes → Prop}
  {accepts : Bytes → Bytes → Prop}

theorem NamedForKey.of_less (h : NamedForKey accepts world esp known fs)
    (hg : ∀ x, fs'.get x = fs.get x ∨ fs'.get x = none) : NamedForKey accepts world esp known fs' := by
  intro g key n data hk hm hd
  refine h g key n data hk hm ?_
  rw [Fs.fileAt_eq_some] at hd ⊢
  rcases hg (entryFile esp n) with e | e
  · rw [← e]; exact hd
  · rw [e] at hd; cases hd

theorem NamedForKey.step {ld : Scope} (hs : SafeInput env cfg) (hw : InWorld world env cfg)
    (hu : Unambiguous world known) (ha : AcceptsSigned accepts env cfg)
    (hk : ∀ g key, Considers env cfg g → KeyOf env cfg.signer key → known g key)
    {f : Fs} {c : Change} (hj : NamedForKey accepts world cfg.esp known f)
    (st : InstallStep env cfg ld f c) : NamedForKey accepts world cfg.esp known (f.apply c) := by
  intro g key n data hkn hn hd
  have hm := hn.isMatch
  have hp : IsEntry cfg.esp (entryFile cfg.esp n) := isMatch_isEntry hm
  rcases st.entry hs hp hd with h | h
  · exact hj g key n data hkn hn h
  · obtain ⟨g', key', kd, id, image, v, hg, -, hkey, hv, hkd, hid, him, hsg, pk, pi, rfl⟩ := h.isEntry
    have hkn' := hk g' key' hg hkey
    rw [hw.sha] at hm
    have hse := isMatch_sameEntry hm (hu.apart _ _ _ _ hkn' hkn)
    obtain ⟨-, -, -, rfl⟩ := hse
    exact ha.signing _ _ _ hkey hsg

theorem ProperRun.namedForKey {done : List Change} (hu : Unambiguous world known)
    (hp : ProperRun world esp known env cfg) (ha : AcceptsSigned accepts env cfg)
    (hd : KilledAfter env cfg fs done) (h : NamedForKey accepts world esp known fs) :
    NamedForKey accepts world esp known (fs.replay done) := by
  obtain rfl := hp.esp
  obtain ⟨a, b, gens, final, sh⟩ := run_plain hp.safe fs
  rcases sh.phases hd with ⟨-, -, hch⟩ | ⟨-, hst, l, -, hgc, e, -⟩
  · exact hch.inv h fun f c j st => j.step hp.safe hp.inWorld hu ha hp.known st
  · rw [e]
    exact (hst.inv h fun f c j st => j.step hp.safe hp.inWorld hu ha hp.known st).of_less
      (GcAny.chain_get hgc)

theorem Event.namedForKey (hu : Unambiguous world known)
    (he : Event world esp known (AcceptsSigned accepts) fs fs')
    (h : NamedForKey accepts world esp known fs) : NamedForKey accepts world esp known fs' := by
  cases he with
  | run hp ha hd => exact ProperRun.namedForKey hu hp ha hd h
  | powerLoss hp ha hd hs hl =>
    intro g key n d hk hm hx
    obtain rfl := hp.esp
    obtain ⟨⟨kept, hkept, e⟩, -⟩ := power_loss_after_sync hp.safe hd hs hl
      (Or.inl (isMatch_isEntry hm.isMatch) : IsBootFile _ (entryFile _ n))
    refine ProperRun.namedForKey hu hp ha hkept h g key n d hk hm ?_
    rw [Fs.fileAt_eq_some] at hx ⊢
    rw [← e]; exact hx
  | @count base c c' data hb he hc hf hn =>
    intro g key n d hk hm hd
    rw [Fs.fileAt_eq_some, Fs.get_rename (by simp [entryFile]) (by simp [entryFile])] at hd
    split at hd
    · next e =>
      cases hd
      cases entryFile_inj e
      have hb' := base_of_match hb hm.isMatch
      rw [hb'] at hf
      exact h g key _ data hk (isNameOf (isMatch_entryName _ _ c)) hf
    · split at hd
      · cases hd
      · exact h g key n d hk hm (Fs.fileAt_eq_some.2 hd)
  | other hg =>
    intro g key n d hk hm hd
    refine h g key n d hk hm ?_
    rw [Fs.fileAt_eq_some] at hd ⊢
    rw [← hg _ (Or.inl (isMatch_isEntry (esp := esp) hm.isMatch))]; exact hd

/-- **C89** (at all times). Whatever the history, with whatever changes of keys: an entry that is named for
a certificate is accepted by machines with that certificate. -/
theorem C89_named_for_key (hu : Unambiguous world known)
    (hh : History world esp known (AcceptsSigned accepts) fs fs')
    (h : NamedForKey accepts world esp known fs) : NamedForKey accepts world esp known fs' := by
  induction hh with
  | nil => exact h
  | snoc _ e ih => exact e.namedForKey hu ih

/-- Without boot entries, as on an empty ESP, there is nothing to accept. -/
theorem namedForKey_of_empty (h1 : ∀ p, IsEntry esp p → fs.get p = none) :
    NamedForKey accepts world esp known fs := by
  intro g key n data _ hm hd
  rw [Fs.fileAt_eq_some, h1 _ (isMatch_isEntry hm.isMatch)] at hd; cases hd

/-- **C89** (after a run). After a successful run without I/O errors that follows any history, with whatever
keys: a machine on which the certificate that is now in use is enrolled accepts every `nixos-` boot entry
and both boot loader binaries. So nothing remains that is signed with another key only. -/
theorem C89_only_current_key (hu : Unambiguous world known) {f : Fs}
    (h₀ : Sound world esp fs) (hj : NamedForKey accepts world esp known fs)
    (hist : History world esp known (AcceptsSigned accepts) fs f)
    (hp : ProperRun world esp known env cfg) (ha : AcceptsSigned accepts env cfg)
    (hr : Reliable env.os) (ht : f.Tree) (hok : Succeeded env cfg f) :
    ∃ key, KeyOf env cfg.signer key ∧
      (∀ q n, linuxDir esp <+: q → lit "nixos-" <+: n →
        ((run env cfg (start cfg f)).2.fs.get (q ++ [n])).isSome →
        ∃ data, (run env cfg (start cfg f)).2.fs.fileAt (q ++ [n]) = some data ∧ accepts key data) ∧
      (∀ q, IsLoader cfg q →
        ∃ data, (run env cfg (start cfg f)).2.fs.fileAt q = some data ∧ accepts key data) := by
  obtain rfl := hp.esp
  have hw := hp.inWorld
  have hev : Event world cfg.esp known (AcceptsSigned accepts) f (run env cfg (start cfg f)).2.fs := by
    rw [run_disk hp.safe]
    exact .run hp ha (killed_at_end env cfg f)
  have hjf := hev.namedForKey hu (C89_named_for_key hu hist hj)
  have hsnd := (C39_history_sound hist h₀).congr hw.parse.symm hw.sha.symm
  obtain ⟨gens, mid, final, h⟩ := cleaned hp.safe hp.tools hp.separate hr ht hsnd hok
  obtain ⟨g, hg⟩ := List.exists_mem_of_ne_nil _ h.some_gen.1
  obtain ⟨n, key, data, kl, kh, il, ih, hk, -⟩ := (h.inUse g hg).ex
  refine ⟨key, hk, ?_, ?_⟩
  · intro q n hq hn hx
    obtain ⟨rfl, hfile, g', key', hg', hk', hname⟩ := h.entry_named hp.separate hq hn hx
    obtain ⟨data, hd⟩ := Option.isSome_iff_exists.1 hfile
    refine ⟨data, hd, ?_⟩
    rw [hk.unique hk']
    rw [hw.uni, hw.sha] at hname
    refine hjf g' key' n data (hp.known g' key' hg' hk') hname ?_
    rw [show entryFile cfg.esp n = linuxDir cfg.esp ++ [n] by simp [entryFile, linuxDir]]
    exact hd
  · intro q hq
    obtain ⟨source, data, -, hd, hsv, -⟩ := C42_loader_current hp.safe hp.separate hp.tools hok.ok hq
    exact ⟨data, hd, hsv.elim (ha.signing _ _ _ hk) (ha.verifying _ _ hk)⟩

/-- **C89** (nothing is lost). After a successful run every considered generation has a boot entry that boots
it and that machines accept on which the certificate that is now in use is enrolled. -/
theorem C89_considered_resigned (hu : Unambiguous world known) {f : Fs}
    (h₀ : Sound world esp fs) (hc : Coherent world esp known fs)
    (hj : NamedForKey accepts world esp known fs)
    (hist : History world esp known (AcceptsSigned accepts) fs f)
    (hp : ProperRun world esp known env cfg) (ha : AcceptsSigned accepts env cfg)
    (hok : (run env cfg (start cfg f)).1 = .ok ())
    (hb : (run env cfg (start cfg f)).2.broken = [] ∨ Faultless env) {g : Gen}
    (hg : Considers env cfg g) :
    ∃ key p data, KeyOf env cfg.signer key ∧ IsEntry esp p ∧
      (run env cfg (start cfg f)).2.fs.fileAt p = some data ∧ accepts key data ∧
      Boots world esp (run env cfg (start cfg f)).2.fs g p := by
  have hw := hp.inWorld
  have hev : Event world esp known (AcceptsSigned accepts) f (run env cfg (start cfg f)).2.fs := by
    obtain rfl := hp.esp
    rw [run_disk hp.safe]
    exact .run hp ha (killed_at_end env cfg f)
  have hjf := hev.namedForKey hu (C89_named_for_key hu hist hj)
  have hcf := hev.coherent hu (hist.coherent hu hc)
  have hp' : ProperRun world esp (fun g key => known g key ∧ KeyOf env cfg.signer key) env cfg :=
    { hp with known := fun g key hg hk => ⟨hp.known g key hg hk, hk⟩ }
  obtain ⟨key, n, data, kl, kh, il, ih, ⟨hk, hkey⟩, hm, hd, h1, h2, h3, h4⟩ :=
    (hasEntry_of_run hp' (C39_history_sound hist h₀) hok hb hg).ex
  obtain ⟨kernel, initrd, v, he⟩ := hcf g key n data hk (isNameOf hm) hd
  obtain ⟨a1, a2⟩ := h1.agree he.kernel_ref
  obtain ⟨b1, b2⟩ := h2.agree he.initrd_ref
  exact ⟨key, _, data, hkey, isMatch_isEntry hm, hd, hjf g key n data hk (isNameOf hm) hd,
    data, kernel, initrd, v, hd, he, by rw [← a1, ← a2]; exact h3, by rw [← b1, ← b2]; exact h4⟩

end Verif.Tool

namespace Verif.Tool.Sample
open Verif StubName Generation BootCounting

/-! ### Examples -/

/-- sbsign with the new key. -/
def sbsign' (data : Bytes) : Option Bytes :=
  if parse (data ++ [84]) = parse data then some (data ++ [84]) else none

/-- The same machine with a new key pair in the place of the old one. -/
def rotated : Env :=
  { good with
    store := fun p => if p = [lit "keys", lit "db.pem"] then some [80, 76] else good.store p
    sbsign := fun _ _ _ => sbsign'
    sbverify := fun _ d => d.getLast? = some 84 }

/-- The signature is the last byte. -/
def lastByte (key d : Bytes) : Prop := d.getLast? = some (if key = [80, 75] then 83 else 84)

def known2 (g : Gen) (key : Bytes) : Prop := g ∈ allOf good cfg ∧ key ∈ [[80, 75], [80, 76]]

theorem unambiguous2 : Unambiguous good known2 where
  same := by
    rintro g k g' k' ⟨h, -⟩ ⟨h', -⟩ hs
    have key : ∀ a ∈ allOf good cfg, ∀ b ∈ allOf good cfg, a.spec.toplevel = b.spec.toplevel →
        a.spec = b.spec := by decide +kernel
    have := key g h g' h' hs.2.2.1
    rw [this]
    exact ⟨rfl, rfl, rfl, rfl, rfl⟩
  apart := by
    rintro g k g' k' ⟨h, hk⟩ ⟨h', hk'⟩ hc
    have key : ∀ a ∈ allOf good cfg, ∀ k ∈ ([[80, 75], [80, 76]] : List Bytes),
        ∀ b ∈ allOf good cfg, ∀ k' ∈ ([[80, 75], [80, 76]] : List Bytes),
        sha.hash (hashed a k) = sha.hash (hashed b k') → hashed a k = hashed b k' := by decide +kernel
    exact hc.1 (key g h k hk g' h' k' hk' hc.2)

theorem key_old {key : Bytes} (h : KeyOf good cfg.signer key) : key = [80, 75] := by
  have h : good.store [lit "keys", lit "db.pem"] = some key := h
  have h' : good.store [lit "keys", lit "db.pem"] = some [80, 75] := by decide
  rw [h] at h'
  exact Option.some.inj h'

theorem key_new {key : Bytes} (h : KeyOf rotated cfg.signer key) : key = [80, 76] := by
  have h : rotated.store [lit "keys", lit "db.pem"] = some key := h
  have h' : rotated.store [lit "keys", lit "db.pem"] = some [80, 76] := by decide
  rw [h] at h'
  exact Option.some.inj h'

theorem considers_rotated {g : Gen} (h : Considers rotated cfg g) : Considers good cfg g := ⟨h.ex⟩

theorem proper_old : ProperRun good cfg.esp known2 good cfg :=
  { properRun fun _ => false with
    known := fun _ _ hg hk => ⟨considers_iff.1 hg, by rw [key_old hk]; simp⟩ }

theorem store_rotated {g : Gen} (hg : Considers good cfg g) :
    rotated.store g.spec.kernel = good.store g.spec.kernel ∧
      ∀ p, g.spec.initrd = some p → rotated.store p = good.store p := by
  have key : ∀ g ∈ allOf good cfg, g.spec.kernel ≠ [lit "keys", lit "db.pem"] ∧
      g.spec.initrd ≠ some [lit "keys", lit "db.pem"] := by decide
  have := key g (considers_iff.1 hg)
  refine ⟨if_neg this.1, fun p hp => if_neg fun e => this.2 (by rw [hp, e])⟩

theorem proper_new : ProperRun good cfg.esp known2 rotated cfg where
  esp := rfl
  inWorld :=
    { sha := rfl, parse := rfl, uni := rfl
      kernel := fun g d hg hd => by rw [← (store_rotated (considers_rotated hg)).1]; exact hd
      initrd := fun g d hg ⟨p, d₀, h1, h2, h3⟩ =>
        ⟨p, d₀, h1, by rw [← (store_rotated (considers_rotated hg)).2 p h1]; exact h2, h3⟩ }
  safe := fun g hg => safe_good g ⟨hg.ex⟩
  tools :=
    { objcopy := (faithful fun _ => false).objcopy
      sbsign := fun t priv pub data out h name b hb => by
        have h : sbsign' data = some out := h
        unfold sbsign' at h
        split at h
        · next hp => cases h; exact fileSection_append hp hb
        · cases h }
  separate := separate
  known := fun _ _ hg hk => ⟨considers_iff.1 (considers_rotated hg), by rw [key_new hk]; simp⟩

theorem accepts_old : AcceptsSigned lastByte good cfg where
  signing key d out hk hs := by
    rw [key_old hk]
    obtain ⟨t, hs⟩ := hs
    have hs : sbsign d = some out := hs
    unfold sbsign at hs
    split at hs
    · cases hs; simp [lastByte]
    · cases hs
  verifying key d hk hv := by
    rw [key_old hk]
    have hv : d.getLast? = some 83 := of_decide_eq_true hv
    simp [lastByte, hv]

theorem accepts_new : AcceptsSigned lastByte rotated cfg where
  signing key d out hk hs := by
    rw [key_new hk]
    obtain ⟨t, hs⟩ := hs
    have hs : sbsign' d = some out := hs
    unfold sbsign' at hs
    split at hs
    · cases hs; simp [lastByte]
    · cases hs
  verifying key d hk hv := by
    rw [key_new hk]
    have hv : d.getLast? = some 84 := of_decide_eq_true hv
    simp [lastByte, hv]

/-- The disk after a run with the old key. -/
def diskOld : Fs := (run good cfg (start cfg disk0)).2.fs

/-- Old entries and boot loaders are replaced by new ones. -/
def turned : Bool :=
  let r := run rotated cfg (start cfg diskOld)
  SampleGc.isTree diskOld && decide (r.1 = .ok ()) && decide (r.2.broken = []) &&
    decide ((diskOld.nodes.filter fun e => decide (e.1.dropLast = linuxDir cfg.esp) &&
      match e.2 with | .file d => decide (d.getLast? = some 83) | .dir => false).length = 3)

theorem turned_ok : turned = true := by decide +kernel

theorem history_old : History good cfg.esp known2 (AcceptsSigned lastByte) disk0 diskOld := by
  refine .snoc .nil ?_
  unfold diskOld
  rw [run_disk safe_good]
  exact .run proper_old accepts_old (killed_at_end good cfg disk0)

theorem named0 : NamedForKey lastByte good cfg.esp known2 disk0 :=
  fun _ _ _ _ _ hm hd => absurd hd (no_entry (isMatch_isEntry hm.isMatch) _)

/-- After the run with the new key every entry and both boot loaders end with the new signature, while there
were three entries with the old one. -/
example : (∀ q n, linuxDir cfg.esp <+: q → lit "nixos-" <+: n →
      ((run rotated cfg (start cfg diskOld)).2.fs.get (q ++ [n])).isSome →
      ∃ data, (run rotated cfg (start cfg diskOld)).2.fs.fileAt (q ++ [n]) = some data ∧
        data.getLast? = some 84) ∧
    (∀ q, IsLoader cfg q → ∃ data, (run rotated cfg (start cfg diskOld)).2.fs.fileAt q = some data ∧
      data.getLast? = some 84) := by
  have h := turned_ok
  simp only [turned, Bool.and_eq_true, decide_eq_true_eq] at h
  obtain ⟨⟨⟨h1, h2⟩, h3⟩, -⟩ := h
  obtain ⟨key, hk, h4, h5⟩ := C89_only_current_key unambiguous2 sound0 named0 history_old proper_new
    accepts_new ⟨fun _ => rfl, fun _ l => List.Perm.refl l⟩ (SampleGc.tree_of h1) ⟨h2, h3⟩
  rw [key_new hk] at h4 h5
  exact ⟨h4, h5⟩

/-- And the first generation has such an entry. -/
example : ∃ key p data, KeyOf rotated cfg.signer key ∧ IsEntry cfg.esp p ∧
    (run rotated cfg (start cfg diskOld)).2.fs.fileAt p = some data ∧ lastByte key data ∧
    Boots good cfg.esp (run rotated cfg (start cfg diskOld)).2.fs first p := by
  have h := turned_ok
  simp only [turned, Bool.and_eq_true, decide_eq_true_eq] at h
  exact C89_considered_resigned unambiguous2 sound0
    (fun _ _ _ data _ hm hd => absurd hd (no_entry (isMatch_isEntry hm.isMatch) data)) named0 history_old
    proper_new accepts_new h.1.1.2 (Or.inr fun _ => rfl)
    ⟨(considers_iff.2 first_mem : Considers good cfg first).ex⟩

end Verif.Tool.Sample
