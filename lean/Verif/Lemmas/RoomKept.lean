import Verif.Lemmas.Live
import Verif.Lemmas.Sound
import Verif.Lemmas.Owned
/-!
# The installer leaves room for itself
-/
namespace Verif.Tool
open Verif StubName Generation

variable {env : Env} {cfg : Config} {f f' : Fs}

/-! ### Places -/

/-- Something is written below `x`. -/
def Above (cfg : Config) (x : Path) : Prop := ∃ p, Place cfg p ∧ x <+: p ∧ x ≠ p

/-- The shape of the places. -/
inductive PlaceShape (cfg : Config) : Path → Prop
  | efi (d n : Str) : PlaceShape cfg (cfg.esp ++ [lit "EFI", d, n])
  | loader (n : Str) : PlaceShape cfg (cfg.esp ++ [lit "loader", n])
  | lock {p : Path} (hp : cfg.pcrlockDirectory = some p) (d n : Str) : PlaceShape cfg (p ++ [d, n])

theorem Place.shape {p : Path} (h : Place cfg p) : PlaceShape cfg p := by
  cases h with
  | nixos n => exact .efi _ _
  | linux n _ => exact .efi _ _
  | loader h =>
    rcases h with rfl | rfl
    · exact .efi _ _
    · exact .efi _ _
  | loaderTmp d n _ _ => exact .efi _ _
  | conf n _ => exact .loader _
  | @lock p hp n =>
    have := PlaceShape.lock (cfg := cfg) hp (lit "635-lanzaboote.pcrlock.d") n
    simpa [lockDir] using this
  | bootloader hp h =>
    rcases h with rfl | rfl
    · exact .lock hp _ _
    · exact .lock hp _ _

theorem prefix_of_append {a b c d : Path} (h : a ++ b <+: c ++ d) : a <+: c ∨ c <+: a :=
  List.prefix_or_prefix_of_prefix ((List.prefix_append a b).trans h) (List.prefix_append c d)

/-- No place is above another one. -/
theorem PlaceShape.apart (hd : NotNested cfg) {p q : Path} (hp : PlaceShape cfg p) (hq : PlaceShape cfg q)
    (h : p <+: q) : p = q := by
  cases hp with
  | efi d n =>
    cases hq with
    | efi d' n' => exact h.eq_of_length (by simp)
    | loader n' =>
      have := h.length_le
      simp at this
    | lock hl d' n' => exact ((prefix_of_append h).elim (hd _ hl).1 (hd _ hl).2).elim
  | loader n =>
    cases hq with
    | efi d' n' =>
      exfalso
      rw [List.prefix_append_right_inj] at h
      exact absurd (List.cons_prefix_cons.1 h).1 (by decide)
    | loader n' => exact h.eq_of_length (by simp)
    | lock hl d' n' => exact ((prefix_of_append h).elim (hd _ hl).1 (hd _ hl).2).elim
  | lock hl d n =>
    cases hq with
    | efi d' n' => exact ((prefix_of_append h).elim (hd _ hl).2 (hd _ hl).1).elim
    | loader n' => exact ((prefix_of_append h).elim (hd _ hl).2 (hd _ hl).1).elim
    | lock hl' d' n' =>
      rw [hl] at hl'
      cases hl'
      exact h.eq_of_length (by simp)

theorem Above.not_place (hd : NotNested cfg) {x : Path} (h : Above cfg x) : ¬ Place cfg x := by
  obtain ⟨p, hp, h1, h2⟩ := h
  exact fun hx => h2 (hx.shape.apart hd hp.shape h1)

theorem esp_above (cfg : Config) : Above cfg cfg.esp :=
  ⟨_, .nixos [], List.prefix_append _ _, fun e => by
    have := congrArg List.length e
    simp at this⟩

theorem Place.above {p x : Path} (h : Place cfg p) (hne : p ≠ []) (hx : x <+: p.dropLast) : Above cfg x :=
  ⟨p, h, hx.trans (List.dropLast_prefix p), dropLast_ne hne hx⟩

theorem IsEntry.place {p : Path} (h : IsEntry cfg.esp p) : Place cfg p := by
  obtain ⟨n, rfl, hn, -⟩ := h
  exact .linux n hn

theorem LookedUp.place {p : Path} {name : Str} (h : LookedUp cfg p name) : Place cfg p := by
  cases h with
  | kernel h => exact h.place
  | initrd h => exact h.place
  | release h => exact .loader h

/-! ### Changes -/

/-- Directories are made above places, things other than the ESP itself vanish, places get a file that can
be looked at. -/
theorem Room.changed' (hd : NotNested cfg) (h : Room env cfg f) (ht : f'.Tree)
    (hg : ∀ x, f'.get x = f.get x ∨ (Above cfg x ∧ f'.get x = some .dir) ∨ (x ≠ cfg.esp ∧ f'.get x = none) ∨
      (Place cfg x ∧ ∃ d, f'.get x = some (.file d) ∧ ∀ name, LookedUp cfg x name → Legible env d name)) :
    Room env cfg f' where
  tree := ht
  esp := by
    rcases hg cfg.esp with e | ⟨-, e⟩ | ⟨hp, -⟩ | ⟨hp, -⟩
    · rw [e]; exact h.esp
    · exact e
    · exact absurd rfl hp
    · exact absurd hp ((esp_above cfg).not_place hd)
  room p hp := by
    refine ⟨?_, fun q hq hne d => ?_⟩
    · rcases hg p with e | ⟨ha, -⟩ | ⟨-, e⟩ | ⟨-, d, e, -⟩
      · rw [e]; exact (h.room p hp).not_dir
      · exact absurd hp (ha.not_place hd)
      · rw [e]; simp
      · rw [e]; simp
    · rcases hg q with e | ⟨-, e⟩ | ⟨-, e⟩ | ⟨hq', -⟩
      · rw [e]; exact (h.room p hp).above q hq hne d
      · rw [e]; simp
      · rw [e]; simp
      · exact absurd hq' (Above.not_place hd ⟨p, hp, hq, hne⟩)
  legible p name hl data hdata := by
    rw [Fs.fileAt_eq_some] at hdata
    rcases hg p with e | ⟨-, e⟩ | ⟨-, e⟩ | ⟨-, d, e, hd'⟩
    · rw [e] at hdata; exact h.legible p name hl data (Fs.fileAt_eq_some.2 hdata)
    · rw [e] at hdata; cases hdata
    · rw [e] at hdata; cases hdata
    · rw [e] at hdata; cases hdata; exact hd' name hl

/-- Directories are made above places, places are emptied or get a file that can be looked at. -/
theorem Room.changed (hd : NotNested cfg) (h : Room env cfg f) (ht : f'.Tree)
    (hg : ∀ x, f'.get x = f.get x ∨ (Above cfg x ∧ f'.get x = some .dir) ∨ (Place cfg x ∧ (f'.get x = none ∨
      ∃ d, f'.get x = some (.file d) ∧ ∀ name, LookedUp cfg x name → Legible env d name))) :
    Room env cfg f' := by
  refine h.changed' hd ht fun x => ?_
  rcases hg x with e | e | ⟨hp, e | e⟩
  · exact Or.inl e
  · exact Or.inr (Or.inl e)
  · exact Or.inr (Or.inr (Or.inl ⟨fun e => (esp_above cfg).not_place hd (e ▸ hp), e⟩))
  · exact Or.inr (Or.inr (Or.inr ⟨hp, e⟩))

/-- The target of a replacement and its temporary file. -/
structure PlacePair (cfg : Config) (to : Path) : Prop where
  ne : tmpOf to ≠ to
  here : Place cfg to
  tmp : Place cfg (tmpOf to)

theorem Room.canReplace (h : Room env cfg f) {to : Path} (hp : PlacePair cfg to) : CanReplace f to :=
  ⟨h.tree, hp.ne, h.room _ hp.here, h.room _ hp.tmp⟩

theorem Room.replaced (hd : NotNested cfg) (h : Room env cfg f) {to : Path} (hp : PlacePair cfg to) {d : Bytes}
    (hl : ∀ name, LookedUp cfg to name → Legible env d name) (hr : Replaced to d f f') : Room env cfg f' := by
  refine h.changed hd hr.tree fun x => ?_
  by_cases e : x = to
  · subst e
    exact Or.inr (Or.inr ⟨hp.here, Or.inr ⟨d, hr.at_, hl⟩⟩)
  · rcases hr.else_ x e with e | ⟨e, hx⟩ | ⟨rfl, e⟩
    · exact Or.inl e
    · exact Or.inr (Or.inl ⟨hp.here.above (h.room _ hp.here).ne_nil hx, e⟩)
    · exact Or.inr (Or.inr ⟨hp.tmp, Or.inl e⟩)

theorem Room.dirsMade (hd : NotNested cfg) (h : Room env cfg f) {p : Path} (hp : Place cfg p)
    (hr : DirsMade p.dropLast f f') : Room env cfg f' := by
  refine h.changed hd hr.tree fun x => ?_
  rcases hr.else_ x with e | ⟨e, hx⟩
  · exact Or.inl e
  · exact Or.inr (Or.inl ⟨hp.above (h.room _ hp).ne_nil hx, e⟩)

theorem Room.rewritten (hd : NotNested cfg) (h : Room env cfg f) {p : Path} (hp : Place cfg p) {d : Bytes}
    (hl : ∀ name, LookedUp cfg p name → Legible env d name) (hr : Rewritten p d f f') : Room env cfg f' := by
  refine h.changed hd hr.tree fun x => ?_
  by_cases e : x = p
  · subst e
    exact Or.inr (Or.inr ⟨hp, Or.inr ⟨d, hr.at_, hl⟩⟩)
  · exact Or.inl (hr.else_ x e)

/-! ### What is looked at -/

theorem Legible.of_section {data : Bytes} {name : Str} {b : Bytes} (h : FileSection env data name b)
    (hb : b ≠ []) : Legible env data name := by
  obtain ⟨pe, pre, s, post, h1, h2, h3, h4, h5, h6, h7, -⟩ := h
  intro pe' pre' s' post' g1 g2 g3
  rw [h1, Option.some.injEq] at g1
  subst g1
  rw [h2] at g2
  have hlen : 0 < b.length := List.length_pos_iff.2 hb
  have key : pre' = pre ∧ s' = s ∨ (s'.name.isSome ∧ s'.name ≠ some name) := by
    rcases List.append_eq_append_iff.1 g2 with ⟨x, e1, e2⟩ | ⟨x, e1, e2⟩
    · cases x with
      | nil =>
        rw [List.append_nil] at e1
        exact Or.inl ⟨e1, ((List.cons_eq_cons.1 e2).1).symm⟩
      | cons y ys =>
        exfalso
        have : s = y := (List.cons_eq_cons.1 e2).1
        subst this
        obtain ⟨n, a1, a2⟩ := g3 s (by rw [e1]; simp)
        rw [h3] at a1
        exact a2 (Option.some.inj a1).symm
    · cases x with
      | nil =>
        rw [List.append_nil] at e1
        exact Or.inl ⟨e1.symm, (List.cons_eq_cons.1 e2).1⟩
      | cons y ys =>
        have : s' = y := (List.cons_eq_cons.1 e2).1
        subst this
        obtain ⟨n, a1, a2⟩ := h4 s' (by rw [e1]; simp)
        exact Or.inr ⟨by rw [a1]; rfl, by rw [a1]; exact fun e => a2 (Option.some.inj e)⟩
  rcases key with ⟨-, rfl⟩ | ⟨k1, k2⟩
  · exact ⟨by rw [h3]; rfl, fun _ => ⟨by omega, h5, h6⟩⟩
  · exact ⟨k1, fun e => absurd e k2⟩

theorem findSection_legible {name : Str} (l : List Stub.Section)
    (h : ∀ pre s post, l = pre ++ s :: post → (∀ x ∈ pre, ∃ n, x.name = some n ∧ n ≠ name) → s.name.isSome) :
    ∃ o, findSection name l = .ok o ∧ ∀ s, o = some s → ∃ pre post, l = pre ++ s :: post ∧
      (∀ x ∈ pre, ∃ n, x.name = some n ∧ n ≠ name) ∧ s.name = some name := by
  induction l with
  | nil => exact ⟨none, rfl, fun _ e => by cases e⟩
  | cons s l ih =>
    obtain ⟨n, hn⟩ := Option.isSome_iff_exists.1 (h [] s l rfl (by simp))
    unfold findSection
    rw [hn]
    by_cases e : n = name
    · refine ⟨some s, by simp [e], ?_⟩
      rintro _ ⟨⟩
      exact ⟨[], l, rfl, by simp, by rw [hn, e]⟩
    · obtain ⟨o, ho, hs⟩ := ih fun pre x post hl hpre => h (s :: pre) x post (by rw [hl]; rfl) (by
        intro y hy
        rcases List.mem_cons.1 hy with rfl | hy
        · exact ⟨n, hn, e⟩
        · exact hpre y hy)
      refine ⟨o, by simp [e, ho], fun x hx => ?_⟩
      obtain ⟨pre, post, h1, h2, h3⟩ := hs x hx
      refine ⟨s :: pre, post, by rw [h1]; rfl, ?_, h3⟩
      intro y hy
      rcases List.mem_cons.1 hy with rfl | hy
      · exact ⟨n, hn, e⟩
      · exact h2 y hy

/-- Looking up a legible section finds nothing, or something that is not empty. -/
theorem Legible.read {data : Bytes} {name : Str} (h : Legible env data name) :
    ∃ o, readSectionData env data name = .ok o ∧ ∀ b, o = some b → b ≠ [] := by
  unfold readSectionData
  cases hp : env.parse data with
  | none => exact ⟨none, rfl, fun _ e => by cases e⟩
  | some pe =>
    obtain ⟨o, ho, hs⟩ := findSection_legible (name := name) pe.sections fun pre s post e1 e2 =>
      (h pe pre s post hp e1 e2).1
    dsimp only
    rw [ho]
    cases o with
    | none => exact ⟨none, rfl, fun _ e => by cases e⟩
    | some s =>
      obtain ⟨pre, post, e1, e2, e3⟩ := hs s rfl
      obtain ⟨a1, a2, a3⟩ := (h pe pre s post hp e1 e2).2 e3
      refine ⟨_, by simp only [a2, a3, if_true]; rfl, ?_⟩
      rintro b ⟨⟩ e
      have := congrArg List.length e
      simp only [List.length_take, List.length_drop, List.length_nil] at this
      omega

end Verif.Tool
