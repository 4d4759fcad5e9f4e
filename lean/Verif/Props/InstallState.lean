import Verif.Lemmas.Measured
import Verif.Props.InstallBoot
import Verif.Props.Gc
/-!
# What is on the disk after a run that went well

C39 (first half), C51, C54, C55.
-/
namespace Verif.Tool
open Verif StubName Generation

variable {env world : Env} {cfg : Config} {fs : Fs} {done : List Change}

/-- The paths `Used` speaks about are the ones that remain. -/
structure Cleaned (env : Env) (cfg : Config) (fs : Fs) (gens : List Gen) (mid : Fs)
    (final : List Path) : Prop where
  sub : ∀ p ∈ (start cfg fs).roots, p ∈ final
  considered : ∀ g ∈ gens, Considers env cfg g
  all : ∀ g, Considers env cfg g → g ∈ gens
  list : ∀ links, cfg.considered env = some links → gens = allOf env links
  tree : mid.Tree
  sound : Sound env cfg.esp mid
  used : Used env cfg fs gens mid final
  inUse : ∀ g ∈ gens, InUse env cfg g mid final
  gone : ∀ x, (∃ q, DoomedAny cfg final q ∧ q <+: x) →
    (run env cfg (start cfg fs)).2.fs.get x = none
  stays : ∀ x, ¬ (∃ q, DoomedAny cfg final q ∧ q <+: x) →
    (run env cfg (start cfg fs)).2.fs.get x = mid.get x
  tree_after : (run env cfg (start cfg fs)).2.fs.Tree
  loader : LoaderDone env cfg mid
  conf : ∃ d d', env.store cfg.loaderConfig = some d ∧ mid.fileAt (confFile cfg) = some d' ∧
    env.sha.hash d' = env.sha.hash d
  some_gen : gens ≠ [] ∧ cfg.considered env ≠ none
  read : ∀ links, cfg.considered env = some links → ∀ link ∈ links, (env.bootJson link.path).isSome

theorem cleaned (hs : SafeInput env cfg) (hf : FaithfulTools env) (hsep : Separate cfg)
    (hr : Reliable env.os) (ht : fs.Tree) (hc : Sound env cfg.esp fs) (hok : Succeeded env cfg fs) :
    ∃ gens mid final, Cleaned env cfg fs gens mid final := by
  obtain ⟨a, b, gens, final, sh⟩ := run_shape hs
    ((used_carried hs hf hsep fs).and (inUse_carried hs hf hsep).all)
    (start cfg fs) ⟨hc, hc⟩ ⟨Used.start hsep fs, by simp⟩ rfl
  have hne := sh.okCollects hok.ok hok.read
  have htree : ((start cfg fs).fs.replay a).Tree := sh.steps.inv (J := Fs.Tree) ht fun f c j st => st.tree j
  obtain ⟨-, htree', h1, h2⟩ := sh.exact hr htree hne
  obtain ⟨l, -, -, hread, hall, hC⟩ := sh.gc hne
  have hsome : gens ≠ [] ∧ cfg.considered env ≠ none := by
    refine ⟨fun h => ?_, fun h => ?_⟩
    · exact hne (sh.nothing (Or.inl h)).2.2
    · exact hne (sh.nothing (Or.inr h)).2.2
  exact ⟨gens, _, final, sh.roots, sh.considered, hall, sh.list (Or.inl hok.read), htree, hC.inv.1, hC.gens.1,
    hC.gens.2, h1, h2, htree', hC.loader, hC.conf, hsome, hread⟩

namespace Cleaned
variable {gens : List Gen} {mid : Fs} {final : List Path}

/-- What remained is as it was before garbage collection. -/
theorem same (h : Cleaned env cfg fs gens mid final) {x : Path}
    (hx : ((run env cfg (start cfg fs)).2.fs.get x).isSome) :
    (run env cfg (start cfg fs)).2.fs.get x = mid.get x ∧ ∀ q, q <+: x → ¬ DoomedAny cfg final q := by
  by_cases hd : ∃ q, DoomedAny cfg final q ∧ q <+: x
  · rw [h.gone x hd] at hx; cases hx
  · exact ⟨h.stays x hd, fun q hq hq' => hd ⟨q, hq', hq⟩⟩

theorem kept (h : Cleaned env cfg fs gens mid final) (hsep : Separate cfg) {d n : Str}
    (hd : cfg.esp ++ [lit "EFI", d] ∈ (start cfg fs).roots)
    (hn : cfg.esp ++ [lit "EFI", d, n] ∈ final) :
    (run env cfg (start cfg fs)).2.fs.get (cfg.esp ++ [lit "EFI", d, n]) =
      mid.get (cfg.esp ++ [lit "EFI", d, n]) := by
  refine h.stays _ ?_
  rintro ⟨q, hq, hqx⟩
  refine not_doomed hsep (List.prefix_append _ _) ?_ hqx hq
  intro q h1 h2
  have e : cfg.esp ++ [lit "EFI", d, n] = (cfg.esp ++ [lit "EFI", d]) ++ [n] := by simp
  have e' : cfg.esp ++ [lit "EFI", d] = (cfg.esp ++ [lit "EFI"]) ++ [d] := by simp
  rw [e] at h2
  rcases prefix_snoc_iff.1 h2 with h2 | rfl
  · rw [e'] at h2
    rcases prefix_snoc_iff.1 h2 with h2 | rfl
    · rcases prefix_snoc_iff.1 h2 with h2 | rfl
      · have : q = cfg.esp := List.IsPrefix.eq_of_length_le h2 h1.length_le
        rw [this]; exact h.sub _ (esp_root cfg fs)
      · exact h.sub _ (efi_root cfg fs)
    · rw [← e']; exact h.sub _ hd
  · rw [← e]; exact hn

theorem fileAt_entry (h : Cleaned env cfg fs gens mid final) (hsep : Separate cfg) {n : Str}
    (hn : entryFile cfg.esp n ∈ final) :
    (run env cfg (start cfg fs)).2.fs.fileAt (entryFile cfg.esp n) =
      mid.fileAt (entryFile cfg.esp n) := by
  have := h.kept hsep (linuxDir_root cfg fs) hn
  unfold Fs.fileAt entryFile
  rw [this]

theorem fileAt_ca (h : Cleaned env cfg fs gens mid final) (hsep : Separate cfg) {l : Str} {k : Bytes}
    (hn : caFile cfg.esp l k ∈ final) :
    (run env cfg (start cfg fs)).2.fs.fileAt (caFile cfg.esp l k) =
      mid.fileAt (caFile cfg.esp l k) := by
  have := h.kept hsep (nixosDir_root cfg fs) hn
  unfold Fs.fileAt caFile
  rw [this]

/-- A remaining `nixos-` file is in use. -/
theorem entry_used (h : Cleaned env cfg fs gens mid final) {p : Path} {n : Str}
    (hp : linuxDir cfg.esp <+: p) (hn : lit "nixos-" <+: n)
    (hx : ((run env cfg (start cfg fs)).2.fs.get (p ++ [n])).isSome) : p ++ [n] ∈ final := by
  by_cases hm : p ++ [n] ∈ final
  · exact hm
  · exact absurd (DoomedAny.linux ⟨hp.trans (List.prefix_append _ _), hm, (startsWithNixos_snoc p n).2 ⟨by rintro rfl; exact absurd hn (by decide), hn⟩⟩) ((h.same hx).2 _ (List.prefix_refl _))

theorem nixos_used (h : Cleaned env cfg fs gens mid final) {p : Path}
    (hp : nixosDir cfg.esp <+: p)
    (hx : ((run env cfg (start cfg fs)).2.fs.get p).isSome) : p ∈ final := by
  by_cases hm : p ∈ final
  · exact hm
  · exact absurd (DoomedAny.nixos ⟨hp, hm, rfl⟩) ((h.same hx).2 _ (List.prefix_refl _))

theorem lock_used (h : Cleaned env cfg fs gens mid final) {p q : Path}
    (hpl : cfg.pcrlockDirectory = some p) (hp : lockDir p <+: q)
    (hx : ((run env cfg (start cfg fs)).2.fs.get q).isSome) : q ∈ final := by
  by_cases hm : q ∈ final
  · exact hm
  · exact absurd (DoomedAny.lock hpl ⟨hp, hm, rfl⟩) ((h.same hx).2 _ (List.prefix_refl _))

end Cleaned

/-! ### C39: after a run that went well -/

/-- **C39** (after a successful run). After a successful run without faults every boot entry on the ESP
can be booted, whatever happened before. -/
theorem C39_all_entries_boot (hs : SafeInput env cfg) (hf : FaithfulTools env) (hsep : Separate cfg)
    (hr : Reliable env.os) (ht : fs.Tree) (hc : Sound env cfg.esp fs) (hok : Succeeded env cfg fs) :
    Consistent env cfg.esp (run env cfg (start cfg fs)).2.fs := by
  obtain ⟨gens, mid, final, h⟩ := cleaned hs hf hsep hr ht hc hok
  rintro p hp data hd
  obtain ⟨n, rfl, hn, hn'⟩ := hp
  have hm : entryFile cfg.esp n ∈ final := by
    rw [show entryFile cfg.esp n = linuxDir cfg.esp ++ [n] by simp [entryFile, linuxDir]]
    refine h.entry_used (List.prefix_refl _) hn ?_
    rw [show linuxDir cfg.esp ++ [n] = entryFile cfg.esp n by simp [entryFile, linuxDir],
      Fs.fileAt_eq_some.1 hd]
    rfl
  rw [h.fileAt_entry hsep hm] at hd
  obtain ⟨kl, kh, il, ih, h1, h2, h3, h4, ⟨d, h5, h5'⟩, ⟨d', h6, h6'⟩⟩ :=
    h.used.closed n ⟨n, rfl, hn, hn'⟩ hm data hd
  exact ⟨kl, kh, il, ih, h1, h2, ⟨d, by rw [h.fileAt_ca hsep h3]; exact h5, h5'⟩,
    ⟨d', by rw [h.fileAt_ca hsep h4]; exact h6, h6'⟩⟩

/-! ### C54 -/

/-- What is in use from the start. -/
theorem start_root {q : Path} (h : q ∈ (start cfg fs).roots) :
    (∃ y ∈ ([[], [lit "EFI"], [lit "EFI", lit "nixos"], [lit "EFI", lit "Linux"],
      [lit "EFI", lit "BOOT"], [lit "EFI", lit "systemd"], [lit "loader"],
      [lit "loader", lit "loader.conf"]] : List Path), q = cfg.esp ++ y) ∨
    (∃ n, q = cfg.esp ++ [lit "EFI", lit "BOOT", n] ∨ q = cfg.esp ++ [lit "EFI", lit "systemd", n]) ∨
    ∃ p, cfg.pcrlockDirectory = some p ∧ (q = p ∨ q = lockDir p) := by
  unfold start EspPaths.iter at h
  simp only [List.mem_append] at h
  rcases h with h | h
  · rw [paths_nixos, paths_linux, paths_efiFallback, paths_systemdBoot, paths_loaderConf, paths_esp,
      paths_efi] at h
    have e1 : cfg.paths.efiFallbackDir = cfg.esp ++ [lit "EFI", lit "BOOT"] := by
      show (cfg.esp.join (lit "EFI")).join (lit "BOOT") = _
      rw [join_plain _ (.of_length (by decide) (by decide)),
        join_plain _ (.of_length (by decide) (by decide))]
      simp
    have e2 : cfg.paths.systemd = cfg.esp ++ [lit "EFI", lit "systemd"] := by
      show (cfg.esp.join (lit "EFI")).join (lit "systemd") = _
      rw [join_plain _ (.of_length (by decide) (by decide)),
        join_plain _ (.of_length (by decide) (by decide))]
      simp
    have e3 : cfg.paths.loader = cfg.esp ++ [lit "loader"] := by
      show cfg.esp.join (lit "loader") = _
      rw [join_plain _ (.of_length (by decide) (by decide))]
    rw [e1, e2, e3] at h
    simp only [List.mem_cons, List.not_mem_nil, or_false] at h
    rcases h with h | h | h | h | h | h | h | h | h | h
    · exact Or.inl ⟨[], by simp, by simp [h]⟩
    · exact Or.inl ⟨_, by simp, h⟩
    · exact Or.inl ⟨_, by simp, h⟩
    · exact Or.inl ⟨_, by simp, h⟩
    · exact Or.inl ⟨_, by simp, h⟩
    · exact Or.inr (Or.inl ⟨_, Or.inl h⟩)
    · exact Or.inl ⟨_, by simp, h⟩
    · exact Or.inr (Or.inl ⟨_, Or.inr h⟩)
    · exact Or.inl ⟨_, by simp, h⟩
    · exact Or.inl ⟨_, by simp, h⟩
  · unfold Config.pcrlock at h
    cases hp : cfg.pcrlockDirectory with
    | none => rw [hp] at h; cases h
    | some p =>
      rw [hp] at h
      have e1 : (PcrlockPaths.new p).lanzaboote = p ++ [lit "635-lanzaboote.pcrlock.d"] :=
        pcrlock_lanzaboote p
      simp only [Option.map_some, PcrlockPaths.iter, e1, List.mem_cons, List.not_mem_nil,
        or_false] at h
      exact Or.inr (Or.inr ⟨p, rfl, h⟩)

/-- Nothing in `EFI/nixos` is in use from the start. -/
theorem start_nixos (hsep : Separate cfg) {q : Path} (h : q ∈ (start cfg fs).roots)
    (hq : nixosDir cfg.esp <+: q) : q = nixosDir cfg.esp := by
  rcases start_root h with ⟨y, hy, rfl⟩ | ⟨n, rfl | rfl⟩ | ⟨p, hp, rfl | rfl⟩
  · have hq : [lit "EFI", lit "nixos"] <+: y := (List.prefix_append_right_inj cfg.esp).1 hq
    have key : ∀ y ∈ ([[], [lit "EFI"], [lit "EFI", lit "nixos"], [lit "EFI", lit "Linux"],
      [lit "EFI", lit "BOOT"], [lit "EFI", lit "systemd"], [lit "loader"],
      [lit "loader", lit "loader.conf"]] : List Path), [lit "EFI", lit "nixos"] <+: y →
      y = [lit "EFI", lit "nixos"] := by decide
    rw [key y hy hq]; rfl
  · have hq := (List.prefix_append_right_inj cfg.esp).1 hq
    simp [lit] at hq
  · have hq := (List.prefix_append_right_inj cfg.esp).1 hq
    simp [lit] at hq
  · exact absurd hq (hsep _ hp).2.1
  · rcases prefix_snoc_iff.1 hq with hq | hq
    · exact absurd hq (hsep _ hp).2.1
    · exact hq.symm

/-- Nothing called `nixos-…` in `EFI/Linux` is in use from the start. -/
theorem start_linux (hsep : Separate cfg) {q : Path} {n : Str} (h : q ++ [n] ∈ (start cfg fs).roots)
    (hq : linuxDir cfg.esp <+: q) (hn : lit "nixos-" <+: n) : False := by
  rcases start_root h with ⟨y, hy, e⟩ | ⟨m, e | e⟩ | ⟨p, hp, e | e⟩
  · have hq' : linuxDir cfg.esp <+: cfg.esp ++ y := by rw [← e]; exact hq.trans (List.prefix_append _ _)
    have hq : [lit "EFI", lit "Linux"] <+: y := (List.prefix_append_right_inj cfg.esp).1 hq'
    have key : ∀ y ∈ ([[], [lit "EFI"], [lit "EFI", lit "nixos"], [lit "EFI", lit "Linux"],
      [lit "EFI", lit "BOOT"], [lit "EFI", lit "systemd"], [lit "loader"],
      [lit "loader", lit "loader.conf"]] : List Path), [lit "EFI", lit "Linux"] <+: y →
      y = [lit "EFI", lit "Linux"] := by decide
    rw [key y hy hq] at e
    rw [show cfg.esp ++ [lit "EFI", lit "Linux"] = (cfg.esp ++ [lit "EFI"]) ++ [lit "Linux"] by simp] at e
    have := (List.append_inj' e rfl).2
    rw [List.cons_eq_cons.1 this |>.1] at hn
    exact absurd hn (by decide)
  · have hq := hq.trans (List.prefix_append _ [n])
    rw [e] at hq
    have hq := (List.prefix_append_right_inj cfg.esp).1 hq
    simp [lit] at hq
  · have hq := hq.trans (List.prefix_append _ [n])
    rw [e] at hq
    have hq := (List.prefix_append_right_inj cfg.esp).1 hq
    simp [lit] at hq
  · rw [← e] at hp
    exact absurd (hq.trans (List.prefix_append _ _)) (hsep _ hp).2.2
  · have := (List.append_inj' e rfl).2
    rw [List.cons_eq_cons.1 this |>.1] at hn
    exact absurd hn (by decide)

/-- A path below the ESP that is in the directory of measurements is that directory. -/
theorem lock_not_esp (hsep : Separate cfg) {p : Path} (hp : cfg.pcrlockDirectory = some p) {y : Path}
    (hq : lockDir p <+: cfg.esp ++ y) : ∃ a b, y = a ++ lit "635-lanzaboote.pcrlock.d" :: b ∧
      lockDir p = cfg.esp ++ a ++ [lit "635-lanzaboote.pcrlock.d"] := by
  rcases List.prefix_or_prefix_of_prefix hq (List.prefix_append cfg.esp y) with h | ⟨z, hz⟩
  · exact absurd h (hsep _ hp).1
  · rcases List.eq_nil_or_concat z with rfl | ⟨a, x, rfl⟩
    · rw [List.append_nil] at hz
      exact absurd (by rw [hz]; exact List.prefix_refl _) (hsep _ hp).1
    · rw [List.concat_eq_append, ← List.append_assoc] at hz
      have := List.append_inj' (hz : cfg.esp ++ a ++ [x] = p ++ [_]) rfl
      have hx : x = lit "635-lanzaboote.pcrlock.d" := (List.cons_eq_cons.1 this.2).1
      subst hx
      obtain ⟨b, hb⟩ := hq
      rw [← hz, List.append_assoc, List.append_assoc] at hb
      refine ⟨a, b, ?_, hz.symm⟩
      rw [← List.append_cancel_left hb]
      simp

/-- What is named like a boot entry is a boot entry of a considered generation, named for the current
key. -/
theorem Cleaned.entry_named {gens : List Gen} {mid : Fs} {final : List Path} (hsep : Separate cfg)
    (h : Cleaned env cfg fs gens mid final) {q : Path} {n : Str} (hq : linuxDir cfg.esp <+: q)
    (hn : lit "nixos-" <+: n) (hx : ((run env cfg (start cfg fs)).2.fs.get (q ++ [n])).isSome) :
    q = linuxDir cfg.esp ∧ ((run env cfg (start cfg fs)).2.fs.fileAt (q ++ [n])).isSome ∧
      ∃ g key, Considers env cfg g ∧ KeyOf env cfg.signer key ∧ IsNameOf env.uni env.sha g key n := by
  have hm := h.entry_used hq hn hx
  rcases h.used.only _ hm with hs' | ⟨g, hg, key, m, hk, hmt, e, hfile⟩ | ⟨l, k, hk, e⟩ | ⟨g, hg, pd, hpd, e⟩
  · exact (start_linux hsep hs' hq hn).elim
  · have e' : entryFile cfg.esp m = linuxDir cfg.esp ++ [m] := by simp [entryFile, linuxDir]
    rw [e'] at e
    have e1 := (List.append_inj' e rfl).1
    have e2 := (List.cons_eq_cons.1 (List.append_inj' e rfl).2).1
    subst e1
    subst e2
    refine ⟨rfl, ?_, g, key, h.considered g hg, hk, isNameOf hmt⟩
    rw [← e'] at hm hfile ⊢
    rw [h.fileAt_entry hsep hm]
    exact hfile
  · exfalso
    have hq := hq.trans (List.prefix_append _ [n])
    rw [e] at hq
    have := (List.prefix_append_right_inj cfg.esp).1 hq
    simp [lit] at this
  · exfalso
    rw [show measurementFile pd g = lockDir pd ++ [g.versionTag ++ lit ".pcrlock"] by
      simp [measurementFile, lockDir]] at e
    rw [(List.append_inj' e rfl).1] at hq
    rcases prefix_snoc_iff.1 hq with hp | hp
    · exact (hsep _ hpd).2.2 hp
    · have := congrArg List.getLast? hp
      simp [linuxDir] at this
      exact absurd this (by decide)

/-- **C54**. After a successful run without faults nothing is left over:
in `EFI/nixos` there are only kernels and initrds that a boot entry of a considered generation refers to,
the only things in `EFI/Linux` called `nixos-…` are boot entries of considered generations, and the only
measurements of generations are those of considered ones. -/
theorem C54_no_leftovers (hs : SafeInput env cfg) (hf : FaithfulTools env) (hsep : Separate cfg)
    (hr : Reliable env.os) (ht : fs.Tree) (hc : Sound env cfg.esp fs) (hok : Succeeded env cfg fs)
    (hD : ∀ links, cfg.considered env = some links → Distinct env cfg (allOf env links))
    (hM : AllMeasured env cfg fs) {f : Fs} (hfs : f = (run env cfg (start cfg fs)).2.fs) :
    (∀ p, nixosDir cfg.esp <+: p → p ≠ nixosDir cfg.esp → (f.get p).isSome →
      ∃ g key n data l h, Considers env cfg g ∧ KeyOf env cfg.signer key ∧
        IsNameOf env.uni env.sha g key n ∧
        f.fileAt (entryFile cfg.esp n) = some data ∧ p = caFile cfg.esp l h ∧
        (RefersToCa env cfg.esp data (lit ".linux") (lit ".linuxh") l h ∨
         RefersToCa env cfg.esp data (lit ".initrd") (lit ".initrdh") l h) ∧ Present env f p h) ∧
    (∀ q n, linuxDir cfg.esp <+: q → lit "nixos-" <+: n → (f.get (q ++ [n])).isSome →
      q = linuxDir cfg.esp ∧ (f.fileAt (q ++ [n])).isSome ∧
      ∃ g key, Considers env cfg g ∧ KeyOf env cfg.signer key ∧
        IsNameOf env.uni env.sha g key n) ∧
    (∀ p q, cfg.pcrlockDirectory = some p → lockDir p <+: q → q ≠ lockDir p → (f.get q).isSome →
      ∃ g, Considers env cfg g ∧ q = measurementFile p g) := by
  obtain ⟨gens, mid, final, h⟩ := cleaned hs hf hsep hr ht hc hok
  have hDg : Distinct env cfg gens := by
    cases hl : cfg.considered env with
    | none =>
      have : gens = [] := by
        cases gens with
        | nil => rfl
        | cons g _ =>
          obtain ⟨links, _, _, hl', -⟩ := (h.considered g (by simp)).ex
          rw [hl] at hl'; cases hl'
      rw [this]; intro _ _; exact List.Pairwise.nil
    | some links => rw [h.list links hl]; exact hD links hl
  subst hfs
  refine ⟨?_, ?_, ?_⟩
  · intro p hp hne hx
    have hm := h.nixos_used hp hx
    rcases h.used.only p hm with hs' | ⟨g, -, key, n, -, -, rfl, -⟩ | ⟨l, k, hk, rfl⟩ | ⟨g, hg, pd, hpd, rfl⟩
    · exact absurd (start_nixos hsep hs' hp) hne
    · have := (List.prefix_append_right_inj cfg.esp).1 hp
      simp [lit] at this
    · obtain ⟨g, hg, key, n, data, h1, h2, h3, h4, h5⟩ := h.used.refd hDg hM hr.fault l k hk hm
      refine ⟨g, key, n, data, l, k, h.considered g hg, h1, isNameOf h2, ?_, rfl, h5, ?_⟩
      · rw [h.fileAt_entry hsep h3]; exact h4
      · obtain ⟨d, e1, e2⟩ := h.sound.present hk (by rw [← (h.same hx).1]; exact hx)
        exact ⟨d, by rw [h.fileAt_ca hsep hm]; exact e1, e2⟩
    · exfalso
      rw [show measurementFile pd g = lockDir pd ++ [g.versionTag ++ lit ".pcrlock"] by
        simp [measurementFile, lockDir]] at hp
      rcases prefix_snoc_iff.1 hp with hp | hp
      · rcases prefix_snoc_iff.1 hp with hp | hp
        · exact (hsep _ hpd).2.1 hp
        · have := congrArg List.getLast? hp
          simp [nixosDir] at this
          exact absurd this (by decide)
      · have := congrArg List.getLast? hp
        simp only [nixosDir, List.getLast?_append, List.getLast?_cons, List.getLast?_nil] at this
        have := congrArg (Option.map List.getLast?) this
        simp [lit] at this
  · intro q n hq hn hx
    obtain ⟨h1, h2, h3⟩ := h.entry_named hsep hq hn hx
    exact ⟨h1, h2, h3⟩
  · intro p q hp hq hne hx
    have hm := h.lock_used hp hq hx
    have three : ∀ {a b c : Str}, a ≠ lit "635-lanzaboote.pcrlock.d" → b ≠ lit "635-lanzaboote.pcrlock.d" →
        q = cfg.esp ++ [a, b, c] → False := by
      intro a b c ha hb e
      rw [e] at hq
      obtain ⟨x, y, e1, e2⟩ := lock_not_esp hsep hp hq
      apply hne
      rw [e, e2, List.append_assoc]
      congr 1
      match x, e1 with
      | [], e1 => simp at e1; exact absurd e1.1 ha
      | [_], e1 => simp at e1; exact absurd e1.2.1 hb
      | [_, _], e1 => simp at e1 ⊢; obtain ⟨rfl, rfl, rfl, -⟩ := e1; exact ⟨rfl, rfl, rfl⟩
      | _ :: _ :: _ :: _, e1 => simp at e1
    rcases h.used.only q hm with hs' | ⟨g, -, key, n, -, -, rfl, -⟩ | ⟨l, k, hk, rfl⟩ | ⟨g, hg, pd, hpd, rfl⟩
    · exfalso
      rcases start_root hs' with ⟨y, hy, rfl⟩ | ⟨n, rfl | rfl⟩ | ⟨pd, hpd, h' | h'⟩
      · obtain ⟨x, z, e, -⟩ := lock_not_esp hsep hp hq
        have key : ∀ y ∈ ([[], [lit "EFI"], [lit "EFI", lit "nixos"], [lit "EFI", lit "Linux"],
          [lit "EFI", lit "BOOT"], [lit "EFI", lit "systemd"], [lit "loader"],
          [lit "loader", lit "loader.conf"]] : List Path), lit "635-lanzaboote.pcrlock.d" ∉ y := by decide
        exact key y hy (by rw [e]; simp)
      · exact three (by decide) (by decide) rfl
      · exact three (by decide) (by decide) rfl
      · rw [hp] at hpd
        cases hpd
        rw [h'] at hq
        have := hq.length_le
        simp [lockDir] at this
        omega
      · rw [hp] at hpd
        cases hpd
        exact hne h'
    · exact (three (by decide) (by decide) rfl).elim
    · exact (three (by decide) (by decide) rfl).elim
    · rw [hp] at hpd
      cases hpd
      exact ⟨g, h.considered g hg, rfl⟩

/-! ### C51 -/

/-- **C51** (present). With measured boot, after a successful run that could read all bootspecs, or in
which no operation failed, every considered generation and specialisation has its measurement; garbage
collection has not removed it. -/
theorem C51_measurement_present (hs : SafeInput env cfg) (hsep : Separate cfg)
    (hok : (run env cfg (start cfg fs)).1 = .ok ())
    (hb : (run env cfg (start cfg fs)).2.broken = [] ∨ Faultless env) {g : Gen}
    (hg : Considers env cfg g) {p : Path} (hp : cfg.pcrlockDirectory = some p) :
    ((run env cfg (start cfg fs)).2.fs.get (measurementFile p g)).isSome := by
  obtain ⟨a, b, gens, final, sh⟩ := run_shape hs (measured_carried hs).all
    (start cfg fs) trivial (by simp) rfl
  have hall : g ∈ gens := by
    rcases hb with hb | hb
    · exact (sh.read hb).2 g hg
    · exact sh.faultless hb g hg
  have hC := sh.ok hok
  obtain ⟨h1, h2⟩ := hC.gens g hall p hp
  rw [sh.fs, Fs.replay_append]
  by_cases hbe : b = []
  · rw [hbe]; exact h1
  · obtain ⟨l, hl, hgc, -⟩ := sh.gc hbe
    rw [hl]
    have := kept_measurement (fs := fs) hsep sh.roots hp h2 hgc
    show ((((start cfg fs).fs.replay a).replay l).get _).isSome
    rw [this]; exact h1

/-- **C51** (exact). And if a boot entry of the generation was written by this run, the measurement is
the one of the very image that was signed for the entry, and this is the stub with the sections for the generation. -/
theorem C51_measurement_exact (hs : SafeInput env cfg) (hf : FaithfulTools env) (hsep : Separate cfg)
    (hc : Sound env cfg.esp fs)
    (hok : (run env cfg (start cfg fs)).1 = .ok ())
    (hb : (run env cfg (start cfg fs)).2.broken = [] ∨ Faultless env)
    (hT : ∀ links, cfg.considered env = some links → TagsDiffer (allOf env links)) {g : Gen}
    (hg : Considers env cfg g) {p : Path} (hp : cfg.pcrlockDirectory = some p) {key : Bytes} {n : Str}
    {data : Bytes} (hk : KeyOf env cfg.signer key)
    (hm : IsNameOf env.uni env.sha g key n)
    (hd : (run env cfg (start cfg fs)).2.fs.fileAt (entryFile cfg.esp n) = some data)
    (hnew : fs.fileAt (entryFile cfg.esp n) ≠ some data) :
    ∃ image t m, EntryImage env cfg g image ∧ SignedBy env cfg.signer image data ∧
      env.lockPe t image = some m ∧
      (run env cfg (start cfg fs)).2.fs.fileAt (measurementFile p g) = some m := by
  replace hm := hm.isMatch
  obtain ⟨a, b, gens, final, sh⟩ := run_shape hs
    ((((images_carried hs fs).and (measured_carried hs).all).and
      (used_carried hs hf hsep fs)))
    (start cfg fs) ⟨⟨trivial, trivial⟩, hc⟩
    ⟨⟨⟨(fun _ x hx => by cases hx), fun x _ key n data _ _ h => h⟩, by simp⟩, Used.start hsep fs⟩ rfl
  have hall : g ∈ gens := by
    rcases hb with hb | hb
    · exact (sh.read hb).2 g hg
    · exact sh.faultless hb g hg
  have hC := sh.ok hok
  obtain ⟨⟨hI, hMe⟩, hU⟩ := hC.gens
  obtain ⟨-, h2⟩ := hMe g hall p hp
  have hgens : TagsDiffer gens := by
    obtain ⟨links, _, _, hl, -⟩ := hg.ex
    rw [sh.list hb links hl]; exact hT links hl
  -- garbage collection
  have hgc : ∃ l, Fs.Chain (GcAny cfg final) ((start cfg fs).fs.replay a) l ∧
      (run env cfg (start cfg fs)).2.fs = ((start cfg fs).fs.replay a).replay l := by
    rw [sh.fs, Fs.replay_append]
    by_cases hbe : b = []
    · rw [hbe]; exact ⟨[], trivial, rfl⟩
    · obtain ⟨l, hl, hgc, -⟩ := sh.gc hbe
      rw [hl]; exact ⟨l, hgc, rfl⟩
  obtain ⟨l, hgc, e⟩ := hgc
  rw [e] at hd ⊢
  have hd' : ((start cfg fs).fs.replay a).fileAt (entryFile cfg.esp n) = some data := by
    rw [Fs.fileAt_eq_some] at hd ⊢
    rcases GcAny.chain_get hgc (entryFile cfg.esp n) with e | e
    · rw [← e]; exact hd
    · rw [e] at hd; cases hd
  have hmeas : ∀ {m}, ((start cfg fs).fs.replay a).fileAt (measurementFile p g) = some m →
      (((start cfg fs).fs.replay a).replay l).fileAt (measurementFile p g) = some m := by
    intro m h
    rw [Fs.fileAt_eq_some] at h ⊢
    rw [kept_measurement (fs := fs) hsep sh.roots hp h2 hgc]; exact h
  rcases hI.new hgens g hall with h | h
  · obtain ⟨key', image, out, h1, ⟨h2', h3⟩, h4, h5⟩ := h.ex
    obtain ⟨t, m, h6, h7⟩ := h5 p hp
    cases hk.unique h1
    rcases hU.old n data (isMatch_isEntry hm) hd' with h0 | ⟨g', hg', key', hk', rfl, -⟩
    · exact absurd h0 hnew
    · cases hk.unique hk'
      have htag := isMatch_tag hm (isMatch_stubName env.uni env.sha g' key cfg.tries)
      have : g' = g := by
        have hpw := List.pairwise_iff_getElem.1 hgens
        obtain ⟨i, hi, rfl⟩ := List.getElem_of_mem hall
        obtain ⟨j, hj, rfl⟩ := List.getElem_of_mem hg'
        rcases Nat.lt_trichotomy i j with h | h | h
        · exact absurd htag (hpw i j hi hj h)
        · subst h; rfl
        · exact absurd htag.symm (hpw j i hj hi h)
      subst this
      rw [h4] at hd'
      cases hd'
      exact ⟨image, t, m, h2', h3, h6, hmeas h7⟩
  · exact absurd (h key n data hk hm hd') hnew

/-! ### C55 -/

/-- **C55**. After a successful run without faults every considered generation has exactly one boot
entry. (With `C54_no_leftovers`, these are all the `nixos-` entries.) -/
theorem C55_one_entry_each (hs : SafeInput env cfg) (hf : FaithfulTools env) (hsep : Separate cfg)
    (hr : Reliable env.os) (ht : fs.Tree) (hc : Sound env cfg.esp fs) (hok : Succeeded env cfg fs)
    (hD : ∀ links, cfg.considered env = some links → Distinct env cfg (allOf env links))
    (hM : AllMeasured env cfg fs) {g : Gen} (hg : Considers env cfg g) :
    ∃ key n, KeyOf env cfg.signer key ∧ IsNameOf env.uni env.sha g key n ∧
      ((run env cfg (start cfg fs)).2.fs.fileAt (entryFile cfg.esp n)).isSome ∧
      ∀ n', IsNameOf env.uni env.sha g key n' →
        ((run env cfg (start cfg fs)).2.fs.get (entryFile cfg.esp n')).isSome → n' = n := by
  obtain ⟨gens, mid, final, h⟩ := cleaned hs hf hsep hr ht hc hok
  have hDg : Distinct env cfg gens := by
    obtain ⟨links, _, _, hl, -⟩ := hg.ex
    rw [h.list links hl]; exact hD links hl
  obtain ⟨n, key, data, kl, kh, il, ih, hk, hm, hd, -, -, -, r1, -, -⟩ := (h.inUse g (h.all g hg)).ex
  refine ⟨key, n, hk, isNameOf hm, ?_, ?_⟩
  · rw [h.fileAt_entry hsep r1, hd]; rfl
  · intro n' hm' hx
    replace hm' := hm'.isMatch
    obtain ⟨x, e, hpre, -⟩ := isMatch_isEntry (esp := cfg.esp) hm'
    cases entryFile_inj e
    have e' : entryFile cfg.esp n' = linuxDir cfg.esp ++ [n'] := by simp [entryFile, linuxDir]
    have hr' : entryFile cfg.esp n' ∈ final := by
      rw [e'] at hx ⊢
      exact h.entry_used (List.prefix_refl _) hpre hx
    exact h.used.one hDg hM hr.fault g (h.all g hg) key n' n hk hm' hm hr' r1

end Verif.Tool

namespace Verif.Tool.Sample
open Verif StubName Generation

/-! ### Examples -/

theorem reliable_good : Reliable good.os := ⟨fun _ => rfl, fun _ l => List.Perm.refl l⟩

theorem tree0 : disk0.Tree := Verif.Tool.SampleGc.tree_of (by decide +kernel)

theorem succeeded0 : Succeeded good cfg disk0 := ⟨good0_ok, good0_broken⟩

theorem considered_good : ∀ links, cfg.considered good = some links →
    Verif.Tool.allOf good links = allOf good cfg := by
  intro links h
  unfold Verif.Tool.allOf allOf
  rw [h, Option.getD_some]
  congr 1
  funext link
  cases good.bootJson link.path <;> rfl

theorem distinct0 : ∀ links, cfg.considered good = some links →
    Distinct good cfg (Verif.Tool.allOf good links) := by
  intro links h key hk
  rw [considered_good links h]
  have hk : good.store [lit "keys", lit "db.pem"] = some key := hk
  have h' : good.store [lit "keys", lit "db.pem"] = some [80, 75] := by decide
  rw [h'] at hk
  cases hk
  have key : (allOf good cfg).Pairwise fun g g' => g.spec.toplevel ≠ g'.spec.toplevel ∧
      ¬ (hashed g [80, 75] ≠ hashed g' [80, 75] ∧
        sha.hash (hashed g [80, 75]) = sha.hash (hashed g' [80, 75])) := by decide +kernel
  exact key.imp fun h => ⟨fun e => h.1 e.2.2.1, h.2⟩

theorem tags0 : ∀ links, cfg.considered good = some links →
    TagsDiffer (Verif.Tool.allOf good links) := by
  intro links h
  rw [considered_good links h]
  have key : (allOf good cfg).Pairwise fun g g' => g.versionTag ≠ g'.versionTag := by decide +kernel
  exact key

theorem measured0 : AllMeasured good cfg disk0 := by
  intro p _ g key n _ _ hm hx
  obtain ⟨d, hd⟩ := Option.isSome_iff_exists.1 hx
  exact absurd hd (no_entry (isMatch_isEntry hm.isMatch) d)

/-- The hypotheses of C39, C51, C54 and C55 can be met, by a machine with three entries to install and
with measured boot. -/
example : Consistent good cfg.esp (run good cfg (start cfg disk0)).2.fs :=
  C39_all_entries_boot safe_good (faithful _) separate reliable_good tree0 sound0 succeeded0

example (g : Gen) (hg : g ∈ allOf good cfg) :
    ((run good cfg (start cfg disk0)).2.fs.get (measurementFile [lit "var", lit "pcrlock.d"] g)).isSome :=
  C51_measurement_present safe_good separate good0_ok (Or.inl good0_broken) (considers_iff.2 hg) rfl

example (p : Path) (hp : nixosDir cfg.esp <+: p) (hne : p ≠ nixosDir cfg.esp)
    (hx : ((run good cfg (start cfg disk0)).2.fs.get p).isSome) : ∃ l h, p = caFile cfg.esp l h := by
  obtain ⟨g, key, n, data, l, h, -, -, -, -, e, -⟩ := (C54_no_leftovers safe_good (faithful _) separate
    reliable_good tree0 sound0 succeeded0 distinct0 measured0 rfl).1 p hp hne hx
  exact ⟨l, h, e⟩

/-- The left-over kernel is gone. -/
example : (disk0.get (cfg.esp ++ [lit "EFI", lit "nixos", lit "kernel-5-old.efi"])).isSome ∧
    (run good cfg (start cfg disk0)).2.fs.get
      (cfg.esp ++ [lit "EFI", lit "nixos", lit "kernel-5-old.efi"]) = none := by decide +kernel

example (g : Gen) (hg : g ∈ allOf good cfg) :
    ∃ key n, KeyOf good cfg.signer key ∧ IsNameOf good.uni good.sha g key n ∧
      ((run good cfg (start cfg disk0)).2.fs.fileAt (entryFile cfg.esp n)).isSome ∧
      ∀ n', IsNameOf good.uni good.sha g key n' →
        ((run good cfg (start cfg disk0)).2.fs.get (entryFile cfg.esp n')).isSome → n' = n :=
  C55_one_entry_each safe_good (faithful _) separate reliable_good tree0 sound0 succeeded0 distinct0
    measured0 (considers_iff.2 hg)

/-- The exact measurement: here for the entries of `spec1`. -/
example (g : Gen) (hg : g ∈ allOf good cfg) (data : Bytes)
    (hd : (run good cfg (start cfg disk0)).2.fs.fileAt
      (entryFile cfg.esp (stubName good.sha g [80, 75] 3)) = some data) :
    ∃ image t m, EntryImage good cfg g image ∧ SignedBy good cfg.signer image data ∧
      good.lockPe t image = some m ∧
      (run good cfg (start cfg disk0)).2.fs.fileAt
        (measurementFile [lit "var", lit "pcrlock.d"] g) = some m :=
  C51_measurement_exact safe_good (faithful _) separate sound0 good0_ok (Or.inl good0_broken) tags0
    (considers_iff.2 hg) rfl (key := [80, 75]) (by show good.store _ = _; decide)
    (isNameOf (isMatch_stubName _ _ _ _ _)) hd
    (no_entry (isMatch_isEntry (isMatch_stubName good.uni good.sha g [80, 75] 3)) data)

/-- The measured generation that comes first. -/
def first : Gen := (allOf good cfg)[0]'(by decide +kernel)

/-- The disk after a run, after the entry of `first` was tried once and its measurement got lost. -/
def unmeasured : Fs :=
  let f := (run good cfg (start cfg disk0)).2.fs
  let a := entryFile cfg.esp (stubPrefix sha first [80, 75] ++ lit "+3.efi")
  let b := entryFile cfg.esp (stubPrefix sha first [80, 75] ++ lit "+2-1.efi")
  (f.apply (.rename a b ((f.fileAt a).getD []))).apply
    (.unlink (measurementFile [lit "var", lit "pcrlock.d"] first))

/-- C55 needs its hypothesis about measurements: if the measurement of an installed generation is
missing, the entry is registered as in use and installed once more beside it, so that there are two. -/
theorem C55_needs_measurement : (run good cfg (start cfg unmeasured)).1 = .ok () ∧
    ((run good cfg (start cfg unmeasured)).2.fs.fileAt
      (entryFile cfg.esp (stubPrefix sha first [80, 75] ++ lit "+3.efi"))).isSome ∧
    ((run good cfg (start cfg unmeasured)).2.fs.fileAt
      (entryFile cfg.esp (stubPrefix sha first [80, 75] ++ lit "+2-1.efi"))).isSome := by
  decide +kernel

end Verif.Tool.Sample
