import Verif.Spec.Signer
import Verif.Lemmas.InstallRun
import Verif.Lemmas.Live
import Verif.Lemmas.SampleInstall
import Verif.Props.Spelling
/-!
# C80: the interface of signers
-/
namespace Verif.Tool
open Verif

variable {env : Env} {α β : Type}

/-! ### Reading only -/
namespace OnlyReads

theorem pure (a : α) : OnlyReads (Pure.pure a : M α) := fun s => ⟨s.tick, rfl⟩
theorem throw : OnlyReads (RM.throw () : M α) := fun s => ⟨s.tick, rfl⟩
theorem panic : OnlyReads (RM.panic : M α) := fun s => ⟨s.tick, rfl⟩
theorem next : OnlyReads Tool.next := fun s => ⟨s.tick + 1, rfl⟩
theorem getFs : OnlyReads Tool.getFs := fun s => ⟨s.tick, rfl⟩

theorem bind {m : M α} {f : α → M β} (h : OnlyReads m) (hf : ∀ a, OnlyReads (f a)) :
    OnlyReads (m >>= f) := fun s => by
  rw [RM.bind_run]
  obtain ⟨t, ht⟩ := h s
  rcases hm : m s with ⟨r, s'⟩
  rw [hm] at ht
  have hst : s' = { s with tick := t } := ht
  cases r with
  | ok a =>
    obtain ⟨t', ht'⟩ := hf a s'
    exact ⟨t', ht'.trans (by rw [hst])⟩
  | err e => exact ⟨t, ht⟩
  | panic => exact ⟨t, ht⟩

theorem require (b : Bool) : OnlyReads (Tool.require b) := by
  cases b
  · exact throw
  · exact pure _
theorem faulty (os : Os) : OnlyReads (Tool.faulty os) := bind next fun _ => pure _
theorem guarded (os : Os) : OnlyReads (Tool.guarded os) := bind (faulty os) fun _ => require _
theorem ofOption (o : Option α) : OnlyReads (Tool.ofOption o) := by
  cases o
  · exact throw
  · exact pure _
theorem ofRes (o : Res Unit α) : OnlyReads (Tool.ofRes o) := by
  cases o
  · exact pure _
  · exact throw
  · exact panic
theorem readSrc (env : Env) (src : Src) : OnlyReads (Tool.readSrc env src) :=
  bind (guarded _) fun _ => ofOption _
theorem hashSrc (env : Env) (src : Src) : OnlyReads (Tool.hashSrc env src) :=
  bind (readSrc _ _) fun _ => pure _
theorem writeSecureFile (env : Env) (d : Bytes) : OnlyReads (Tool.writeSecureFile env d) :=
  bind (guarded _) fun _ => pure _
theorem fileSize (env : Env) (d : Bytes) : OnlyReads (Tool.fileSize env d) :=
  bind (guarded _) fun _ => pure _
theorem wrapInPe (env : Env) (d : Bytes) (l : List Added) : OnlyReads (Tool.wrapInPe env d l) :=
  bind (guarded _) fun _ => bind next fun _ => ofOption _
theorem lanzabooteImage (env : Env) (p : StubParameters) : OnlyReads (Tool.lanzabooteImage env p) := by
  unfold Tool.lanzabooteImage
  repeat' (first | exact writeSecureFile _ _ | exact hashSrc _ _ | exact readSrc _ _ |
    exact ofRes _ | exact fileSize _ _ | exact wrapInPe _ _ _ | refine bind ?_ fun _ => ?_)
theorem signTemp (env : Env) (src : Src) (pub priv : Path) : OnlyReads (Tool.signTemp env src pub priv) :=
  bind (readSrc _ _) fun _ => bind next fun _ => bind (ofOption _) fun _ => writeSecureFile _ _

end OnlyReads

/-- **C80** (no traces). Signing into memory, assembling and signing a stub, and verifying bytes or a file
change nothing on the disk, whether they succeed, fail or panic. -/
theorem C80_only_reads (signer : Signer) (p : Path) (params : StubParameters) (d : Bytes) :
    OnlyReads (signer.signStorePath env p) ∧ OnlyReads (signer.buildAndSignStub env params) ∧
      OnlyReads (signer.verify env d) ∧ OnlyReads (signer.verifyPath env p) ∧
      OnlyReads (signer.getPublicKey env) := by
  cases signer with
  | empty =>
    exact ⟨.readSrc _ _, .bind (.guarded _) fun _ => .bind (.lanzabooteImage _ _) fun _ => .readSrc _ _,
      .pure _, .pure _, .pure _⟩
  | «local» pub priv =>
    refine ⟨.bind (.guarded _) fun _ => .bind (.signTemp _ _ _ _) fun _ => .readSrc _ _,
      .bind (.guarded _) fun _ => .bind (.lanzabooteImage _ _) fun _ => .bind (.signTemp _ _ _ _) fun _ =>
        .readSrc _ _,
      .bind (.guarded _) fun _ => .bind (.writeSecureFile _ _) fun _ => .bind (.guarded _) fun _ =>
        .bind (.faulty _) fun _ => .pure _,
      .bind (.guarded _) fun _ => .bind (.faulty _) fun _ => .bind .getFs fun fs => ?_, .readSrc _ _⟩
    cases fs.fileAt p <;> exact .pure _

/-! ### What is returned -/

/-- If `m` returns a value, it is one of these. -/
def Returns (m : M α) (Q : α → Prop) : Prop := ∀ s a, (m s).1 = .ok a → Q a

namespace Returns

theorem pure {a : α} {Q : α → Prop} (h : Q a) : Returns (Pure.pure a : M α) Q := by
  intro s b e
  cases e
  exact h

theorem bind {m : M α} {f : α → M β} {Q : α → Prop} {R : β → Prop} (h : Returns m Q)
    (hf : ∀ a, Q a → Returns (f a) R) : Returns (m >>= f) R := by
  intro s b e
  rw [RM.bind_run] at e
  have := h s
  rcases hm : m s with ⟨r, s'⟩
  rw [hm] at this
  simp only [hm] at e
  cases r with
  | ok a => exact hf a (this a rfl) s' b e
  | err e' => cases e
  | panic => cases e

theorem any (m : M α) : Returns m fun _ => True := fun _ _ _ => trivial

theorem ofOption (o : Option α) : Returns (Tool.ofOption o) fun a => o = some a := by
  cases o with
  | none => intro s a e; cases e
  | some x => exact pure rfl

theorem readSrc (env : Env) (src : Src) : Returns (Tool.readSrc env src) fun d => env.content src = some d :=
  bind (any _) fun _ _ => ofOption _

theorem writeSecureFile (env : Env) (d : Bytes) : Returns (Tool.writeSecureFile env d) fun x => x = d :=
  bind (any _) fun _ _ => pure rfl

theorem readTemp {d : Bytes} {Q : Bytes → Prop} (h : Q d) : Returns (Tool.readSrc env (.temp d)) Q :=
  fun s a e => by
    have := readSrc env (.temp d) s a e
    cases this
    exact h

theorem signTemp (env : Env) (src : Src) (pub priv : Path) : Returns (Tool.signTemp env src pub priv) fun out =>
    ∃ d, env.content src = some d ∧ SignedBy env (.local pub priv) d out :=
  bind (readSrc _ _) fun d hd => bind (any _) fun t _ => bind (ofOption _) fun o ho s a e => by
    have := writeSecureFile env o s a e
    subst this
    exact ⟨d, hd, t, ho⟩

end Returns

/-- **C80** (signed contents). What signing a store path returns is the signed content of that path, or a
copy of it without keys. -/
theorem C80_sign_store_path {signer : Signer} {p : Path} {out : Bytes} {s : State}
    (h : (signer.signStorePath env p s).1 = .ok out) :
    ∃ d, env.store p = some d ∧ SignedBy env signer d out := by
  cases signer with
  | empty => exact ⟨out, Returns.readSrc env (.store p) s out h, rfl⟩
  | «local» pub priv =>
    exact Returns.bind (Returns.any _) (fun _ _ => Returns.bind (Returns.signTemp env (.store p) pub priv)
      fun d hd => Returns.readTemp hd) s out h

theorem lanzabooteImage_returns (env : Env) (p : StubParameters) :
    Returns (lanzabooteImage env p) fun image => ∃ kernel initrd stub t added,
      env.store p.kernelStorePath = some kernel ∧ env.content p.initrdStorePath = some initrd ∧
      env.store p.lanzabooteStorePath = some stub ∧ env.objcopy t stub added = some image ∧
      added.map (fun s => (s.name, s.content)) = stubContents env p kernel initrd := by
  intro s image h
  have tr := lanzabooteImage_triple env p (A := fun _ _ => True) (P := fun _ => True)
    (fun _ _ _ => trivial) s trivial
  obtain ⟨-, kd, id, stub, offset, t, h1, h2, h3, -, h5⟩ := tr.post image h
  refine ⟨kd, id, stub, t, _, h1, h2, h3, h5, ?_⟩
  unfold stubContents
  rw [← Spelling.joinWith_eq]
  rfl

/-- **C80** (signed stubs). What assembling and signing a stub returns is signed, and it has the sections
for the given command line, os-release, paths, kernel and initrd. -/
theorem C80_build_and_sign_stub (ht : FaithfulTools env) {signer : Signer} {p : StubParameters} {out : Bytes}
    {s : State} (h : (signer.buildAndSignStub env p s).1 = .ok out) :
    ∃ kernel initrd image, env.store p.kernelStorePath = some kernel ∧
      env.content p.initrdStorePath = some initrd ∧ SignedBy env signer image out ∧
      ∀ name d, (name, d) ∈ stubContents env p kernel initrd → FileSection env out name d := by
  have sections : ∀ {image : Bytes}, (∃ kernel initrd stub t added,
      env.store p.kernelStorePath = some kernel ∧ env.content p.initrdStorePath = some initrd ∧
      env.store p.lanzabooteStorePath = some stub ∧ env.objcopy t stub added = some image ∧
      added.map (fun s => (s.name, s.content)) = stubContents env p kernel initrd) →
      ∃ kernel initrd, env.store p.kernelStorePath = some kernel ∧
        env.content p.initrdStorePath = some initrd ∧
        ∀ name d, (name, d) ∈ stubContents env p kernel initrd → FileSection env image name d := by
    rintro image ⟨kernel, initrd, stub, t, added, h1, h2, h3, h4, h5⟩
    refine ⟨kernel, initrd, h1, h2, fun name d hm => ?_⟩
    have hn : (added.map (·.name)).Nodup := by
      have e : added.map (·.name) = (stubContents env p kernel initrd).map (·.1) := by
        rw [← h5, List.map_map]; rfl
      rw [e]
      unfold stubContents
      simp only [List.map_cons, List.map_nil]
      decide
    rw [← h5] at hm
    obtain ⟨a, ha, e⟩ := List.mem_map.1 hm
    simp only [Prod.mk.injEq] at e
    rw [← e.1, ← e.2]
    exact ht.objcopy t stub added image h4 hn a ha
  revert h
  revert out s
  suffices hr : Returns (signer.buildAndSignStub env p) (fun out => ∃ kernel initrd image,
      env.store p.kernelStorePath = some kernel ∧
      env.content p.initrdStorePath = some initrd ∧ SignedBy env signer image out ∧
      ∀ name d, (name, d) ∈ stubContents env p kernel initrd → FileSection env out name d) from
    fun {out s} h => hr s out h
  cases signer with
  | empty =>
    refine Returns.bind (Returns.any _) fun _ _ => Returns.bind (lanzabooteImage_returns env p)
      fun image hi => Returns.readTemp ?_
    obtain ⟨kernel, initrd, h1, h2, h3⟩ := sections hi
    exact ⟨kernel, initrd, image, h1, h2, rfl, h3⟩
  | «local» pub priv =>
    refine Returns.bind (Returns.any _) fun _ _ => Returns.bind (lanzabooteImage_returns env p)
      fun image hi => Returns.bind (Returns.signTemp env (.temp image) pub priv) fun o ho =>
        Returns.readTemp ?_
    obtain ⟨kernel, initrd, h1, h2, h3⟩ := sections hi
    obtain ⟨d, hd, t, hs⟩ := ho
    cases hd
    exact ⟨kernel, initrd, image, h1, h2, ⟨t, hs⟩, fun name d hm => ht.sbsign t _ _ _ _ hs name d (h3 name d hm)⟩

/-- **C80** (verifying). Neither way of verifying ever says yes to what is not accepted, whatever fails. -/
theorem C80_verify_sound {signer : Signer} {s : State} :
    (∀ d, (signer.verify env d s).1 = .ok true → Accepts env signer d) ∧
    (∀ p d, s.fs.fileAt p = some d → (signer.verifyPath env p s).1 = .ok true → Accepts env signer d) ∧
    (∀ pub priv p, s.fs.fileAt p = none → signer = .local pub priv →
      (signer.verifyPath env p s).1 ≠ .ok true) := by
  cases signer with
  | empty => exact ⟨fun _ _ => trivial, fun _ _ _ _ => trivial, fun _ _ _ _ h => by cases h⟩
  | «local» pub priv =>
    refine ⟨fun d h => ?_, fun p d hd h => ?_, fun pub' priv' p hd _ h => ?_⟩
    · have : Returns (Signer.verify env d (.local pub priv)) fun b => b = true → env.sbverify pub d = true :=
        Returns.bind (Returns.any _) fun _ _ => Returns.bind (Returns.writeSecureFile _ _) fun d' hd' =>
          Returns.bind (Returns.any _) fun _ _ => Returns.bind (Returns.any _) fun f _ =>
            Returns.pure fun h => by rw [← hd']; simp at h; exact h.2
      exact this s true h rfl
    · cases hf : env.os.fault s.tick with
      | true => simp [Signer.verifyPath, guarded, faulty, next, require, hf] at h
      | false =>
        simp [Signer.verifyPath, guarded, faulty, next, getFs, require, hf, hd] at h
        exact h.2
    · cases hf : env.os.fault s.tick with
      | true => simp [Signer.verifyPath, guarded, faulty, next, require, hf] at h
      | false => simp [Signer.verifyPath, guarded, faulty, next, getFs, require, hf, hd] at h

theorem answers_writeSecureFile (hf : Faultless env) (s : State) (d : Bytes) :
    Answers (writeSecureFile env d) s d :=
  Answers.bind (answers_guarded hf s) fun t => ⟨t, rfl⟩

/-- If nothing fails: verifying bytes, and verifying a file that contains them, give the same answer, namely
whether they are accepted. -/
theorem verify_answers (hf : Faultless env) (signer : Signer) (s : State) (d : Bytes) :
    ∃ b, Answers (signer.verify env d) s b ∧ (b = true ↔ Accepts env signer d) ∧
      ∀ p, s.fs.fileAt p = some d → Answers (signer.verifyPath env p) s b := by
  cases signer with
  | empty => exact ⟨true, .pure _ _, by simp [Accepts], fun _ _ => .pure _ _⟩
  | «local» pub priv =>
    refine ⟨env.sbverify pub d, ?_, .rfl, fun p hp => ?_⟩
    · refine Answers.bind (answers_guarded hf s) fun t => Answers.bind (answers_writeSecureFile hf _ d) fun t =>
        Answers.bind (answers_guarded hf _) fun t => Answers.bind (answers_faulty hf _) fun t => ?_
      exact ⟨t, by simp⟩
    · refine Answers.bind (answers_guarded hf s) fun t => Answers.bind (answers_faulty hf _) fun t => ⟨t, ?_⟩
      simp [getFs, hp]

/-- **C80** (verifying, exactly). If nothing fails, both ways of verifying say yes exactly to what is
accepted. -/
theorem C80_verify (hf : Faultless env) (signer : Signer) (s : State) (d : Bytes) :
    ((signer.verify env d s).1 = .ok true ↔ Accepts env signer d) ∧
    ((signer.verify env d s).1 = .ok false ↔ ¬ Accepts env signer d) ∧
    ∀ p, s.fs.fileAt p = some d → (signer.verifyPath env p s).1 = (signer.verify env d s).1 := by
  obtain ⟨b, ⟨t, h1⟩, h2, h3⟩ := verify_answers hf signer s d
  rw [h1, ← h2]
  refine ⟨by simp, by cases b <;> simp, fun p hp => ?_⟩
  obtain ⟨t, h⟩ := h3 p hp
  rw [h]

theorem SignedBy.accepted (hv : SignaturesVerify env) {signer : Signer} {d out : Bytes}
    (h : SignedBy env signer d out) : Accepts env signer out := by
  cases signer with
  | empty => trivial
  | «local» pub priv =>
    obtain ⟨t, h⟩ := h
    exact hv t priv pub d out h

theorem live_signTemp (hf : Faultless env) {src : Src} {d : Bytes} {pub priv : Path}
    (hd : env.content src = some d) (hs : Signs env (.local pub priv) d) (f : Fs) :
    Live (signTemp env src pub priv >>= fun d => readSrc env (.temp d)) f fun _ _ => True := by
  refine Live.bind (Q := fun _ _ => True) ?_ fun o _ _ =>
    (Live.of_answers fun s _ => answers_readSrc (src := .temp o) hf s rfl).mono fun _ _ _ => trivial
  refine .readSrc hf hd (.next fun t => ?_)
  obtain ⟨out, ho⟩ := Option.isSome_iff_exists.1 (hs pub priv rfl t)
  exact .ofOption ho ((Live.of_answers fun s _ => answers_writeSecureFile hf s out).mono
    fun _ _ _ => trivial)

/-- **C80** (signing works). If nothing fails and sbsign takes the content, signing a store path succeeds. -/
theorem C80_signing_succeeds (hf : Faultless env) {signer : Signer} {p : Path} {d : Bytes}
    (hd : env.store p = some d) (hs : Signs env signer d) (s : State) :
    ∃ out, (signer.signStorePath env p s).1 = .ok out := by
  suffices h : Live (signer.signStorePath env p) s.fs fun _ _ => True by
    obtain ⟨a, s', h, -⟩ := h s rfl
    exact ⟨a, by rw [h]⟩
  cases signer with
  | empty =>
    exact (Live.of_answers fun s _ => answers_readSrc (src := .store p) hf s hd).mono fun _ _ _ => trivial
  | «local» pub priv => exact .guarded hf (live_signTemp (src := .store p) hf hd hs _)

/-- **C80** (making stubs works). If nothing fails, kernel and initrd can be read, the stub is a PE image
with sections, and objcopy and sbsign take what they are given, then assembling and signing a stub succeeds. -/
theorem C80_stub_succeeds (hf : Faultless env) {signer : Signer} {p : StubParameters}
    {kernel initrd stub : Bytes} {pe : Stub.PE} (hk : env.store p.kernelStorePath = some kernel)
    (hi : env.content p.initrdStorePath = some initrd) (hs : env.store p.lanzabooteStorePath = some stub)
    (hpe : env.parse stub = some pe) (hne : pe.sections ≠ []) (hb : (env.imageBase stub).isSome)
    (ho : ∀ added, added.map (fun s => (s.name, s.content)) = stubContents env p kernel initrd →
      ∀ t, ∃ image, env.objcopy t stub added = some image ∧ Signs env signer image) (s : State) :
    ∃ out, (signer.buildAndSignStub env p s).1 = .ok out := by
  obtain ⟨base, hb⟩ := Option.isSome_iff_exists.1 hb
  obtain ⟨last, hlast⟩ : ∃ l, pe.sections.getLast? = some l := by
    cases h : pe.sections.getLast? with
    | none => exact absurd (List.getLast?_eq_none_iff.1 h) hne
    | some l => exact ⟨l, rfl⟩
  have hoff : stubOffset env stub = .ok ((last.virtualSize + last.virtualAddress).toUInt64 + base) := by
    simp [stubOffset, hpe, hb, hlast]
  have hl : ∀ f, Live (lanzabooteImage env p) f fun image _ => Signs env signer image := by
    intro f
    unfold lanzabooteImage
    refine .writeSecureFile hf _ (.writeSecureFile hf _ (.hashSrc (src := .store _) hf hk (.writeSecureFile hf _
      (.writeSecureFile hf _ (.hashSrc hf hi (.writeSecureFile hf _ (.writeSecureFile hf _
      (.readSrc (src := .store _) hf hs ?_))))))))
    refine Live.after (a := _) (fun s _ => ⟨s.tick, by rw [hoff]; rfl⟩) ?_
    refine .fileSize hf _ (.fileSize hf _ (.fileSize hf _ (.fileSize hf _ (.fileSize hf _
      (.readSrc (src := .store _) hf hs ?_)))))
    unfold wrapInPe
    refine .guarded hf (.next fun t => ?_)
    have hc : ∀ offset sizes, (stubSections offset p.osReleaseContents (utf8 (joinWith [' '] p.kernelCmdline))
        (utf8 p.initrdPathAtEsp) (utf8 p.kernelPathAtEsp) (env.sha.hash initrd) (env.sha.hash kernel)
        sizes).map (fun s => (s.name, s.content)) = stubContents env p kernel initrd := by
      intro offset sizes
      unfold stubContents
      rw [← Spelling.joinWith_eq]
      rfl
    obtain ⟨image, h1, h2⟩ := ho _ (hc ((last.virtualSize + last.virtualAddress).toUInt64 + base)
      [UInt64.ofNat p.osReleaseContents.length, UInt64.ofNat (utf8 (joinWith [' '] p.kernelCmdline)).length,
       UInt64.ofNat (utf8 p.initrdPathAtEsp).length, UInt64.ofNat (utf8 p.kernelPathAtEsp).length,
       UInt64.ofNat (env.sha.hash initrd).length]) t
    rw [h1]
    exact .pure h2
  suffices h : Live (signer.buildAndSignStub env p) s.fs fun _ _ => True by
    obtain ⟨a, s', h, -⟩ := h s rfl
    exact ⟨a, by rw [h]⟩
  cases signer with
  | empty =>
    exact .guarded hf ((hl _).bind fun image f _ =>
      (Live.of_answers fun s _ => answers_readSrc (src := .temp image) hf s rfl).mono fun _ _ _ => trivial)
  | «local» pub priv =>
    exact .guarded hf ((hl _).bind fun image f h => live_signTemp (src := .temp image) hf rfl h _)

/-! ### Copying -/

/-- `m` leaves what is at `q` as it is. -/
def Spares (q : Path) (m : M α) : Prop := ∀ s, (m s).2.fs.get q = s.fs.get q

namespace Spares
variable {q : Path}

theorem of_onlyReads {m : M α} (h : OnlyReads m) : Spares q m := fun s => by
  obtain ⟨t, ht⟩ := h s
  rw [ht]

theorem bind {m : M α} {f : α → M β} (h : Spares q m) (hf : ∀ a, Spares q (f a)) : Spares q (m >>= f) := by
  intro s
  rw [RM.bind_run]
  have := h s
  rcases hm : m s with ⟨r, s'⟩
  rw [hm] at this
  cases r with
  | ok a => exact (hf a s').trans this
  | err e => exact this
  | panic => exact this

theorem create {p : Path} (h : q ≠ p) : Spares q (Tool.change (.create p)) := fun s => by
  show (s.fs.apply (.create p)).get q = _
  exact Fs.get_put_ne _ _ h
theorem write {p : Path} {d : Bytes} (h : q ≠ p) : Spares q (Tool.change (.write p d)) := fun s => by
  show (s.fs.apply (.write p d)).get q = _
  exact Fs.get_put_ne _ _ h
theorem chmod {p : Path} {n : Nat} : Spares q (Tool.change (.chmod p n)) := fun _ => rfl

theorem createFile {p : Path} (os : Os) (h : q ≠ p) : Spares q (Tool.createFile os p) :=
  bind (of_onlyReads (.guarded _)) fun _ => bind (of_onlyReads .getFs) fun _ =>
    bind (of_onlyReads (.require _)) fun _ => create h

theorem writePartials {p : Path} (h : q ≠ p) : (l : List Bytes) → Spares q (Tool.writePartials p l)
  | [] => fun _ => rfl
  | _ :: l => bind (write h) fun _ => writePartials h l

theorem writeFile {p : Path} {d : Bytes} (os : Os) (h : q ≠ p) : Spares q (Tool.writeFile os p d) :=
  bind (of_onlyReads .next) fun _ => bind (writePartials h _) fun _ => bind (of_onlyReads (.guarded _)) fun _ =>
    write h

theorem writeOut {p : Path} {d : Bytes} (h : q ≠ p) : Spares q (Tool.writeOut env p d) :=
  bind (createFile _ h) fun _ => writeFile _ h

theorem signAndCopy {p : Path} {src : Src} (h : q ≠ p) (signer : Signer) :
    Spares q (signer.signAndCopy env src p) := by
  cases signer with
  | empty =>
    exact bind (of_onlyReads (.readSrc _ _)) fun _ => bind (createFile _ h) fun _ =>
      bind (of_onlyReads (.guarded _)) fun _ => bind chmod fun _ => writeFile _ h
  | «local» pub priv =>
    refine bind (of_onlyReads (.readSrc _ _)) fun _ => bind (of_onlyReads .next) fun _ => ?_
    split
    · exact writeOut h
    · exact bind (bind (createFile _ h) fun _ => bind (of_onlyReads .next) fun _ => writePartials h _)
        fun _ => of_onlyReads .throw

end Spares

/-- **C80** (signing and copying). When signing and copying succeeds, the target is a file with the signed
content of the source, which the signer accepts. It never touches any other path. -/
theorem C80_sign_and_copy (signer : Signer) (src : Src) (to : Path) (s : State) :
    ((signer.signAndCopy env src to s).1 = .ok () →
      ∃ d out, env.content src = some d ∧ SignedBy env signer d out ∧
        (signer.signAndCopy env src to s).2.fs.fileAt to = some out) ∧
    ∀ q, q ≠ to → (signer.signAndCopy env src to s).2.fs.get q = s.fs.get q :=
  ⟨(signAndCopy_triple env signer src to s trivial).post (), fun _ h => Spares.signAndCopy h signer s⟩

/-- **C80** (signed, therefore verified). Whatever one of the ways of signing has made, both ways of
verifying say yes to it. -/
theorem C80_signed_verifies (hf : Faultless env) (ht : FaithfulTools env) (hv : SignaturesVerify env)
    {signer : Signer} {out : Bytes}
    (h : (∃ p s, (signer.signStorePath env p s).1 = .ok out) ∨
      (∃ params s, (signer.buildAndSignStub env params s).1 = .ok out) ∨
      ∃ src to s, (signer.signAndCopy env src to s).1 = .ok () ∧
        (signer.signAndCopy env src to s).2.fs.fileAt to = some out) (s : State) :
    (signer.verify env out s).1 = .ok true ∧
      ∀ p, s.fs.fileAt p = some out → (signer.verifyPath env p s).1 = .ok true := by
  have ha : Accepts env signer out := by
    rcases h with ⟨p, s, h⟩ | ⟨params, s, h⟩ | ⟨src, to, s, h1, h2⟩
    · obtain ⟨d, -, h⟩ := C80_sign_store_path h
      exact h.accepted hv
    · obtain ⟨-, -, image, -, -, h, -⟩ := C80_build_and_sign_stub ht h
      exact h.accepted hv
    · obtain ⟨d, o, -, h, e⟩ := (C80_sign_and_copy signer src to s).1 h1
      rw [h2] at e
      cases e
      exact h.accepted hv
  obtain ⟨h1, -, h3⟩ := C80_verify hf signer s out
  exact ⟨h1.2 ha, fun p hp => (h3 p hp).trans (h1.2 ha)⟩

/-- **C80** (other signers). A signer that only provides signing of store paths copies exactly what that
returns; verifying a file through verifying bytes gives the same answer as on the bytes, and panics if the
file cannot be read. -/
theorem C80_default_methods (sign : M Bytes) (hs : OnlyReads sign) (verify : Bytes → M Bool) (p : Path)
    (s : State) :
    ((defaultSignAndCopy env sign p s).1 = .ok () →
      ∃ out, (sign s).1 = .ok out ∧ (defaultSignAndCopy env sign p s).2.fs.fileAt p = some out) ∧
    (∀ q, q ≠ p → (defaultSignAndCopy env sign p s).2.fs.get q = s.fs.get q) ∧
    (Faultless env → ∀ d, s.fs.fileAt p = some d →
      ∃ t, defaultVerifyPath env verify p s = verify d { s with tick := t }) ∧
    (s.fs.fileAt p = none → (defaultVerifyPath env verify p s).1 = .panic) := by
  refine ⟨fun h => ?_, fun q hq => ?_, fun hf d hd => ?_, fun hn => ?_⟩
  · unfold defaultSignAndCopy at h ⊢
    rw [RM.bind_run] at h ⊢
    rcases hm : sign s with ⟨r, s'⟩
    simp only [hm] at h
    cases r with
    | ok out => exact ⟨out, rfl, (writeOut_triple env p out s' trivial).post () h⟩
    | err e => cases h
    | panic => cases h
  · exact Spares.bind (Spares.of_onlyReads hs) (fun _ => Spares.writeOut hq) s
  · obtain ⟨t, h⟩ := answers_readFs hf s hd
    exact ⟨t, by simp [defaultVerifyPath, RM.attempt, h, expectSome]⟩
  · have e : (readFs env.os p s).1 = .err () := by
      cases hf : env.os.fault s.tick with
      | true => simp [readFs, guarded, faulty, next, require, hf]
      | false => simp [readFs, guarded, faulty, next, getFs, require, hf, hn]
    rcases hm : readFs env.os p s with ⟨r, s'⟩
    rw [hm] at e
    have e : r = .err () := e
    simp [defaultVerifyPath, RM.attempt, hm, e, expectSome]

/-! ### Examples -/

section Example
open Verif.Tool.Sample

/-- A stub for the first generation. -/
def sampleParameters : StubParameters where
  lanzabooteStorePath := cfg.lanzabooteStub
  kernelCmdline := [lit "init=/x", lit "quiet"]
  osReleaseContents := utf8 (lit "ID=x")
  kernelStorePath := spec1.kernel
  initrdStorePath := .store (storePath "aaa-initrd")
  kernelPathAtEsp := lit "k"
  initrdPathAtEsp := lit "i"

def sampleState : State := start cfg disk
def sampleTo : Path := [lit "boot", lit "EFI", lit "x.efi"]

/-- Reading only: with and without faults. -/
example : OnlyReads (cfg.signer.buildAndSignStub good sampleParameters) ∧
    OnlyReads (cfg.signer.verify (Sample.env fun t => t = 2) [1]) :=
  ⟨(C80_only_reads cfg.signer [] sampleParameters []).2.1,
   (C80_only_reads cfg.signer [] sampleParameters [1]).2.2.1⟩

/-- A store path is signed. -/
example : (cfg.signer.signStorePath good (loaderSource cfg) sampleState).1 = .ok (loader ++ [83]) := by
  decide +kernel

theorem sample_stub : ∃ out, (cfg.signer.buildAndSignStub good sampleParameters sampleState).1 = .ok out ∧
    out.getLast? = some 83 := by
  have h : (match (cfg.signer.buildAndSignStub good sampleParameters sampleState).1 with
    | .ok out => decide (out.getLast? = some 83)
    | _ => false) = true := by decide +kernel
  revert h
  cases (cfg.signer.buildAndSignStub good sampleParameters sampleState).1 with
  | ok out => exact fun h => ⟨out, rfl, by simpa using h⟩
  | err e => exact fun h => by cases h
  | panic => exact fun h => by cases h

/-- The command line is in the signed stub. -/
example : ∃ out, (cfg.signer.buildAndSignStub good sampleParameters sampleState).1 = .ok out ∧
    FileSection good out (lit ".cmdline") (utf8 (lit "init=/x quiet")) := by
  obtain ⟨out, h, -⟩ := sample_stub
  obtain ⟨k, i, -, -, -, -, hs⟩ := C80_build_and_sign_stub (faithful fun _ => false) h
  exact ⟨out, h, hs _ _ (List.mem_cons_of_mem _ (List.mem_cons.2 (.inl (by decide +kernel))))⟩

/-- An unsigned file is refused, a signed one is not. -/
example : (cfg.signer.verify good loader sampleState).1 = .ok false ∧
    (cfg.signer.verify good (loader ++ [83]) sampleState).1 = .ok true ∧
    (cfg.signer.verifyPath good sampleTo sampleState).1 = .ok false := by decide +kernel

/-- A fault hides an accepted file, and never the other way round. -/
example : (cfg.signer.verify (Sample.env fun t => t = 3) (loader ++ [83]) sampleState).1 = .ok false ∧
    (cfg.signer.verify (Sample.env fun t => t = 2) (loader ++ [83]) sampleState).1 = .err () := by decide +kernel

/-- Signing and copying succeeds, also when the first attempt at a target was cut short. -/
example : (cfg.signer.signAndCopy good (.store (loaderSource cfg)) sampleTo sampleState).1 = .ok () ∧
    (cfg.signer.signAndCopy good (.store (loaderSource cfg)) sampleTo sampleState).2.fs.fileAt sampleTo =
      some (loader ++ [83]) := by decide +kernel

theorem good_verify : SignaturesVerify good := by
  intro t priv pub d out h
  have h : sbsign d = some out := h
  unfold sbsign at h
  split at h
  · cases h
    show decide ((d ++ [83]).getLast? = some 83) = true
    simp
  · cases h

example : (cfg.signer.verify good (loader ++ [83]) sampleState).1 = .ok true :=
  (C80_signed_verifies (fun _ => rfl) (faithful fun _ => false) good_verify
    (.inl ⟨loaderSource cfg, sampleState, by decide +kernel⟩) sampleState).1

example : ∃ out, (cfg.signer.signStorePath good (loaderSource cfg) sampleState).1 = .ok out :=
  C80_signing_succeeds (d := loader) (fun _ => rfl) (by decide +kernel)
    (fun _ _ _ _ => by show (sbsign loader).isSome = true; decide +kernel) sampleState

/-- Stubs are made: without a key, with an objcopy that takes everything. -/
example : ∃ out, (Signer.empty.buildAndSignStub { good with objcopy := fun _ d _ => some d }
    sampleParameters sampleState).1 = .ok out := by
  have hp : ∃ pe, parse stub = some pe ∧ pe.sections ≠ [] := by
    have h : (match parse stub with | some pe => decide (pe.sections ≠ []) | none => false) = true := by
      decide +kernel
    revert h
    cases parse stub with
    | none => exact fun h => by cases h
    | some pe => exact fun h => ⟨pe, rfl, by simpa using h⟩
  obtain ⟨pe, h1, h2⟩ := hp
  exact C80_stub_succeeds (kernel := kernel1) (initrd := initrd1) (stub := stub) (fun _ => rfl)
    (by decide +kernel) (by decide +kernel) (by decide +kernel) h1 h2 rfl
    (fun added _ _ => ⟨stub, rfl, fun _ _ h => by cases h⟩) sampleState

/-- The methods an implementation inherits. -/
example : (defaultSignAndCopy good (cfg.signer.signStorePath good (loaderSource cfg)) sampleTo sampleState).1 =
      .ok () ∧
    (defaultVerifyPath good (fun d => cfg.signer.verify good d) [lit "boot", lit "missing"] sampleState).1 =
      .panic ∧
    (defaultVerifyPath good (fun d => cfg.signer.verify good d)
      [lit "boot", lit "EFI", lit "Linux", lit "arch.efi"] sampleState).1 = .ok false := by decide +kernel

end Example

end Verif.Tool
