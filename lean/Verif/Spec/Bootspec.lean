import Verif.Model.Bootspec
/-!
# What a bootspec document says

Written from the bootspec specification (RFC 125) and lanzaboote's documentation of its extension.
-/
namespace Verif.Bootspec.Spec
open Verif Verif.Bootspec Generation

/-- The extension of lanzaboote with this sort key. -/
inductive SaysSortKey (e : Extensions) (k : Str) : Prop
  | object {m : List (Str × Json)} (h : (lit "org.nix-community.lanzaboote", .obj m) ∈ e)
      (hk : (lit "sort_key", .str k) ∈ m)
  | array (h : (lit "org.nix-community.lanzaboote", .arr [.str k]) ∈ e)

/-- The sort key in force: the one the extensions say, `lanzaboote` if they say none. -/
def SortKey (e : Extensions) (k : Str) : Prop :=
  SaysSortKey e k ∨ (∀ k', ¬ SaysSortKey e k') ∧ k = lit "lanzaboote"

/-- No name occurs twice, in any object on the way to the sort key. -/
structure ProperKeys (e : Extensions) : Prop where
  extensions : (e.map (·.1)).Nodup
  members : ∀ n m, (n, .obj m) ∈ e → (m.map (·.1)).Nodup

/-- Documents in which no name occurs twice in an object. -/
structure ProperDocument (d : Document) : Prop where
  main : ProperKeys d.extensions
  specialisations : ∀ f ss, d.generation = some (f, ss) → ∀ n f' nested e,
    (n, Specialisation.mk f' nested e) ∈ ss → ProperKeys e

/-- `g` has these fields and the sort key of these extensions. -/
structure Has (g : Gen) (f : Fields) (e : Extensions) : Prop where
  label : g.spec.label = f.label
  kernel : g.spec.kernel = f.kernel
  kernelParams : g.spec.kernelParams = f.kernelParams
  init : g.spec.init = f.init
  initrd : g.spec.initrd = f.initrd
  initrdSecrets : g.spec.initrdSecrets = f.initrdSecrets
  toplevel : g.spec.toplevel = f.toplevel
  sortKey : ∃ k, g.spec.sortKey = some k ∧ SortKey e k

/-- The document describes `g`: as the system itself or as a specialisation of it, with the number and
date of the link. Specialisations of specialisations are not among them. -/
inductive Describes (link : Link) (d : Document) (g : Gen) : Prop
  | itself {f : Fields} {ss : List (Str × Specialisation)} (h : d.generation = some (f, ss))
      (hv : g.version = link.version) (hd : g.buildTime = link.buildTime)
      (hn : g.specialisationName = none) (hs : Has g f d.extensions)
  | specialisation {f : Fields} {ss : List (Str × Specialisation)} {name : Str} {f' : Fields}
      {nested : List (Str × Specialisation)} {e : Extensions} (h : d.generation = some (f, ss))
      (hm : (name, .mk f' nested e) ∈ ss)
      (hv : g.version = link.version) (hd : g.buildTime = link.buildTime)
      (hn : g.specialisationName = some name) (hs : Has g f' e)

/-- The document for a link: `boot.json` in it if that can be read and parsed, otherwise a synthesised
one. -/
inductive DocumentFor (src : Sources) (path : Path) (d : Document) : Prop
  | file {raw : Bytes} (hr : src.read (path ++ [lit "boot.json"]) = some raw) (hp : src.parse raw = some d)
  | synthesised (hno : ∀ raw, src.read (path ++ [lit "boot.json"]) = some raw → src.parse raw = none)
      (h : src.synthesize path = some d)

end Verif.Bootspec.Spec
