import Verif.Spec.SystemdBoot
import Verif.Spec.Assessment
/-!
# Specification: what is booted if nothing is chosen

With boot counting, systemd-boot gives up on an entry when its tries are used up: the entry goes to the end of the
menu, and the next best becomes the default. (`systemd.io/AUTOMATIC_BOOT_ASSESSMENT`; systemd-boot,
`boot_entry_parse_tries` and `boot_entry_compare`.)
-/
namespace Verif.Menu
open Verif Tool BootCounting StubName

/-- The file name says that no tries are left. -/
def TriesUsedUp (n : Str) : Prop := ∃ base c, n = entryName base c ∧ Counter.tries c = some 0

/-- The item shows the image with the name `n` in `EFI/Linux`. -/
structure ShowsFile (world : Env) (esp : Path) (f : Fs) (n : Str) (i : Item) : Prop where
  image : lit ".efi" <:+ n
  item : ∃ data text, f.fileAt (entryFile esp n) = some data ∧ FileSection world data (lit ".osrel") (utf8 text) ∧
    i = itemOf text n i.exhausted
  tries : i.exhausted = true ↔ TriesUsedUp n

/-- The menu has one item for each image in `EFI/Linux`. Other items, for example those for Windows and for the
firmware setup, have no sort key. -/
structure IsMenuOf (world : Env) (esp : Path) (f : Fs) (items : List Item) : Prop where
  sorted : IsMenu items
  shown : ∀ n data text, lit ".efi" <:+ n → f.fileAt (entryFile esp n) = some data →
    FileSection world data (lit ".osrel") (utf8 text) → ∃ i ∈ items, ShowsFile world esp f n i
  only : ∀ i ∈ items, (∃ n, ShowsFile world esp f n i) ∨ i.sortKey = none ∧ i.exhausted = false

/-- The sort key of the item, if it has one, puts it below the generation. -/
def KeyBelow (g : Generation.Gen) (i : Item) : Prop :=
  ∀ k ∈ i.sortKey, textCmp k (g.spec.sortKey.getD (lit "lanzaboote")) = .gt

end Verif.Menu

namespace Verif.Tool
open Verif Generation StubName BootCounting

/-- The sort key of a generation does not change: it is in its toplevel, which is a store path. -/
def SortKeysStand (known : Gen → Bytes → Prop) : Prop :=
  ∀ g k g' k', known g k → known g' k' → SameEntry g g' k k' → g.spec.sortKey = g'.spec.sortKey

/-- The generations have texts that a menu can show, and no dates before the year 0. -/
def ProperTexts (known : Gen → Bytes → Prop) : Prop :=
  ∀ g k, known g k → Menu.Fits g ∧ ∀ d ∈ g.buildTime, 0 ≤ d.year

/-- Each boot entry was made for its generation, in some run of the installer. (The date at which the generation
was made, which is part of the text, may have been another one then.) -/
def MadeFor (world : Env) (esp : Path) (known : Gen → Bytes → Prop) (f : Fs) : Prop :=
  ∀ g key n data, known g key → IsNameOf world.uni world.sha g key n → f.fileAt (entryFile esp n) = some data →
    ∃ g' env cfg, known g' key ∧ SameEntry g g' key key ∧ env.parse = world.parse ∧ FaithfulTools env ∧
      SignedEntry env cfg g' data

end Verif.Tool
