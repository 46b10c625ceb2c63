import Verif.Spec.Storable
import Verif.Spec.Control
import Verif.Spec.Document
import Verif.Spec.Grammar
/-!
# Documents with clean texts, and the few shapes a load can give that saving does not keep
-/
namespace Afs.Spec
open Afs Afs.Xml

/-- A document in which every text and every attribute value is clean (UTF-8 of allowed characters); CDATA sections and the texts
    of `data` elements, which are saved as CDATA sections, are also without `]]>`. -/
inductive CleanDoc : Node → Prop
  | text {s} : CleanText s → CleanDoc (.text s)
  | cdata {d} : CleanData d → CleanDoc (Node.newCDATA d)
  | elem {n as cs} : ¬ (b! "![CDATA[") <+: n → (∀ a ∈ as, ∀ v, a.2 = some v → CleanText v) → (∀ c ∈ cs, CleanDoc c) →
      (n = b! "data" → ∀ s, .text s ∈ cs → CleanData s) → CleanDoc (.elem n as cs)

/-- Sizes that are kept: none is zero, or both are. -/
def SizesKept (p : Page) : Prop := (p.dimX = 0 ↔ p.dimY = 0) ∧ (p.ovX = 0 ↔ p.ovY = 0)

/-- A preview that is kept: sizes are, and a resolution below zero is the −1 that stands for none. -/
def PreviewKept (p : Preview) : Prop := -1 ≤ p.dpi ∧ ∀ g ∈ p.pages.getD [], SizesKept g

/-- Metadata of a file that are kept: no source has a format but no data. -/
def MetaKept (m : FileMeta) : Prop := ∀ s ∈ m.sources.getD [], s.data = none → s.formatId = none

/-- A file that is kept: its unique id is not the empty text, its preview and metadata are kept. -/
def FileKept (f : File) : Prop :=
  f.uniqueId ≠ some [] ∧ (f.isPreview = true → ∀ p, f.preview = some p → PreviewKept p) ∧ ∀ m, f.metadata = some m → MetaKept m

/-- A file entry that has all that entries have by the schema: it has data on the medium, and metadata are not without sources. -/
def FileWhole (f : File) : Prop := f.isDigital = true ∧ ∀ m, f.metadata = some m → m.sources ≠ none

/-- A table of contents with such entries only, in which no container is without entries. -/
def TocWhole (t : TocData) : Prop :=
  (∀ m, t.metadata = some m → m.sources ≠ none) ∧ (∀ d, t.layouts = some d → d.defs ≠ none) ∧ (∀ r, t.reels = some r → r.reels ≠ none) ∧
    ∀ r ∈ t.reelList, ∀ f ∈ r.list, FileWhole f

/-- No U+FEFF in a text, and no reference to it. -/
def Unmarked (s : List Char) : Prop := Char.ofNat 0xFEFF ∉ s ∧ ∀ r, Grammar.Reference r (Char.ofNat 0xFEFF) → ¬ r <:+: s

/-- No property in the document is called `alias`. -/
def NoAliases (t : Node) : Prop := ∀ p ∈ descendants t, p.element = some (b! "property") → Document.attr p (b! "key") ≠ some (b! "alias")

/-- A way to save an object and to load it into a new one. -/
structure Way (α : Type) where
  save : α → Option Bytes
  load : Bytes → Option α

/-- The object that comes out when an object is saved and what was saved is loaded. -/
def Way.copy {α : Type} (w : Way α) (x : α) : Option α := (w.save x).bind w.load

/-- What is left of an object after it was saved and loaded any number of times, each time in one of these ways. -/
inductive Copies {ι α : Type} (w : ι → Way α) : α → α → Prop
  | none (x) : Copies w x x
  | more {x y z s} (i) : Copies w x y → (w i).save y = some s → (w i).load s = some z → Copies w x z

/-- However often the object is saved and loaded, it can be saved and loaded again, and what is left of it has the property. -/
def Survives {ι α : Type} (w : ι → Way α) (x : α) (Q : α → Prop) : Prop :=
  ∀ y, Copies w x y → Q y ∧ ∀ i, ∃ s z, (w i).save y = some s ∧ (w i).load s = some z

/-- In whatever way the object `x` is saved and loaded, `x'` comes out; and `x'` saved and loaded is `x'`. -/
def Settles {ι α : Type} (w : ι → Way α) (x x' : α) : Prop :=
  (∀ i, ∃ s, (w i).save x = some s ∧ (w i).load s = some x') ∧ ∀ i, ∃ s, (w i).save x' = some s ∧ (w i).load s = some x'

/-- The text of a file that was written. -/
def written (r : Bool × Option Bytes) : Option Bytes := if r.1 then r.2 else none

/-- The object, if it was loaded. -/
def loaded {α : Type} (r : Bool × α) : Option α := if r.1 then some r.2 else none

/-- The same for functions that can be undefined. -/
def definedText : Res (Option Bytes) → Option Bytes
  | .ok o => o
  | .ub => none

def definedFile : Res (Bool × Option Bytes) → Option Bytes
  | .ok r => written r
  | .ub => none

def definedLoad {α : Type} : Res (Bool × α) → Option α
  | .ok r => loaded r
  | .ub => none

/-- Where and how an object is saved: compact or indented, to a string or to a file. -/
structure How where
  compact : Bool
  file : Bool

def pageWay (h : How) : Way Page :=
  if h.file then ⟨fun x => written (x.saveFile h.compact), fun s => loaded (Page.create.loadFile s)⟩
  else ⟨fun x => x.saveString h.compact, fun s => loaded (Page.create.loadString s)⟩

def previewWay (h : How) : Way Preview :=
  if h.file then ⟨fun x => written (x.saveFile h.compact), fun s => loaded (Preview.create.loadFile s)⟩
  else ⟨fun x => x.saveString h.compact, fun s => loaded (Preview.create.loadString s)⟩

def layoutsWay (h : How) : Way LayoutDefs :=
  if h.file then ⟨fun x => written (x.saveFile h.compact), fun s => definedLoad (LayoutDefs.create.loadFile s)⟩
  else ⟨fun x => x.saveString h.compact, fun s => definedLoad (LayoutDefs.create.loadString s)⟩

def tocMetaWay (h : How) : Way TocMeta :=
  if h.file then ⟨fun x => written (x.saveFile h.compact), fun s => loaded (TocMeta.create.loadFile s)⟩
  else ⟨fun x => x.saveString h.compact, fun s => loaded (TocMeta.create.loadString s)⟩

/-- File entries are saved with their data in the present form (not the old one); indented to a file is undefined (C25). -/
inductive FileHow
  | string (compact : Bool)
  | compactFile

def fileWay : FileHow → Way File
  | .string c => ⟨fun x => x.saveString c false, fun s => loaded (File.create.loadString s)⟩
  | .compactFile => ⟨fun x => definedFile (x.saveFile true false), fun s => loaded (File.create.loadFile s)⟩

/-- Lists of files are saved compact (C25: indented is undefined), to a file or to a string. -/
def filesWay (file : Bool) : Way Files :=
  if file then ⟨fun x => definedFile (x.saveFile true), fun s => loaded (Files.create.loadFile s)⟩
  else ⟨fun x => definedText (x.saveString true), fun s => loaded (Files.create.loadString s)⟩

def reelWay (h : How) : Way Reel :=
  if h.file then ⟨fun x => written (x.saveFile h.compact), fun s => loaded (Reel.create.loadFile s)⟩
  else ⟨fun x => x.saveString h.compact, fun s => loaded (Reel.create.loadString s)⟩

def reelsWay (h : How) : Way Reels :=
  if h.file then ⟨fun x => written (x.saveFile h.compact), fun s => loaded (Reels.create.loadFile s)⟩
  else ⟨fun x => x.saveString h.compact, fun s => loaded (Reels.create.loadString s)⟩

def tocWay (h : How) : Way TocData :=
  if h.file then ⟨fun x => written (x.saveFile h.compact), fun s => definedLoad (TocData.create.loadFile s)⟩
  else ⟨fun x => x.saveString h.compact, fun s => definedLoad (TocData.create.loadString s)⟩

def adminWay (h : How) : Way Admin :=
  if h.file then ⟨fun x => written (x.saveFile h.compact), fun s => loaded (Admin.create.loadFile s)⟩
  else ⟨fun x => x.saveString h.compact, fun s => loaded (Admin.create.loadString s)⟩

variable (L : ConfigLib)

/-- Two formats say the same: both are without a configuration, or the two configurations have the same classes and settings. -/
def SameFormat {L : ConfigLib} (f g : Format L) : Prop :=
  (f.config = none ∧ g.config = none) ∨ ∃ c d, f.config = some c ∧ g.config = some d ∧
    (∀ k p, configGet L d k p = configGet L c k p) ∧ (∀ k, HasClass L d k ↔ HasClass L c k)

/-- A copy of technical metadata: the format is equal and says the same; both lists of files are the ones there were, or both are
    what C25 says a save and a load make of them. -/
def TechCopy {L : ConfigLib} (x y : TechMeta L) : Prop :=
  (∃ f g, x.format = some f ∧ y.format = some g ∧ Format.equal (some f) (some g) = true ∧ SameFormat f g) ∧
    (y.tocs = x.tocs ∧ y.apps = x.apps ∨ y.tocs = x.tocs.map Files.asLoaded ∧ y.apps = x.apps.map Files.asLoaded)

def formatWay (h : How) : Way (Format L) :=
  if h.file then ⟨fun x => written (x.saveFile h.compact), fun s => loaded (Format.create.loadFile s)⟩
  else ⟨fun x => x.saveString h.compact, fun s => loaded (Format.create.loadString s)⟩

def techWay (h : How) : Way (TechMeta L) :=
  if h.file then ⟨fun x => written (x.saveFile h.compact), fun s => loaded (TechMeta.create.loadFile s)⟩
  else ⟨fun x => x.saveString h.compact, fun s => loaded (TechMeta.create.loadString s)⟩

def controlWay (h : How) : Way (ControlData L) :=
  if h.file then ⟨fun x => written (x.saveFile h.compact), fun s => loaded (ControlData.create.loadFile s)⟩
  else ⟨fun x => x.saveString h.compact, fun s => loaded (ControlData.create.loadString s)⟩

end Afs.Spec
