import Verif.Spec.Schema
import Verif.Spec.Valid
/-!
# What a document of the schema says

For an element of each type of xsd/tocdata.xsd and xsd/tocdatafile.xsd the object it describes: its child elements by name,
its attributes by name, texts as texts, numerals as numbers.  Nothing here searches the tree: a value is found at its place.
-/
namespace Afs.Spec.Document
open Afs Afs.Xml Afs.Spec Afs.Spec.Schema

/-! ## Parts of an element -/

/-- The child elements of that name. -/
def childrenOf (n : Node) (nm : Bytes) : List Node := (elements n.children).filter fun x => decide (x.element = some nm)

/-- The (first) child element of that name. -/
def child (n : Node) (nm : Bytes) : Option Node := (childrenOf n nm).head?

/-- The value of an attribute. -/
def attr (n : Node) (nm : Bytes) : Option Bytes := (n.attrs.find? fun a => decide (a.1 = nm)).bind Prod.snd

/-- Blank, line feed, carriage return. -/
def isEdge (b : UInt8) : Bool := b == 32 || b == 10 || b == 13

/-- Without blanks and line ends at both ends. -/
def trim (s : Bytes) : Bytes := ((s.dropWhile isEdge).reverse.dropWhile isEdge).reverse

/-- The text of an element; there is none if the element has no content at all. -/
def content (n : Node) : Option Bytes := if n.children.isEmpty then none else some (trim (chars n.children))

/-- The text of the child element of that name. -/
def text (n : Node) (nm : Bytes) : Option Bytes := (child n nm).bind content

/-- A CDATA section. -/
def isCData : Node → Bool
  | .text _ => false
  | .elem n _ _ => (b! "![CDATA[").isPrefixOf n

/-- The same, but the text of a CDATA section is taken as it is. -/
def rawContent (n : Node) : Option Bytes :=
  if n.children.any isCData then some (chars n.children) else content n

/-! ## Numbers -/

/-- The number a numeral with optional sign stands for; white space around it is ignored. -/
def number (s : Bytes) : Int :=
  match strip s with
  | [] => 0
  | c :: d => if c = 45 then -(digitsValue d : Int) else if c = 43 then (digitsValue d : Int) else (digitsValue (c :: d) : Int)

/-- The number as 64-bit integer: the nearest one there is. -/
def asLong (v : Int) : Int := max (-9223372036854775808) (min 9223372036854775807 v)

/-- The number as 32-bit integer: what is left of the 64-bit integer modulo 2³². -/
def asInt (v : Int) : Int := Int.bmod (asLong v) 4294967296

/-- A number that may be missing. -/
def int (s : Option Bytes) (default : Int) : Int :=
  match s with
  | none => default
  | some s => asInt (number s)

/-- A number without sign that may be missing. -/
def unsigned (s : Option Bytes) : Nat :=
  match s with
  | none => 0
  | some s => (number s).toNat

/-- The number before and the number after the first `x`. -/
def size (s : Option Bytes) : Nat × Nat :=
  match s with
  | none => (0, 0)
  | some s => (digitsValue (s.takeWhile (· != 120)), digitsValue ((s.dropWhile (· != 120)).drop 1))

/-- The parts of a text between semicolons. -/
def pieces (s : Bytes) : List Bytes :=
  s.foldr (fun c l => if c = 59 then [] :: l else match l with | [] => [[c]] | h :: t => (c :: h) :: t) [[]]

/-- A list of parts; where there is none there is no list. -/
def listOf {α : Type} (l : List α) : Option (List α) := if l.isEmpty then none else some l

/-! ## Objects -/

/-- `pages`. -/
def pageOf (n : Node) : Page :=
  ⟨attr n (b! "layoutId"), unsigned (attr n (b! "frame")), unsigned (attr n (b! "section")), unsigned (attr n (b! "count")),
    (size (attr n (b! "dimension"))).1, (size (attr n (b! "dimension"))).2,
    (size (attr n (b! "overlap"))).1, (size (attr n (b! "overlap"))).2⟩

/-- `preview`. -/
def previewOf (n : Node) : Preview := ⟨listOf ((childrenOf n (b! "pages")).map pageOf), int (text n (b! "dpi")) (-1)⟩

/-- `source` of a file. -/
def fileSourceOf (n : Node) : FileMetaSource :=
  ⟨(child n (b! "data")).bind rawContent, (child n (b! "data")).bind (attr · (b! "formatId")),
    int (attr n (b! "fileId")) (-1), int (attr n (b! "sourceId")) (-1)⟩

/-- `metadata` of a file. -/
def fileMetaOf (n : Node) : FileMeta := ⟨listOf ((childrenOf n (b! "source")).map fileSourceOf)⟩

/-- A position: attribute `byte` or `frame` of `start` or `end` in `data`. -/
def position (n : Node) (place coordinate : Bytes) : Int :=
  int (((child n (b! "data")).bind (child · place)).bind (attr · coordinate)) (-1)

/-- `file`: a digital file, and a preview if there is one. -/
def fileOf (n : Node) : File where
  name := text n (b! "name")
  date := text n (b! "date")
  checksum := some (((child n (b! "data")).bind (text · (b! "checksum"))).getD [])
  size := number (((child n (b! "data")).bind (text · (b! "size"))).getD [])
  id := int (text n (b! "id")) (-1)
  startFrame := position n (b! "start") (b! "frame")
  startByte := position n (b! "start") (b! "byte")
  endFrame := position n (b! "end") (b! "frame")
  endByte := position n (b! "end") (b! "byte")
  uniqueId := text n (b! "uniqueId")
  parentId := int (text n (b! "parentId")) (-2)
  types := if (child n (b! "preview")).isSome then 3 else 1
  preview := (child n (b! "preview")).map previewOf
  fileFormat := some ((attr n (b! "formatId")).getD (b! "undefined"))
  metadata := (child n (b! "metadata")).map fileMetaOf

/-- `files`. -/
def filesOf (n : Node) : Files := ⟨listOf ((childrenOf n (b! "file")).map fileOf)⟩

/-- `reel`. -/
def reelOf (n : Node) : Reel := ⟨text n (b! "id"), (child n (b! "files")).map filesOf⟩

/-- `reels`. -/
def reelsOf (n : Node) : Reels := ⟨listOf ((childrenOf n (b! "reel")).map reelOf)⟩

/-- `section`. -/
def sectionOf (n : Node) : Section :=
  ⟨unsigned (attr n (b! "id")), unsigned (attr n (b! "x")), unsigned (attr n (b! "y")), unsigned (attr n (b! "w")),
    unsigned (attr n (b! "h")), unsigned (attr n (b! "rotation"))⟩

/-- `sections`. -/
def sectionsOf (n : Node) : Sections := ⟨listOf ((childrenOf n (b! "section")).map sectionOf)⟩

/-- `previewLayout`. -/
def layoutOf (n : Node) : LayoutDef := ⟨text n (b! "id"), text n (b! "name"), (child n (b! "sections")).map sectionsOf⟩

/-- `layoutDefinitions`. -/
def layoutsOf (n : Node) : LayoutDefs := ⟨listOf ((childrenOf n (b! "previewLayout")).map layoutOf)⟩

/-- `source` of the index.  Empty tags are no tags. -/
def sourceOf (n : Node) : MetaSource :=
  ⟨attr n (b! "formatId"), int (attr n (b! "id")) (-1), int (attr n (b! "fileId")) (-1), none,
    match text n (b! "tags") with
    | none => none
    | some t => if t = [] then none else some (pieces t)⟩

/-- `metadata` of the index. -/
def metadataOf (n : Node) : TocMeta := ⟨listOf ((childrenOf n (b! "source")).map sourceOf)⟩

/-- `Index`. -/
def indexOf (n : Node) : TocData where
  version := attr n (b! "version")
  indexType := text n (b! "indexType")
  jobId := text n (b! "jobId")
  reelId := text n (b! "reelId")
  reels := (child n (b! "reels")).map reelsOf
  metadata := (child n (b! "metadata")).map metadataOf
  layouts := (child n (b! "layoutDefinitions")).map layoutsOf

/-! ## Documents without the things the library does not read -/

/-- The elements read as text. -/
def textNames : List Bytes :=
  [b! "indexType", b! "jobId", b! "reelId", b! "tags", b! "id", b! "name", b! "uniqueId", b! "date", b! "parentId", b! "checksum",
   b! "size", b! "dpi", b! "ReelId", b! "PrintReelId", b! "Title", b! "Description", b! "Creator", b! "CreationDate"]

/-- Nothing, or two numbers below 2³² with an `x` between them. -/
def SizeText (s : Bytes) : Prop :=
  s = [] ∨ ∃ a b, Digits a ∧ Digits b ∧ digitsValue a < 4294967296 ∧ digitsValue b < 4294967296 ∧ s = a ++ [120] ++ b

mutual
/-- Texts are in one piece — no comment, processing instruction or CDATA section in them — except that the data of a source may
    be a CDATA section; sizes of pages have the form `NxM`, ids of sources are numerals.  (Comments and the like have no children.) -/
def Plain : Node → Prop
  | .text _ => True
  | .elem n as cs => (isElement (.elem n as cs) = false → cs = []) ∧
      (n ∈ textNames → cs = [] ∨ ∃ t, cs = [.text t]) ∧
      (n = b! "data" → elements cs = [] → cs = [] ∨ (∃ t, cs = [.text t]) ∨ ∃ d, cs = [.elem (b! "![CDATA[" ++ d ++ b! "]]") [] []]) ∧
      (n = b! "pages" → ∀ a v, (a = b! "dimension" ∨ a = b! "overlap") → attr (.elem n as cs) a = some v → SizeText v) ∧
      (n = b! "source" → ∀ v, attr (.elem n as cs) (b! "id") = some v → integer v) ∧ PlainList cs
/-- All of the list are. -/
def PlainList : List Node → Prop
  | [] => True
  | c :: cs => Plain c ∧ PlainList cs
end

mutual
/-- The same, said only of what somebody wrote: in a tree the library has read from a text, comments and the like never have children
    (C21_special_nodes_are_leaves), so this is all that has to be demanded of a text. -/
def PlainTexts : Node → Prop
  | .text _ => True
  | .elem n as cs => (n ∈ textNames → cs = [] ∨ ∃ t, cs = [.text t]) ∧
      (n = b! "data" → elements cs = [] → cs = [] ∨ (∃ t, cs = [.text t]) ∨ ∃ d, cs = [.elem (b! "![CDATA[" ++ d ++ b! "]]") [] []]) ∧
      (n = b! "pages" → ∀ a v, (a = b! "dimension" ∨ a = b! "overlap") → attr (.elem n as cs) a = some v → SizeText v) ∧
      (n = b! "source" → ∀ v, attr (.elem n as cs) (b! "id") = some v → integer v) ∧ PlainTextsList cs
/-- All of the list are. -/
def PlainTextsList : List Node → Prop
  | [] => True
  | c :: cs => PlainTexts c ∧ PlainTextsList cs
end

/-- The nodes of a document.  (With an XML declaration the library has them as children of a node for the declaration.) -/
def roots : Node → List Node
  | .text s => [.text s]
  | .elem d as ks => if (b! "?xml").isPrefixOf d then ks else [.elem d as ks]

/-- The element of a document. -/
def root (doc : Node) : Option Node := (elements (roots doc)).head?

/-- All of a document is plain. -/
def PlainDoc (doc : Node) : Prop := PlainList (roots doc)

/-! ## Documents the library accepts -/

/-- The metadata sources of the files of an index name a file, those of the index a file and have an id. -/
def HasIds (n : Node) : Prop :=
  (∀ m ∈ childrenOf n (b! "metadata"), ∀ s ∈ childrenOf m (b! "source"), attr s (b! "id") ≠ none ∧ attr s (b! "fileId") ≠ none) ∧
  ∀ rs ∈ childrenOf n (b! "reels"), ∀ r ∈ childrenOf rs (b! "reel"), ∀ fs ∈ childrenOf r (b! "files"), ∀ f ∈ childrenOf fs (b! "file"),
    ∀ m ∈ childrenOf f (b! "metadata"), ∀ s ∈ childrenOf m (b! "source"), attr s (b! "fileId") ≠ none

/-- All parts are valid, no two layouts have the same id, no two sections of a layout either. -/
def Acceptable (t : TocData) : Prop :=
  (∀ m, t.metadata = some m → ∀ s ∈ m.sources.getD [], ValidMetaSource s) ∧
  (∀ d, t.layouts = some d → (∀ x ∈ d.defs.getD [], ValidLayout x ∧ ∀ s, x.sections = some s → ((s.sections.getD []).map Section.id).Nodup) ∧
    ((d.defs.getD []).map LayoutDef.id).Nodup) ∧
  (∀ r, t.reels = some r → ∀ x ∈ r.reels.getD [], ValidReel x)

/-- A load: it succeeds exactly under the condition, and then the object has that value. -/
def LoadsAs {α : Type} (r : Bool × α) (condition : Prop) (value : α) : Prop :=
  (r.1 = true ↔ condition) ∧ (condition → r.2 = value)

end Afs.Spec.Document
