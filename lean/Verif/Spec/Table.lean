import Verif.Model.File
import Verif.Model.Numbers
/-!
# What the text tables should contain

A table is a header and one line per entry.  Numbers are printed in decimal, padded with zeros to
the width of the widest number of the column.
-/
namespace Afs.Spec
open Afs

/-- The widest of some lengths, and at least `least`. -/
def widest (least : Nat) (lengths : List Nat) : Nat := lengths.foldr max least

/-- The text of a string field. -/
def textOf (s : Option Bytes) : Bytes := s.getD []

/-- The number of characters of a number in decimal. -/
def lenInt (i : Int) : Nat := (printInt i).length
def lenNat (n : Nat) : Nat := (printNat n).length

/-- The digits of `n`, zeros in front up to width `w`. -/
def zeroNat (w n : Nat) : Bytes := List.replicate (w - lenNat n) 48 ++ printNat n

/-- The digits of `i`, zeros behind the sign up to width `w`. -/
def zeroInt (w : Nat) (i : Int) : Bytes :=
  if i < 0 then 45 :: zeroNat (w - 1) i.natAbs else zeroNat w i.natAbs

/-- A text, spaces behind it up to width `w`. -/
def leftText (w : Nat) (s : Bytes) : Bytes := s ++ List.replicate (w - s.length) 32

/-- Cells separated by spaces, with a newline behind the last. -/
def line : List Bytes → Bytes
  | [] => [10]
  | [c] => c ++ [10]
  | c :: cs => c ++ [32] ++ line cs

/-! ## Files -/

/-- A string field printed by a table must not be NULL. -/
def Present (s : Option Bytes) : Prop := s.isSome = true

/-- `fileFormat`, or `N` if it is empty. -/
def formatCell (f : File) : Bytes := if textOf f.fileFormat = [] then b! "N" else textOf f.fileFormat

def parentWidth (fs : List File) : Nat :=
  widest 1 (fs.map fun f => if f.parentId = -1 ∨ f.parentId = -2 then 1 else lenInt f.parentId)

/-- The parent id, `N` (no parent, -2) or `P` (is a parent, -1), zeros in front. -/
def parentCell (w : Nat) (f : File) : Bytes :=
  if f.parentId = -2 then List.replicate (w - 1) 48 ++ b! "N"
  else if f.parentId = -1 then List.replicate (w - 1) 48 ++ b! "P"
  else zeroInt w f.parentId

def fileIdWidth (fs : List File) : Nat := widest 1 (fs.map fun f => lenInt f.id)
def formatWidth (fs : List File) : Nat := widest 0 (fs.map fun f => (formatCell f).length)

def fileLine (fs : List File) (f : File) : Bytes :=
  line [zeroInt (fileIdWidth fs) f.id, leftText 36 (textOf f.uniqueId), parentCell (parentWidth fs) f,
    leftText (formatWidth fs) (formatCell f), textOf f.name]

def fileTable (fs : List File) : Bytes :=
  b! "<fileId> <uniqueId> <parentId> <formatId> <fileName>\n" ++ fs.flatMap (fileLine fs)

/-- The widest line the table may need. -/
def fileLineWidth (fs : List File) : Nat :=
  fileIdWidth fs + widest 36 (fs.map fun f => (textOf f.uniqueId).length) + parentWidth fs + formatWidth fs +
    widest 0 (fs.map fun f => (textOf f.name).length) + 5

/-! ## Locations -/

/-- The pages of the preview of a file. -/
def previewPages (f : File) : List Page := (f.preview.bind (·.pages)).getD []

/-- All pages with their file. -/
def allPages (fs : List File) : List (File × Page) := fs.flatMap fun f => (previewPages f).map fun p => (f, p)

/-- The width of a size: `get_digits_count_64` counts two characters per digit of a negative
    number. -/
def lenSize (i : Int) : Nat := if i < 0 then 2 * lenNat i.natAbs else lenNat i.natAbs

structure DigitalWidths where
  id : Nat
  startFrame : Nat
  startByte : Nat
  endFrame : Nat
  endByte : Nat
  size : Nat

def digitalWidths (fs : List File) : DigitalWidths where
  id := widest 1 (fs.map fun f => lenInt f.id)
  startFrame := widest 3 (fs.map fun f => lenInt f.startFrame)
  startByte := widest 7 (fs.map fun f => lenInt f.startByte)
  endFrame := widest 3 (fs.map fun f => lenInt f.endFrame)
  endByte := widest 7 (fs.map fun f => lenInt f.endByte)
  size := widest 12 (fs.map fun f => lenSize f.size)

def digitalLine (w : DigitalWidths) (f : File) : Bytes :=
  line [zeroInt w.id f.id, zeroInt w.startFrame f.startFrame, zeroInt w.startByte f.startByte,
    zeroInt w.endFrame f.endFrame, zeroInt w.endByte f.endByte, zeroInt w.size f.size, textOf f.checksum]

structure VisualWidths where
  id : Nat
  layout : Nat
  frame : Nat
  sect : Nat
  count : Nat

def visualWidths (fs : List File) : VisualWidths where
  id := widest 1 ((allPages fs).map fun x => lenInt x.1.id)
  layout := widest 1 ((allPages fs).map fun x => (textOf x.2.layoutId).length)
  frame := widest 3 ((allPages fs).map fun x => lenNat x.2.startFrame)
  sect := widest 1 ((allPages fs).map fun x => lenNat x.2.startSection)
  count := widest 3 ((allPages fs).map fun x => lenNat x.2.sectionCount)

def visualLine (w : VisualWidths) (x : File × Page) : Bytes :=
  line [zeroInt w.id x.1.id, List.replicate (w.layout - (textOf x.2.layoutId).length) 48 ++ textOf x.2.layoutId,
    zeroNat w.frame x.2.startFrame, zeroNat w.sect x.2.startSection, zeroNat w.count x.2.sectionCount,
    zeroNat 5 x.2.dimX ++ b! "x" ++ zeroNat 5 x.2.dimY, zeroNat 2 x.2.ovX ++ b! "x" ++ zeroNat 2 x.2.ovY]

/-- The files of the first part: those with the digital type. -/
def digitalFiles (fs : List File) : List File := fs.filter fun f => f.isDigital

/-- The pages of the second part: those of the files with the preview type that are no parents. -/
def visualPages (fs : List File) : List (File × Page) :=
  (allPages fs).filter fun x => x.1.isPreview && !x.1.isParent

/-- A part of a table: nothing if it has no lines. -/
def part (header : Bytes) (lines : List Bytes) (footer : Bytes) : Bytes :=
  if lines = [] then [] else header ++ lines.flatten ++ footer

def locationTable (fs : List File) : Bytes :=
  part (b! "DIGITAL DATA LOCATIONS\n======================\n<fileId> <startFrame> <startByte> <endFrame> <endByte> <size> <sha1Checksum>\n")
    ((digitalFiles fs).map (digitalLine (digitalWidths fs))) [10] ++
  part (b! "VISUAL DATA LOCATIONS\n=====================\n<fileId> <layoutId> <startFrame> <startSection> <sectionCount> <dimensionWxH> <overlapWxH>\n")
    ((visualPages fs).map (visualLine (visualWidths fs))) []

/-! ## Metadata of all files -/

def fileSources (f : File) : List FileMetaSource := (f.metadata.bind (·.sources)).getD []

def allSources (fs : List File) : List (File × FileMetaSource) :=
  fs.flatMap fun f => (fileSources f).map fun s => (f, s)

/-- The text without newlines, carriage returns and tabs. -/
def oneLine (d : Bytes) : Bytes := d.filter fun c => !(c = 10 ∨ c = 13 ∨ c = 9)

/-- At most 54 characters of the data; longer data that still has 51 of them on one line is cut
    with an ellipsis. -/
def dataCell (d : Bytes) : Bytes :=
  if d.length < 55 then oneLine d
  else if ((oneLine d).take 54).length < 51 then (oneLine d).take 54
  else (oneLine d).take 51 ++ b! "..."

structure MetaWidths where
  fileId : Nat
  sourceFileId : Nat
  sourceId : Nat
  format : Nat

def metaWidths (fs : List File) : MetaWidths where
  fileId := widest 0 ((allSources fs).map fun x => lenInt x.1.id)
  sourceFileId := widest 0 ((allSources fs).map fun x => lenInt x.2.fileId)
  sourceId := widest 0 ((allSources fs).map fun x => lenInt x.2.sourceId)
  format := widest 0 ((allSources fs).map fun x => (textOf x.2.formatId).length)

/-- The source id, or `N` behind zeros for -1. -/
def sourceCell (w : Nat) (s : FileMetaSource) : Bytes :=
  if s.sourceId ≠ -1 then zeroInt w s.sourceId
  else (if w > 1 then List.replicate w 48 else []) ++ b! "N"

def metaLine (w : MetaWidths) (x : File × FileMetaSource) : Bytes :=
  line [zeroInt w.fileId x.1.id, zeroInt w.sourceFileId x.2.fileId, sourceCell w.sourceId x.2,
    leftText w.format (textOf x.2.formatId), dataCell (textOf x.2.data)]

def metadataTable (fs : List File) : Bytes :=
  part (b! "\nUSER DATA FILES METADATA\n========================\n<fileId> <sourceFileId> <sourceId> <formatId> <data>\n")
    ((allSources fs).map (metaLine (metaWidths fs))) []

/-! ## Metadata sources of one file -/

structure SourceWidths where
  id : Nat
  fileId : Nat
  sourceId : Nat
  format : Nat

/-- The bit pattern of an `int` read as an `unsigned int`. -/
def asUnsigned (i : Int) : Nat := (i % 4294967296).toNat

def sourceWidths (ss : List FileMetaSource) : SourceWidths where
  id := widest 1 ((List.range ss.length).map lenNat)
  fileId := widest 0 (ss.map fun s => lenNat (asUnsigned s.fileId))
  sourceId := widest 0 (ss.map fun s => lenNat (asUnsigned s.sourceId))
  format := widest 0 (ss.map fun s => (textOf s.formatId).length)

def sourceLine (w : SourceWidths) (x : FileMetaSource × Nat) : Bytes :=
  line [zeroNat w.id x.2, zeroNat w.fileId (asUnsigned x.1.fileId), zeroNat w.sourceId (asUnsigned x.1.sourceId),
    leftText w.format (textOf x.1.formatId), textOf x.1.data]

def sourceTable (ss : List FileMetaSource) : Bytes :=
  b! "METADATA SOURCES\n================\n<id> <fileId> <sourceId> <formatId> <data>\n" ++
    ss.zipIdx.flatMap (sourceLine (sourceWidths ss))

/-! ## Layout definitions -/

def defSections (d : LayoutDef) : List Section := (d.sections.bind (·.sections)).getD []

def allSections (ds : List LayoutDef) : List (LayoutDef × Section) :=
  ds.flatMap fun d => (defSections d).map fun s => (d, s)

structure LayoutWidths where
  id : Nat
  sections : Nat
  sectionId : Nat
  x : Nat
  y : Nat
  width : Nat
  height : Nat
  rotation : Nat

def layoutWidths (ds : List LayoutDef) : LayoutWidths where
  id := widest 0 (ds.map fun d => (textOf d.id).length)
  sections := widest 0 (ds.map fun d => lenNat (defSections d).length)
  sectionId := widest 0 ((allSections ds).map fun x => lenNat x.2.id)
  x := widest 0 ((allSections ds).map fun x => lenNat x.2.x)
  y := widest 0 ((allSections ds).map fun x => lenNat x.2.y)
  width := widest 0 ((allSections ds).map fun x => lenNat x.2.width)
  height := widest 0 ((allSections ds).map fun x => lenNat x.2.height)
  rotation := widest 3 ((allSections ds).map fun x => lenNat x.2.rotation)

/-- A layout id with up to eleven zeros in front. -/
def idCell (w : Nat) (id : Bytes) : Bytes := List.replicate (min (w - id.length) 11) 48 ++ id

def layoutLine (w : LayoutWidths) (d : LayoutDef) : Bytes :=
  line [idCell w.id (textOf d.id), zeroNat w.sections (defSections d).length, textOf d.name]

def sectionLine (w : LayoutWidths) (x : LayoutDef × Section) : Bytes :=
  line [idCell w.id (textOf x.1.id), zeroNat w.sectionId x.2.id, zeroNat w.x x.2.x, zeroNat w.y x.2.y,
    zeroNat w.width x.2.width, zeroNat w.height x.2.height, zeroNat w.rotation x.2.rotation]

def layoutTable (ds : List LayoutDef) : Bytes :=
  b! "VISUAL LAYOUT DEFINITIONS\n=========================\n<layoutId> <sections> <name>\n" ++
    ds.flatMap (layoutLine (layoutWidths ds)) ++
    b! "\n<layoutId> <sectionId> <x> <y> <width> <height> <rotation>\n" ++
    (allSections ds).flatMap (sectionLine (layoutWidths ds)) ++ (if ds = [] then [] else [10])

end Afs.Spec

namespace Afs.Spec
open Afs

/-! ## What the tables need -/

/-- The widest digital line. -/
def digitalLineWidth (fs : List File) : Nat :=
  (digitalWidths fs).id + (digitalWidths fs).startFrame + (digitalWidths fs).startByte + (digitalWidths fs).endFrame +
    (digitalWidths fs).endByte + (digitalWidths fs).size + widest 40 (fs.map fun f => (textOf f.checksum).length) + 7

/-- The widest visual line. -/
def visualLineWidth (fs : List File) : Nat :=
  (visualWidths fs).id + (visualWidths fs).layout + (visualWidths fs).frame + (visualWidths fs).sect +
    (visualWidths fs).count + widest 11 ((allPages fs).map fun x => lenNat x.2.dimX + lenNat x.2.dimY + 1) +
    widest 5 ((allPages fs).map fun x => lenNat x.2.ovX + lenNat x.2.ovY + 1) + 7

/-- The widest line of the metadata table, with the reserve for the index. -/
def metaLineWidth (fs : List File) : Nat :=
  (metaWidths fs).fileId + (metaWidths fs).sourceFileId + (metaWidths fs).sourceId + (metaWidths fs).format +
    widest 0 ((allSources fs).map fun x => (textOf x.2.data).length) + 17

/-- The widest line. -/
def sourceLineWidth (ss : List FileMetaSource) : Nat :=
  (sourceWidths ss).id + (sourceWidths ss).fileId + (sourceWidths ss).sourceId + (sourceWidths ss).format +
    widest 0 (ss.map fun s => (textOf s.data).length) + 5

/-- The widest line of the first and of the second part. -/
def layoutLineWidth (ds : List LayoutDef) : Nat :=
  (layoutWidths ds).id + (layoutWidths ds).sections + widest 0 (ds.map fun d => (textOf d.name).length) + 3

def sectionLineWidth (ds : List LayoutDef) : Nat :=
  (layoutWidths ds).id + (layoutWidths ds).sectionId + (layoutWidths ds).x + (layoutWidths ds).y +
    (layoutWidths ds).width + (layoutWidths ds).height + (layoutWidths ds).rotation + 7

/-- What the file table needs of a file: no NULL among the strings it prints, a format that fits
    the 255 byte array it is copied to, and a parent id that is an `int`. -/
structure FileRowOk (f : File) : Prop where
  uniqueId : Present f.uniqueId
  format : Present f.fileFormat
  name : Present f.name
  short : (textOf f.fileFormat).length < 255
  parent : -2147483648 ≤ f.parentId ∧ f.parentId ≤ 2147483647

/-- Two numbers printed as `AxB`, each padded to `k + 1` digits: the width computed for them,
    `max (2 (k + 1) + 1) (|A| + |B| + 1)`, is enough. -/
def PairFits (k a b : Nat) : Prop := (a < 10 ^ (k + 1) ∧ b < 10 ^ (k + 1)) ∨ (10 ^ k ≤ a ∧ 10 ^ k ≤ b)

/-- What the location table needs of a page. -/
structure PageRowOk (p : Page) : Prop where
  layout : Present p.layoutId
  dimU : p.dimX < 4294967296 ∧ p.dimY < 4294967296
  ovU : p.ovX < 4294967296 ∧ p.ovY < 4294967296
  dim : PairFits 4 p.dimX p.dimY
  ov : PairFits 1 p.ovX p.ovY

/-- What the metadata tables need of a source. -/
structure SourceRowOk (s : FileMetaSource) : Prop where
  format : Present s.formatId
  data : Present s.data

end Afs.Spec
