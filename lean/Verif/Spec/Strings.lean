import Verif.Model.Strings
import Mathlib.Data.List.Forall2
/-!
# What strings in memory must be (C72)

Objects with values instead of memory: every `char *` is its text or NULL, and the functions are those of the rest of the model
(`File.setName`, `File.loadXml`, …). The only thing that is kept about memory is the list of blocks that nobody can free any more.
-/
namespace Afs.Spec.Strings
open Afs Afs.Xml
open Afs.Strings (Field Kind Block Strs Mem Objs Call CallArg CallTags)

/-- An object with strings. -/
inductive Val where
  | admin (x : Admin)
  | file (x : File)
  | page (x : Page)
  | layout (x : LayoutDef)
  | source (x : FileMetaSource)
  | metaSource (x : MetaSource)
  | reel (x : Reel)
  | toc (x : TocData)

/-- The kind of an object. -/
def Val.kind : Val → Kind
  | .admin _ => .admin
  | .file _ => .file
  | .page _ => .page
  | .layout _ => .layout
  | .source _ => .source
  | .metaSource _ => .metaSource
  | .reel _ => .reel
  | .toc _ => .toc

/-- The kind of object a member belongs to. -/
def owner : Field → Kind
  | .adminReelId | .adminPrintReelId | .adminTitle | .adminDescription | .adminCreator | .adminCreationDate => .admin
  | .fileName | .fileDate | .fileChecksum | .fileUniqueId | .fileFormat => .file
  | .pageLayoutId => .page
  | .layoutId | .layoutName => .layout
  | .sourceData | .sourceFormatId => .source
  | .metaFormat | .metaData => .metaSource
  | .reelId => .reel
  | .tocVersion | .tocIndexType | .tocJobId | .tocReelId => .toc

/-- The text of a member. -/
def Val.text : Val → Field → Option Bytes
  | .admin x, .adminReelId => x.reelId
  | .admin x, .adminPrintReelId => x.printReelId
  | .admin x, .adminTitle => x.title
  | .admin x, .adminDescription => x.description
  | .admin x, .adminCreator => x.creator
  | .admin x, .adminCreationDate => x.creationDate
  | .file x, .fileName => x.name
  | .file x, .fileDate => x.date
  | .file x, .fileChecksum => x.checksum
  | .file x, .fileUniqueId => x.uniqueId
  | .file x, .fileFormat => x.fileFormat
  | .page x, .pageLayoutId => x.layoutId
  | .layout x, .layoutId => x.id
  | .layout x, .layoutName => x.name
  | .source x, .sourceData => x.data
  | .source x, .sourceFormatId => x.formatId
  | .metaSource x, .metaFormat => x.format
  | .metaSource x, .metaData => x.data
  | .reel x, .reelId => x.id
  | .toc x, .tocVersion => x.version
  | .toc x, .tocIndexType => x.indexType
  | .toc x, .tocJobId => x.jobId
  | .toc x, .tocReelId => x.reelId
  | _, _ => none

/-- The tags of a metadata source. -/
def Val.tags : Val → Option (List Bytes)
  | .metaSource x => x.tags
  | _ => none

/-- Objects made by the constructors; numbers have no part in this. -/
def make (t : Field → Option Bytes) (tags : Option (List Bytes)) : Kind → Val
  | .admin => .admin (Admin.create2 (t .adminReelId) (t .adminPrintReelId) (t .adminTitle) (t .adminDescription)
      (t .adminCreator) (t .adminCreationDate))
  | .file => .file (((((File.create.setName (t .fileName)).setDate (t .fileDate)).setChecksum (t .fileChecksum)).setUniqueId
      (t .fileUniqueId)).setFileFormat (t .fileFormat))
  | .page => .page (Page.create2 (t .pageLayoutId) 0 0 0 0 0 0 0)
  | .layout => .layout (LayoutDef.create2 (t .layoutId) (t .layoutName))
  | .source => .source (FileMetaSource.create2 (t .sourceData) (t .sourceFormatId) (-1) (-1))
  | .metaSource => .metaSource { MetaSource.create with format := t .metaFormat, data := t .metaData, tags := tags }
  | .reel => .reel (Reel.create2 (t .reelId))
  | .toc => .toc (TocData.create2 (t .tocVersion) (t .tocIndexType) (t .tocJobId) (t .tocReelId))

/-- The `clone` functions. -/
def Val.clone : Val → Val
  | .admin x => .admin x.clone
  | .file x => .file x.clone
  | .page x => .page x.clone
  | .layout x => .layout x.clone
  | .source x => .source x.clone
  | .metaSource x => .metaSource x.clone
  | .reel x => .reel x.clone
  | .toc x => .toc x.clone

/-- The setters of strings; there are no others. -/
def Val.set : Val → Field → Option Bytes → Option Val
  | .admin x, .adminReelId, t => some (.admin (x.setReelId t))
  | .admin x, .adminPrintReelId, t => some (.admin (x.setPrintReelId t))
  | .admin x, .adminTitle, t => some (.admin (x.setTitle t))
  | .admin x, .adminDescription, t => some (.admin (x.setDescription t))
  | .admin x, .adminCreator, t => some (.admin (x.setCreator t))
  | .admin x, .adminCreationDate, t => some (.admin (x.setCreationDate t))
  | .file x, .fileName, t => some (.file (x.setName t))
  | .file x, .fileDate, t => some (.file (x.setDate t))
  | .file x, .fileChecksum, t => some (.file (x.setChecksum t))
  | .file x, .fileUniqueId, t => some (.file (x.setUniqueId t))
  | .file x, .fileFormat, t => some (.file (x.setFileFormat t))
  | .source x, .sourceData, t => some (.source (x.setData t))
  | .source x, .sourceFormatId, t => some (.source (x.setFormatId t))
  | .reel x, .reelId, t => some (.reel (x.setId t))
  | .toc x, .tocVersion, t => some (.toc (x.setVersion t))
  | .toc x, .tocIndexType, t => some (.toc (x.setIndexType t))
  | .toc x, .tocJobId, t => some (.toc (x.setJobId t))
  | .toc x, .tocReelId, t => some (.toc (x.setReelId t))
  | _, _, _ => none

/-- Setting the tags. -/
def Val.setTags : Val → Option Bytes → Option Val
  | .metaSource x, t => some (.metaSource (x.setTags t))
  | _, _ => none

/-- The loaders. -/
def Val.load : Val → Node → Res (Bool × Val)
  | .admin x, n => .ok ((x.loadXml n).1, .admin (x.loadXml n).2)
  | .file x, n => .ok ((x.loadXml n).1, .file (x.loadXml n).2)
  | .page x, n => .ok ((x.loadXml n).1, .page (x.loadXml n).2)
  | .layout x, n => .ok ((x.loadXml n).1, .layout (x.loadXml n).2)
  | .source x, n => .ok ((x.loadXml n).1, .source (x.loadXml n).2)
  | .metaSource x, n => .ok ((x.loadXml n).1, .metaSource (x.loadXml n).2)
  | .reel x, n => .ok ((x.loadXml n).1, .reel (x.loadXml n).2)
  | .toc x, n => match x.loadXml n with
    | .ub => .ub
    | .ok r => .ok (r.1, .toc r.2)

/-! ### Members a loader overwrites without freeing them -/

/-- Overwritten if an element is there. -/
def ifThere (n : Node) (name : Bytes) (f : Field) : List Field := if (find n name).isSome then [f] else []

/-- Whether the preview and the metadata of a file load; if not, the checksum is not reached. -/
def partsLoad (n : Node) : Bool :=
  (match find n (b! "preview") with
    | none => true
    | some x => (Preview.create.loadXml x).1) &&
  (match find n (b! "metadata") with
    | none => true
    | some x => (FileMeta.create.loadXml x).1)

/-- Whether there is a data element with a CDATA section. -/
def hasCData (n : Node) : Bool :=
  match find n (b! "data") with
  | none => false
  | some d => (firstCData d.children).isSome

/-- The members that are overwritten while an element is loaded, by kind of object. Of a table of contents: none, the old strings are
    freed. -/
def overwrites : Kind → Node → List Field
  | .admin, node => if (find node (b! "AdministrativeMetadata")).isSome then
      [.adminReelId, .adminPrintReelId, .adminTitle, .adminDescription, .adminCreator, .adminCreationDate] else []
  | .file, node => match selfOrFind node (b! "file") with
    | none => []
    | some n => .fileFormat :: ifThere n (b! "name") .fileName ++ ifThere n (b! "uniqueId") .fileUniqueId ++
        ifThere n (b! "date") .fileDate ++ (if partsLoad n then [.fileChecksum] else [])
  | .page, node => if (selfOrFind node (b! "pages")).isSome then [.pageLayoutId] else []
  | .layout, node => if (selfOrFind node (b! "previewLayout")).isSome then [.layoutId, .layoutName] else []
  | .source, node => match selfOrFind node (b! "source") with
    | none => []
    | some n => if (intAttr n (b! "fileId")).isSome then
        (if hasCData n then [.sourceData] else []) ++ ifThere n (b! "data") .sourceFormatId else []
  | .metaSource, node => match selfOrFind node (b! "source") with
    | none => []
    | some n => .metaFormat :: (if (intAttr n (b! "id")).isSome && (intAttr n (b! "fileId")).isSome && hasCData n
        then [.metaData] else [])
  | .reel, node => match selfOrFind node (b! "reel") with
    | none => []
    | some n => ifThere n (b! "id") .reelId
  | .toc, _ => []

/-- The strings that are lost when an element is loaded into an object. -/
def lostBy (v : Val) (node : Node) : List Block := ((overwrites v.kind node).filterMap v.text).map .text

/-! ### Sequences of calls -/

/-- The objects by number, `none` when destroyed, and the blocks nobody can free. -/
structure World where
  objs : List (Option Val)
  lost : List Block

/-- Nothing yet. -/
def World.init : World := ⟨[], []⟩

/-- The object with a number, if it is not destroyed. -/
def World.obj (w : World) (i : Nat) : Option Val := (w.objs[i]?).join

/-- The text of an argument; `none` if the object is not there or has no such member. -/
def World.arg (w : World) : CallArg → Option (Option Bytes)
  | .null => some none
  | .outside b => some (some b)
  | .member i f => match w.obj i with
    | none => none
    | some v => if owner f = v.kind then some (v.text f) else none

/-- The texts of the arguments of a constructor. -/
def World.args (w : World) (k : Kind) (args : Field → CallArg) (f : Field) : Option Bytes :=
  if owner f = k then ((w.arg (args f)).getD none) else none

/-- All arguments of a constructor are there. -/
def World.ArgsOk (w : World) (k : Kind) (args : Field → CallArg) : Prop := ∀ f, owner f = k → (w.arg (args f)).isSome

/-- An object changes. -/
def World.put (w : World) (i : Nat) (v : Option Val) (lost : List Block) : World := ⟨w.objs.set i v, w.lost ++ lost⟩

/-- A new object. -/
def World.add (w : World) (v : Val) : World := ⟨w.objs ++ [some v], w.lost⟩

/-- What a call does. A caller may only use objects that are not destroyed and members they have, may give tags to metadata sources
    only, and may not pass a member to the setter of this same member. -/
inductive Step (w : World) : Call → World → Prop where
  | create {k args} : w.ArgsOk k args → Step w (.create k args .none) (w.add (make (w.args k args) none k))
  | createText {args a t} : w.ArgsOk .metaSource args → w.arg a = some t →
      Step w (.create .metaSource args (.text a)) (w.add (make (w.args .metaSource args) (t.map (splitOn semicolon)) .metaSource))
  | createVector {args ts} : w.ArgsOk .metaSource args → args .metaData = .null →
      Step w (.create .metaSource args (.vector ts)) (w.add (make (w.args .metaSource args) (some ts) .metaSource))
  | clone {i v} : w.obj i = some v → Step w (.clone i) (w.add v.clone)
  | set {i f a v v' t} : w.obj i = some v → w.arg a = some t → a ≠ .member i f → v.set f t = some v' →
      Step w (.set i f a) (w.put i (some v') [])
  | setTags {i a v v' t} : w.obj i = some v → w.arg a = some t → v.setTags t = some v' →
      Step w (.setTags i a) (w.put i (some v') [])
  | load {i n v v' ok} : w.obj i = some v → v.load n = .ok (ok, v') →
      Step w (.load i n) (w.put i (some v') (lostBy v n))
  | loadStringNot {i s v} : w.obj i = some v → (s = [] ∨ Xml.loadString s = none) →
      Step w (.loadString i s) (w.put i (some v) [])
  | loadString {i s v v' n ok} : w.obj i = some v → s ≠ [] → Xml.loadString s = some n → v.load n = .ok (ok, v') →
      Step w (.loadString i s) (w.put i (some v') (lostBy v n ++ if ok then [] else [.other]))
  | loadFileNot {i s v} : w.obj i = some v → Xml.loadFile s = none → Step w (.loadFile i s) (w.put i (some v) [])
  | loadFile {i s v v' n ok} : w.obj i = some v → Xml.loadFile s = some n → v.load n = .ok (ok, v') →
      Step w (.loadFile i s) (w.put i (some v') (lostBy v n))
  | destroy {i v} : w.obj i = some v → Step w (.destroy i) (w.put i none [])

/-- Calls one after the other. -/
inductive Steps : World → List Call → World → Prop where
  | nil {w} : Steps w [] w
  | cons {w w' w'' c cs} : Step w c w' → Steps w' cs w'' → Steps w (c :: cs) w''

/-! ### Objects in memory -/

/-- All members of all kinds. -/
def allFields : List Field :=
  [.adminReelId, .adminPrintReelId, .adminTitle, .adminDescription, .adminCreator, .adminCreationDate,
   .fileName, .fileDate, .fileChecksum, .fileUniqueId, .fileFormat, .pageLayoutId, .layoutId, .layoutName,
   .sourceData, .sourceFormatId, .metaFormat, .metaData, .reelId, .tocVersion, .tocIndexType, .tocJobId, .tocReelId]

/-- The addresses an object has: its members, the array of tags and the tags. -/
def addresses (s : Strs) : List Nat :=
  allFields.filterMap s.at' ++ match s.tags with
    | none => []
    | some (v, ps) => v :: ps

/-- What is behind an address that may be NULL: a string, or NULL. -/
def Holds (m : Mem) : Option Nat → Option Bytes → Prop
  | none, none => True
  | some p, some b => m.cells p = some (.text b)
  | _, _ => False

/-- What is behind the addresses of tags. -/
def HoldsTags (m : Mem) : Option (Nat × List Nat) → Option (List Bytes) → Prop
  | none, none => True
  | some (v, ps), some bs => m.cells v = some .other ∧ ps.map m.cells = bs.map fun b => some (.text b)
  | _, _ => False

/-- An object in memory has the members of a value. -/
structure Is (m : Mem) (k : Kind) (s : Strs) (v : Val) : Prop where
  kind : k = v.kind
  text : ∀ f, Holds m (s.at' f) (v.text f)
  tags : HoldsTags m s.tags v.tags

/-- Objects in memory and objects of values: the same ones are destroyed, the others have the same members. -/
def Same (m : Mem) : Option (Kind × Strs) → Option Val → Prop
  | none, none => True
  | some (k, s), some v => Is m k s v
  | _, _ => False

/-- All addresses of the objects that are not destroyed. -/
def allAddresses (o : Objs) : List Nat :=
  o.flatMap fun x => match x with
    | none => []
    | some x => addresses x.2

/-- Memory is as it should be: every object has its members; no block is in two places; and the blocks in use are those of the
    objects and the lost ones, no others. -/
structure Describes (o : Objs) (m : Mem) (w : World) : Prop where
  objects : List.Forall₂ (Same m) o w.objs
  blocks : ∃ lost : List Nat, (allAddresses o ++ lost).Nodup ∧ (∀ a, m.cells a ≠ none ↔ a ∈ allAddresses o ++ lost) ∧
    (lost.map m.cells).Perm (w.lost.map some)

end Afs.Spec.Strings
