import Verif.Model.Admin
/-!
# The memory of strings (`char *` members) of objects

Elsewhere a `char *` is its text or NULL. Here strings are blocks of memory, members of objects are addresses, and constructors,
setters, clones, loaders and `free` allocate, read and free them as the C code does. Freed addresses are not used again, so that a use
after a free or a second free is always noticed (`Res.ub`). The parts of an object (preview of a file, …) are objects of their own;
when an object is destroyed is the subject of C30 and C63.
-/
namespace Afs.Strings
open Afs Afs.Xml

/-- What a block holds: a string, or something else (the array of a `gvector`, an XML document).
    Modelling device for malloc, e.g. src/xmlutils.c:106. -/
inductive Block where
  | text (b : Bytes)
  | other
deriving DecidableEq, Repr

/-- Memory: the blocks in use, and the next address to give out. Modelling device for malloc and free, e.g. src/xmlutils.c:106-116. -/
structure Mem where
  cells : Nat → Option Block
  next : Nat

/-- Statements that use memory, e.g. src/xmlutils.c:80-118 (modelling device). -/
def M (α : Type) : Type := Mem → Res (α × Mem)

/-- Statements one after the other, e.g. src/xmlutils.c:80-118 (modelling device). -/
instance : Monad M where
  pure a := fun m => .ok (a, m)
  bind p k := fun m => match p m with
    | .ub => .ub
    | .ok (a, m') => k a m'

/-- `malloc` and filling the block, e.g. src/xmlutils.c:106-114. -/
def alloc (b : Block) : M Nat := fun m =>
  .ok (m.next, ⟨fun a => if a = m.next then some b else m.cells a, m.next + 1⟩)

/-- `free(p)`, e.g. src/tocfile.c:321: undefined if `p` is not in use. -/
def freeBlock (p : Nat) : M Unit := fun m =>
  match m.cells p with
  | none => .ub
  | some _ => .ok ((), ⟨fun a => if a = p then none else m.cells a, m.next⟩)

/-- `free(p)` where `p` may be NULL, e.g. src/tocfile.c:321. -/
def free (p : Option Nat) : M Unit :=
  match p with
  | none => pure ()
  | some p => freeBlock p

/-- Reading a string (`strlen`, copying), e.g. src/xmlutils.c:94: undefined if it is not in use. -/
def read (p : Nat) : M Bytes := fun m =>
  match m.cells p with
  | some (.text b) => .ok (b, m)
  | _ => .ub

/-- A `const char *` argument: NULL, a string outside of the library's memory (a literal, a string of the caller, a string of an XML
    document that is in use), or an address. E.g. src/tocfile.c:519. -/
inductive Arg where
  | null
  | outside (b : Bytes)
  | ptr (p : Nat)
deriving DecidableEq, Repr

/-- The text behind an argument, e.g. src/tocdatafilemetadatasource.c:296. -/
def readArg (a : Arg) : M (Option Bytes) :=
  match a with
  | .null => pure none
  | .outside b => pure (some b)
  | .ptr p => do
    let b ← read p
    pure (some b)

/-- A text in an XML document, or NULL, as an argument. E.g. src/tocfile.c:808. -/
def Arg.ofText (t : Option Bytes) : Arg :=
  match t with
  | none => .null
  | some b => .outside b

/-- `boxing_string_clone` (boxing library): a copy, NULL for NULL. E.g. src/tocfile.c:532. -/
def clone (a : Arg) : M (Option Nat) := do
  let t ← readArg a
  match t with
  | none => pure none
  | some b => do
    let p ← alloc (.text b)
    pure (some p)

/-- The `char *` members of the objects: inc/administrativemetadata.h:27-37, inc/tocfile.h:50-70, inc/tocfilepreviewpage.h:26-38,
    inc/toc/previewlayoutdefinition.h:24-31, inc/tocdatafilemetadatasource_c.h:26-35, inc/tocmetadatasource_c.h:43-52,
    inc/tocdatareel_c.h:35-41, inc/tocdata_c.h:25-36. -/
inductive Field where
  | adminReelId | adminPrintReelId | adminTitle | adminDescription | adminCreator | adminCreationDate
  | fileName | fileDate | fileChecksum | fileUniqueId | fileFormat
  | pageLayoutId
  | layoutId | layoutName
  | sourceData | sourceFormatId
  | metaFormat | metaData
  | reelId
  | tocVersion | tocIndexType | tocJobId | tocReelId
deriving DecidableEq, Repr

/-- The kinds of objects that have strings; files as for `Field` (inc/tocfile.h:50-70, …). -/
inductive Kind where
  | admin | file | page | layout | source | metaSource | reel | toc
deriving DecidableEq, Repr

/-- The strings an object frees when it is destroyed, in this order: src/administrativemetadata.c:154-159,
    src/tocfile.c:321-326, src/tocfilepreviewpage.c:218, src/toc/previewlayoutdefinition.c:211-212,
    src/tocdatafilemetadatasource.c:157-158, src/tocmetadatasource.c:427-428, src/tocdatareel.c:132, src/tocdata.c:193-196. -/
def freed : Kind → List Field
  | .admin => [.adminReelId, .adminPrintReelId, .adminTitle, .adminDescription, .adminCreator, .adminCreationDate]
  | .file => [.fileName, .fileDate, .fileChecksum, .fileUniqueId, .fileFormat]
  | .page => [.pageLayoutId]
  | .layout => [.layoutId, .layoutName]
  | .source => [.sourceData, .sourceFormatId]
  | .metaSource => [.metaFormat, .metaData]
  | .reel => [.reelId]
  | .toc => [.tocVersion, .tocIndexType, .tocJobId, .tocReelId]

/-- The strings the constructors and `clone` functions copy: src/administrativemetadata.c:121-126, 185-190, src/tocfile.c:281-294
    (clone: 352-367), src/tocfilepreviewpage.c:185 (clone: 243-251), src/toc/previewlayoutdefinition.c:161-162, 187-188 (clone: 239),
    src/tocdatafilemetadatasource.c:128-129, 185-186, src/tocmetadatasource.c:357-360, 388-391, 456-459, src/tocdatareel.c:105, 159,
    src/tocdata.c:159-162 (clone: 230-238). -/
def copied : Kind → List Field
  | .admin => [.adminReelId, .adminPrintReelId, .adminTitle, .adminDescription, .adminCreator, .adminCreationDate]
  | .file => [.fileName, .fileDate, .fileChecksum, .fileUniqueId, .fileFormat]
  | .page => [.pageLayoutId]
  | .layout => [.layoutId, .layoutName]
  | .source => [.sourceData, .sourceFormatId]
  | .metaSource => [.metaFormat, .metaData]
  | .reel => [.reelId]
  | .toc => [.tocVersion, .tocIndexType, .tocJobId, .tocReelId]

/-- The addresses in an object: its `char *` members and, of a metadata source, the vector of tags (array and strings).
    inc/tocmetadatasource_c.h:43-52, inc/tocfile.h:50-70, …. -/
structure Strs where
  at' : Field → Option Nat
  tags : Option (Nat × List Nat)

/-- Assigning a member, e.g. src/tocfile.c:532. -/
def Strs.set (s : Strs) (f : Field) (p : Option Nat) : Strs := { s with at' := fun g => if g = f then p else s.at' g }

/-- A new object: all members NULL. src/administrativemetadata.c:82-87, src/tocfile.c:212-218, src/tocfilepreviewpage.c:138,
    src/toc/previewlayoutdefinition.c:69, src/tocdatafilemetadatasource.c:79, src/tocmetadatasource.c:325-329, src/tocdatareel.c:83,
    src/tocdata.c:126-129. -/
def empty : Strs := ⟨fun _ => none, none⟩

/-- The copies of strings in a constructor, member by member (places as for `copied`, e.g. src/tocfile.c:281-294). -/
def copyFields (args : Field → Arg) : List Field → Strs → M Strs
  | [], s => pure s
  | f :: fs, s => do
    let p ← clone (args f)
    copyFields args fs (s.set f p)

/-- Strings copied one by one into a vector: src/tocmetadatasource.c:464-467; also the pieces of `boxing_string_split`. -/
def copyAll : List Arg → M (List Nat)
  | [] => pure []
  | a :: as => do
    let b ← readArg a
    let p ← alloc (.text (b.getD []))
    let ps ← copyAll as
    pure (p :: ps)

/-- `boxing_string_split(tags, ";")` (boxing library): a new vector with a new string for every piece, NULL for NULL.
    Calls src/tocmetadatasource.c:361, 601. -/
def split (a : Arg) : M (Option (Nat × List Nat)) := do
  let t ← readArg a
  match t with
  | none => pure none
  | some b => do
    let v ← alloc .other
    let ps ← copyAll ((splitOn semicolon b).map .outside)
    pure (some (v, ps))

/-- Freeing the strings of a vector: src/tocmetadatasource.c:420-424, 593-597. -/
def freeAll : List Nat → M Unit
  | [] => pure ()
  | p :: ps => do
    freeBlock p
    freeAll ps

/-- Freeing a vector of tags, which may be NULL: src/tocmetadatasource.c:418-429, 591-599. -/
def freeTags (t : Option (Nat × List Nat)) : M Unit :=
  match t with
  | none => pure ()
  | some (v, ps) => do
    freeAll ps
    freeBlock v

/-- Freeing the strings of an object, member by member (places as for `freed`, e.g. src/tocfile.c:321-326). -/
def freeFields (s : Strs) : List Field → M Unit
  | [] => pure ()
  | f :: fs => do
    free (s.at' f)
    freeFields s fs

/-- The `free` functions once the count of references is zero (places as for `freed`); src/tocmetadatasource.c:416-431 frees the tags
    first. -/
def destroy (k : Kind) (s : Strs) : M Unit := do
  freeTags s.tags
  freeFields s (freed k)

/-- The constructors with strings (`*_create2`, …; places as for `copied`). Of metadata sources: src/tocmetadatasource.c:350-364 with
    tags in one string. -/
def create (k : Kind) (args : Field → Arg) (tags : Arg) : M Strs := do
  let s ← copyFields args (copied k) empty
  let t ← split tags
  pure { s with tags := t }

/-- Metadata sources with a vector of tags, which then belongs to the source: src/tocmetadatasource.c:381-395. -/
def createWith (args : Field → Arg) (tags : Option (Nat × List Nat)) : M Strs := do
  let p ← clone (args .metaFormat)
  pure { empty.set .metaFormat p with tags := tags }

/-- Copy of the tags: src/tocmetadatasource.c:461-472. -/
def copyTags (t : Option (Nat × List Nat)) : M (Option (Nat × List Nat)) :=
  match t with
  | none => pure none
  | some (_, ps) => do
    let v ← alloc .other
    let qs ← copyAll (ps.map .ptr)
    pure (some (v, qs))

/-- A member as an argument, e.g. src/tocfile.c:353. -/
def Arg.ofPtr (p : Option Nat) : Arg :=
  match p with
  | none => .null
  | some p => .ptr p

/-- The `clone` functions (places as for `copied`, e.g. src/tocfile.c:352-367). -/
def copy (k : Kind) (s : Strs) : M Strs := do
  let r ← copyFields (fun f => .ofPtr (s.at' f)) (copied k) empty
  let t ← copyTags s.tags
  pure { r with tags := t }

/-- The setters: src/administrativemetadata.c:276-281, 303-308, 330-335, 357-362, 384-389, 411-416, src/tocfile.c:527-532, 554-559,
    581-586, 608-613, 635-640, src/tocdatareel.c:242-247, src/tocdata.c:616-621, 643-648, 670-675, 697-702. -/
def setString (s : Strs) (f : Field) (a : Arg) : M Strs := do
  free (s.at' f)
  let p ← clone a
  pure (s.set f p)

/-- `afs_toc_data_file_metadata_source_set_data` and `_set_format_id` (src/tocdatafilemetadatasource.c:296-306, 323-333): NULL and empty
    strings are ignored. -/
def setNonEmpty (s : Strs) (f : Field) (a : Arg) : M Strs := do
  let t ← readArg a
  if nullOrEmpty t then pure s else setString s f a

/-- `afs_toc_metadata_source_set_tags` (src/tocmetadatasource.c:586-601). -/
def setTags (s : Strs) (a : Arg) : M Strs := do
  let t ← readArg a
  if nullOrEmpty t then pure s
  else do
    freeTags s.tags
    let q ← split a
    pure { s with tags := q }

/-- The `strcat` loop of `afs_toc_metadata_source_get_tags` (src/tocmetadatasource.c:645-652): reads every tag. -/
def readAll : List Nat → M (List Bytes)
  | [] => pure []
  | p :: ps => do
    let b ← read p
    let bs ← readAll ps
    pure (b :: bs)

/-- `afs_toc_metadata_source_get_tags` (src/tocmetadatasource.c:617-655): the result belongs to the caller. -/
def getTags (s : Strs) : M (Option Nat) :=
  match s.tags with
  | none => pure none
  | some (_, ps) => do
    let bs ← readAll ps
    let p ← alloc (.text (joinWith semicolon bs))
    pure (some p)

/-! ### Texts of XML elements -/

/-- `afs_xmlutils_string_cut` (src/xmlutils.c:80-118). -/
def stringCutM (p start stop : Nat) : M Nat :=
  if start > stop then pure p
  else if start = stop then do
    freeBlock p
    alloc (.text [])
  else do
    let b ← read p
    if start ≥ b.length ∨ stop > b.length then pure p
    else if start = 0 ∧ stop = b.length then pure p
    else do
      let q ← alloc (.text ((List.range (stop - start)).map fun i => b.getD (i + start) 0))
      freeBlock p
      pure q

/-- `afs_xmlutils_string_trim` (src/xmlutils.c:129-156). -/
def stringTrimM (p : Nat) : M Nat := do
  let b ← read p
  if b.length = 0 then pure p
  else stringCutM p (trimStart b) (trimEnd b (trimStart b) b.length)

/-- `afs_xmlutils_get_node_text` (src/xmlutils.c:170-194): the result belongs to the caller. -/
def nodeTextM (n : Option Node) : M (Option Nat) :=
  match n with
  | none => pure none
  | some n => do
    let p ← clone (.ofText n.getOpaque)
    match p with
    | none => pure none
    | some p => do
      let q ← stringTrimM p
      pure (some q)

/-- `afs_xmlutils_get_node_text_safe` (src/xmlutils.c:208-216). -/
def nodeTextSafeM (n : Option Node) (default : Bytes) : M (Option Nat) := do
  let p ← nodeTextM n
  match p with
  | none => clone (.outside default)
  | some p => pure (some p)

/-- `afs_xmlutils_get_integer_element` (src/xmlutils.c:374-398). -/
def intElementM (n : Node) (name : Bytes) : M (Option Int) :=
  match find n name with
  | none => pure none
  | some x => do
    let p ← nodeTextM (some x)
    match p with
    | none => pure none
    | some p => do
      let b ← read p
      freeBlock p
      pure (some (atoi b))

/-! ### Loading -/

/-- `toc_data_file->member = afs_xmlutils_get_node_text(node)` when the element is there: the old string is not freed.
    src/tocfile.c:811-829. -/
def loadText (s : Strs) (f : Field) (n : Node) (name : Bytes) : M Strs :=
  match find n name with
  | none => pure s
  | some x => do
    let p ← nodeTextM (some x)
    pure (s.set f p)

/-- Size and checksum, in both forms of the data (src/tocfile.c:937-946, 985-994); the numbers are in attributes (v2) or in elements
    (v1, `intElementM`, src/tocfile.c:948-960). -/
def loadFileData (v1 : Bool) (s : Strs) (n : Node) : M Strs := do
  match find n (b! "size") with
  | none => pure ()
  | some x => do
    let p ← nodeTextSafeM (some x) (b! "0")
    free p
  let p ← nodeTextSafeM (find n (b! "checksum")) []
  let s := s.set .fileChecksum p
  if v1 then do
    match find n (b! "start") with
    | none => pure ()
    | some x => do
      let _ ← intElementM x (b! "frame")
      let _ ← intElementM x (b! "byte")
    match find n (b! "end") with
    | none => pure ()
    | some x => do
      let _ ← intElementM x (b! "frame")
      let _ ← intElementM x (b! "byte")
    pure s
  else pure s

/-- Whether a part of a file loads (src/tocfile.c:836-866): the part is an object of its own. -/
def partLoads (n : Node) (name : Bytes) (load : Node → Bool) : Bool :=
  match find n name with
  | none => true
  | some x => load x

/-- The members read before the parts: src/tocfile.c:808-834. -/
def loadFileFields (s : Strs) (n : Node) : M Strs := do
  let p ← clone (.ofText (n.getAttr (b! "formatId")))
  let p ← match p with
    | none => clone (.outside (b! "undefined"))
    | some p => pure (some p)
  let s := s.set .fileFormat p
  let s ← loadText s .fileName n (b! "name")
  let _ ← intElementM n (b! "id")
  let s ← loadText s .fileUniqueId n (b! "uniqueId")
  let s ← loadText s .fileDate n (b! "date")
  let i ← intElementM n (b! "parentId")
  match i with
  | some _ => pure s
  | none => do
    let _ ← intElementM n (b! "parentid")
    pure s

/-- `afs_toc_file_load_xml` (src/tocfile.c:792-915). -/
def loadFileStrs (s : Strs) (node : Node) : M (Bool × Strs) :=
  match selfOrFind node (b! "file") with
  | none => pure (false, s)
  | some n => do
    let s ← loadFileFields s n
    if partLoads n (b! "preview") (fun x => (Preview.create.loadXml x).1) = false then pure (false, s)
    else if partLoads n (b! "metadata") (fun x => (FileMeta.create.loadXml x).1) = false then pure (false, s)
    else do
      let s ← match findUnder n (b! "file") (b! "data") with
        | some d => loadFileData false s d
        | none => loadFileData true s n
      pure (true, s)

/-- One tag of `afs_administrative_metadata_load_xml` (src/administrativemetadata.c:678-691). -/
def loadTag (s : Strs) (f : Field) (n : Node) (tag : Bytes) : M Strs :=
  match find n tag with
  | none => pure (s.set f none)
  | some x => do
    let p ← nodeTextM (some x)
    let p ← match p with
      | none => clone (.outside [])
      | some p => pure (some p)
    pure (s.set f p)

/-- The loop over the tags (src/administrativemetadata.c:676-692). -/
def loadTags (n : Node) : List (Field × Bytes) → Strs → M Strs
  | [], s => pure s
  | (f, tag) :: l, s => do
    let s ← loadTag s f n tag
    loadTags n l s

/-- `get_tags_list` (src/administrativemetadata.c:709-731); the list itself is allocated and freed (674, 694). -/
def adminTags : List (Field × Bytes) :=
  [(.adminReelId, b! "ReelId"), (.adminPrintReelId, b! "PrintReelId"), (.adminTitle, b! "Title"),
   (.adminDescription, b! "Description"), (.adminCreator, b! "Creator"), (.adminCreationDate, b! "CreationDate")]

/-- `afs_administrative_metadata_load_xml` (src/administrativemetadata.c:659-697). -/
def loadAdmin (s : Strs) (node : Node) : M (Bool × Strs) :=
  match find node (b! "AdministrativeMetadata") with
  | none => pure (false, s)
  | some n => do
    let l ← alloc .other
    let s ← loadTags n adminTags s
    freeBlock l
    pure (true, s)

/-- `afs_toc_file_preview_page_load_xml` (src/tocfilepreviewpage.c:701-744). -/
def loadPage (s : Strs) (node : Node) : M (Bool × Strs) :=
  match selfOrFind node (b! "pages") with
  | none => pure (false, s)
  | some n => do
    let p ← clone (.ofText (n.getAttr (b! "layoutId")))
    pure ((Page.extractXY (n.getAttr (b! "dimension"))).isSome && (Page.extractXY (n.getAttr (b! "overlap"))).isSome, s.set .pageLayoutId p)

/-- `afs_toc_preview_layout_definition_load_xml` (src/toc/previewlayoutdefinition.c:700-734). -/
def loadLayout (s : Strs) (node : Node) : M (Bool × Strs) :=
  match selfOrFind node (b! "previewLayout") with
  | none => pure (false, s)
  | some n => do
    let p ← nodeTextM (find n (b! "id"))
    let s := s.set .layoutId p
    let p ← nodeTextM (find n (b! "name"))
    pure ((Sections.create.loadXml n).1, s.set .layoutName p)

/-- The data of a source from its data element (src/tocmetadatasource.c:855-888, src/tocdatafilemetadatasource.c:618-651): a CDATA
    section is copied over the old string; else the text, if there is no string. -/
def loadDataM (s : Strs) (f : Field) (d : Node) : M Strs :=
  match firstCData d.children with
  | some b => do
    let p ← alloc (.text b)
    pure (s.set f (some p))
  | none => match s.at' f with
    | some _ => pure s
    | none => do
      let p ← nodeTextM (some d)
      pure (s.set f p)

/-- Whether a string is missing or empty (`data == NULL || strlen(data) == 0`), e.g. src/tocmetadatasource.c:560-563. -/
def isBlank (p : Option Nat) : M Bool := do
  let t ← readArg (.ofPtr p)
  pure (nullOrEmpty t)

/-- `afs_toc_metadata_source_load_xml` (src/tocmetadatasource.c:818-900); the answer is `afs_toc_metadata_source_is_valid` (552-569). -/
def loadMetaSource (s : Strs) (node : Node) : M (Bool × Strs) :=
  match selfOrFind node (b! "source") with
  | none => pure (false, s)
  | some n => do
    let p ← clone (.ofText (n.getAttr (b! "formatId")))
    let s := s.set .metaFormat p
    match intAttr n (b! "id"), intAttr n (b! "fileId") with
    | some _, some fileId => do
      let s ← match find n (b! "data") with
        | none => pure s
        | some d => loadDataM s .metaData d
      let s ← match find n (b! "tags") with
        | none => pure s
        | some t => do
          let p ← nodeTextM (some t)
          let s ← setTags s (.ofPtr p)
          free p
          pure s
      let noFormat ← isBlank (s.at' .metaFormat)
      let noData ← isBlank (s.at' .metaData)
      pure (!(noFormat || decide (fileId ≠ -1 ∧ fileId < 0) || (decide (fileId = -1) && noData)), s)
    | _, _ => pure (false, s)

/-- `afs_toc_data_file_metadata_source_load_xml` (src/tocdatafilemetadatasource.c:580-657); the answer is
    `afs_toc_data_file_metadata_source_is_valid` (265-280). -/
def loadSource (s : Strs) (node : Node) : M (Bool × Strs) :=
  match selfOrFind node (b! "source") with
  | none => pure (false, s)
  | some n =>
    match intAttr n (b! "fileId") with
    | none => pure (false, s)
    | some fileId => do
      let s ← match find n (b! "data") with
        | none => pure s
        | some d => do
          let s ← loadDataM s .sourceData d
          let p ← clone (.ofText (d.getAttr (b! "formatId")))
          pure (s.set .sourceFormatId p)
      let noData ← isBlank (s.at' .sourceData)
      pure (!noData || decide (fileId ≠ -1), s)

/-- `afs_toc_data_reel_load_xml` (src/tocdatareel.c:1189-1230). -/
def loadReel (s : Strs) (node : Node) : M (Bool × Strs) :=
  match selfOrFind node (b! "reel") with
  | none => pure (false, s)
  | some n =>
    match find n (b! "id") with
    | none => pure (false, s)
    | some i => do
      let p ← nodeTextM (some i)
      pure (partLoads n (b! "files") (fun x => (Files.create.loadXml x).1), s.set .reelId p)

/-- A text member of a table of contents: the old string is freed (src/tocdata.c:1440-1471). -/
def loadTocText (s : Strs) (f : Field) (n : Node) (name : Bytes) : M Strs :=
  match find n name with
  | none => pure s
  | some x => do
    free (s.at' f)
    let p ← nodeTextM (some x)
    pure (s.set f p)

/-- The strings in `afs_toc_data_load_xml` (src/tocdata.c:1433-1471). -/
def loadTocFields (s : Strs) (n : Node) : M Strs := do
  free (s.at' .tocVersion)
  let p ← clone (.ofText (n.getAttr (b! "version")))
  let s := s.set .tocVersion p
  let s ← loadTocText s .tocIndexType n (b! "indexType")
  let s ← loadTocText s .tocJobId n (b! "jobId")
  loadTocText s .tocReelId n (b! "reelId")

/-- `afs_toc_data_load_xml` (src/tocdata.c:1416-1555): the parts are read behind the strings and are objects of their own; the answer
    depends on them only. -/
def loadToc (s : Strs) (node : Node) : M (Bool × Strs) :=
  match selfOrFind node (b! "Index") with
  | none => pure (false, s)
  | some n => do
    let s ← loadTocFields s n
    match TocData.create.loadXml node with
    | .ub => fun _ => .ub
    | .ok r => pure (r.1, s)

/-- The `*_load_xml` function of each kind (places at the functions above, e.g. src/tocfile.c:792-915). -/
def load (k : Kind) (s : Strs) (node : Node) : M (Bool × Strs) :=
  match k with
  | .admin => loadAdmin s node
  | .file => loadFileStrs s node
  | .page => loadPage s node
  | .layout => loadLayout s node
  | .source => loadSource s node
  | .metaSource => loadMetaSource s node
  | .reel => loadReel s node
  | .toc => loadToc s node

/-- `*_load_string` (e.g. src/tocfile.c:760-778): the document is not deleted when the load fails. -/
def loadString (k : Kind) (s : Strs) (text : Bytes) : M (Bool × Strs) :=
  if text.length = 0 then pure (false, s)
  else match Xml.loadString text with
    | none => pure (false, s)
    | some d => do
      let p ← alloc .other
      let r ← load k s d
      if r.1 then do
        freeBlock p
        pure r
      else pure r

/-- `*_load_file` (e.g. src/tocfile.c:711-746) on a file with the given contents. -/
def loadFile (k : Kind) (s : Strs) (text : Bytes) : M (Bool × Strs) :=
  match Xml.loadFile text with
  | none => pure (false, s)
  | some d => do
    let p ← alloc .other
    let r ← load k s d
    freeBlock p
    pure r

/-! ### Sequences of calls -/

/-- An argument of a call: NULL, a string of the caller, or the string in a member of an object. E.g. src/tocfile.c:519. -/
inductive CallArg where
  | null
  | outside (b : Bytes)
  | member (i : Nat) (f : Field)
deriving DecidableEq, Repr

/-- The tags of a new metadata source: none, in a string, or in a vector. src/tocmetadatasource.c:141-305. -/
inductive CallTags where
  | none
  | text (a : CallArg)
  | vector (ts : List Bytes)

/-- Calls of the functions of this file on numbered objects; objects get their numbers in the order in which they are made. -/
inductive Call where
  /-- a constructor with strings (e.g. src/tocfile.c:157-193); the one without has NULL everywhere -/
  | create (k : Kind) (args : Field → CallArg) (tags : CallTags)
  /-- e.g. src/tocfile.c:344-368 -/
  | clone (i : Nat)
  /-- e.g. src/tocfile.c:519-533 -/
  | set (i : Nat) (f : Field) (a : CallArg)
  /-- src/tocmetadatasource.c:584-602 -/
  | setTags (i : Nat) (a : CallArg)
  /-- e.g. src/tocfile.c:792-915 -/
  | load (i : Nat) (node : Node)
  /-- e.g. src/tocfile.c:760-778 -/
  | loadString (i : Nat) (text : Bytes)
  /-- e.g. src/tocfile.c:711-746 -/
  | loadFile (i : Nat) (text : Bytes)
  /-- `free` of the last reference, e.g. src/tocfile.c:310-330 -/
  | destroy (i : Nat)

/-- Objects by number; `none` when destroyed. Not from the code. -/
abbrev Objs := List (Option (Kind × Strs))

/-- Undefined behaviour (use of an object that is not there). Modelling device, e.g. for src/tocfile.c:529. -/
def undefined {α : Type} : M α := fun _ => .ub

/-- The object with a number. Modelling device, e.g. for src/tocfile.c:529. -/
def theObj (o : Objs) (i : Nat) : M (Kind × Strs) :=
  match o[i]? with
  | some (some x) => pure x
  | _ => undefined

/-- The address a call argument stands for. Modelling device, e.g. for src/tocfile.c:519. -/
def argOf (o : Objs) (a : CallArg) : M Arg :=
  match a with
  | .null => pure .null
  | .outside b => pure (.outside b)
  | .member i f => do
    let x ← theObj o i
    pure (.ofPtr (x.2.at' f))

/-- The addresses of the arguments of a constructor. Modelling device, e.g. for src/tocfile.c:157-173. -/
def argsOf (o : Objs) (args : Field → CallArg) : List Field → M (Field → Arg)
  | [] => pure fun _ => .null
  | f :: fs => do
    let a ← argOf o (args f)
    let r ← argsOf o args fs
    pure fun g => if g = f then a else r g

/-- One call. -/
def call (o : Objs) (c : Call) : M Objs :=
  match c with
  | .create k args tags => do
    let as ← argsOf o args (copied k)
    match tags with
    | .none => do
      let s ← create k as .null
      pure (o ++ [some (k, s)])
    | .text a => do
      let t ← argOf o a
      let s ← create k as t
      pure (o ++ [some (k, s)])
    | .vector ts => do
      let v ← alloc .other
      let ps ← copyAll (ts.map .outside)
      let s ← createWith as (some (v, ps))
      pure (o ++ [some (k, s)])
  | .clone i => do
    let x ← theObj o i
    let s ← copy x.1 x.2
    pure (o ++ [some (x.1, s)])
  | .set i f a => do
    let x ← theObj o i
    let a ← argOf o a
    let s ← if x.1 = .source then setNonEmpty x.2 f a else setString x.2 f a
    pure (o.set i (some (x.1, s)))
  | .setTags i a => do
    let x ← theObj o i
    let a ← argOf o a
    let s ← setTags x.2 a
    pure (o.set i (some (x.1, s)))
  | .load i node => do
    let x ← theObj o i
    let r ← load x.1 x.2 node
    pure (o.set i (some (x.1, r.2)))
  | .loadString i text => do
    let x ← theObj o i
    let r ← loadString x.1 x.2 text
    pure (o.set i (some (x.1, r.2)))
  | .loadFile i text => do
    let x ← theObj o i
    let r ← loadFile x.1 x.2 text
    pure (o.set i (some (x.1, r.2)))
  | .destroy i => do
    let x ← theObj o i
    destroy x.1 x.2
    pure (o.set i none)

/-- Calls one after the other. Not from the code. -/
def calls (o : Objs) : List Call → M Objs
  | [] => pure o
  | c :: cs => do
    let o ← call o c
    calls o cs

/-- Memory at the beginning: nothing is in use. Not from the code. -/
def Mem.init : Mem := ⟨fun _ => none, 0⟩

end Afs.Strings
