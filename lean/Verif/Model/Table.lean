import Verif.Model.File
import Verif.Model.Numbers
/-!
# Text tables (src/tocfiles.c:980-1590, src/tocdatafilemetadata.c:544-575, 830-868,
src/toc/previewlayoutdefinitions.c:631-690, 880-936)

Each function computes the widths of its columns, allocates a buffer of the computed size and
fills it with `sprintf`.  A write that does not fit into its buffer is `Res.ub`; so is a failing
`assert`.  `size_t` arithmetic is exact (64 bits), `unsigned int` arithmetic wraps explicitly.
-/
namespace Afs

/-! ## `printf` conversions -/

/-- `%0*d`: zeros between the sign and the digits up to the given width. -/
def fmtD0 (w : Nat) (i : Int) : Bytes :=
  if i < 0 then 45 :: (List.replicate (w - 1 - (printNat i.natAbs).length) 48 ++ printNat i.natAbs)
  else List.replicate (w - (printNat i.natAbs).length) 48 ++ printNat i.natAbs

/-- `%0*u`. -/
def fmtU0 (w n : Nat) : Bytes := List.replicate (w - (printNat n).length) 48 ++ printNat n

/-- `%-*s`. glibc; src/tocfiles.c:1046-1060. -/
def fmtSL (w : Nat) (s : Bytes) : Bytes := s ++ List.replicate (w - s.length) 32

/-! ## Buffers -/

/-- `strlen(s)`; NULL is undefined. glibc; src/tocfiles.c:1464-1560. -/
def strlenR (s : Option Bytes) : Res Nat :=
  match s with
  | none => .ub
  | some s => .ok s.length

/-- A `%s` argument; NULL is undefined. glibc; src/tocfiles.c:1046-1060. -/
def strR (s : Option Bytes) : Res Bytes :=
  match s with
  | none => .ub
  | some s => .ok s

/-- `sprintf` behind the text already in a buffer of `size` bytes; the terminating NUL must fit
    too. glibc; src/tocfiles.c:1046-1060. -/
def putStr (size : Nat) (out s : Bytes) : Res Bytes :=
  if out.length + s.length + 1 ≤ size then .ok (out ++ s) else .ub

/-- `n = snprintf(p, remaining, ...); assert(n >= 0 && n < (int)remaining);`
    (e.g. src/tocfiles.c:1055-1062). -/
def putStrN (size : Nat) (out s : Bytes) : Res Bytes :=
  if (s.length : Int) ≤ INT_MAX ∧ (s.length : Int) < intOfU (size - out.length) then .ok (out ++ s) else .ub

/-- `sprintf` into a temporary array of `n` chars. glibc; src/tocfiles.c:1130-1180. -/
def tmpStr (n : Nat) (s : Bytes) : Res Bytes := if s.length < n then .ok s else .ub

/-- A loop appending one line per element. E.g. src/tocfiles.c:1046-1060. -/
def putRows {α : Type} (put : Bytes → Bytes → Res Bytes) (row : α → Res Bytes) : Bytes → List α → Res Bytes
  | out, [] => .ok out
  | out, x :: xs => do
    let s ← row x
    let out ← put out s
    putRows put row out xs

/-- The same with headers written in front of the first line only.
    E.g. src/tocfiles.c:1130-1180. -/
def putRowsH {α : Type} (put : Bytes → Bytes → Res Bytes) (headers : List Bytes) (row : α → Res Bytes) :
    Bool → Bytes → List α → Res (Bool × Bytes)
  | done, out, [] => .ok (done, out)
  | done, out, x :: xs => do
    let out ← if done then Res.ok out else putRows put Res.ok out headers
    let s ← row x
    let out ← put out s
    putRowsH put headers row true out xs

/-! ## Digits -/

/-- `get_digits_count(int)` (src/tocfiles.c:1564-1572); `fuel` bounds the recursion. -/
def digitsCountFuel : Nat → Int → Nat
  | 0, _ => 0
  | fuel + 1, n =>
    let c := if n.tdiv 10 ≠ 0 then 1 + digitsCountFuel fuel (n.tdiv 10) else 1
    if n < 0 ∧ c = 1 then c + 1 else c

/-- `get_digits_count(int)` (src/tocfiles.c:1564-1572). -/
def digitsCount (n : Int) : Nat := digitsCountFuel (n.natAbs + 1) n

/-- `get_unsigned_digits_count` (src/tocfiles.c:1575-1579; also
    src/tocdatafilemetadata.c:865-868 and src/toc/previewlayoutdefinitions.c:933-936). -/
def uDigitsFuel : Nat → Nat → Nat
  | 0, _ => 0
  | fuel + 1, n => if n / 10 ≠ 0 then 1 + uDigitsFuel fuel (n / 10) else 1

/-- `get_unsigned_digits_count` (src/tocfiles.c:1575-1579). -/
def uDigits (n : Nat) : Nat := uDigitsFuel (n + 1) n

/-- `get_digits_count_64` (src/tocfiles.c:1582-1590): counts the sign once per digit. -/
def digits64Fuel : Nat → Int → Nat
  | 0, _ => 0
  | fuel + 1, n =>
    let c := if n.tdiv 10 ≠ 0 then 1 + digits64Fuel fuel (n.tdiv 10) else 1
    if n < 0 then c + 1 else c

/-- `get_digits_count_64` (src/tocfiles.c:1582-1590). -/
def digits64 (n : Int) : Nat := digits64Fuel (n.natAbs + 1) n

/-- `table_allocation_epsilon` (src/tocfiles.c:982). -/
def EPSILON : Nat := 1048576

namespace Files

/-! ## The file table (src/tocfiles.c:996-1066, 1364-1400) -/

/-- `toc_files_lengths` (src/tocfiles.c:32-39). -/
structure Lens where
  id : Nat
  uniqueId : Nat
  parentId : Nat
  formatId : Nat
  fileName : Nat
deriving DecidableEq, Repr

/-- `current_parent_id_length` (src/tocfiles.c:1391). -/
def parentLen (f : File) : Nat :=
  if f.parentId ≠ FILE_PARENT ∧ f.parentId ≠ FILE_NO_PARENT then digitsCount f.parentId else 1

/-- The loop of `get_max_toc_files_lenght` (src/tocfiles.c:1384-1397). -/
def lensLoop : Lens → List File → Res Lens
  | l, [] => .ok l
  | l, f :: fs => do
    let u ← strlenR f.uniqueId
    let n ← strlenR f.fileFormat
    let m ← strlenR f.name
    lensLoop ⟨max (digitsCount f.id) l.id, max u l.uniqueId, max (parentLen f) l.parentId,
      max (if n = 0 then 1 else n) l.formatId, max m l.fileName⟩ fs

/-- The parent column (src/tocfiles.c:1031-1043). -/
def parentStr (l : Lens) (f : File) : Res Bytes :=
  if f.parentId = FILE_NO_PARENT then
    tmpStr 255 (if l.parentId > 1 then fmtD0 (l.parentId - 1) 0 ++ b! "N" else b! "N")
  else if f.parentId = FILE_PARENT then
    tmpStr 255 (if l.parentId > 1 then fmtD0 (l.parentId - 1) 0 ++ b! "P" else b! "P")
  else tmpStr 255 (fmtD0 l.parentId f.parentId)

/-- The format column (src/tocfiles.c:1045-1053). -/
def formatStr (f : File) : Res Bytes := do
  let s ← strR f.fileFormat
  if s.length ≠ 0 then tmpStr 255 s else tmpStr 255 (b! "N")

/-- One line (src/tocfiles.c:1055-1059). -/
def row (l : Lens) (f : File) : Res Bytes := do
  let p ← parentStr l f
  let ff ← formatStr f
  let u ← strR f.uniqueId
  let n ← strR f.name
  return fmtD0 l.id f.id ++ [32] ++ fmtSL 36 u ++ [32] ++ p ++ [32] ++ fmtSL l.formatId ff ++ [32] ++ n ++ [10]

/-- The header (src/tocfiles.c:1000). -/
def tableHeader : Bytes := b! "<fileId> <uniqueId> <parentId> <formatId> <fileName>"

/-- `table1_width` (src/tocfiles.c:1014-1015). -/
def tableWidth (l : Lens) : Nat := u32 (l.id + l.uniqueId + l.parentId + l.formatId + l.fileName + 5)

/-- `afs_toc_files_save_as_table` (src/tocfiles.c:996-1066). -/
def saveAsTable (f : Option Files) : Res (Option Bytes) :=
  if Files.count f = 0 then do
    let r ← putStr (tableHeader.length + 2 + 1) [] (tableHeader ++ [10, 10])
    return some r
  else
    match f with
    | none => .ok none
    | some f => do
      let l ← lensLoop ⟨1, 36, 1, 0, 0⟩ f.list
      let size := tableHeader.length + tableWidth l * f.list.length + 1 + 1 + EPSILON
      let out ← putStrN size [] (tableHeader ++ [10])
      let r ← putRows (putStrN size) (row l) out f.list
      return some r

/-! ## The location table (src/tocfiles.c:1077-1212, 1403-1488) -/

/-- `toc_files_location_lengths` (src/tocfiles.c:42-59). -/
structure LocLens where
  id : Nat
  startFrame : Nat
  startByte : Nat
  endFrame : Nat
  endByte : Nat
  size : Nat
  checksum : Nat
  vId : Nat
  vLayout : Nat
  vFrame : Nat
  vSection : Nat
  vCount : Nat
  vDim : Nat
  vOv : Nat
  pages : Nat
deriving DecidableEq, Repr

/-- The pages of a file the loops look at: none if there is no preview or no page list.
    src/tocfiles.c:1464-1484. -/
def pagesOf (f : File) : List Page :=
  match f.preview with
  | none => []
  | some p => p.pages.getD []

/-- The inner loop over the pages (src/tocfiles.c:1464-1484). -/
def locPages (id : Int) : LocLens → List Page → Res LocLens
  | l, [] => .ok l
  | l, p :: ps => do
    let n ← strlenR p.layoutId
    locPages id { l with
      pages := u32 (l.pages + 1)
      vId := max (digitsCount id) l.vId
      vLayout := max n l.vLayout
      vFrame := max (uDigits p.startFrame) l.vFrame
      vSection := max (uDigits p.startSection) l.vSection
      vCount := max (uDigits p.sectionCount) l.vCount
      vDim := max (uDigits p.dimX + uDigits p.dimY + 1) l.vDim
      vOv := max (uDigits p.ovX + uDigits p.ovY + 1) l.vOv } ps

/-- The loop of `get_max_toc_files_location_lenght` (src/tocfiles.c:1435-1485). -/
def locLoop : LocLens → List File → Res LocLens
  | l, [] => .ok l
  | l, f :: fs => do
    let c ← strlenR f.checksum
    let l ← locPages f.id { l with
      id := max (digitsCount f.id) l.id
      startFrame := max (digitsCount f.startFrame) l.startFrame
      startByte := max (digitsCount f.startByte) l.startByte
      endFrame := max (digitsCount f.endFrame) l.endFrame
      endByte := max (digitsCount f.endByte) l.endByte
      size := max (digits64 f.size) l.size
      checksum := max c l.checksum } (pagesOf f)
    locLoop l fs

/-- The initial widths (src/tocfiles.c:1407-1423). -/
def locInit : LocLens := ⟨1, 3, 7, 3, 7, 12, 40, 1, 1, 3, 1, 3, 11, 5, 0⟩

/-- One digital line (src/tocfiles.c:1137-1139). -/
def digitalRow (l : LocLens) (f : File) : Res Bytes := do
  let c ← strR f.checksum
  return fmtD0 l.id f.id ++ [32] ++ fmtD0 l.startFrame f.startFrame ++ [32] ++ fmtD0 l.startByte f.startByte ++
    [32] ++ fmtD0 l.endFrame f.endFrame ++ [32] ++ fmtD0 l.endByte f.endByte ++ [32] ++ fmtD0 l.size f.size ++
    [32] ++ c ++ [10]

/-- The layout column (src/tocfiles.c:1188-1197). -/
def layoutStr (l : LocLens) (p : Page) : Res Bytes := do
  let s ← strR p.layoutId
  if l.vLayout > s.length then tmpStr 255 (fmtD0 (l.vLayout - s.length) 0 ++ s) else tmpStr 255 s

/-- One visual line (src/tocfiles.c:1188-1206). -/
def visualRow (l : LocLens) (x : File × Page) : Res Bytes := do
  let s ← layoutStr l x.2
  let d ← tmpStr 255 (fmtU0 5 x.2.dimX ++ b! "x" ++ fmtU0 5 x.2.dimY)
  let o ← tmpStr 255 (fmtU0 2 x.2.ovX ++ b! "x" ++ fmtU0 2 x.2.ovY)
  return fmtD0 l.vId x.1.id ++ [32] ++ s ++ [32] ++ fmtU0 l.vFrame x.2.startFrame ++ [32] ++
    fmtU0 l.vSection x.2.startSection ++ [32] ++ fmtU0 l.vCount x.2.sectionCount ++ [32] ++ d ++ [32] ++ o ++ [10]

/-- src/tocfiles.c:1091-1094. -/
def digitalHeader : Bytes :=
  b! "DIGITAL DATA LOCATIONS\n======================\n<fileId> <startFrame> <startByte> <endFrame> <endByte> <size> <sha1Checksum>\n"

/-- src/tocfiles.c:1095-1098. -/
def visualHeader : Bytes :=
  b! "VISUAL DATA LOCATIONS\n=====================\n<fileId> <layoutId> <startFrame> <startSection> <sectionCount> <dimensionWxH> <overlapWxH>\n"

/-- `digital_table_width` (src/tocfiles.c:1108-1109; the terms up to `newline_length`, a
    `size_t`, are added as `unsigned int`). -/
def digitalWidth (l : LocLens) : Nat :=
  u32 (l.id + l.startFrame + l.startByte + l.endFrame + l.endByte + l.size + l.checksum + 6) + 1

/-- `visual_table_width` (src/tocfiles.c:1112-1113). -/
def visualWidth (l : LocLens) : Nat :=
  u32 (l.vId + l.vLayout + l.vFrame + l.vSection + l.vCount + l.vDim + l.vOv + 6) + 1

/-- The pages listed in the visual part, in order (src/tocfiles.c:1150-1173). -/
def visualList (fs : List File) : List (File × Page) :=
  fs.flatMap fun f => if f.isPreview = true ∧ f.isParent = false then (pagesOf f).map fun p => (f, p) else []

/-- The size allocated (src/tocfiles.c:1110, 1114, 1116). -/
def locSize (l : LocLens) (count : Nat) : Nat :=
  (digitalHeader.length + digitalWidth l * count + 1) + (visualHeader.length + visualWidth l * l.pages) + 1

/-- `afs_toc_files_save_as_location_table` (src/tocfiles.c:1077-1212). -/
def saveAsLocationTable (f : Option Files) : Res (Option Bytes) :=
  match f with
  | none => .ok none
  | some f =>
    match f.tocs with
    | none => .ok (some [])
    | some fs => do
      let l ← locLoop locInit fs
      let put := putStr (locSize l fs.length)
      let d ← putRowsH put [digitalHeader] (digitalRow l) false [] (fs.filter File.isDigital)
      let out ← if d.1 then put d.2 [10] else Res.ok d.2
      let v ← putRowsH put [visualHeader] (visualRow l) false out (visualList fs)
      return some v.2

/-! ## The metadata table (src/tocfiles.c:1226-1351, 1491-1561, 1671-1687) -/

/-- `toc_files_metadata_lengths` (src/tocfiles.c:62-71). -/
structure MetaLens where
  fileId : Nat
  id : Nat
  sourceFileId : Nat
  sourceId : Nat
  formatId : Nat
  data : Nat
  count : Nat
deriving DecidableEq, Repr

/-- The sources of a file with metadata (src/tocfiles.c:1270-1277). -/
def sourcesOf (f : File) : List FileMetaSource :=
  match f.metadata with
  | none => []
  | some m => m.sources.getD []

/-- The inner loop over the sources, `j` the index (src/tocfiles.c:1528-1556). -/
def metaSources (fileId : Int) : Nat → MetaLens → List FileMetaSource → Res MetaLens
  | _, l, [] => .ok l
  | j, l, s :: ss => do
    let n ← strlenR s.formatId
    let d ← strlenR s.data
    metaSources fileId (j + 1)
      ⟨max (digitsCount fileId) l.fileId, max (digitsCount (intOfU j)) l.id, max (digitsCount s.fileId) l.sourceFileId,
        max (digitsCount s.sourceId) l.sourceId, max n l.formatId, max d l.data, u32 (l.count + 1)⟩ ss

/-- The loop of `get_max_toc_files_metadata_lenght` (src/tocfiles.c:1514-1558). -/
def metaLoop : MetaLens → List File → Res MetaLens
  | l, [] => .ok l
  | l, f :: fs => do
    let l ← metaSources f.id 0 l (sourcesOf f)
    metaLoop l fs

/-- `string_copy_strip_newline` (src/tocfiles.c:1671-1687) with `k` more characters allowed. -/
def copyStrip : Nat → Bytes → Bytes
  | 0, _ => []
  | _ + 1, [] => []
  | k + 1, c :: cs => if c = 10 ∨ c = 13 ∨ c = 9 then copyStrip (k + 1) cs else c :: copyStrip k cs

/-- The data column (src/tocfiles.c:1299-1310).  After a copy of at least 51 characters the
    `strcpy(data + 51, "...")` cuts the text there; a shorter copy ends before it. -/
def dataStr (d : Bytes) : Bytes :=
  if d.length ≥ 55 then
    let t := copyStrip 54 d
    if t.length < 51 then t else t.take 51 ++ b! "..."
  else copyStrip d.length d

/-- The source column (src/tocfiles.c:1312-1333), in an array of 32 chars. -/
def sourceStr (l : MetaLens) (s : FileMetaSource) : Res Bytes :=
  if s.sourceId ≠ -1 then tmpStr 32 (fmtD0 l.sourceId s.sourceId)
  else if l.sourceId > 1 then tmpStr 32 (fmtD0 l.sourceId 0 ++ b! "N")
  else tmpStr 32 (b! "N")

/-- One line (src/tocfiles.c:1299-1341). -/
def metaRow (l : MetaLens) (x : File × FileMetaSource) : Res Bytes := do
  let d ← strR x.2.data
  let s ← sourceStr l x.2
  let ff ← strR x.2.formatId
  return fmtD0 l.fileId x.1.id ++ [32] ++ fmtD0 l.sourceFileId x.2.fileId ++ [32] ++ s ++ [32] ++
    fmtSL l.formatId ff ++ [32] ++ dataStr d ++ [10]

/-- src/tocfiles.c:1239-1242. -/
def metaHeader : Bytes := b! "\nUSER DATA FILES METADATA\n========================\n"
/-- src/tocfiles.c:1243-1244. -/
def metaColumns : Bytes := b! "<fileId> <sourceFileId> <sourceId> <formatId> <data>\n"

/-- The sources listed, in order. src/tocfiles.c:1256-1300. -/
def metaList (fs : List File) : List (File × FileMetaSource) :=
  fs.flatMap fun f => (sourcesOf f).map fun s => (f, s)

/-- The size allocated (src/tocfiles.c:1247-1252): everything but the reserve is `unsigned int`
    arithmetic. -/
def metaSize (l : MetaLens) : Nat :=
  u32 (u32 (metaHeader.length + metaColumns.length +
    u32 (l.fileId + l.id + l.sourceFileId + l.sourceId + l.formatId + l.data + 5 + 1) * l.count + 1) + 1) + EPSILON

/-- `afs_toc_files_save_as_metadata_table` (src/tocfiles.c:1226-1351). -/
def saveAsMetadataTable (f : Option Files) : Res (Option Bytes) :=
  match f with
  | none => .ok none
  | some f =>
    match f.tocs with
    | none => .ok none
    | some fs => do
      let l ← metaLoop ⟨0, 0, 0, 0, 0, 0, 0⟩ fs
      if l.sourceId > 32 ∧ metaList fs ≠ [] then return none
      else do
        let r ← putRowsH (putStrN (metaSize l)) [metaHeader, metaColumns] (metaRow l) false [] (metaList fs)
        return some r.2

end Files

namespace FileMeta

/-! ## The metadata sources of one file (src/tocdatafilemetadata.c:544-575, 830-868) -/

/-- `toc_data_file_metadata_lengths` (src/tocdatafilemetadata.c:25-32). -/
structure Lens where
  id : Nat
  fileId : Nat
  sourceId : Nat
  formatId : Nat
  data : Nat
deriving DecidableEq, Repr

/-- The loop of `get_max_toc_data_file_metadata_lenght` (src/tocdatafilemetadata.c:850-859);
    the ids are passed to an `unsigned int` parameter. -/
def lensLoop : Nat → Lens → List FileMetaSource → Res Lens
  | _, l, [] => .ok l
  | i, l, s :: ss => do
    let n ← strlenR s.formatId
    let d ← strlenR s.data
    lensLoop (i + 1) ⟨max (uDigits i) l.id, max (uDigits (uOfInt s.fileId)) l.fileId,
      max (uDigits (uOfInt s.sourceId)) l.sourceId, max n l.formatId, max d l.data⟩ ss

/-- One line, source `i` (src/tocdatafilemetadata.c:571): the ids are printed with `%u`. -/
def row (l : Lens) (x : FileMetaSource × Nat) : Res Bytes := do
  let ff ← strR x.1.formatId
  let d ← strR x.1.data
  return fmtU0 l.id x.2 ++ [32] ++ fmtU0 l.fileId (uOfInt x.1.fileId) ++ [32] ++
    fmtU0 l.sourceId (uOfInt x.1.sourceId) ++ [32] ++ fmtSL l.formatId ff ++ [32] ++ d ++ [10]

/-- src/tocdatafilemetadata.c:552-555. -/
def tableHeader : Bytes :=
  b! "METADATA SOURCES\n================\n<id> <fileId> <sourceId> <formatId> <data>\n"

/-- The size allocated (src/tocdatafilemetadata.c:560-564). -/
def tableSize (l : Lens) (count : Nat) : Nat :=
  u32 (tableHeader.length +
    u32 (u32 (l.id + l.fileId + l.sourceId + l.formatId + l.data + 4 + 1) * count + 1) + 1)

/-- `afs_toc_data_file_metadata_save_as_table` (src/tocdatafilemetadata.c:544-575). -/
def saveAsTable (m : Option FileMeta) : Res (Option Bytes) :=
  match m with
  | none => .ok none
  | some m => do
    let ss := m.sources.getD []
    let l ← lensLoop 0 ⟨1, 0, 0, 0, 0⟩ ss
    let put := putStr (tableSize l ss.length)
    let out ← put [] tableHeader
    let r ← putRows put (row l) out ss.zipIdx
    return some r

end FileMeta

namespace LayoutDefs

/-! ## Layout definitions (src/toc/previewlayoutdefinitions.c:631-690, 880-936) -/

/-- `layout_definitions_lengths` (src/toc/previewlayoutdefinitions.c). Lines 27-39. -/
structure Lens where
  layoutId : Nat
  sections : Nat
  name : Nat
  sectionId : Nat
  x : Nat
  y : Nat
  width : Nat
  height : Nat
  rotation : Nat
  count : Nat
deriving DecidableEq, Repr

/-- The inner loop over the sections (src/toc/previewlayoutdefinitions.c:915-926). -/
def lensSection (l : Lens) (s : Section) : Lens :=
  { l with
    count := u32 (l.count + 1)
    sectionId := max (uDigits s.id) l.sectionId
    x := max (uDigits s.x) l.x
    y := max (uDigits s.y) l.y
    width := max (uDigits s.width) l.width
    height := max (uDigits s.height) l.height
    rotation := max (uDigits s.rotation) l.rotation }

/-- The loop of `get_max_layout_id_lenght` (src/toc/previewlayoutdefinitions.c:906-927). -/
def lensLoop : Lens → List LayoutDef → Res Lens
  | l, [] => .ok l
  | l, d :: ds => do
    let i ← strlenR d.id
    let n ← strlenR d.name
    lensLoop (d.sectionList.foldl lensSection { l with
      layoutId := max i l.layoutId
      sections := max (uDigits d.sectionList.length) l.sections
      name := max n l.name }) ds

/-- `%.*s%s` with the pad string of eleven zeros (src/toc/previewlayoutdefinitions.c:639, 665). -/
def padId (l : Lens) (id : Bytes) : Bytes := List.replicate (min (l.layoutId - id.length) 11) 48 ++ id

/-- One line of the first part (src/toc/previewlayoutdefinitions.c:665). -/
def defRow (l : Lens) (d : LayoutDef) : Res Bytes := do
  let i ← strR d.id
  let n ← strR d.name
  return padId l i ++ [32] ++ fmtU0 l.sections d.sectionList.length ++ [32] ++ n ++ [10]

/-- One line of the second part (src/toc/previewlayoutdefinitions.c:679-680). -/
def sectionRow (l : Lens) (x : LayoutDef × Section) : Res Bytes := do
  let i ← strR x.1.id
  return padId l i ++ [32] ++ fmtU0 l.sectionId x.2.id ++ [32] ++ fmtU0 l.x x.2.x ++ [32] ++ fmtU0 l.y x.2.y ++
    [32] ++ fmtU0 l.width x.2.width ++ [32] ++ fmtU0 l.height x.2.height ++ [32] ++ fmtU0 l.rotation x.2.rotation ++ [10]

/-- src/toc/previewlayoutdefinitions.c:640-643. -/
def tableHeader : Bytes := b! "VISUAL LAYOUT DEFINITIONS\n=========================\n"
/-- src/toc/previewlayoutdefinitions.c:643. -/
def defColumns : Bytes := b! "<layoutId> <sections> <name>\n"
/-- src/toc/previewlayoutdefinitions.c:644. -/
def sectionColumns : Bytes := b! "\n<layoutId> <sectionId> <x> <y> <width> <height> <rotation>\n"

/-- The size allocated (src/toc/previewlayoutdefinitions.c:649-656). -/
def tableSize (l : Lens) (count : Nat) : Nat :=
  u32 (tableHeader.length + u32 (defColumns.length + u32 (l.layoutId + l.sections + l.name + 3) * count + 1) +
    u32 (sectionColumns.length +
      u32 (l.layoutId + l.sectionId + l.x + l.y + l.width + l.height + l.rotation + 7) * l.count + 1)) + 1 + 1

/-- The sections listed, in order. src/toc/previewlayoutdefinitions.c:670-690. -/
def sectionPairs (ds : List LayoutDef) : List (LayoutDef × Section) :=
  ds.flatMap fun d => d.sectionList.map fun s => (d, s)

/-- `afs_toc_preview_layout_definitions_save_as_table`
    (src/toc/previewlayoutdefinitions.c:631-690). -/
def saveAsTable (d : Option LayoutDefs) : Res (Option Bytes) :=
  match d with
  | none => .ok none
  | some d => do
    let ds := d.defs.getD []
    let l ← lensLoop ⟨0, 0, 0, 0, 0, 0, 0, 0, 3, 0⟩ ds
    let put := putStr (tableSize l ds.length)
    let out ← put [] (tableHeader ++ defColumns)
    let out ← putRows put (defRow l) out ds
    let out ← put out sectionColumns
    let out ← putRows put (sectionRow l) out (sectionPairs ds)
    let out ← if ds.length ≠ 0 then put out [10] else Res.ok out
    return some out

end LayoutDefs
end Afs
