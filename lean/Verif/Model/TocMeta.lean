import Verif.Model.Object
/-!
# TOC-level metadata (src/tocmetadatasource.c, src/tocmetadata.c)
-/
namespace Afs

/-- `afs_toc_metadata_source` (inc/tocmetadatasource_c.h:43-52). -/
structure MetaSource where
  format : Option Bytes
  id : Int
  fileId : Int
  data : Option Bytes
  tags : Option (List Bytes)
deriving DecidableEq, Repr

/-- `boxing_string_split(s, ";")` of the boxing library (not in /repo): assumed to cut at
    every separator, keeping empty pieces. Calls src/tocmetadatasource.c:361, 601. -/
def splitOn (sep : UInt8) : Bytes → List Bytes
  | [] => [[]]
  | c :: cs =>
    if c = sep then [] :: splitOn sep cs
    else
      match splitOn sep cs with
      | [] => [[c]]
      | p :: ps => (c :: p) :: ps

/-- The `strcat` loop of `afs_toc_metadata_source_get_tags` (src/tocmetadatasource.c:645-652). -/
def joinWith (sep : UInt8) : List Bytes → Bytes
  | [] => []
  | [p] => p
  | p :: q :: ps => p ++ sep :: joinWith sep (q :: ps)

/-- `";"`. src/tocmetadatasource.c:361, 601. -/
def semicolon : UInt8 := 59

namespace MetaSource

/-- `ID_UNDEFINED` and `FILE_ID_UNDEFINED` (inc/tocmetadatasource_c.h:35-36). -/
def FILE_ID_UNDEF : Int := -1
/-- inc/tocmetadatasource_c.h:36. -/
def ID_UNDEF : Int := -1

/-- `afs_toc_metadata_source_create` / `_init` (src/tocmetadatasource.c:120-125, 318-332). -/
def create : MetaSource := ⟨none, ID_UNDEF, FILE_ID_UNDEF, none, none⟩

/-- `afs_toc_metadata_source_init2` (src/tocmetadatasource.c:350-364); the other constructors
    (lines 141-260) call it with defaults. -/
def create7 (format : Option Bytes) (fileId : Int) (data tags : Option Bytes) (id : Int) : MetaSource :=
  ⟨strClone format, id, fileId, strClone data, tags.map (splitOn semicolon)⟩

/-- `afs_toc_metadata_source_clone` (src/tocmetadatasource.c:446-475). -/
def clone (s : MetaSource) : MetaSource :=
  ⟨strClone s.format, s.id, s.fileId, strClone s.data, vecClone (fun t => t) s.tags⟩

/-- `afs_toc_metadata_source_equal`, non-NULL part (src/tocmetadatasource.c:526-537), with
    `toc_metadata_source_tags_equal` (995-1021). -/
def eqFields (a b : MetaSource) : Bool :=
  vecEqual (fun s t => s == t) a.tags b.tags && strEq a.format b.format && a.id == b.id &&
  a.fileId == b.fileId && strEq a.data b.data

/-- `afs_toc_metadata_source_equal` (src/tocmetadatasource.c:514-538). -/
def equal : Option MetaSource → Option MetaSource → Bool := ptrEqual eqFields

/-- `afs_toc_metadata_source_is_valid` (src/tocmetadatasource.c:552-569), non-NULL part. -/
def isValid (s : MetaSource) : Bool :=
  if nullOrEmpty s.format = true ∨ (s.fileId ≠ FILE_ID_UNDEF ∧ s.fileId < 0) ∨
     (s.fileId = FILE_ID_UNDEF ∧ nullOrEmpty s.data = true) then false
  else true

/-- `afs_toc_metadata_source_set_tags` (src/tocmetadatasource.c:584-602): NULL and empty
    strings are ignored. -/
def setTags (s : MetaSource) (tags : Option Bytes) : MetaSource :=
  match tags with
  | none => s
  | some t => if t.length = 0 then s else { s with tags := some (splitOn semicolon t) }

/-- `afs_toc_metadata_source_get_tags` (src/tocmetadatasource.c:617-655). -/
def getTags (s : MetaSource) : Option Bytes := s.tags.map (joinWith semicolon)

end MetaSource

/-- `afs_toc_metadata` (inc/tocmetadata_c.h). Lines 27-32. -/
structure TocMeta where
  sources : Option (List MetaSource)
deriving DecidableEq, Repr

namespace TocMeta

/-- `afs_toc_metadata_create`: NULL vector. src/tocmetadata.c:58-63, 116-125. -/
def create : TocMeta := ⟨none⟩

/-- `afs_toc_metadata_clone` (src/tocmetadata.c:197-219). -/
def clone (m : TocMeta) : TocMeta := ⟨vecClone MetaSource.clone m.sources⟩

/-- `afs_toc_metadata_equal`, non-NULL part (src/tocmetadata.c:270-296). -/
def eqFields (a b : TocMeta) : Bool := vecEqual MetaSource.eqFields a.sources b.sources

/-- `afs_toc_metadata_equal` (src/tocmetadata.c:258-297). -/
def equal : Option TocMeta → Option TocMeta → Bool := ptrEqual eqFields

/-- `afs_toc_metadata_add_source` (src/tocmetadata.c:314-341). -/
def addSource (m : TocMeta) (x : Option MetaSource) : Bool × TocMeta :=
  match x with
  | none => (false, m)
  | some x => if !x.isValid then (false, m) else (true, ⟨vecAppend m.sources x⟩)

/-- `afs_toc_metadata_get_source` (src/tocmetadata.c:355-373). -/
def getSource (m : Option TocMeta) (i : Nat) : Option MetaSource :=
  match m with
  | none => none
  | some m => vecGet m.sources i

/-- `afs_toc_metadata_get_sources_count` (src/tocmetadata.c:387-400). -/
def sourcesCount : Option TocMeta → Nat
  | none => 0
  | some m => vecSize m.sources

/-- `afs_toc_metadata_is_valid` (src/tocmetadata.c:414-440): at least one source, all valid. -/
def isValid : Option TocMeta → Bool
  | none => false
  | some m =>
    match m.sources with
    | none => false
    | some l => if l.length = 0 then false else l.all MetaSource.isValid

end TocMeta
end Afs
