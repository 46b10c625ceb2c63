import Verif.Model.Object
/-!
# Metadata attached to a file
(src/tocdatafilemetadatasource.c, src/tocdatafilemetadata.c)
-/
namespace Afs

/-- `afs_toc_data_file_metadata_source` (inc/tocdatafilemetadatasource_c.h:29-37). -/
structure FileMetaSource where
  data : Option Bytes
  formatId : Option Bytes
  fileId : Int
  sourceId : Int
deriving DecidableEq, Repr

namespace FileMetaSource

/-- `afs_toc_data_file_metadata_source_create` (src/tocdatafilemetadatasource.c:76-81). -/
def create : FileMetaSource := ⟨none, none, -1, -1⟩

/-- `afs_toc_data_file_metadata_source_create2` (src/tocdatafilemetadatasource.c:99-104,
    121-134). -/
def create2 (data formatId : Option Bytes) (fileId sourceId : Int) : FileMetaSource :=
  ⟨strClone data, strClone formatId, fileId, sourceId⟩

/-- `afs_toc_data_file_metadata_source_clone` (src/tocdatafilemetadatasource.c:175-191). -/
def clone (s : FileMetaSource) : FileMetaSource :=
  ⟨strClone s.data, strClone s.formatId, s.fileId, s.sourceId⟩

/-- `afs_toc_data_file_metadata_source_equal`, non-NULL part
    (src/tocdatafilemetadatasource.c:242-250). -/
def eqFields (a b : FileMetaSource) : Bool :=
  strEq a.data b.data && strEq a.formatId b.formatId && a.fileId == b.fileId &&
  a.sourceId == b.sourceId

/-- `afs_toc_data_file_metadata_source_equal` (src/tocdatafilemetadatasource.c:230-251). -/
def equal : Option FileMetaSource → Option FileMetaSource → Bool := ptrEqual eqFields

/-- `afs_toc_data_file_metadata_source_is_valid` (src/tocdatafilemetadatasource.c:265-280). -/
def isValid (s : FileMetaSource) : Bool := !nullOrEmpty s.data || s.fileId != -1

/-- `afs_toc_data_file_metadata_source_set_data` (src/tocdatafilemetadatasource.c:294-307):
    NULL and empty strings are ignored. -/
def setData (s : FileMetaSource) (d : Option Bytes) : FileMetaSource :=
  if nullOrEmpty d then s else { s with data := strClone d }

/-- `afs_toc_data_file_metadata_source_set_format_id`
    (src/tocdatafilemetadatasource.c:321-334). -/
def setFormatId (s : FileMetaSource) (d : Option Bytes) : FileMetaSource :=
  if nullOrEmpty d then s else { s with formatId := strClone d }

end FileMetaSource

/-- `afs_toc_data_file_metadata` (inc/tocdatafilemetadata_c.h). Lines 24-29. -/
structure FileMeta where
  sources : Option (List FileMetaSource)
deriving DecidableEq, Repr

namespace FileMeta

/-- `afs_toc_data_file_metadata_create`: NULL vector. src/tocdatafilemetadata.c:69-74, 107-116. -/
def create : FileMeta := ⟨none⟩

/-- `afs_toc_data_file_metadata_clone` (src/tocdatafilemetadata.c:188-210). -/
def clone (m : FileMeta) : FileMeta := ⟨vecClone FileMetaSource.clone m.sources⟩

/-- `afs_toc_data_file_metadata_equal`, non-NULL part (src/tocdatafilemetadata.c:261-287). -/
def eqFields (a b : FileMeta) : Bool := vecEqual FileMetaSource.eqFields a.sources b.sources

/-- `afs_toc_data_file_metadata_equal` (src/tocdatafilemetadata.c:249-288). -/
def equal : Option FileMeta → Option FileMeta → Bool := ptrEqual eqFields

/-- `afs_toc_data_file_metadata_add_source` (src/tocdatafilemetadata.c:305-332). -/
def addSource (m : FileMeta) (x : Option FileMetaSource) : Bool × FileMeta :=
  match x with
  | none => (false, m)
  | some x => if !x.isValid then (false, m) else (true, ⟨vecAppend m.sources x⟩)

/-- `afs_toc_data_file_metadata_get_source` (src/tocdatafilemetadata.c:346-364). -/
def getSource (m : Option FileMeta) (i : Nat) : Option FileMetaSource :=
  match m with
  | none => none
  | some m => vecGet m.sources i

/-- `afs_toc_data_file_metadata_get_sources_count` (src/tocdatafilemetadata.c:378-391). -/
def sourcesCount : Option FileMeta → Nat
  | none => 0
  | some m => vecSize m.sources

/-- `afs_toc_data_file_metadata_is_valid` (src/tocdatafilemetadata.c:405-431): NULL object
    invalid; NULL or empty vector valid. -/
def isValid : Option FileMeta → Bool
  | none => false
  | some m =>
    match m.sources with
    | none => true
    | some l => l.all FileMetaSource.isValid

end FileMeta
end Afs
