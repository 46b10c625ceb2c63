import Verif.Model.Io.TocData
/-!
# The other constructors

Constructors that are not needed elsewhere in the model.  `afs_..._init` and its variants write every field of memory the caller has; as a value that is the
new object (where a field is not written this is said).
-/
namespace Afs
open Xml

namespace MetaSource

/-- `afs_toc_metadata_source_init2` (src/tocmetadatasource.c:350-364): `boxing_string_split` of NULL is NULL. -/
def init2 (format : Option Bytes) (fileId : Int) (data tags : Option Bytes) (id : Int) : MetaSource :=
  ⟨strClone format, id, fileId, strClone data, tags.map (splitOn semicolon)⟩
/-- `afs_toc_metadata_source_init3` (src/tocmetadatasource.c:381-395): the vector of tags becomes the source's own. -/
def init3 (format : Option Bytes) (fileId : Int) (tags : Option (List Bytes)) (id : Int) : MetaSource := ⟨strClone format, id, fileId, none, tags⟩
/-- `afs_toc_metadata_source_create2` (src/tocmetadatasource.c:141-146). -/
def create2 (format : Option Bytes) (fileId : Int) : MetaSource := init2 format fileId none none ID_UNDEF
/-- `afs_toc_metadata_source_create3` (src/tocmetadatasource.c:163-168). -/
def create3 (format : Option Bytes) (fileId id : Int) : MetaSource := init2 format fileId none none id
/-- `afs_toc_metadata_source_create4` (src/tocmetadatasource.c:185-190). -/
def create4 (format : Option Bytes) (fileId : Int) (data : Option Bytes) : MetaSource := init2 format fileId data none ID_UNDEF
/-- `afs_toc_metadata_source_create5` (src/tocmetadatasource.c:208-213). -/
def create5 (format : Option Bytes) (fileId : Int) (data : Option Bytes) (id : Int) : MetaSource := init2 format fileId data none id
/-- `afs_toc_metadata_source_create6` (src/tocmetadatasource.c:231-236). -/
def create6 (format : Option Bytes) (fileId : Int) (data tags : Option Bytes) : MetaSource := init2 format fileId data tags ID_UNDEF
/-- `afs_toc_metadata_source_create8` (src/tocmetadatasource.c:277-282). -/
def create8 (format : Option Bytes) (fileId : Int) (tags : Option (List Bytes)) : MetaSource := init3 format fileId tags ID_UNDEF
/-- `afs_toc_metadata_source_create9` (src/tocmetadatasource.c:300-305). -/
def create9 (format : Option Bytes) (fileId : Int) (tags : Option (List Bytes)) (id : Int) : MetaSource := init3 format fileId tags id

end MetaSource

namespace TocMeta

/-- `afs_toc_metadata_create2`, `afs_toc_metadata_init2` (src/tocmetadata.c:78-83, 139-148): the vector becomes the object's own; nothing is checked. -/
def create2 (sources : Option (List MetaSource)) : TocMeta := ⟨sources⟩
/-- `afs_toc_metadata_create3` (src/tocmetadata.c:98-103): the answer of the load is dropped. -/
def create3 (node : Node) : TocMeta := (create.loadXml node).2

end TocMeta

namespace FileMeta

/-- `afs_toc_data_file_metadata_create2`, `afs_toc_data_file_metadata_init2` (src/tocdatafilemetadata.c:89-94, 130-139): nothing is checked. -/
def create2 (sources : Option (List FileMetaSource)) : FileMeta := ⟨sources⟩

end FileMeta

namespace Files

/-- `afs_toc_files_create2`, `afs_toc_files_init2` (src/tocfiles.c:130-138, 175-185): nothing is checked. -/
def create2 (tocs : Option (List File)) : Files := ⟨tocs⟩

end Files

namespace Reels

/-- `afs_toc_data_reels_create2` (src/tocdatareels.c:81-87): nothing is checked. -/
def create2 (reels : Option (List Reel)) : Reels := ⟨reels⟩

end Reels

namespace Section

/-- `afs_toc_preview_section_create2`, `afs_toc_preview_section_init` (src/toc/previewsection.c:91-97, 116-131). -/
def create2 (id x y width height rotation : Nat) : Section := ⟨id, x, y, width, height, rotation⟩

end Section

namespace Sections

/-- `afs_toc_preview_sections_create2` (src/toc/previewsections.c:86-91): the answer of the load is dropped. -/
def create2 (node : Node) : Sections := (create.loadXml node).2

end Sections

namespace LayoutDef

/-- `afs_toc_preview_layout_definition_create3`, `afs_toc_preview_layout_definition_init2` (src/toc/previewlayoutdefinition.c:112-118, 180-191). -/
def create3 (id name : Option Bytes) (sections : Option Sections) : LayoutDef := ⟨strClone id, strClone name, sections⟩
/-- `afs_toc_preview_layout_definition_create4` (src/toc/previewlayoutdefinition.c:133-138): the answer of the load is dropped. -/
def create4 (node : Node) : LayoutDef := (create.loadXml node).2
/-- `afs_toc_preview_layout_definition_init` (src/toc/previewlayoutdefinition.c:153-164): the sections are whatever was in the memory (`sections`); `_create2`
    sets them to NULL before (91). -/
def init (sections : Option Sections) (id name : Option Bytes) : LayoutDef := ⟨strClone id, strClone name, sections⟩

end LayoutDef

end Afs
