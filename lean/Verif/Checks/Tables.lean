import Verif.Model.Table
import Verif.Model.Io.File
/-!
# The project's unit tests of the tables, replayed on the model (tests/afs/tocfilestests.c)

These are tests, not proofs: they compare the model with what the authors of the code expect of it.
-/
set_option maxRecDepth 100000
namespace Afs.Checks
open Afs

/-- `get_filled_pages_vector5` (tests/afs/tocfilestests.c:33-43). -/
def pages (n : Nat) : List Page :=
  (List.range n).map fun i => Page.create2 (some (b! "Some layout ID")) (9 + i) (8 + i) (7 + i) (6 + i) (5 + i) (4 + i) (3 + i)

/-- `get_afs_toc_data_file_metadata_instance` (tests/afs/tocfilestests.c:46-65). -/
def meta_ (n : Nat) : FileMeta :=
  ⟨some ((List.range n).map fun (i : Nat) => FileMetaSource.create2 (some (b! "some xml data")) (some (b! "afs/metadata-csv")) ((i : Int) + 1) ((i : Int) + 2))⟩

/-- `get_afs_toc_file_instance3` (tests/afs/tocfilestests.c:68-94). -/
def file3 (i : Nat) : File :=
  File.create2 (some (b! "input-toc.xml")) (some (b! "2016-11-22 09:07:11")) (some (b! "f2eb0d6c6964d206012695a10ea6cd877c95c340"))
    (29672 + i) FILE_NO_PARENT (2 + i) (0 + i) (2 + i) (29671 + i) (some (b! "38A0AAAB-16B2-640C-5353-6DB8AE4367B9")) FILE_NO_PARENT TYPE_ALL
    (some (Preview.create2 (some (pages 3)))) (some (b! "file_format")) (some (meta_ 5))

/-- `get_filled_tocs_vector` (tests/afs/tocfilestests.c:109-121). -/
def tocs (n : Nat) : List File := (List.range n).map file3

/-- The index of files made of the given entries, with the entry `i` changed. -/
def upd (l : List File) (i : Nat) (f : File → File) : List File := l.modify i f

/-- The entries of `save_as_location_table_test3` (tests/afs/tocfilestests.c). -/
def located3 : List File := upd (tocs 3) 1 fun f => { f with
  startFrame := -2123456789, startByte := -2123456789, endFrame := -2123456789, endByte := -2123456789
  size := 9223372036854775807
  checksum := some (b! "long long long file checksum string................")
  preview := some (Preview.create2 (some ((pages 3).modify 1 fun p => { p with
    layoutId := some (b! "long long long layout id string..........................")
    startFrame := 4294967295, startSection := 4294967295, sectionCount := 4294967295, dimX := 4294967295
    dimY := 4294967295, ovX := 4294967295, ovY := 4294967295 }))) }

/-- The entry of `save_as_location_table_test4`. -/
def located4 : File := { file3 0 with
  id := 0, startFrame := 0, startByte := 0, endFrame := 0, endByte := 0, size := 0, checksum := some (b! "s")
  preview := some (Preview.create2 (some [Page.create2 (some (b! "h")) 0 0 0 0 0 0 0])) }

/-- `save_as_table_test1` (tests/afs/tocfilestests.c:3171). -/
example : Files.saveAsTable none = .ok (some (b! "<fileId> <uniqueId> <parentId> <formatId> <fileName>\n\n")) := by decide +kernel

/-- `save_as_table_test2` (tests/afs/tocfilestests.c:3186). -/
example : Files.saveAsTable (some Files.create) = .ok (some (b! "<fileId> <uniqueId> <parentId> <formatId> <fileName>\n\n")) := by decide +kernel

/-- `save_as_table_test3` (tests/afs/tocfilestests.c:3203). -/
example : Files.saveAsTable (some ⟨some (upd (upd (upd (tocs 4) 1 ({· with parentId := -1})) 2 ({· with parentId := -5})) 3
    ({· with parentId := 5}))⟩) = .ok (some (b! "<fileId> <uniqueId> <parentId> <formatId> <fileName>\n"
    ++ b! "-2 38A0AAAB-16B2-640C-5353-6DB8AE4367B9 0N file_format input-toc.xml\n"
    ++ b! "-2 38A0AAAB-16B2-640C-5353-6DB8AE4367B9 0P file_format input-toc.xml\n"
    ++ b! "-2 38A0AAAB-16B2-640C-5353-6DB8AE4367B9 -5 file_format input-toc.xml\n"
    ++ b! "-2 38A0AAAB-16B2-640C-5353-6DB8AE4367B9 05 file_format input-toc.xml\n")) := by decide +kernel

/-- `save_as_table_test5` (tests/afs/tocfilestests.c:3257). -/
example : Files.saveAsTable (some ⟨some (upd (tocs 3) 1 fun f => { f with
    id := -2123456789, parentId := -2123456789
    uniqueId := some (b! "long long long unique id string.........")
    fileFormat := some (b! "long long long file format string......")
    name := some (b! "long long long file name string......") })⟩) = .ok (some (b! "<fileId> <uniqueId> <parentId> <formatId> <fileName>\n"
    ++ b! "-0000000002 38A0AAAB-16B2-640C-5353-6DB8AE4367B9 0000000000N file_format                             input-toc.xml\n"
    ++ b! "-2123456789 long long long unique id string......... -2123456789 long long long file format string...... long long long file name string......\n"
    ++ b! "-0000000002 38A0AAAB-16B2-640C-5353-6DB8AE4367B9 0000000000N file_format                             input-toc.xml\n")) := by decide +kernel

/-- `save_as_table_test6` (tests/afs/tocfilestests.c:3286). -/
example : Files.saveAsTable (some ⟨some (upd (tocs 1) 0 fun f => { f with
    id := 0, uniqueId := some (b! "s"), fileFormat := some (b! "h"), name := some (b! "o") })⟩) = .ok (some (b! "<fileId> <uniqueId> <parentId> <formatId> <fileName>\n"
    ++ b! "0 s                                    N h o\n")) := by decide +kernel

/-- `save_as_location_table_test3` (tests/afs/tocfilestests.c:3339). -/
example : Files.saveAsLocationTable (some ⟨some located3⟩) = .ok (some (b! "DIGITAL DATA LOCATIONS\n"
    ++ b! "======================\n"
    ++ b! "<fileId> <startFrame> <startByte> <endFrame> <endByte> <size> <sha1Checksum>\n"
    ++ b! "-2 00000000002 00000000000 00000000002 00000029671 0000000000000029672 f2eb0d6c6964d206012695a10ea6cd877c95c340\n"
    ++ b! "-2 -2123456789 -2123456789 -2123456789 -2123456789 9223372036854775807 long long long file checksum string................\n"
    ++ b! "-2 00000000004 00000000002 00000000004 00000029673 0000000000000029674 f2eb0d6c6964d206012695a10ea6cd877c95c340\n"
    ++ b! "\n"
    ++ b! "VISUAL DATA LOCATIONS\n"
    ++ b! "=====================\n"
    ++ b! "<fileId> <layoutId> <startFrame> <startSection> <sectionCount> <dimensionWxH> <overlapWxH>\n"
    ++ b! "-2 0000000000000000000000000000000000000000000Some layout ID 0000000009 0000000008 0000000007 00006x00005 04x03\n"
    ++ b! "-2 0000000000000000000000000000000000000000000Some layout ID 0000000010 0000000009 0000000008 00007x00006 05x04\n"
    ++ b! "-2 0000000000000000000000000000000000000000000Some layout ID 0000000011 0000000010 0000000009 00008x00007 06x05\n"
    ++ b! "-2 0000000000000000000000000000000000000000000Some layout ID 0000000009 0000000008 0000000007 00006x00005 04x03\n"
    ++ b! "-2 long long long layout id string.......................... 4294967295 4294967295 4294967295 4294967295x4294967295 4294967295x4294967295\n"
    ++ b! "-2 0000000000000000000000000000000000000000000Some layout ID 0000000011 0000000010 0000000009 00008x00007 06x05\n"
    ++ b! "-2 0000000000000000000000000000000000000000000Some layout ID 0000000009 0000000008 0000000007 00006x00005 04x03\n"
    ++ b! "-2 0000000000000000000000000000000000000000000Some layout ID 0000000010 0000000009 0000000008 00007x00006 05x04\n"
    ++ b! "-2 0000000000000000000000000000000000000000000Some layout ID 0000000011 0000000010 0000000009 00008x00007 06x05\n")) := by decide +kernel

/-- `save_as_location_table_test4` (tests/afs/tocfilestests.c:3397). -/
example : Files.saveAsLocationTable (some ⟨some [located4]⟩) = .ok (some (b! "DIGITAL DATA LOCATIONS\n"
    ++ b! "======================\n"
    ++ b! "<fileId> <startFrame> <startByte> <endFrame> <endByte> <size> <sha1Checksum>\n"
    ++ b! "0 000 0000000 000 0000000 000000000000 s\n"
    ++ b! "\n"
    ++ b! "VISUAL DATA LOCATIONS\n"
    ++ b! "=====================\n"
    ++ b! "<fileId> <layoutId> <startFrame> <startSection> <sectionCount> <dimensionWxH> <overlapWxH>\n"
    ++ b! "0 h 000 0 000 00000x00000 00x00\n")) := by decide +kernel

/-- `save_as_metadata_table_test3` (tests/afs/tocfilestests.c:3493). -/
example : Files.saveAsMetadataTable (some ⟨some (upd (tocs 3) 1 fun f => { f with
    id := -2123456789
    metadata := some ⟨(meta_ 5).sources.map fun l => l.modify 1 fun s => { s with
      fileId := -2123456789, sourceId := -2123456789
      formatId := some (b! "long long long format id string................")
      data := some (b! "long long long data string...................") }⟩ })⟩) = .ok (some (b! "\nUSER DATA FILES METADATA\n"
    ++ b! "========================\n"
    ++ b! "<fileId> <sourceFileId> <sourceId> <formatId> <data>\n"
    ++ b! "-0000000002 00000000001 00000000002 afs/metadata-csv                                some xml data\n"
    ++ b! "-0000000002 00000000002 00000000003 afs/metadata-csv                                some xml data\n"
    ++ b! "-0000000002 00000000003 00000000004 afs/metadata-csv                                some xml data\n"
    ++ b! "-0000000002 00000000004 00000000005 afs/metadata-csv                                some xml data\n"
    ++ b! "-0000000002 00000000005 00000000006 afs/metadata-csv                                some xml data\n"
    ++ b! "-2123456789 00000000001 00000000002 afs/metadata-csv                                some xml data\n"
    ++ b! "-2123456789 -2123456789 -2123456789 long long long format id string................ long long long data string...................\n"
    ++ b! "-2123456789 00000000003 00000000004 afs/metadata-csv                                some xml data\n"
    ++ b! "-2123456789 00000000004 00000000005 afs/metadata-csv                                some xml data\n"
    ++ b! "-2123456789 00000000005 00000000006 afs/metadata-csv                                some xml data\n"
    ++ b! "-0000000002 00000000001 00000000002 afs/metadata-csv                                some xml data\n"
    ++ b! "-0000000002 00000000002 00000000003 afs/metadata-csv                                some xml data\n"
    ++ b! "-0000000002 00000000003 00000000004 afs/metadata-csv                                some xml data\n"
    ++ b! "-0000000002 00000000004 00000000005 afs/metadata-csv                                some xml data\n"
    ++ b! "-0000000002 00000000005 00000000006 afs/metadata-csv                                some xml data\n")) := by decide +kernel

/-- `save_as_metadata_table_test4` (tests/afs/tocfilestests.c:3542). -/
example : Files.saveAsMetadataTable (some ⟨some [{ file3 0 with
    id := 0
    metadata := some ⟨some [{ FileMetaSource.create with
      formatId := some (b! "s"), data := some (b! "h"), fileId := 0, sourceId := 0 }]⟩ }]⟩) = .ok (some (b! "\nUSER DATA FILES METADATA\n"
    ++ b! "========================\n"
    ++ b! "<fileId> <sourceFileId> <sourceId> <formatId> <data>\n"
    ++ b! "0 0 0 s h\n")) := by decide +kernel

/-- `save_as_location_table_test1`, `2` (tests/afs/tocfilestests.c:3312). -/
example : Files.saveAsLocationTable none = .ok none ∧ Files.saveAsLocationTable (some Files.create) = .ok (some []) := by
  decide +kernel

/-- `save_as_metadata_table_test1`, `2` (tests/afs/tocfilestests.c:3467). -/
example : Files.saveAsMetadataTable none = .ok none ∧ Files.saveAsMetadataTable (some Files.create) = .ok none := by
  decide +kernel

end Afs.Checks
