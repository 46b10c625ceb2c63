import Verif.Checks.Tables
import Verif.Model.TocData
/-!
# The project's unit tests of the table of contents, replayed on the model

tests/afs/tocdatatests.c, tests/afs/tocpreviewlayoutdefinitiontests.c. Tests, not proofs.
-/
set_option maxRecDepth 100000
namespace Afs.Checks
open Afs

/-- One decimal digit. -/
def digit (i : Nat) : Bytes := [48 + UInt8.ofNat i]

/-- `get_afs_toc_file_instance8` (tests/afs/tocdatatests.c). -/
def file8 (i reel : Nat) : File :=
  File.create2 (some (b! "input-toc.xml")) (some (b! "2016-11-22 09:07:11")) (some (b! "f2eb0d6c6964d206012695a10ea6cd877c95c340"))
    (29672 + i) FILE_NO_PARENT (2 + i) (0 + i) (2 + i) (29671 + i)
    (some (b! "38A0AAAB-16B2-640C-5353-6DB8AE4367" ++ digit reel ++ digit i)) FILE_NO_PARENT TYPE_ALL
    (some (Preview.create2 (some ((List.range 3).map fun j =>
      Page.create2 (some (b! "id " ++ digit i)) (9 + j) (8 + j) (7 + j) (6 + j) (5 + j) (4 + j) (3 + j)))))
    (some (b! "file_format")) (some (meta_ 5))

/-- `get_afs_toc_data_reels_instance8` (tests/afs/tocdatatests.c). -/
def reels8 (n files : Nat) : Reels :=
  (List.range n).foldl (fun r i =>
    (r.addReel (some { Reel.create2 (some (b! "Reel id " ++ digit i)) with
      files := some ⟨some ((List.range files).map fun j => file8 j i)⟩ })).2) Reels.create

/-- `get_afs_toc_metadata_instance8` (tests/afs/tocdatatests.c). -/
def metadata8 (n : Nat) : TocMeta :=
  ⟨some ((List.range n).map fun (i : Nat) => MetaSource.create7 (some (b! "afs/metadata-csv")) ((i : Int) + 1) (some (b! "some xml data"))
    (some (b! "tag1;tag2;tag3")) ((i : Int) + 2))⟩

/-- `get_afs_toc_preview_layout_definition_instance8` (tests/afs/tocdatatests.c). -/
def layout8 (i : Nat) : LayoutDef :=
  { LayoutDef.create2 (some (b! "id " ++ digit i)) (some (b! "name " ++ digit i)) with
    sections := some ((List.range 5).foldl (fun s k =>
      (s.append (some ⟨k, 100 * k, 100 * k, 64 + k, 48 + k, (90 * k) % 360⟩)).2) Sections.create) }

/-- `get_afs_toc_preview_layout_definitions_instance8` (tests/afs/tocdatatests.c). -/
def layouts8 (n : Nat) : Res LayoutDefs :=
  (List.range n).foldlM (fun d i => do let (_, d') ← LayoutDefs.add d (some (layout8 i)); return d') LayoutDefs.create

/-- `get_afs_toc_data_instance8` (tests/afs/tocdatatests.c), changed afterwards. -/
def toc8 (version index job reel : Option Bytes) (reels sources layouts : Nat) (f : TocData → TocData := id) : Res TocData := do
  let d ← layouts8 layouts
  return f { TocData.create2 version index job reel with
    reels := some (reels8 reels 3), metadata := some (metadata8 sources), layouts := some d }

/-- The call of `toc8` most tests make. -/
def toc3 (reels sources layouts : Nat) (f : TocData → TocData := id) : Res TocData :=
  toc8 (some (b! "Some version")) (some (b! "reel")) (some (b! "Some job id")) (some (b! "Some reel id")) reels sources layouts f

/-- `afs_toc_data_is_valid_test2` … `11`. -/
example :
    ([.ok TocData.create,
      toc8 none (some (b! "reel")) (some (b! "Some job id")) (some (b! "Some reel id")) 3 3 3,
      toc8 (some []) (some (b! "reel")) (some (b! "Some job id")) (some (b! "Some reel id")) 3 3 3,
      toc8 (some (b! "Some version")) none (some (b! "Some job id")) (some (b! "Some reel id")) 3 3 3,
      toc8 (some (b! "Some version")) (some []) (some (b! "Some job id")) (some (b! "Some reel id")) 3 3 3,
      toc8 (some (b! "Some version")) (some (b! "Some not correct string")) (some (b! "Some job id")) (some (b! "Some reel id")) 3 3 3,
      toc8 (some (b! "Some version")) (some (b! "reel")) none (some (b! "Some reel id")) 3 3 3,
      toc8 (some (b! "Some version")) (some (b! "reel")) (some []) (some (b! "Some reel id")) 3 3 3,
      toc8 (some (b! "Some version")) (some (b! "reel")) (some (b! "Some job id")) none 3 3 3,
      toc8 (some (b! "Some version")) (some (b! "reel")) (some (b! "Some job id")) (some []) 3 3 3] : List (Res TocData)).map
        (fun t => t.bind fun t => .ok t.isValid)
    = List.replicate 10 (.ok false) := by decide +kernel

/-- `afs_toc_data_is_valid_test12` … `22`. -/
example :
    ([toc3 0 3 3 ({· with reels := none}), toc3 0 3 3,
      toc3 3 3 3 (fun t => { t with reels := t.reels.map fun r => ⟨r.reels.map (·.modify 1 (Reel.setId · (some [])))⟩ }),
      toc3 3 3 0 ({· with layouts := none}), toc3 3 3 0,
      toc3 3 3 3 (fun t => { t with layouts := t.layouts.map fun d => ⟨d.defs.map (·.modify 1 ({· with id := none}))⟩ }),
      toc3 3 0 3 ({· with metadata := none}), toc3 3 0 3,
      toc3 3 3 3 (fun t => { t with metadata := t.metadata.map fun m => ⟨m.sources.map (·.modify 1 ({· with fileId := -3}))⟩ }),
      toc3 3 3 3,
      toc8 (some (b! "Some version")) (some (b! "job")) (some (b! "Some job id")) (some (b! "Some reel id")) 3 3 3]
        : List (Res TocData)).map (fun t => t.bind fun t => .ok t.isValid)
    = [.ok true, .ok true, .ok false, .ok true, .ok true, .ok false, .ok true, .ok true, .ok false, .ok true, .ok true] := by
  decide +kernel

/-- Every file of every reel changed. -/
def updFiles (g : File → File) (t : TocData) : TocData :=
  { t with reels := t.reels.map fun r => ⟨r.reels.map (·.map fun x =>
      { x with files := x.files.map fun f => ⟨f.tocs.map (·.map g)⟩ })⟩ }

/-- `afs_toc_data_get_used_preview_layout_definitions_test7` … `14`: how many layouts are used. -/
example :
    ([toc3 5 5 5 (updFiles ({· with types := 1})), toc3 5 5 5 (updFiles ({· with preview := none})),
      toc3 5 5 5 (updFiles ({· with preview := some Preview.create})),
      toc3 5 5 5 (updFiles ({· with preview := some (Preview.create2 (some (List.replicate 3 Page.create)))})),
      toc3 5 5 5 (fun t => { t with layouts := t.layouts.map fun d =>
        ⟨d.defs.map (·.map ({· with id := some (b! "Do not match layout id")}))⟩ }),
      toc3 5 5 10, toc3 5 5 3, toc3 5 5 1] : List (Res TocData)).map
        (fun t => t.bind fun t => (TocData.usedLayouts (some t)).bind fun d => .ok (LayoutDefs.getCount d))
    = [.ok 0, .ok 0, .ok 0, .ok 0, .ok 0, .ok 3, .ok 3, .ok 1] := by decide +kernel

/-- The layout with the two given sections. -/
def two (a b : Section) : LayoutDef :=
  ((LayoutDef.create.addSection (some a)).2.addSection (some b)).2

/-- `afs_toc_preview_layout_definition_is_section_size_equal_test2` … `7`. -/
example :
    [LayoutDef.create, LayoutDef.create2 (some (b! "some id")) (some (b! "some name")),
      two ⟨0, 0, 0, 640, 480, 0⟩ ⟨1, 1000, 1000, 1920, 480, 0⟩, two ⟨0, 0, 0, 640, 480, 0⟩ ⟨1, 1000, 1000, 640, 1080, 0⟩,
      two ⟨0, 0, 0, 640, 480, 0⟩ ⟨1, 1000, 1000, 640, 480, 0⟩].map LayoutDef.isSectionSizeEqual
    = [true, true, false, false, true] := by decide +kernel

end Afs.Checks
