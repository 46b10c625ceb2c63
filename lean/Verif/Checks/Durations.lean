import Verif.Checks.Reel
/-!
# The project's unit tests of first, last and number of frames, replayed on the model

tests/afs/tocfilestests.c (the "framecount" index of files, lines 122-220) and tests/afs/tocfiletests.c. Tests, not proofs.
-/
set_option maxRecDepth 100000
namespace Afs.Checks
open Afs

/-- `create_framecount_definitions` (tests/afs/tocfilestests.c:123-138), with the library's own calls. -/
def countLayouts : Res (Option LayoutDefs) := do
  let l := LayoutDef.create2 (some (b! "FrameCountLayout")) (some (b! "Test layout for framecount toc"))
  let l := (l.addSection (some ⟨0, 0, 0, 2000, 2000, 0⟩)).2
  let l := (l.addSection (some ⟨1, 2000, 0, 2000, 2000, 0⟩)).2
  let (_, d) ← LayoutDefs.create.add (some l)
  return some d

/-- `create_framecount_preview_pages` (tests/afs/tocfilestests.c:140-155). -/
def countPages (start : Nat) : List Page :=
  (List.range 4).map fun i => Page.create2 (some (b! "FrameCountLayout")) (start + i / 2) (i % 2) 1 2000 2000 0 0

/-- `create_framecount_toc_file` (tests/afs/tocfilestests.c:157-181). -/
def countFile (i : Nat) : File :=
  File.create2 (some (b! "input-toc.xml")) (some (b! "2016-11-22 09:07:11")) (some (b! "f2eb0d6c6964d206012695a10ea6cd877c95c340"))
    (29672 + i) (1 + i) (10 + i) (0 + i) (20 + i) (29000 + i) (some (b! "38A0AAAB-16B2-640C-5353-6DB8AE4367B9"))
    FILE_NO_PARENT TYPE_ALL (some (Preview.create2 (some (countPages (2 + i * 2))))) (some (b! "file_format")) (some (meta_ 5))

/-- `create_framecount_toc` (tests/afs/tocfilestests.c:193-206), with one entry changed. -/
def countToc (i : Nat) (f : File → File) : Option Files := some ⟨some (upd ((List.range 3).map countFile) i f)⟩

/-- `afs_toc_files_get_first_frame_test13` … `16`. -/
example : [0, 1, 2, TYPE_ALL].map (Files.firstFrame (countToc 0 id)) = [-1, 10, 2, 2] ∧
    Files.firstFrame (countToc 0 ({· with startFrame := 12})) 0 = -1 ∧
    Files.firstFrame (countToc 0 ({· with startFrame := 20})) 1 = 20 ∧
    Files.firstFrame (countToc 0 ({· with startFrame := 12})) 2 = 2 ∧
    Files.firstFrame (countToc 0 ({· with startFrame := 12})) TYPE_ALL = 2 := by decide +kernel

/-- `afs_toc_files_get_last_frame_test13` … `16`. -/
example : [Files.lastFrame (countToc 0 id) 0 none, Files.lastFrame (countToc 0 ({· with endFrame := 12})) 0 none,
      Files.lastFrame (countToc 0 id) 1 none, Files.lastFrame (countToc 2 ({· with endFrame := 122})) 1 none,
      countLayouts.bind fun d => Files.lastFrame (countToc 0 id) 2 d,
      countLayouts.bind fun d => Files.lastFrame (countToc 2 ({· with endFrame := 32})) 2 d,
      Files.lastFrame (countToc 0 id) TYPE_ALL none, Files.lastFrame (countToc 2 ({· with endFrame := 25})) TYPE_ALL none]
    = [.ok (-1), .ok (-1), .ok 22, .ok 122, .ok 7, .ok 7, .ok 22, .ok 25] := by decide +kernel

/-- `afs_toc_files_get_duration_frames_test13` … `16`. -/
example : [Files.durationFrames (countToc 0 id) 0 none, Files.durationFrames (countToc 0 id) 1 none,
      Files.durationFrames (countToc 2 ({· with endFrame := 32})) 1 none,
      countLayouts.bind fun d => Files.durationFrames (countToc 0 id) 2 d,
      countLayouts.bind fun d => Files.durationFrames (countToc 2 ({· with endFrame := 32})) 2 d,
      countLayouts.bind fun d => Files.durationFrames (countToc 0 id) TYPE_ALL d,
      countLayouts.bind fun d => Files.durationFrames (countToc 2 ({· with endFrame := 32})) TYPE_ALL d]
    = [.ok 0, .ok 13, .ok 23, .ok 6, .ok 6, .ok 21, .ok 31] := by decide +kernel

/-- `afs_toc_file_get_duration_frames_test1` … `5` (tests/afs/tocfiletests.c). -/
example : [File.durationFrames none, File.durationFrames (some File.create), File.durationFrames (some (file3 0)),
      File.durationFrames (some { file3 0 with endFrame := 5 }), File.durationFrames (some { file3 0 with startFrame := 5 })]
    = [.ok 0, .ok 1, .ok 1, .ok 4, .ok (-2)] := by decide +kernel

end Afs.Checks
