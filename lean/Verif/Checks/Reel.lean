import Verif.Checks.Tables
import Verif.Model.Reel
import Verif.Model.ZeroRef
import Verif.Proof.Float32
import Mathlib.Tactic.Linarith
import Mathlib.Tactic.NormNum
/-!
# The project's unit tests of reels, previews and the zero reference frame, replayed on the model

tests/afs/tocdatareeltests.c, tests/afs/tocfilepreviewtests.c, tests/afs/tocfilepreviewpagetests.c,
tests/afs/zeroreferenceframetests.c. These are tests, not proofs.
-/
set_option maxRecDepth 100000
namespace Afs.Checks
open Afs

/-- `get_afs_toc_data_reel_different_parent` (tests/afs/tocdatareeltests.c). -/
def reel6 : Reel :=
  ⟨some (b! "Some reel id string!"), some ⟨some ((tocs 6).zipWith (fun f (k : Nat × Int) => { f with types := k.1, parentId := k.2 })
    [(1, -1), (2, -1), (TYPE_ALL, -1), (1, -2), (2, -2), (TYPE_ALL, -2)])⟩⟩

/-- The reel with one of its files changed. -/
def updReel (r : Reel) (i : Nat) (f : File → File) : Reel :=
  { r with files := r.files.map fun l => ⟨l.tocs.map fun t => upd t i f⟩ }

/-- The reel with all its files changed. -/
def updAll (r : Reel) (f : Nat → File → File) : Reel :=
  { r with files := r.files.map fun l => ⟨l.tocs.map fun t => t.mapIdx f⟩ }

/-- `afs_toc_data_reel_first_frame_test13` … `16`. -/
example : [SECTION_DIGITAL, SECTION_PREVIEW, SECTION_FILE_FORMAT_DESCRIPTIONS, SECTION_ALL].map (Reel.firstFrame (some reel6))
      = [2, 9, -1, 2] ∧
    [SECTION_DIGITAL, SECTION_PREVIEW, SECTION_FILE_FORMAT_DESCRIPTIONS, SECTION_ALL].map
        (Reel.firstFrame (some (updReel reel6 0 ({· with startFrame := 12})))) = [12, 9, -1, 9] := by decide +kernel

/-- `afs_toc_data_reel_last_frame_test13` … `16`. -/
example : [SECTION_DIGITAL, SECTION_PREVIEW, SECTION_FILE_FORMAT_DESCRIPTIONS, SECTION_ALL].map (Reel.lastFrame (some reel6))
      = [.ok 7, .ok (-1), .ok (-1), .ok 7] ∧
    [SECTION_PREVIEW, SECTION_FILE_FORMAT_DESCRIPTIONS].map
        (Reel.lastFrame (some (updReel reel6 0 ({· with endFrame := 12})))) = [.ok (-1), .ok (-1)] ∧
    [SECTION_DIGITAL, SECTION_ALL].map
        (Reel.lastFrame (some (updReel reel6 5 ({· with endFrame := 12})))) = [.ok 12, .ok 12] := by decide +kernel

/-- `afs_toc_data_reel_frame_count_test13` … `28`: the whole reel, the reels with every start frame -1, every end
    frame -1, and start frames past the end frames. -/
example : ([reel6, updAll reel6 (fun _ f => { f with startFrame := -1 }), updAll reel6 (fun _ f => { f with endFrame := -1 }),
      updAll reel6 (fun i f => { f with startFrame := i + 50 })].map fun r =>
    [SECTION_DIGITAL, SECTION_PREVIEW, SECTION_FILE_FORMAT_DESCRIPTIONS, SECTION_ALL].map (Reel.frameCount (some r)))
    = [[.ok 6, .ok 0, .ok 0, .ok 6], [.ok 0, .ok 0, .ok 0, .ok 0], [.ok 0, .ok 0, .ok 0, .ok 0], [.ok 0, .ok 0, .ok 0, .ok 0]] := by
  decide +kernel

/-- `afs_toc_data_reel_frame_count_test1` … `12`. -/
example : ([none, some Reel.create, some ⟨none, some Files.create⟩].map fun r =>
    [SECTION_DIGITAL, SECTION_PREVIEW, SECTION_FILE_FORMAT_DESCRIPTIONS, SECTION_ALL].map (Reel.frameCount r))
    = [[.ok 0, .ok 0, .ok 0, .ok 0], [.ok 0, .ok 0, .ok 0, .ok 0], [.ok 0, .ok 0, .ok 0, .ok 0]] := by decide +kernel

/-- `afs_toc_data_reel_size_bytes_test7` … `9`. -/
example : Reel.sizeBytes (some (updAll ⟨none, some ⟨some (tocs 3)⟩⟩ (fun _ f => { f with endByte := f.startByte }))) = .ok 3 ∧
    Reel.sizeBytes (some ⟨none, some ⟨some (tocs 3)⟩⟩) = .ok 89016 ∧
    Reel.sizeBytes (some (updReel ⟨none, some ⟨some (tocs 3)⟩⟩ 1 ({· with startByte := 30000}))) = .ok 0 := by decide +kernel

/-- The index of files whose entries lie on the given frames. -/
def onFrames (l : List (Int × Int)) : Option Files :=
  some ⟨some (l.mapIdx fun i (p : Int × Int) => { file3 i with startFrame := p.1, endFrame := p.2 })⟩

/-- `afs_toc_data_reel_get_frame_ranges_test4` … `10`. -/
example : [getFrameRanges (some ⟨some (tocs 1)⟩), getFrameRanges (onFrames [(2, 10)]),
      getFrameRanges (onFrames [(0, 10), (20, 30)]), getFrameRanges (onFrames [(0, 10), (5, 15)]),
      getFrameRanges (onFrames [(0, 30), (10, 20)]), getFrameRanges (onFrames [(0, 10), (11, 20)]),
      getFrameRanges (onFrames [(0, 10), (100, 110), (200, 210), (300, 310), (20, 50), (105, 145), (201, 208), (311, 340)]),
      getFrameRanges (onFrames [(311, 340), (201, 208), (105, 145), (20, 50), (300, 310), (200, 210), (100, 110), (0, 10)])]
    = [.ok (some ⟨some [⟨2, 1⟩]⟩), .ok (some ⟨some [⟨2, 9⟩]⟩), .ok (some ⟨some [⟨0, 11⟩, ⟨20, 11⟩]⟩), .ok (some ⟨some [⟨0, 16⟩]⟩),
      .ok (some ⟨some [⟨0, 31⟩]⟩), .ok (some ⟨some [⟨0, 21⟩]⟩),
      .ok (some ⟨some [⟨0, 11⟩, ⟨20, 31⟩, ⟨100, 46⟩, ⟨200, 11⟩, ⟨300, 41⟩]⟩),
      .ok (some ⟨some [⟨0, 11⟩, ⟨20, 31⟩, ⟨100, 46⟩, ⟨200, 11⟩, ⟨300, 41⟩]⟩)] := by decide +kernel

/-- `get_afs_toc_preview_layout_definitions_instance6` (tests/afs/tocfilepreviewtests.c:108-153): layouts of five
    sections. -/
def layouts (n : Nat) : LayoutDefs :=
  ⟨some ((List.range n).map fun i =>
    ⟨some (b! "id " ++ [48 + UInt8.ofNat i]), some (b! "name " ++ [48 + UInt8.ofNat i]),
      some ⟨some ((List.range 5).map fun _ => Section.create)⟩⟩)⟩

/-- `get_realistic_pages_vector(3, 5, 8)` (tests/afs/tocfilepreviewtests.c:76-102). -/
def realistic : List Page :=
  (List.range 3).map fun i => Page.create2 (some (b! "id " ++ [48 + UInt8.ofNat i])) (10 + i * 8 / 5) (i * 8 % 5) 8 100 100 0 0

/-- `afs_toc_file_preview_get_frames_count_test17`, `18` (tests/afs/tocfilepreviewtests.c:2729-2803). -/
example : Preview.framesCount (some (Preview.create2 (some (pages 3)))) (some (layouts 2)) = .ok (false, 0) ∧
    Preview.framesCount (some (Preview.create2 (some realistic))) (some (layouts 4)) = .ok (true, 5) ∧
    Preview.framesCount (some (Preview.create2 (some (realistic.modify 2 fun p => { p with sectionCount := 13 })))) (some (layouts 4))
      = .ok (true, 6) ∧
    Preview.framesCount (some (Preview.create2 (some (realistic.modify 2 fun p =>
      { p with sectionCount := 13, startFrame := p.startFrame + 5 })))) (some (layouts 4)) = .ok (true, 11) ∧
    Preview.framesCount (some (Preview.create2 (some (realistic.modify 2 fun p =>
      { p with sectionCount := 0, startFrame := p.startFrame + 5 })))) (some (layouts 4)) = .ok (true, 4) := by decide +kernel

/-- The page of `afs_toc_file_preview_page_get_frames_count_test18` and `…_get_sections_on_frame_test18`, with the given
    first section and number of sections. -/
def page (s n : Nat) : Option Page := some (Page.create2 (some (b! "id 1")) 9 s n 6 5 4 3)

/-- `afs_toc_file_preview_page_get_frames_count_test18` (tests/afs/tocfilepreviewpagetests.c). -/
example : [page 8 7, page 8 8, page 0 8, page 0 0].map (Page.framesCount · (some (layouts 2)))
    = [.ok (true, 3), .ok (true, 4), .ok (true, 2), .ok (true, 0)] := by decide +kernel

/-- `afs_toc_file_preview_page_get_sections_on_frame_test18` (tests/afs/tocfilepreviewpagetests.c). -/
example : [Page.sectionsOnFrame (page 8 7) 0 (some (layouts 2)), Page.sectionsOnFrame (page 8 7) 1 (some (layouts 2)),
      Page.sectionsOnFrame (page 8 8) 0 (some (layouts 2)), Page.sectionsOnFrame (page 8 8) 2 (some (layouts 2)),
      Page.sectionsOnFrame (page 0 8) 0 (some (layouts 2)), Page.sectionsOnFrame (page 0 8) 4 (some (layouts 2)),
      Page.sectionsOnFrame (page 0 0) 0 (some (layouts 2)), Page.sectionsOnFrame (page 0 0) 3 (some (layouts 2))]
    = [.ok (some 0), .ok (some 2), .ok (some 0), .ok (some 5), .ok (some 5), .ok (some 0), .ok (some 0), .ok (some 0)] := by
  decide +kernel

/-- A positive float between two neighbouring integers is truncated to the lower one. -/
theorem truncates {x : ℚ} {n : Nat} (h : (n : ℚ) ≤ x) (g : x < n + 1) (b : n < 4294967295) : f32ToU x = .ok n := by
  have n0 : (0 : ℚ) ≤ n := Nat.cast_nonneg n
  have b' : (n : ℚ) + 1 ≤ 4294967295 := by exact_mod_cast b
  have e : ⌊x⌋ = (n : ℤ) := Int.floor_eq_iff.2 ⟨by exact_mod_cast h, by exact_mod_cast g⟩
  rw [f32ToU, if_pos ⟨by linarith, by linarith⟩, e, Int.toNat_natCast]

/-- The mark of a frame, from the two truncated numbers. -/
theorem mark_of {w h a b : Nat} (w2 : w / 2 ≠ 0) (ha : a ≠ 0) (hb : b ≠ 0) (h0 : h ≠ 0)
    (e1 : f32ToU (Mark.heightF h) = .ok a) (e2 : f32ToU (Mark.topF h) = .ok b) :
    Mark.create w h = .ok (some ⟨a, w / 2, w / 2, b⟩) := by
  have c : ¬(w = 0 ∨ h = 0) := by omega
  rw [Mark.create, if_neg c, Mark.init, if_neg c, e1, e2]
  show (if _ then _ else _) = _
  rw [if_neg (by omega)]
  rfl

/-- `afs_zero_reference_mark_create_test1` … `3`: no mark for no frame (tests/afs/zeroreferenceframetests.c:52-90). -/
example : [Mark.create 0 0, Mark.create 0 100, Mark.create 200 0] = [.ok none, .ok none, .ok none] := by decide +kernel

/-- `afs_zero_reference_mark_create_test5`: height 14, width 100, left edge 100, top edge 8
    (tests/afs/zeroreferenceframetests.c:8-15). -/
theorem mark200 : Mark.create 200 100 = .ok (some ⟨14, 100, 100, 8⟩) := by
  have h1 := Mark.heightF_bounds (h := 100) (by decide)
  have h2 := Mark.topF_bounds (h := 100) (by decide)
  norm_num at h1 h2
  exact mark_of (w := 200) (by decide) (by decide) (by decide) (by decide)
    (truncates (by norm_num; linarith) (by norm_num; linarith) (by decide))
    (truncates (by norm_num; linarith) (by norm_num; linarith) (by decide))

/-- `afs_zero_reference_mark_init_test6`: height 142, width 1000, left edge 1000, top edge 88
    (tests/afs/zeroreferenceframetests.c:18-25). -/
example : Mark.create 2000 1000 = .ok (some ⟨142, 1000, 1000, 88⟩) := by
  have h1 := Mark.heightF_bounds (h := 1000) (by decide)
  have h2 := Mark.topF_bounds (h := 1000) (by decide)
  norm_num at h1 h2
  exact mark_of (w := 2000) (by decide) (by decide) (by decide) (by decide)
    (truncates (by norm_num; linarith) (by norm_num; linarith) (by decide))
    (truncates (by norm_num; linarith) (by norm_num; linarith) (by decide))

/-- `afs_zero_reference_frame_create_test…`: the frame of these numbers (tests/afs/zeroreferenceframetests.c:28-35). -/
example : ZeroFrame.create 200 100 = .ok (some ⟨some ⟨14, 100, 100, 8⟩, 100, 200⟩) := by
  rw [ZeroFrame.create, if_neg (by decide), mark200]; rfl

end Afs.Checks
