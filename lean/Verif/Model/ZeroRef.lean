import Verif.Model.Float32
import Verif.Model.Image
/-!
# Zero reference frame (src/zeroreferenceframe.c)

Not modelled: `malloc` failing.
-/
namespace Afs

/-- `afs_zero_reference_mark` (inc/zeroreferenceframe.h:33-39). -/
structure Mark where
  height : Nat
  width : Nat
  topLeftX : Nat
  topLeftY : Nat
deriving DecidableEq, Repr

/-- `afs_zero_reference_frame` (inc/zeroreferenceframe.h:43-48). -/
structure ZeroFrame where
  mark : Option Mark
  height : Nat
  width : Nat
deriving DecidableEq, Repr

/-- `FRAME_HEIGHT_MM 13.87f` (src/zeroreferenceframe.c:23). -/
def FRAME_HEIGHT_MM : ℚ := f32 (1387 / 100)
/-- `PITCH_HEIGHT_MM 1.98f` (src/zeroreferenceframe.c:24). -/
def PITCH_HEIGHT_MM : ℚ := f32 (198 / 100)
/-- `PERF_PITCH_HEIGHT_MM 4.72f` (src/zeroreferenceframe.c:25). -/
def PERF_PITCH_HEIGHT_MM : ℚ := f32 (472 / 100)

namespace Mark

/-- `FRAME_HEIGHT_MM / (float)frame_height` (src/zeroreferenceframe.c:131). -/
def pixelPitch (frameHeight : Nat) : ℚ := f32 (FRAME_HEIGHT_MM / f32 frameHeight)

/-- `FRAME_HEIGHT_MM - (2.0f * PERF_PITCH_HEIGHT_MM + PITCH_HEIGHT_MM)`
    (src/zeroreferenceframe.c:136). -/
def marginMm : ℚ := f32 (FRAME_HEIGHT_MM - f32 (f32 (2 * PERF_PITCH_HEIGHT_MM) + PITCH_HEIGHT_MM))

/-- The float whose truncation is the height (src/zeroreferenceframe.c:134). -/
def heightF (frameHeight : Nat) : ℚ := f32 (PITCH_HEIGHT_MM / pixelPitch frameHeight)

/-- The float whose truncation is the top edge (src/zeroreferenceframe.c:136). -/
def topF (frameHeight : Nat) : ℚ := f32 (marginMm / f32 (2 * pixelPitch frameHeight))

/-- `afs_zero_reference_mark_init` on a fresh mark (src/zeroreferenceframe.c:124-148);
    `none` stands for `DFALSE`. -/
def init (frameWidth frameHeight : Nat) : Res (Option Mark) :=
  if frameWidth = 0 ∨ frameHeight = 0 then .ok none
  else do
    let width := frameWidth / 2
    let height ← f32ToU (heightF frameHeight)
    let topLeftX := width
    let topLeftY ← f32ToU (topF frameHeight)
    if width = 0 ∨ height = 0 ∨ topLeftX = 0 ∨ topLeftY = 0 then return none
    else return some ⟨height, width, topLeftX, topLeftY⟩

/-- `afs_zero_reference_mark_create` (src/zeroreferenceframe.c:91-107). -/
def create (frameWidth frameHeight : Nat) : Res (Option Mark) :=
  if frameWidth = 0 ∨ frameHeight = 0 then .ok none else init frameWidth frameHeight

end Mark

namespace ZeroFrame

/-- `afs_zero_reference_frame_create` with `afs_zero_reference_frame_init`
    (src/zeroreferenceframe.c:187-204, 223-245). -/
def create (frameWidth frameHeight : Nat) : Res (Option ZeroFrame) :=
  if frameWidth = 0 ∨ frameHeight = 0 then .ok none
  else do
    match ← Mark.create frameWidth frameHeight with
    | none => return none
    | some m => return some ⟨some m, frameHeight, frameWidth⟩

end ZeroFrame

/-- `BOXING_PIXEL_MIN` of the boxing library: black. src/zeroreferenceframe.c:314. -/
def PIXEL_MIN : UInt8 := 0
/-- `BOXING_PIXEL_MAX` of the boxing library: white. src/zeroreferenceframe.c:318. -/
def PIXEL_MAX : UInt8 := 255

namespace ZeroFrame

/-- The colour chosen for pixel `(i, j)` (src/zeroreferenceframe.c:307-316). -/
def colour (m : Mark) (i j : Nat) : UInt8 :=
  if i ≥ m.topLeftX ∧ j ≥ m.topLeftY ∧ j < u32 (m.topLeftY + m.height) then PIXEL_MIN else PIXEL_MAX

/-- The inner loop over the rows, `k` rounds left (src/zeroreferenceframe.c:305-317). -/
def columnLoop (m : Mark) (height i : Nat) : Nat → Image → Res Image
  | 0, im => .ok im
  | k + 1, im => do
    let im ← im.setPixel i (height - (k + 1)) (colour m i (height - (k + 1)))
    columnLoop m height i k im

/-- The outer loop over the columns, `k` rounds left (src/zeroreferenceframe.c:303-318). -/
def imageLoop (m : Mark) (width height : Nat) : Nat → Image → Res Image
  | 0, im => .ok im
  | k + 1, im => do
    let im ← columnLoop m height (width - (k + 1)) height im
    imageLoop m width height k im

/-- `afs_zero_reference_frame_create_image` (src/zeroreferenceframe.c:285-321).  `fresh` is
    what `boxing_image8_create(width, height)` returns: NULL, or an image of that size with
    arbitrary content.  The mark is dereferenced without a check, so a frame without a mark
    is undefined as soon as there is a pixel. -/
def createImage (f : ZeroFrame) (fresh : Option Bytes) : Res (Option Image) :=
  match fresh with
  | none => .ok none
  | some d =>
    match f.mark with
    | none => if f.width = 0 ∨ f.height = 0 then .ok (some ⟨f.width, f.height, d⟩) else .ub
    | some m => do
      let im ← imageLoop m f.width f.height f.width ⟨f.width, f.height, d⟩
      return some im

end ZeroFrame
end Afs
