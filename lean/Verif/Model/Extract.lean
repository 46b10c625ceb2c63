import Verif.Model.Image
import Verif.Model.Layout
/-!
# Cutting preview sections out of a frame image (src/toc/previewimageutils.c)

`boxing_image8_crop` and `boxing_image8_rotate` belong to the boxing library: they are
parameters of the model, and the theorems say what they need to know about them.
-/
namespace Afs

/-- `boxing_image8_crop(source, x, y, width, height)`. -/
abbrev CropFn := Image → Nat → Nat → Nat → Nat → Res Image
/-- `boxing_image8_rotate(image, angle)`; may return NULL. -/
abbrev RotateFn := Image → Nat → Option Image

/-- `TOC_PREVIEW_IMAGE_UTIL_EXTRACT_ERROR` (inc/toc/previewimageutils.h). Line 25. -/
def EXTRACT_ERROR : Int := -1

/-- The test in front of the crop (src/toc/previewimageutils.c:74-76); the sums are
    `unsigned int` sums. -/
def fitsTest (s : Section) (src : Image) : Bool :=
  decide (u32 (s.x + s.width) ≤ src.width) && decide (u32 (s.y + s.height) ≤ src.height)

/-- One round of the loop (src/toc/previewimageutils.c:73-86): the new array entry and whether
    the counter is incremented. -/
def extractOne (crop : CropFn) (rotate : RotateFn) (src : Image) (s : Option Section) :
    Res (Option Image × Bool) :=
  match s with
  | none => .ok (none, false)
  | some s =>
    if fitsTest s src = true then do
      let c ← crop src s.x s.y s.width s.height
      return (rotate c s.rotation, true)
    else .ok (none, false)

/-- The loop (src/toc/previewimageutils.c:71-87), `k` rounds left out of `n`. -/
def extractLoop (crop : CropFn) (rotate : RotateFn) (d : LayoutDef) (src : Image) (n : Nat) :
    Nat → Res (List (Option Image) × Nat)
  | 0 => .ok ([], 0)
  | k + 1 => do
    let r ← extractOne crop rotate src (d.getSection (n - (k + 1)))
    let rest ← extractLoop crop rotate d src n k
    return (r.1 :: rest.1, (if r.2 then 1 else 0) + rest.2)

/-- `toc_preview_image_util_extract` (src/toc/previewimageutils.c:53-89): the return value and
    the array stored in `*images`; `none` when `*images` is left alone, which is the case for
    NULL arguments and for definitions without sections.  The result is an `unsigned` count
    returned as `int`. -/
def extract (crop : CropFn) (rotate : RotateFn) (d : Option LayoutDef) (src : Option Image) :
    Res (Int × Option (List (Option Image))) :=
  match d, src with
  | some d, some src => do
    let r ← extractLoop crop rotate d src d.sectionCount d.sectionCount
    return (intOfU r.2, if d.sectionCount > 0 then some r.1 else none)
  | _, _ => .ok (EXTRACT_ERROR, none)

end Afs
