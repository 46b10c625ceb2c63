import Verif.Model.Res
/-!
# Grey scale images

`boxing_image8` belongs to the boxing library, which is not part of the repository; its layout
is an assumption of the model.
-/
namespace Afs

/-- `boxing_image8` of the boxing library: `width * height` bytes, row after row.
    Assumption on the library: `IMAGE8_PIXEL(image, x, y)` is the byte `y * width + x`. -/
structure Image where
  width : Nat
  height : Nat
  data : Bytes
deriving DecidableEq, Repr

namespace Image

/-- `IMAGE8_PIXEL(image, x, y)` as a value; undefined outside the data. -/
def pixel (i : Image) (x y : Nat) : Res UInt8 :=
  match i.data[y * i.width + x]? with
  | none => .ub
  | some v => .ok v

/-- `IMAGE8_PIXEL(image, x, y) = v`; undefined outside the data. -/
def setPixel (i : Image) (x y : Nat) (v : UInt8) : Res Image :=
  if y * i.width + x < i.data.length then .ok { i with data := i.data.set (y * i.width + x) v }
  else .ub

end Image

end Afs
