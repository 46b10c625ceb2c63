import Verif.Model.Basic
/-!
# The arithmetic of `src/controlframe/boxingformat.c`

The frame and configuration objects belong to the boxing library, which is not in /repo; what
they return (bytes per frame, levels per symbol) is an input here.
-/
namespace Afs

/-- `get_ceil` (src/controlframe/boxingformat.c:1058-1072).  `dividend` is a `size_t`, `divisor` an
    `unsigned int`; the cast `(unsigned)dividend` applies before the division, and
    `dividend % divisor` is computed on the untruncated value. -/
def getCeil (dividend divisor : Nat) : Nat :=
  if divisor = 0 then 0
  else
    let result := u32 dividend / divisor
    if dividend % divisor ≠ 0 then u32 (result + 1) else result

/-- `afs_boxing_format_get_data_frames` (src/controlframe/boxingformat.c:307-315); the format is
    represented by its `bytes_per_frame`. -/
def getDataFrames (bytesPerFrame : Option Nat) (fileSize : Nat) : Nat :=
  match bytesPerFrame with
  | none => 0
  | some b => getCeil fileSize b

/-- The loop of `get_bits_per_pixel` (src/controlframe/boxingformat.c:1023-1027) for a non-negative
    `levelsPerSymbol`: `while (l) { depth++; l >>= 1; }`. -/
def colorDepthLoop (l depth : Nat) : Nat :=
  if l = 0 then depth else colorDepthLoop (l / 2) (depth + 1)
termination_by l

/-- `get_bits_per_pixel` when a frame object exists (src/controlframe/boxingformat.c:1019-1030);
    `levels ≥ 1` is required (with 0 levels `levelsPerSymbol` is -1 and the C loop never ends). -/
def bitsPerPixel (levels : Nat) : Nat := colorDepthLoop (levels - 1) 0

/-- `get_symbol_per_pixel` (src/controlframe/boxingformat.c:1042-1055): `powf(2, bits)`, exact for
    the bit depths in question. -/
def symbolPerPixel (bits : Nat) : Nat := if bits = 0 then 0 else 2 ^ bits

end Afs
