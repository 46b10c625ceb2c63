import Verif.Model.Object
/-!
# Frame ranges (src/framerange.c, src/frameranges.c) and their merging
(static functions of src/tocdatareel.c)
-/
namespace Afs

/-- `afs_frame_range` (inc/framerange.h); both fields are `unsigned int`, represented by
    naturals below `2^32`. -/
structure FrameRange where
  start : Nat
  count : Nat
deriving DecidableEq, Repr

/-- `afs_frame_range_create` / `afs_frame_range_init` (src/framerange.c:64-69, 239-250). -/
def FrameRange.create : FrameRange := ⟨0, 0⟩

/-- `afs_frame_range_create2` (src/framerange.c:85-90, 253-264). -/
def FrameRange.create2 (start count : Nat) : FrameRange := ⟨start, count⟩

/-- `afs_frame_range_clone` (src/framerange.c:132-141), non-NULL argument. -/
def FrameRange.clone (r : FrameRange) : FrameRange := FrameRange.create2 r.start r.count

/-- `afs_frame_range_equal` on non-NULL arguments (src/framerange.c:192-198). -/
def FrameRange.eqFields (a b : FrameRange) : Bool := a.start == b.start && a.count == b.count

/-- `afs_frame_range_equal` (src/framerange.c:180-199). -/
def FrameRange.equal : Option FrameRange → Option FrameRange → Bool := ptrEqual FrameRange.eqFields

/-- `afs_frame_range_get_end` (src/framerange.c:213-226), non-NULL argument: 0 for an empty
    range, otherwise `start + count - 1` in unsigned arithmetic (the sum wraps before the
    subtraction; modulo 2^32 the order does not matter). -/
def FrameRange.getEnd (r : FrameRange) : Nat :=
  if r.count = 0 then 0 else u32 (r.start + r.count + (two32 - 1))

/-- `afs_frame_ranges` (inc/frameranges.h). Lines 27-32. -/
structure FrameRanges where
  ranges : Option (List FrameRange)
deriving DecidableEq, Repr

/-- `afs_frame_ranges_create` (src/frameranges.c:64-70). -/
def FrameRanges.create : FrameRanges := ⟨none⟩

/-- `afs_frame_ranges_clone` (src/frameranges.c:121-144). -/
def FrameRanges.clone (r : FrameRanges) : FrameRanges := ⟨vecClone FrameRange.clone r.ranges⟩

/-- `afs_frame_ranges_equal` on non-NULL arguments (src/frameranges.c:195-221). -/
def FrameRanges.eqFields (a b : FrameRanges) : Bool := vecEqual FrameRange.eqFields a.ranges b.ranges

/-- `afs_frame_ranges_equal` (src/frameranges.c:183-222). -/
def FrameRanges.equal : Option FrameRanges → Option FrameRanges → Bool := ptrEqual FrameRanges.eqFields

/-- `afs_frame_ranges_get_count` (src/frameranges.c:236-249). -/
def FrameRanges.getCount : Option FrameRanges → Nat
  | none => 0
  | some r => vecSize r.ranges

/-- `afs_frame_ranges_get_frame_range` (src/frameranges.c:263-281). -/
def FrameRanges.get (r : Option FrameRanges) (i : Nat) : Option FrameRange :=
  match r with
  | none => none
  | some r => vecGet r.ranges i

/-- `afs_frame_ranges_add_frame_range` (src/frameranges.c:297-319): no validity check. -/
def FrameRanges.add (r : FrameRanges) (x : Option FrameRange) : Bool × FrameRanges :=
  match x with
  | none => (false, r)
  | some x => (true, ⟨vecAppend r.ranges x⟩)

/-! ### Merging (static functions of src/tocdatareel.c) -/

/-- `merge_frame_ranges(a, b)` (src/tocdatareel.c:1241-1252): `none` when it returns DFALSE
    (`a` untouched), otherwise the new value of `*a`.  `end` is re-read after `a->start` has
    been overwritten, as in the code. -/
def mergeFrameRanges (a b : FrameRange) : Option FrameRange :=
  if a.start > u32 (b.getEnd + 1) ∨ u32 (a.getEnd + 1) < b.start then none
  else
    let a1 : FrameRange := ⟨min a.start b.start, a.count⟩
    some ⟨a1.start, u32 (max a1.getEnd b.getEnd + (two32 - a1.start) + 1)⟩

/-- Inner `while` of `sort_frame_ranges` (src/tocdatareel.c:1263-1270).  The sorted prefix is
    given reversed (last element first): elements with a larger start move one place to the
    right, the new one is dropped in front of the first that is not larger. -/
def insertRev (x : FrameRange) : List FrameRange → List FrameRange
  | [] => [x]
  | p :: ps => if p.start > x.start then p :: insertRev x ps else x :: p :: ps

/-- `sort_frame_ranges` (src/tocdatareel.c:1255-1272): insertion sort, outer loop from the
    second element; the sorted prefix is carried reversed. -/
def sortLoop : List FrameRange → List FrameRange → List FrameRange
  | rev, [] => rev.reverse
  | rev, x :: xs => sortLoop (insertRev x rev) xs

/-- `sort_frame_ranges` (src/tocdatareel.c:1255-1272). -/
def sortFrameRanges (l : List FrameRange) : List FrameRange :=
  match l with
  | [] => []
  | x :: xs => sortLoop [x] xs

/-- The loop of `merge` (src/tocdatareel.c:1289-1299): `acc` are the merged ranges before the
    last one, `last` the last merged range (mutated in place on success). -/
def mergeLoop : List FrameRange → FrameRange → List FrameRange → List FrameRange
  | acc, last, [] => acc ++ [last]
  | acc, last, x :: xs =>
    match mergeFrameRanges last x with
    | none => mergeLoop (acc ++ [last]) x.clone xs
    | some last' => mergeLoop acc last' xs

/-- `merge` (src/tocdatareel.c:1275-1304). -/
def mergeRanges (l : List FrameRange) : List FrameRange :=
  if l.length < 2 then l
  else
    match sortFrameRanges l with
    | [] => []
    | x :: xs => mergeLoop [] x.clone xs

end Afs
