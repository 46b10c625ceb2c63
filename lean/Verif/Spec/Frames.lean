import Verif.Model.Reel
/-!
# Specification vocabulary: frames occupied by files, frames covered by ranges
(independent of how the code sorts and merges)
-/
namespace Afs.Spec
open Afs

/-- Some file of the list occupies frame `n`. -/
def Occupied (fs : List File) (n : Nat) : Prop :=
  ∃ f ∈ fs, f.startFrame ≤ (n : Int) ∧ (n : Int) ≤ f.endFrame

/-- Some range of the list contains frame `n`. -/
def Covered (rs : List FrameRange) (n : Nat) : Prop :=
  ∃ r ∈ rs, r.start ≤ n ∧ n < r.start + r.count

/-- Canonical list of ranges: no empty range, increasing, with at least one free frame
    between a range and any later one. -/
def Canonical (rs : List FrameRange) : Prop :=
  (∀ r ∈ rs, 0 < r.count) ∧ rs.Pairwise (fun r s => r.start + r.count < s.start)

/-- A file that lies on film at representable positions: `0 ≤ start ≤ end`, `end` an `int`,
    and fewer than 2^31 frames (the length is computed in `int`). -/
def OnFilm (f : File) : Prop :=
  0 ≤ f.startFrame ∧ f.startFrame ≤ f.endFrame ∧ f.endFrame ≤ INT_MAX ∧
  f.endFrame - f.startFrame < INT_MAX

end Afs.Spec
