import Verif.Model.TocData
/-! # Specification: moving frames by a (positive or negative) distance -/
namespace Afs.Spec
open Afs

/-- A frame position moved by `d`; negative positions ("not on film") stay. -/
def moved (d p : Int) : Int := if 0 ≤ p then p + d else p

/-- The position is an `int` and, if on film, stays on film when moved by `d`. -/
def Stays (d p : Int) : Prop := p ≤ INT_MAX ∧ (0 ≤ p → 0 ≤ p + d ∧ p + d ≤ INT_MAX)

/-- Only the start frame of a page changes. -/
def movedPage (d : Int) (q : Page) : Page := { q with startFrame := (q.startFrame + d).toNat }
/-- Only the pages of a preview change, in place. -/
def movedPreview (d : Int) (p : Preview) : Preview := { p with pages := p.pages.map (List.map (movedPage d)) }
/-- Only start frame, end frame (`dig`) and the preview's pages (`prev`) of a file change. -/
def movedFile (dig prev : Bool) (d : Int) (f : File) : File :=
  { f with
    startFrame := if dig then moved d f.startFrame else f.startFrame
    endFrame := if dig then moved d f.endFrame else f.endFrame
    preview := if prev then f.preview.map (movedPreview d) else f.preview }
/-- Only the files of a file list change, in place. -/
def movedFiles (dig prev : Bool) (d : Int) (f : Files) : Files :=
  { f with tocs := f.tocs.map (List.map (movedFile dig prev d)) }
/-- Only the files of a reel change. -/
def movedReel (dig prev : Bool) (d : Int) (r : Reel) : Reel :=
  { r with files := r.files.map (movedFiles dig prev d) }
/-- Only the reels of a TOC change, in place. -/
def movedReels (dig prev : Bool) (d : Int) (r : Reels) : Reels :=
  { r with reels := r.reels.map (List.map (movedReel dig prev d)) }
/-- Only the reels of a TOC change. -/
def movedToc (dig prev : Bool) (d : Int) (t : TocData) : TocData :=
  { t with reels := t.reels.map (movedReels dig prev d) }

/-- Every page stays inside the unsigned range. -/
def PreviewStays (d : Int) (p : Preview) : Prop :=
  ∀ q ∈ p.pages.getD [], 0 ≤ (q.startFrame : Int) + d ∧ (q.startFrame : Int) + d < 4294967296
/-- Every selected position of the file stays on film. -/
def FileStays (dig prev : Bool) (d : Int) (f : File) : Prop :=
  (dig = true → Stays d f.startFrame ∧ Stays d f.endFrame) ∧
  (prev = true → ∀ p, f.preview = some p → PreviewStays d p)
/-- Every selected position of every file stays on film. -/
def ReelStays (dig prev : Bool) (d : Int) (r : Reel) : Prop :=
  ∀ f ∈ (r.files.bind Files.tocs).getD [], FileStays dig prev d f
def TocStays (dig prev : Bool) (d : Int) (t : TocData) : Prop :=
  ∀ r ∈ (t.reels.bind Reels.reels).getD [], ReelStays dig prev d r

end Afs.Spec
