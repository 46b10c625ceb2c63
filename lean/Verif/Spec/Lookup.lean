import Verif.Model.TocData
/-! # Specification: lookups, selections -/
namespace Afs.Spec
open Afs

/-- `r` is the first element of `l` with property `P` (NULL when there is none). -/
def FirstMatch {A : Type} (P : A → Prop) (l : List A) : Option A → Prop
  | none => ∀ x ∈ l, ¬ P x
  | some x => P x ∧ ∃ pre post, l = pre ++ x :: post ∧ ∀ y ∈ pre, ¬ P y

/-- All files of a TOC in reel order, then file order. -/
def allFiles (t : TocData) : List File :=
  ((t.reels.bind Reels.reels).getD []).flatMap fun r => (r.files.bind Files.tocs).getD []

/-- The files of a reel, in order. -/
def reelFiles (r : Reel) : List File := (r.files.bind Files.tocs).getD []

/-- A result list (NULL = empty). -/
def resultFiles (f : Option Files) : List File := (f.bind Files.tocs).getD []

/-- The file has one of the kinds (bit 1 digital, bit 2 preview) selected by a section mask. -/
def selects (mask : Nat) (f : File) : Bool :=
  (mask.testBit 0 && f.types.testBit 0) || (mask.testBit 1 && f.types.testBit 1)

end Afs.Spec
