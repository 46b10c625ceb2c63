import Verif.Model.Xml.Wrap
import Mathlib.Data.List.Forall2
/-!
# What a wrap margin may do to a saved text
-/
namespace Afs.Spec
open Afs Xml

/-- `a` is `b`, but for line ends in place of some blanks. -/
abbrev Broken (a b : Bytes) : Prop := List.Forall₂ (fun x y => x = y ∨ (x = 10 ∧ y = 32)) a b

/-- The margins a save finds are values that were read in some run (`m` is 0 where nothing is read any more). -/
def Drawn (reads : List (Nat × Int)) (m : Margins) : Prop := ∀ k, (m k).1 = 0 ∨ ∃ t, (t, (m k).1) ∈ reads

/-- A thread as the functions of afs make it: the first thing it does with the margin is to set it to 0
    (`mxmlSetWrapMargin(0)` stands before every save), and it never sets it to anything else. -/
def SetsFirst (l : List (Nat × Access)) (t : Nat) : Prop :=
  (∀ a ∈ ((l.filter fun e => e.1 = t).map Prod.snd).head?, a = .set 0) ∧ ∀ v, (t, .set v) ∈ l → v = 0

end Afs.Spec
