import Verif.Spec.Links
import Verif.Model.Xml.Parse
/-!
# What a reader should leave in memory
-/
namespace Afs.Spec
open Afs Afs.Links Afs.Xml

/-- Nothing that was allocated before has changed. -/
def Untouched (h0 h : Heap) : Prop := ∀ x, h0 x ≠ none → h x = h0 x

/-- The new nodes are exactly those of one tree; `r` points to its root, and the tree says `n`. -/
def NewTree (h0 h : Heap) (r : Option Nat) (n : Node) : Prop :=
  ∃ kids t, Linked h kids ∧ r = some t.addr ∧ Shape kids t ∧ IsNode h t n ∧
    (h t.addr).bind Cell.parent = none ∧ (∀ x, x ∈ pre t ↔ h0 x = none ∧ h x ≠ none)

/-- There are no new nodes. -/
def NothingNew (h0 h : Heap) : Prop := ∀ x, h0 x = none → h x = none

/-- There is one new node, without parent and children. -/
def OneNew (h0 h : Heap) : Prop :=
  ∃ a c, h0 a = none ∧ h a = some c ∧ c.parent = none ∧ c.child = none ∧ ∀ x, h0 x = none → x ≠ a → h x = none

/-- The reader is between the name of an element and the end of its start tag. -/
def InAttributes : PC → Prop
  | .attr _ => True
  | .attrSlash _ _ => True
  | .qname _ _ _ => True
  | .aname _ _ => True
  | .aeq _ _ => True
  | .vskip _ _ => True
  | .qval _ _ _ _ => True
  | .uval _ _ _ => True
  | .valSlash _ _ => True
  | .ent k _ => InAttributes k
  | _ => False

/-- The two places where an error costs a node: among the attributes of the root element, where it
    loses the element, and in text behind the root element, where the next tag (an error in any case)
    loses the text.  The reader is in the state `s` and reads `ch`. -/
def Losing (s : PS) (ch : Option Nat) : Prop :=
  s.stack = [] ∧ (s.root = none ∧ InAttributes s.pc ∧ (step s ch).pc = .done none ∨
    s.root ≠ none ∧ s.opq = true ∧ ch = some 60 ∧ ∃ t, s.pc = .main t ∧ t ≠ [])

end Afs.Spec
