import Verif.Model.Xml.Walk
/-!
# Paths to elements
-/
namespace Afs.Spec.Path
open Afs Xml

/-- One step: to a child with this name, or to a node with this name anywhere below (written `*` `/` in front of the name). -/
structure Step where
  anywhere : Bool
  name : Bytes
deriving DecidableEq

/-- Names have at most 255 bytes and no slash. -/
def Step.Ok (s : Step) : Prop := s.name ≠ [] ∧ 47 ∉ s.name ∧ s.name.length ≤ 255

def Step.text (s : Step) : Bytes := (if s.anywhere then b! "*/" else []) ++ s.name

/-- An element that is named `*` cannot be followed by anything: that would be the other use of the star. -/
def Step.Star (s : Step) : Prop := s.anywhere = false ∧ s.name = b! "*"

/-- The steps a path stands for; a slash at the end does not matter. -/
inductive Path : Bytes → List Step → Prop
  | last {s : Step} : s.Ok → Path s.text [s]
  | slash {s : Step} : s.Ok → ¬ s.Star → Path (s.text ++ b! "/") [s]
  | cons {s : Step} {p : Bytes} {ss : List Step} : s.Ok → ¬ s.Star → Path p ss → Path (s.text ++ b! "/" ++ p) (s :: ss)

/-- The node the steps lead to, each to the first node with the name (in document order); there is no way back. -/
def follow : List Step → Node → Option Node
  | [], n => some n
  | s :: ss, n =>
    match (if s.anywhere then descendants n else n.children).find? fun m => m.element == some s.name with
    | none => none
    | some m => follow ss m

/-- The text an element begins with, or else the element. -/
def content (n : Node) : Node :=
  match n.children with
  | .text s :: _ => .text s
  | _ => n

/-- Whether a node is an element with that name, that attribute and that value, as far as they are given. -/
def Wanted (name attr value : Option Bytes) (n : Node) : Prop :=
  ∃ e as cs, n = .elem e as cs ∧ (∀ m, name = some m → m = e) ∧
    ∀ a, attr = some a → ∃ t, Node.findAttr a as = some t ∧ ∀ v, value = some v → v = t

/-- A search that is repeated from what it found gives these nodes, in this order, and then nothing. -/
inductive Visits (again : Cursor → Option Cursor) : Option Cursor → List Node → Prop
  | stop : Visits again none []
  | found {d : Cursor} {ns : List Node} : Visits again (again d) ns → Visits again (some d) (d.node :: ns)

end Afs.Spec.Path
