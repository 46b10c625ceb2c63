import Verif.Model.Xml.Node
/-!
# Documents that differ in their layout only

Two trees are laid out anew when they have the same elements in the same order, with the same attributes in any order; any texts,
comments, processing instructions and CDATA sections may stand between the elements, differently in the two.  Only in the
elements that hold a text (listed below) does the text count, up to blanks and line ends around it.
-/
namespace Afs.Spec.Relaid
open Afs Afs.Xml

/-- The elements that hold a text: all text elements of the tables of contents and of the administrative metadata. -/
def textElements : List Bytes :=
  [b! "id", b! "name", b! "dpi", b! "tags", b! "size", b! "checksum", b! "frame", b! "byte", b! "uniqueId", b! "date", b! "parentId",
   b! "parentid", b! "indexType", b! "jobId", b! "reelId", b! "ReelId", b! "PrintReelId", b! "Title", b! "Description", b! "Creator",
   b! "CreationDate"]

/-- The same text up to blanks, line feeds and carriage returns around it. -/
def SameText (s t : Bytes) : Prop :=
  ∃ a b a' b' m : Bytes, s = a ++ m ++ b ∧ t = a' ++ m ++ b' ∧ ∀ c ∈ a ++ b ++ a' ++ b', c = 32 ∨ c = 10 ∨ c = 13

/-- Both begin with a text, the same one; or none does. -/
inductive SameStart : List Node → List Node → Prop
  | text {s t cs ds} : SameText s t → SameStart (.text s :: cs) (.text t :: ds)
  | other {cs ds} : (∀ s, cs.head? ≠ some (.text s)) → (∀ s, ds.head? ≠ some (.text s)) → SameStart cs ds

/-- A CDATA section. -/
def isCData : Node → Bool
  | .elem n _ _ => (b! "![CDATA[").isPrefixOf n
  | .text _ => false

/-- What may stand between elements: a text, a comment, a processing instruction, a CDATA section. -/
def Between (x : Node) : Prop :=
  (∃ s, x = .text s) ∨ ∃ n as, x = .elem n as [] ∧ (n.head? = some 33 ∨ n.head? = some 63)

/-- The same value for every attribute. -/
def SameAttrs (as bs : List (Bytes × Option Bytes)) : Prop := ∀ a, as.lookup a = bs.lookup a

mutual
/-- The elements `t` and `u` differ in layout only.  `src` says whether they are inside a `source`, where `data` holds a text: its
    CDATA sections, or its text if it has no CDATA section. -/
inductive Relaid : Bool → Node → Node → Prop
  | mk {src n as bs cs ds} : SameAttrs as bs → Kids (src || decide (n = b! "source")) cs ds →
      (n ∈ textElements → SameStart cs ds) →
      (src = true → n = b! "data" → cs.filter isCData = ds.filter isCData ∧ (cs.filter isCData = [] → SameStart cs ds)) →
      Relaid src (.elem n as cs) (.elem n bs ds)
/-- The same for the children of an element. -/
inductive Kids : Bool → List Node → List Node → Prop
  | nil {src} : Kids src [] []
  | left {src x cs ds} : Between x → Kids src cs ds → Kids src (x :: cs) ds
  | right {src x cs ds} : Between x → Kids src cs ds → Kids src cs (x :: ds)
  | cons {src x y cs ds} : Relaid src x y → Kids src cs ds → Kids src (x :: cs) (y :: ds)
end

/-- Documents: the element itself, or below an XML declaration, which may be a different one. -/
inductive RelaidDoc : Node → Node → Prop
  | same {t u} : Relaid false t u → RelaidDoc t u
  | decl {n as cs m bs ds} : (b! "?xml").isPrefixOf n = true → (b! "?xml").isPrefixOf m = true → Kids false cs ds →
      RelaidDoc (.elem n as cs) (.elem m bs ds)

end Afs.Spec.Relaid
