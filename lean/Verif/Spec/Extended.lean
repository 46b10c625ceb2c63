import Verif.Spec.Relaid
/-!
# Documents with more in them than the library knows

One document extends another when it has the same elements in the same order, with the same values for the attributes the library
uses; other attributes, and other elements with whatever is in them, may stand anywhere among the children of an element, and so
may the texts, comments, processing instructions and CDATA sections of Spec/Relaid.lean.  The relation is symmetric: each document
may have something the other has not.
-/
namespace Afs.Spec.Extended
open Afs Afs.Xml
open Afs.Spec.Relaid (textElements SameText SameStart isCData)

/-- The elements whose names mean something to the library. -/
def knownElements : List Bytes :=
  textElements ++
  [b! "Index", b! "reels", b! "reel", b! "files", b! "file", b! "data", b! "start", b! "end", b! "preview", b! "pages", b! "metadata",
   b! "source", b! "layoutDefinitions", b! "previewLayout", b! "sections", b! "section", b! "AdministrativeMetadata",
   b! "TechnicalMetadata", b! "Tocs", b! "BoxerFormat", b! "Applications", b! "class", b! "property", b! "work", b! "NULL"]

/-- The attributes whose names mean something to the library. -/
def knownAttributes : List Bytes :=
  [b! "version", b! "id", b! "formatId", b! "fileId", b! "sourceId", b! "layoutId", b! "section", b! "frame", b! "byte", b! "size", b! "checksum",
   b! "x", b! "y", b! "w", b! "h", b! "rotation", b! "count", b! "name", b! "key", b! "value", b! "dimension", b! "overlap"]

mutual
/-- An element unknown to the library: neither its name nor that of an element in it is one of the known ones. -/
def Foreign : Node → Prop
  | .elem n _ cs => n ∉ knownElements ∧ ForeignAll cs
  | .text _ => True
def ForeignAll : List Node → Prop
  | [] => True
  | c :: cs => Foreign c ∧ ForeignAll cs
end

/-- The same value for every attribute the library uses. -/
def SameAttrs (as bs : List (Bytes × Option Bytes)) : Prop := ∀ a ∈ knownAttributes, as.lookup a = bs.lookup a

mutual
/-- The elements `t` and `u` are the same but for what the library does not know.  `src` says whether they are inside a `source`,
    where `data` holds a text: its CDATA sections, or its text if it has no CDATA section. -/
inductive Extended : Bool → Node → Node → Prop
  | mk {src n as bs cs ds} : SameAttrs as bs → Kids (src || decide (n = b! "source")) cs ds →
      (n ∈ textElements → SameStart cs ds) →
      (src = true → n = b! "data" → cs.filter isCData = ds.filter isCData ∧ (cs.filter isCData = [] → SameStart cs ds)) →
      Extended src (.elem n as cs) (.elem n bs ds)
/-- The same for the children of an element. -/
inductive Kids : Bool → List Node → List Node → Prop
  | nil {src} : Kids src [] []
  | left {src x cs ds} : Foreign x → Kids src cs ds → Kids src (x :: cs) ds
  | right {src x cs ds} : Foreign x → Kids src cs ds → Kids src cs (x :: ds)
  | cons {src x y cs ds} : Extended src x y → Kids src cs ds → Kids src (x :: cs) (y :: ds)
end

/-- Documents: the element itself, or below an XML declaration or some other element the library does not know, which may be a
    different one in the two. -/
inductive ExtendedDoc : Node → Node → Prop
  | same {t u} : Extended false t u → ExtendedDoc t u
  | inside {n as cs m bs ds} : n ∉ knownElements → m ∉ knownElements → Kids false cs ds →
      ExtendedDoc (.elem n as cs) (.elem m bs ds)

end Afs.Spec.Extended
