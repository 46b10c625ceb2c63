import Verif.Spec.Document
import Verif.Spec.Control
/-!
# The XML schema of the control frame (xsd/control_frame.xsd, xsd/boxing_format.xsd), and what a document of it says

The published schema and the documents the library writes differ.  There are two editions here: the one that is published, and one
for what the library writes.  Both have the same elements in the same order; the differences are all in the four definitions about
editions.

`T` is the set of texts that are an `xs:dateTime`; nothing here depends on which these are.  The published schema refers to a type
`ns:file` which none of its files defines; the type `FileType` of tocdatafile.xsd is taken for it.
-/
namespace Afs.Spec.Schema
open Afs Afs.Xml Afs.Spec

/-- The published schema, or the one for documents as the library writes them. -/
inductive Edition where
  | published
  | written
deriving DecidableEq

/-- In the published schema the elements must be there; the library leaves elements out. -/
def Edition.least : Edition → Nat
  | .published => 1
  | .written => 0

/-- In the published schema a class has no attributes; the library writes its name and version there. -/
def Edition.classAttrs : Edition → List Attr
  | .published => []
  | .written => [⟨b! "key", string, false⟩, ⟨b! "version", string, false⟩]

variable (D : Char → Prop) (T : Bytes → Prop)

/-- In the published schema the file follows at once (control_frame.xsd:18-22); the library writes a list of files. -/
def Edition.tocs : Edition → Parts
  | .published => .cons (b! "file") 1 (some 1) (fileType D) .nil
  | .written => .cons (b! "files") 1 (some 1) (filesType D) .nil

/-- In the published schema this is all; the library may write a list of applications. -/
def Edition.applications : Edition → Parts
  | .published => .nil
  | .written => .cons (b! "Applications") 0 (some 1) (.seq [] (Edition.tocs D .written)) .nil

/-- `xs:dateTime`; white space around is dropped. -/
def dateTime (s : Bytes) : Prop := T (strip s)

/-- control_frame.xsd:30-46. -/
def adminType (e : Edition) : Ty := .seq [⟨b! "version", string, false⟩]
  (.cons (b! "ReelId") e.least (some 1) (.text [] string)
  (.cons (b! "PrintReelId") e.least (some 1) (.text [] string)
  (.cons (b! "JobId") e.least (some 1) (.text [] string)
  (.cons (b! "Title") e.least (some 1) (.text [] string)
  (.cons (b! "Description") e.least (some 1) (.text [] string)
  (.cons (b! "Creator") e.least (some 1) (.text [] string)
  (.cons (b! "CreationDate") e.least (some 1) (.text [] (dateTime T))
  (.cons (b! "Location") e.least (some 1) (.text [] string) .nil))))))))

/-- boxing_format.xsd:22-27. -/
def propertyType : Ty := .empty [⟨b! "key", string, false⟩, ⟨b! "value", string, false⟩]

/-- boxing_format.xsd:19-30. -/
def classType (e : Edition) : Ty := .seq e.classAttrs (.cons (b! "property") e.least none propertyType .nil)

/-- boxing_format.xsd:17-34. -/
def formatType (e : Edition) : Ty := .seq [⟨b! "version", string, false⟩] (.cons (b! "class") e.least none (classType e) .nil)

/-- control_frame.xsd:24-28. -/
def boxerFormatType (e : Edition) : Ty := .seq [] (.cons (b! "work") 1 (some 1) (formatType e) .nil)

/-- control_frame.xsd:48-58. -/
def technicalType (e : Edition) : Ty := .seq [⟨b! "version", string, false⟩]
  (.cons (b! "BoxerFormat") 1 (some 1) (boxerFormatType e)
  (.cons (b! "Tocs") 1 (some 1) (.seq [] (Edition.tocs D e)) (Edition.applications D e)))

/-- control_frame.xsd:60-66. -/
def controlType (e : Edition) : Ty := .seq [⟨b! "version", string, false⟩]
  (.cons (b! "AdministrativeMetadata") 1 (some 1) (adminType T e)
  (.cons (b! "TechnicalMetadata") 1 (some 1) (technicalType D e) .nil))

end Afs.Spec.Schema

namespace Afs.Spec.Document
open Afs Afs.Xml Afs.Spec Afs.Spec.Schema

/-! ## Administrative metadata -/

/-- The text of the child element of that name: NULL if there is no such element, empty if there is no text in it. -/
def field (n : Node) (nm : Bytes) : Option Bytes := (child n nm).map fun c => (content c).getD []

/-- `AdministrativeMetadata`.  The job and the location have no place in the object. -/
def adminOf (n : Node) : Admin :=
  ⟨field n (b! "ReelId"), field n (b! "PrintReelId"), field n (b! "Title"), field n (b! "Description"), field n (b! "Creator"),
    field n (b! "CreationDate")⟩

/-! ## Boxing formats -/

/-- The attribute, if it is there and not empty. -/
def given (n : Node) (nm : Bytes) : Option Bytes := (attr n nm).bind fun v => if v = [] then none else some v

/-- What a `class` sets: (class, property, value), the version first.  A class without name sets nothing, nor does a property
    without name or value. -/
def classSettings (n : Node) : List (Bytes × Bytes × Bytes) :=
  match given n (b! "key") with
  | none => []
  | some k => ((attr n (b! "version")).map fun v => (k, b! "version", v)).toList ++
      (childrenOf n (b! "property")).filterMap fun p =>
        (given p (b! "key")).bind fun a => (given p (b! "value")).map fun v => (k, a, v)

/-- What `work` sets, in order. -/
def settings (n : Node) : List (Bytes × Bytes × Bytes) := (childrenOf n (b! "class")).flatMap classSettings

/-- The value a property has in the end: the last one given. -/
def lastValue (l : List (Bytes × Bytes × Bytes)) (k p : Bytes) : Option Bytes :=
  (l.reverse.find? fun x => decide (x.1 = k ∧ x.2.1 = p)).map fun x => x.2.2

/-- The configuration has these settings and nothing else. -/
def Holds (L : ConfigLib) (c : L.Config) (l : List (Bytes × Bytes × Bytes)) : Prop :=
  (∀ k p, configGet L c k p = lastValue l k p) ∧ (∀ k, HasClass L c k ↔ ∃ x ∈ l, x.1 = k) ∧ L.aliases c = []

/-- No property is called `alias` (which means something else, C49). -/
def NoAlias (l : List (Bytes × Bytes × Bytes)) : Prop := ∀ x ∈ l, x.2.1 ≠ b! "alias"

/-! ## Technical metadata -/

/-- The files in `Tocs` or `Applications`: directly, or in a list. -/
def fileNodes (n : Node) : List Node := childrenOf n (b! "file") ++ (childrenOf n (b! "files")).flatMap (childrenOf · (b! "file"))

/-- `Tocs`, `Applications`. -/
def tocsOf (n : Node) : Files := ⟨listOf ((fileNodes n).map fileOf)⟩

/-- All files are valid, and the sources of their metadata name a file. -/
def FilesFit (n : Node) : Prop :=
  ∀ f ∈ fileNodes n, ValidFile (fileOf f) ∧
    ∀ m ∈ childrenOf f (b! "metadata"), ∀ s ∈ childrenOf m (b! "source"), attr s (b! "fileId") ≠ none

/-- The settings in `TechnicalMetadata`. -/
def techSettings (n : Node) : List (Bytes × Bytes × Bytes) :=
  ((child n (b! "BoxerFormat")).bind (child · (b! "work"))).elim [] settings

/-- Technical metadata are what the element `n` says; what the applications were before stays if it says nothing of them. -/
def SaysTechnical {L : ConfigLib} (before t : TechMeta L) (n : Node) : Prop :=
  (∃ c, t.format = some (Format.create2 (some c)) ∧ (NoAlias (techSettings n) → Holds L c (techSettings n))) ∧
  t.tocs = (child n (b! "Tocs")).map tocsOf ∧
  (child n (b! "Applications") = none → t.apps = before.apps) ∧
  ∀ a, child n (b! "Applications") = some a → (FilesFit a → t.apps = some (tocsOf a)) ∧ (¬ FilesFit a → t.apps = none)

end Afs.Spec.Document
