import Verif.Spec.Xml
import Verif.Spec.Decimal
import Verif.Spec.Utf16
/-!
# The XML schema of the table of contents (xsd/tocdata.xsd, xsd/tocdatafile.xsd)

Just as much of "XML Schema 1.0" as these two files use: sequences of elements with bounds on how
often each occurs, optional and required attributes, texts of simple types.  Comments and
processing instructions may be anywhere, CDATA sections count as the text in them.

`D` is the set of characters that `\d` stands for in a pattern.  The recommendation takes the
decimal digits of all scripts; nothing here depends on which these are.
-/
namespace Afs.Spec.Schema
open Afs Afs.Xml Afs.Spec

/-! ## Simple types: the texts allowed -/

/-- `#x20`, `#x9`, `#xA`, `#xD`. -/
def isWhite (b : UInt8) : Bool := b == 32 || b == 9 || b == 10 || b == 13

/-- Without the white space at both ends. -/
def strip (s : Bytes) : Bytes := ((s.dropWhile isWhite).reverse.dropWhile isWhite).reverse

/-- `[0-9]+`. -/
def Digits (s : Bytes) : Prop := s ≠ [] ∧ ∀ c ∈ s, 48 ≤ c ∧ c ≤ 57

/-- `xs:string`. -/
def string (_ : Bytes) : Prop := True

/-- `xs:integer`: digits, perhaps with a sign.  White space around is dropped (whiteSpace="collapse"). -/
def integer (s : Bytes) : Prop := Digits (strip s) ∨ ∃ c d, (c = 43 ∨ c = 45) ∧ Digits d ∧ strip s = c :: d

/-- `xs:unsignedInt`: digits, less than 2³². -/
def unsignedInt (s : Bytes) : Prop := Digits (strip s) ∧ digitsValue (strip s) < 4294967296

/-- `(-[0]*[1|2])|([0-9]+)`, a restriction of `xs:integer` (tocdatafile.xsd:155-159). -/
def parentIdType (s : Bytes) : Prop :=
  integer s ∧ ((∃ n c, (c = 49 ∨ c = 50 ∨ c = 124) ∧ strip s = 45 :: (List.replicate n 48 ++ [c])) ∨ Digits (strip s))

/-- `d{2}(:|-)d{2}(:|-)d{4}` or `d{4}(:|-)d{2}(:|-)d{2}`. -/
def Day (D : Char → Prop) (s : List Char) : Prop :=
  ∃ a m b p q, s = a ++ [p] ++ m ++ [q] ++ b ∧ (p = ':' ∨ p = '-') ∧ (q = ':' ∨ q = '-') ∧ m.length = 2 ∧
    (a.length = 2 ∧ b.length = 4 ∨ a.length = 4 ∧ b.length = 2) ∧ ∀ c ∈ a ++ m ++ b, D c

/-- `( |T)d{2}:d{2}:d{2}`. -/
def Time (D : Char → Prop) (s : List Char) : Prop :=
  ∃ t h m x, s = [t] ++ h ++ [':'] ++ m ++ [':'] ++ x ∧ (t = ' ' ∨ t = 'T') ∧ h.length = 2 ∧ m.length = 2 ∧ x.length = 2 ∧
    ∀ c ∈ h ++ m ++ x, D c

/-- `\s*(day)(time)?\s*` (tocdatafile.xsd:161-165). -/
def dateType (D : Char → Prop) (s : Bytes) : Prop :=
  ∃ d t, strip s = utf8File (d ++ t) ∧ Day D d ∧ (t = [] ∨ Time D t)

/-- `\d*(x|X)\d*` (tocdatafile.xsd:167-171). -/
def dimensionType (D : Char → Prop) (s : Bytes) : Prop :=
  ∃ a x b, s = utf8File (a ++ [x] ++ b) ∧ (x = 'x' ∨ x = 'X') ∧ ∀ c ∈ a ++ b, D c

/-- `\d*.\d*.\d*` (tocdata.xsd:110-114); the dots stand for any character but line ends. -/
def versionType (D : Char → Prop) (s : Bytes) : Prop :=
  ∃ a p b q c, s = utf8File (a ++ [p] ++ b ++ [q] ++ c) ∧ (∀ x ∈ [p, q], x ≠ '\n' ∧ x ≠ '\r') ∧ ∀ x ∈ a ++ b ++ c, D x

/-- `\d` includes the digits of ASCII. -/
def HasDigits (D : Char → Prop) : Prop := ∀ c : Char, 48 ≤ c.toNat → c.toNat ≤ 57 → D c

/-! ## Types of elements -/

/-- An attribute: its name, the texts allowed, and whether it must be there. -/
structure Attr where
  name : Bytes
  type : Bytes → Prop
  required : Bool := false

mutual
/-- Types: attributes, and the content: text, nothing, or elements in order. -/
inductive Ty where
  | text (attrs : List Attr) (type : Bytes → Prop)
  | empty (attrs : List Attr)
  | seq (attrs : List Attr) (parts : Parts)
/-- The elements of a sequence: name, `minOccurs`, `maxOccurs` (`none` is "unbounded"), type. -/
inductive Parts where
  | nil
  | cons (name : Bytes) (lo : Nat) (hi : Option Nat) (ty : Ty) (rest : Parts)
end

/-- The attributes are declared and hold allowed texts, and the required ones are there. -/
def AttrsOk (ds : List Attr) (as : List (Bytes × Option Bytes)) : Prop :=
  (∀ a ∈ as, ∃ d ∈ ds, d.name = a.1 ∧ ∃ v, a.2 = some v ∧ d.type v) ∧
    ∀ d ∈ ds, d.required = true → ∃ a ∈ as, a.1 = d.name

/-- The text of a child that counts for its parent: of texts and CDATA sections. -/
def charsOf : Node → Bytes
  | .text s => s
  | .elem n _ _ => if (b! "![CDATA[") <+: n then (n.drop 8).take (n.length - 10) else []

/-- All the text of an element. -/
def chars (cs : List Node) : Bytes := cs.flatMap charsOf

/-- Whether a child is an element and not a CDATA section, comment or processing instruction. -/
def isElement : Node → Bool
  | .text _ => false
  | .elem n _ _ => n.head? != some 33 && n.head? != some 63

/-- The child elements. -/
def elements (cs : List Node) : List Node := cs.filter isElement

mutual
/-- An element with these attributes and children is of the type. -/
def Valid : Ty → List (Bytes × Option Bytes) → List Node → Prop
  | .text ds p, as, cs => AttrsOk ds as ∧ elements cs = [] ∧ p (chars cs)
  | .empty ds, as, cs => AttrsOk ds as ∧ elements cs = [] ∧ chars cs = []
  | .seq ds ps, as, cs => AttrsOk ds as ∧ (∀ c ∈ chars cs, isWhite c = true) ∧ InOrder ps (elements cs)
/-- The list is made of the parts in order, each as often as it may be and of its type. -/
def InOrder : Parts → List Node → Prop
  | .nil, l => l = []
  | .cons name lo hi ty rest, l => ∃ xs ys, l = xs ++ ys ∧ lo ≤ xs.length ∧ (∀ h, hi = some h → xs.length ≤ h) ∧
      (∀ x ∈ xs, ∃ as cs, x = .elem name as cs ∧ Valid ty as cs) ∧ InOrder rest ys
end

/-- A document: its one element has the name and is of the type.  With an XML declaration the
    library has the document's contents as children of a node for the declaration. -/
def Conforms (name : Bytes) (ty : Ty) (doc : Node) : Prop :=
  ∃ as cs, Valid ty as cs ∧ (doc = .elem name as cs ∨ ∃ d ks, doc = .elem d [] ks ∧ (b! "?xml") <+: d ∧ elements ks = [.elem name as cs])

/-! ## xsd/tocdatafile.xsd -/

variable (D : Char → Prop)

/-- tocdatafile.xsd:84-87. -/
def locationType : Ty := .empty [⟨b! "frame", unsignedInt, false⟩, ⟨b! "byte", unsignedInt, false⟩]

/-- tocdatafile.xsd:64-82. -/
def dataType : Ty := .seq [] (.cons (b! "checksum") 1 (some 1) (.text [] string)
  (.cons (b! "size") 1 (some 1) (.text [] unsignedInt)
  (.cons (b! "start") 1 (some 1) locationType
  (.cons (b! "end") 1 (some 1) locationType .nil))))

/-- tocdatafile.xsd:100-114. -/
def pagesType : Ty := .empty [⟨b! "layoutId", unsignedInt, false⟩, ⟨b! "frame", unsignedInt, false⟩, ⟨b! "section", unsignedInt, false⟩,
  ⟨b! "count", unsignedInt, false⟩, ⟨b! "dimension", dimensionType D, false⟩, ⟨b! "overlap", string, false⟩]

/-- tocdatafile.xsd:89-98. -/
def previewType : Ty := .seq [] (.cons (b! "dpi") 0 (some 1) (.text [] unsignedInt)
  (.cons (b! "pages") 0 none (pagesType D) .nil))

/-- tocdatafile.xsd:141-151. -/
def fileMetadataSourceDataType : Ty := .text [⟨b! "formatId", string, false⟩] string

/-- tocdatafile.xsd:122-139. -/
def fileMetadataSourceType : Ty := .seq [⟨b! "fileId", unsignedInt, false⟩, ⟨b! "sourceId", unsignedInt, false⟩]
  (.cons (b! "data") 1 (some 1) fileMetadataSourceDataType .nil)

/-- tocdatafile.xsd:116-120. -/
def fileMetadataType : Ty := .seq [] (.cons (b! "source") 0 none fileMetadataSourceType .nil)

/-- tocdatafile.xsd:40-62. -/
def fileType : Ty := .seq [⟨b! "formatId", string, false⟩] (.cons (b! "id") 1 (some 1) (.text [] integer)
  (.cons (b! "uniqueId") 1 (some 1) (.text [] string)
  (.cons (b! "name") 1 (some 1) (.text [] string)
  (.cons (b! "date") 1 (some 1) (.text [] (dateType D))
  (.cons (b! "parentId") 0 (some 1) (.text [] parentIdType)
  (.cons (b! "data") 1 (some 1) dataType
  (.cons (b! "preview") 0 (some 1) (previewType D)
  (.cons (b! "metadata") 0 (some 1) fileMetadataType .nil))))))))

/-! ## xsd/tocdata.xsd -/

/-- tocdata.xsd:116-144. -/
def sourceType : Ty := .seq [⟨b! "id", string, false⟩, ⟨b! "formatId", string, false⟩, ⟨b! "fileId", unsignedInt, false⟩]
  (.cons (b! "tags") 1 (some 1) (.text [] string) .nil)

/-- tocdata.xsd:146-150. -/
def metadataType : Ty := .seq [] (.cons (b! "source") 0 none sourceType .nil)

/-- tocdata.xsd:152-163. -/
def sectionType : Ty := .text [⟨b! "id", unsignedInt, true⟩, ⟨b! "x", unsignedInt, true⟩, ⟨b! "y", unsignedInt, true⟩,
  ⟨b! "w", unsignedInt, true⟩, ⟨b! "h", unsignedInt, true⟩, ⟨b! "rotation", unsignedInt, true⟩] string

/-- tocdata.xsd:165-169. -/
def sectionsType : Ty := .seq [] (.cons (b! "section") 1 none sectionType .nil)

/-- tocdata.xsd:171-180. -/
def previewLayoutType : Ty := .seq [] (.cons (b! "id") 1 (some 1) (.text [] string)
  (.cons (b! "name") 1 (some 1) (.text [] string)
  (.cons (b! "sections") 1 (some 1) sectionsType .nil)))

/-- tocdata.xsd:182-189. -/
def layoutDefinitionsType : Ty := .seq [] (.cons (b! "previewLayout") 0 none previewLayoutType .nil)

/-- tocdata.xsd:191-198. -/
def filesType : Ty := .seq [] (.cons (b! "file") 1 none (fileType D) .nil)

/-- tocdata.xsd:200-209. -/
def reelType : Ty := .seq [] (.cons (b! "id") 1 (some 1) (.text [] string)
  (.cons (b! "files") 1 (some 1) (filesType D) .nil))

/-- tocdata.xsd:211-218. -/
def reelsType : Ty := .seq [] (.cons (b! "reel") 1 none (reelType D) .nil)

/-- tocdata.xsd:94-108. -/
def indexType : Ty := .seq [⟨b! "version", versionType D, false⟩] (.cons (b! "indexType") 1 (some 1) (.text [] string)
  (.cons (b! "jobId") 1 (some 1) (.text [] string)
  (.cons (b! "reelId") 1 (some 1) (.text [] string)
  (.cons (b! "metadata") 0 (some 1) metadataType
  (.cons (b! "layoutDefinitions") 1 (some 1) layoutDefinitionsType
  (.cons (b! "reels") 1 (some 1) (reelsType D) .nil))))))

end Afs.Spec.Schema
