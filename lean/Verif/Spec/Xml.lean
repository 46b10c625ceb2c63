import Verif.Model.Xml.Write
/-!
# What it means for a document to survive writing and reading

The specification uses Lean's own notion of characters and their UTF-8 encoding.
-/
namespace Afs.Spec
open Afs Afs.Xml

/-- Characters XML allows in text, except the byte order mark U+FEFF (which the reader drops). -/
def Allowed (c : Char) : Prop :=
  (32 ≤ c.toNat ∨ c.toNat = 9 ∨ c.toNat = 10 ∨ c.toNat = 13) ∧ c.toNat ≠ 0xFEFF

instance (c : Char) : Decidable (Allowed c) := by unfold Allowed; infer_instance

/-- `s` is the UTF-8 encoding of a sequence of allowed characters. -/
def CleanText (s : Bytes) : Prop :=
  ∃ cs : List Char, (∀ c ∈ cs, Allowed c) ∧ s = cs.flatMap String.utf8EncodeChar

/-- Element and attribute names in use: ASCII letters and digits, a letter first. -/
def PlainName (s : Bytes) : Prop :=
  (s ≠ [] ∧ ∀ c ∈ s.head?, (65 ≤ c.toNat ∧ c.toNat ≤ 90) ∨ (97 ≤ c.toNat ∧ c.toNat ≤ 122)) ∧ ∀ c ∈ s, (48 ≤ c.toNat ∧ c.toNat ≤ 57) ∨ (65 ≤ c.toNat ∧ c.toNat ≤ 90) ∨
    (97 ≤ c.toNat ∧ c.toNat ≤ 122)

instance (s : Bytes) : Decidable (PlainName s) := by unfold PlainName; infer_instance

/-- Attributes that can be written: plain, pairwise different names, clean values. -/
def CleanAttrs (as : List (Bytes × Option Bytes)) : Prop :=
  (as.map Prod.fst).Nodup ∧ ∀ a ∈ as, PlainName a.1 ∧ ∃ v, a.2 = some v ∧ CleanText v

/-- CDATA content that can be written: clean, without the end mark `]]>`. -/
def CleanData (d : Bytes) : Prop := CleanText d ∧ ¬ (b! "]]>") <:+: d

/-- Trees that can be written: clean texts, plain elements, CDATA sections. -/
inductive CleanTree : Node → Prop
  | text {s} : CleanText s → CleanTree (.text s)
  | cdata {d} : CleanData d → CleanTree (Node.newCDATA d)
  | elem {n as cs} : PlainName n → CleanAttrs as → (∀ c ∈ cs, CleanTree c) → CleanTree (.elem n as cs)

/-- Child lists no reader would change: no empty text, no two texts in a row. -/
def NoAdjacentText : List Node → Prop
  | [] => True
  | .text s :: cs => s ≠ [] ∧ (∀ t cs', cs ≠ .text t :: cs') ∧ NoAdjacentText cs
  | .elem _ _ _ :: cs => NoAdjacentText cs

/-- Trees in the normal form of a reader. -/
inductive NormalTree : Node → Prop
  | text {s} : NormalTree (.text s)
  | elem {n as cs} : NoAdjacentText cs → (∀ c ∈ cs, NormalTree c) → NormalTree (.elem n as cs)

/-- A callback that only produces white space. -/
def WhiteCb (cb : SaveCb) : Prop :=
  ∀ anc n w, ∀ c ∈ cb anc n w, c = 32 ∨ c = 9 ∨ c = 10 ∨ c = 13

/-- Content of an element as a sequence of texts and elements. -/
inductive Item where
  | txt (s : Bytes)
  | el (n : Node)

/-- Adjacent texts become one text node, empty ones none. -/
def joinText (pending : Bytes) : List Item → List Node
  | [] => if pending = [] then [] else [.text pending]
  | .txt s :: r => joinText (pending ++ s) r
  | .el n :: r => (if pending = [] then [] else [.text pending]) ++ n :: joinText [] r

mutual
/-- What a node contributes to the content of its parent when white space is put around it. -/
def xmlItems (cb : SaveCb) (anc : List Bytes) : Node → List Item
  | .text s => [.txt s]
  | .elem n as [] => [.txt (cb anc (.elem n as []) .beforeOpen), .el (.elem n as []), .txt (cb anc (.elem n as []) .afterOpen)]
  | .elem n as (c :: cs) =>
    [.txt (cb anc (.elem n as (c :: cs)) .beforeOpen),
     .el (.elem n as (joinText [] (.txt (cb anc (.elem n as (c :: cs)) .afterOpen) ::
        xmlItemsList cb (n :: anc) (c :: cs) ++ [.txt (cb anc (.elem n as (c :: cs)) .beforeClose)]))),
     .txt (cb anc (.elem n as (c :: cs)) .afterClose)]
def xmlItemsList (cb : SaveCb) (anc : List Bytes) : List Node → List Item
  | [] => []
  | c :: cs => xmlItems cb anc c ++ xmlItemsList cb anc cs
end

/-- The tree with the callback's white space put in as text. -/
def withWhite (cb : SaveCb) (anc : List Bytes) : Node → Node
  | .text s => .text s
  | .elem n as [] => .elem n as []
  | .elem n as (c :: cs) =>
    .elem n as (joinText [] (.txt (cb anc (.elem n as (c :: cs)) .afterOpen) ::
      xmlItemsList cb (n :: anc) (c :: cs) ++ [.txt (cb anc (.elem n as (c :: cs)) .beforeClose)]))

/-- A tree as a reader should deliver it: attribute names of an element are distinct and have
    values, no text is empty, no two texts are in a row. -/
inductive ReaderTree : Node → Prop
  | text {s} : s ≠ [] → ReaderTree (.text s)
  | elem {n as cs} : (as.map Prod.fst).Nodup → (∀ a ∈ as, a.2 ≠ none) → NoAdjacentText cs →
      (∀ c ∈ cs, ReaderTree c) → ReaderTree (.elem n as cs)

/-- Comments, CDATA sections, processing instructions and declarations (the library has them as nodes whose name begins with `!` or
    `?`) have no attributes and no children. -/
inductive LeafTree : Node → Prop
  | text {s} : LeafTree (.text s)
  | elem {n as cs} : ((n.head? = some 33 ∨ n.head? = some 63) → as = [] ∧ cs = []) → (∀ c ∈ cs, LeafTree c) → LeafTree (.elem n as cs)

/-- A document: as above, except that a processing instruction or declaration at its very beginning has the rest of the document
    as its children. -/
def LeafDoc (doc : Node) : Prop :=
  LeafTree doc ∨ ∃ n cs, doc = .elem n [] cs ∧ (n.head? = some 33 ∨ n.head? = some 63) ∧ ∀ c ∈ cs, LeafTree c

/-- No control character other than tab, line feed and carriage return. -/
def PrintableByte (b : UInt8) : Prop := 32 ≤ b.toNat ∨ b.toNat = 9 ∨ b.toNat = 10 ∨ b.toNat = 13

/-- No NUL anywhere, and no control character except perhaps in the first place. -/
def PrintableTail (s : Bytes) : Prop := (∀ b ∈ s, b ≠ 0) ∧ ∀ b ∈ s.drop 1, PrintableByte b

/-- A tree without control characters in texts and element names, and with none in
    attributes except perhaps as first byte of a name or value. -/
inductive PrintableTree : Node → Prop
  | text {s : Bytes} : (∀ b ∈ s, PrintableByte b) → PrintableTree (.text s)
  | elem {n : Bytes} {as : List (Bytes × Option Bytes)} {cs : List Node} :
      (∀ b ∈ n, PrintableByte b) →
      (∀ a ∈ as, PrintableTail a.1 ∧ ∀ v, a.2 = some v → PrintableTail v) →
      (∀ c ∈ cs, PrintableTree c) → PrintableTree (.elem n as cs)

end Afs.Spec
