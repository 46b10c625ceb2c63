import Verif.Spec.Xml
import Verif.Spec.Utf16
/-!
# XML documents: the grammar of the XML 1.0 recommendation, with the tree each text stands for

Numbers in brackets are the productions of "Extensible Markup Language (XML) 1.0".  Left out:
names with characters outside ASCII, document type declarations, entities other than the five
predefined ones.  Not applied: the normalisation of line ends and of white space in attributes.
-/
namespace Afs.Spec.Grammar
open Afs Afs.Xml Afs.Spec

/-- [2] Char. -/
def XmlChar (c : Char) : Prop :=
  c.toNat = 0x9 ∨ c.toNat = 0xA ∨ c.toNat = 0xD ∨ (0x20 ≤ c.toNat ∧ c.toNat ≤ 0xD7FF) ∨
    (0xE000 ≤ c.toNat ∧ c.toNat ≤ 0xFFFD) ∨ 0x10000 ≤ c.toNat

instance (c : Char) : Decidable (XmlChar c) := by unfold XmlChar; infer_instance

/-- A character of [3] S. -/
def Space (c : Char) : Prop := c = ' ' ∨ c = '\t' ∨ c = '\r' ∨ c = '\n'

instance (c : Char) : Decidable (Space c) := by unfold Space; infer_instance

/-- S? : spaces, perhaps none. -/
def Spaces (s : List Char) : Prop := ∀ c ∈ s, Space c

instance (s : List Char) : Decidable (Spaces s) := by unfold Spaces; infer_instance

/-- [4] NameStartChar, within ASCII. -/
def NameStart (c : Char) : Prop :=
  (65 ≤ c.toNat ∧ c.toNat ≤ 90) ∨ (97 ≤ c.toNat ∧ c.toNat ≤ 122) ∨ c = '_' ∨ c = ':'

/-- [4a] NameChar, within ASCII. -/
def NameChar (c : Char) : Prop := NameStart c ∨ (48 ≤ c.toNat ∧ c.toNat ≤ 57) ∨ c = '-' ∨ c = '.'

instance (c : Char) : Decidable (NameStart c) := by unfold NameStart; infer_instance
instance (c : Char) : Decidable (NameChar c) := by unfold NameChar; infer_instance

/-- [5] Name. -/
def Name (s : List Char) : Prop := ∃ c r, s = c :: r ∧ NameStart c ∧ ∀ x ∈ r, NameChar x

/-- [14] CharData: no `<`, no `&`, no `]]>`. -/
def CharData (s : List Char) : Prop :=
  (∀ c ∈ s, XmlChar c ∧ c ≠ '<' ∧ c ≠ '&') ∧ ¬ "]]>".toList <:+: s

/-- Value of a digit. -/
def digit (c : Char) : Nat :=
  if c.toNat ≤ 57 then c.toNat - 48 else if c.toNat ≤ 70 then c.toNat - 55 else c.toNat - 87

/-- Value of a number. -/
def number (base : Nat) (ds : List Char) : Nat := ds.foldl (fun a d => a * base + digit d) 0

/-- `0`-`9`. -/
def Decimal (c : Char) : Prop := 48 ≤ c.toNat ∧ c.toNat ≤ 57

/-- `0`-`9`, `a`-`f`, `A`-`F`. -/
def Hexadecimal (c : Char) : Prop :=
  (48 ≤ c.toNat ∧ c.toNat ≤ 57) ∨ (65 ≤ c.toNat ∧ c.toNat ≤ 70) ∨ (97 ≤ c.toNat ∧ c.toNat ≤ 102)

instance (c : Char) : Decidable (Decimal c) := by unfold Decimal; infer_instance
instance (c : Char) : Decidable (Hexadecimal c) := by unfold Hexadecimal; infer_instance

/-- [66] CharRef, [68] EntityRef of the predefined entities; a reference and its character.  Numbers
    have at most 60 digits (a limit of the reader). -/
inductive Reference : List Char → Char → Prop
  | amp : Reference "&amp;".toList '&'
  | lt : Reference "&lt;".toList '<'
  | gt : Reference "&gt;".toList '>'
  | quot : Reference "&quot;".toList '"'
  | apos : Reference "&apos;".toList '\''
  | dec {ds : List Char} {c : Char} : ds ≠ [] → ds.length ≤ 60 → (∀ d ∈ ds, Decimal d) → number 10 ds = c.toNat →
      XmlChar c → Reference ("&#".toList ++ ds ++ [';']) c
  | hex {ds : List Char} {c : Char} : ds ≠ [] → ds.length ≤ 60 → (∀ d ∈ ds, Hexadecimal d) → number 16 ds = c.toNat →
      XmlChar c → Reference ("&#x".toList ++ ds ++ [';']) c

/-- The inside of [10] AttValue in quotes `q`, and the value. -/
inductive AttText (q : Char) : List Char → List Char → Prop
  | nil : AttText q [] []
  | char {c s v} : XmlChar c → c ≠ q → c ≠ '<' → c ≠ '&' → AttText q s v → AttText q (c :: s) (c :: v)
  | ref {r c s v} : Reference r c → AttText q s v → AttText q (r ++ s) (c :: v)

/-- (S [41] Attribute)*: text, names and values. -/
inductive Attributes : List Char → List (List Char × List Char) → Prop
  | nil : Attributes [] []
  | cons {ws n w1 w2 : List Char} {q : Char} {t v s : List Char} {as} :
      ws ≠ [] → Spaces ws → Name n → Spaces w1 → Spaces w2 → (q = '"' ∨ q = '\'') → AttText q t v → Attributes s as →
      Attributes (ws ++ n ++ w1 ++ ['='] ++ w2 ++ [q] ++ t ++ [q] ++ s) ((n, v) :: as)

/-- The part of a tag between the brackets: name and attributes, no name twice. -/
inductive TagBody : List Char → List Char → List (List Char × List Char) → Prop
  | mk {n s w as} : Name n → Attributes s as → (as.map Prod.fst).Nodup → Spaces w → TagBody (n ++ s ++ w) n as

/-- [40] STag. -/
def StartTag (t n : List Char) (as : List (List Char × List Char)) : Prop := ∃ h, TagBody h n as ∧ t = ['<'] ++ h ++ ['>']

/-- [44] EmptyElemTag. -/
def EmptyTag (t n : List Char) (as : List (List Char × List Char)) : Prop := ∃ h, TagBody h n as ∧ t = ['<'] ++ h ++ ['/', '>']

/-- [42] ETag. -/
def EndTag (t n : List Char) : Prop := ∃ w, Spaces w ∧ t = ['<', '/'] ++ n ++ w ++ ['>']

/-- [18] CDSect with its contents. -/
def CData (t d : List Char) : Prop :=
  (∀ c ∈ d, XmlChar c) ∧ ¬ "]]>".toList <:+: d ∧ t = "<![CDATA[".toList ++ d ++ "]]>".toList

/-- [15] Comment with its text.  The empty comment is left out (the reader does not see its end). -/
def Comment (t d : List Char) : Prop :=
  (∀ c ∈ d, XmlChar c) ∧ d ≠ [] ∧ ¬ "--".toList <:+: d ∧ d.getLast? ≠ some '-' ∧ t = "<!--".toList ++ d ++ "-->".toList

/-- [16] PI with the text between the question marks. -/
def PI (t d : List Char) : Prop :=
  (∃ n s, d = n ++ s ∧ Name n ∧ (s = [] ∨ ∃ c r, s = c :: r ∧ Space c)) ∧ (∀ c ∈ d, XmlChar c) ∧
    ¬ "?>".toList <:+: d ∧ t = "<?".toList ++ d ++ "?>".toList

/-- The element node for a name and attributes. -/
def tagNode (n : List Char) (as : List (List Char × List Char)) (cs : List Node) : Node :=
  .elem (utf8File n) (as.map fun a => (utf8File a.1, some (utf8File a.2))) cs

/-- Comments and processing instructions are nodes whose name is all between the brackets. -/
def rawNode (inner : List Char) : Node := .elem (utf8File inner) [] []

/-- [43] content: CharData? ((element | Reference | CDSect | PI | Comment) CharData?)*, and what it
    contributes to the element. -/
inductive Content : List Char → List Item → Prop
  | data {d} : CharData d → Content d [.txt (utf8File d)]
  | ref {d r c s is} : CharData d → Reference r c → Content s is →
      Content (d ++ r ++ s) (.txt (utf8File d) :: .txt (utf8File [c]) :: is)
  | cdata {d t x s is} : CharData d → CData t x → Content s is →
      Content (d ++ t ++ s) (.txt (utf8File d) :: .el (Node.newCDATA (utf8File x)) :: is)
  | comment {d t x s is} : CharData d → Comment t x → Content s is →
      Content (d ++ t ++ s) (.txt (utf8File d) :: .el (rawNode ("!--".toList ++ x ++ "--".toList)) :: is)
  | pi {d t x s is} : CharData d → PI t x → Content s is →
      Content (d ++ t ++ s) (.txt (utf8File d) :: .el (rawNode ("?".toList ++ x ++ "?".toList)) :: is)
  | empty {d t n as s is} : CharData d → EmptyTag t n as → Content s is →
      Content (d ++ t ++ s) (.txt (utf8File d) :: .el (tagNode n as []) :: is)
  | elem {d t n as b bs e s is} : CharData d → StartTag t n as → Content b bs → EndTag e n → Content s is →
      Content (d ++ t ++ b ++ e ++ s) (.txt (utf8File d) :: .el (tagNode n as (joinText [] bs)) :: is)

/-- [39] element. -/
inductive Element : List Char → Node → Prop
  | empty {t n as} : EmptyTag t n as → Element t (tagNode n as [])
  | full {t n as b bs e} : StartTag t n as → Content b bs → EndTag e n → Element (t ++ b ++ e) (tagNode n as (joinText [] bs))

/-- [27] Misc*, up to the last comment or processing instruction. -/
inductive Misc : List Char → List Item → Prop
  | nil : Misc [] []
  | comment {w t x s is} : Spaces w → Comment t x → Misc s is →
      Misc (w ++ t ++ s) (.txt (utf8File w) :: .el (rawNode ("!--".toList ++ x ++ "--".toList)) :: is)
  | pi {w t x s is} : Spaces w → PI t x → Misc s is →
      Misc (w ++ t ++ s) (.txt (utf8File w) :: .el (rawNode ("?".toList ++ x ++ "?".toList)) :: is)

/-- S name Eq quoted value, in the declaration. -/
def Pseudo (name value s : List Char) : Prop :=
  ∃ ws w1 w2 q, ws ≠ [] ∧ Spaces ws ∧ Spaces w1 ∧ Spaces w2 ∧ (q = '"' ∨ q = '\'') ∧
    s = ws ++ name ++ w1 ++ ['='] ++ w2 ++ [q] ++ value ++ [q]

/-- [23] XMLDecl: the text between the question marks. -/
def XmlDecl (d : List Char) : Prop :=
  ∃ v e s w, Pseudo "version".toList "1.0".toList v ∧
    (e = [] ∨ ∃ enc, (enc = "utf-8".toList ∨ enc = "UTF-8".toList ∨ enc = "UTF-16".toList) ∧ Pseudo "encoding".toList enc e) ∧
    (s = [] ∨ ∃ b, (b = "yes".toList ∨ b = "no".toList) ∧ Pseudo "standalone".toList b s) ∧ Spaces w ∧
    d = "xml".toList ++ v ++ e ++ s ++ w

/-- [1] document, with and without declaration, and its tree.  As the library has it: with a
    declaration everything is inside a node for the declaration.  Without one, only spaces may
    surround the element (the reader refuses other things there). -/
inductive Document : List Char → Node → Prop
  | declared {d m w e m' w' : List Char} {is is' : List Item} {n : Node} :
      XmlDecl d → Misc m is → Spaces w → Element e n → Misc m' is' → Spaces w' →
      Document ("<?".toList ++ d ++ "?>".toList ++ m ++ w ++ e ++ m' ++ w')
        (.elem (utf8File ("?".toList ++ d ++ "?".toList)) [] (joinText [] (is ++ [.txt (utf8File w), .el n] ++ is')))
  | bare {w e w' : List Char} {n : Node} : Spaces w → Element e n → Spaces w' → Document (w ++ e ++ w') n

/-- The UTF-8 form of a document. -/
def WellFormed (b : Bytes) : Prop := ∃ s v, b = utf8File s ∧ Document s v

/-- U+FFFE and U+FFFF, which XML excludes, are not in a UTF-8 text. -/
def NoNoncharacter (b : Bytes) : Prop := ¬ [0xEF, 0xBF, 0xBE] <:+: b ∧ ¬ [0xEF, 0xBF, 0xBF] <:+: b

end Afs.Spec.Grammar
