import Verif.Model.Xml.Parse
/-!
# Every text the XML reader accepts, and the tree it makes of it

A grammar, written like the one of the XML recommendation (Spec/Grammar), of all that is accepted,
well-formed or not.  It is a grammar over what the reader gets from the text: `some c` for a
character, `none` when there is none (the end of the text, a byte that is no UTF-8 or no character
of XML; behind the end there is nothing but `none`).

Not part of this specification, but taken from the model: the bytes of a character (`addChar`; UTF-8,
see `C84_bytes`), the value of a reference (`entityChar`, see C40) and `isSpace`.
-/
namespace Afs.Spec.Accepted
open Afs Afs.Xml

/-- What the reader gets, one by one. -/
abbrev Stream := List (Option Nat)

/-- `&name;` or `&#number;` with its value; the name has at most 63 characters. -/
def Ref (r : Stream) (v : Nat) : Prop :=
  ∃ acc : List Nat, (∀ x ∈ acc, isEntChar x = true) ∧ acc.length ≤ 63 ∧ entityChar (acc.map UInt8.ofNat) = some v ∧
    r = some 38 :: acc.map some ++ [some 59]

/-- Characters of a kind, and references of any value; with the bytes they stand for. -/
inductive Run (ok : Nat → Prop) : Stream → Bytes → Prop
  | nil : Run ok [] []
  | char {t b c} : Run ok t b → ok c → c ≠ 38 → Run ok (t ++ [some c]) (b ++ addChar c)
  | ref {t b r v} : Run ok t b → Ref r v → Run ok (t ++ r) (b ++ addChar v)

/-- Text: no `<`. -/
abbrev Text : Stream → Bytes → Prop := Run (· ≠ 60)

/-- The text node, if there is any text. -/
def textNodes (b : Bytes) : List Node := if b = [] then [] else [.text b]

/-! ### What follows `<` -/

/-- A character that may follow `b` in a name. -/
def NameChar (b : Bytes) (c : Nat) : Prop :=
  isSpace c = false ∧ c ≠ 62 ∧ ¬ (c = 47 ∧ b ≠ []) ∧ c ≠ 60 ∧ c ≠ 38 ∧ (48 ≤ c ∨ c = 33 ∨ c = 45 ∨ c = 46 ∨ c = 47)

/-- A character behind the name `b`. -/
def NameEnd (b : Bytes) (c : Nat) : Prop := isSpace c = true ∨ c = 62 ∨ (c = 47 ∧ b ≠ [])

/-- These need nothing behind them. -/
def Special (b : Bytes) : Prop := b = b! "?" ∨ b = b! "!--" ∨ b = b! "![CDATA["

/-- The beginning of a name (also `/name`, `!name`), empty or not. -/
inductive Name : Stream → Bytes → Prop
  | nil : Name [] []
  | char {t b c} : Name t b → NameChar b c → ¬ Special (b ++ addChar c) → Name (t ++ [some c]) (b ++ addChar c)
  | ref {t b r v} : Name t b → Ref r v → Name (t ++ r) (b ++ addChar v)

/-- `<`, a name, and the character (or end) that ends it; `?`, `!--` and `![CDATA[` are ended by their own last character. -/
inductive Named : Stream → Bytes → Option Nat → Prop
  | fin {t b c} : Name t b → NameEnd b c → Named (some 60 :: t ++ [some c]) b (some c)
  | none {t b} : Name t b → Named (some 60 :: t ++ [none]) b none
  | special {t b c} : Name t b → NameChar b c → Special (b ++ addChar c) → Named (some 60 :: t ++ [some c]) (b ++ addChar c) (some c)

/-- `<?` -/
def IsPI (b : Bytes) : Prop := b.head? = some 63

/-- `<!`, not of a comment or a CDATA section -/
def IsDecl (b : Bytes) : Prop := b.head? = some 33 ∧ b ≠ b! "!--" ∧ b ≠ b! "![CDATA["

/-- The name of an element. -/
def Plain (b : Bytes) : Prop := b.head? ≠ some 63 ∧ b.head? ≠ some 33 ∧ b.head? ≠ some 47

/-- Characters up to the first `>` with `stop` before it; `b0` counts as being before. -/
inductive Until (stop : Bytes → Prop) (b0 : Bytes) : Stream → Bytes → Prop
  | nil : Until stop b0 [] b0
  | char {t b c} : Until stop b0 t b → ¬ (c = 62 ∧ stop b) → Until stop b0 (t ++ [some c]) (b ++ addChar c)

/-- `--` behind something that is not `-` (and there is something between `!--` and `--`). -/
def CommentEnd (b : Bytes) : Prop := ∃ x c, b = x ++ [c, 45, 45] ∧ c ≠ 45 ∧ 4 < b.length

def CDataEnd (b : Bytes) : Prop := ∃ x, b = x ++ b! "]]"

def PIEnd (b : Bytes) : Prop := ∃ x, b = x ++ b! "?"

/-- A comment, with all between `<` and `>`. -/
def Comment (s : Stream) (b : Bytes) : Prop :=
  ∃ u ch t, Named u (b! "!--") ch ∧ Until CommentEnd (b! "!--") t b ∧ CommentEnd b ∧ s = u ++ t ++ [some 62]

/-- A CDATA section, with all between `<` and `>`. -/
def CData (s : Stream) (b : Bytes) : Prop :=
  ∃ u ch t, Named u (b! "![CDATA[") ch ∧ Until CDataEnd (b! "![CDATA[") t b ∧ CDataEnd b ∧ s = u ++ t ++ [some 62]

/-- A processing instruction or XML declaration, with all between `<` and `>`. -/
def PI (s : Stream) (b : Bytes) : Prop :=
  ∃ u b0 ch t, Named u b0 ch ∧ IsPI b0 ∧ Until PIEnd b0 t b ∧ PIEnd b ∧ s = u ++ t ++ [some 62]

/-- The byte(s) kept of the character behind the name of a declaration. -/
def kept : Option Nat → Bytes
  | none => [255]
  | some c => addChar c

/-- A declaration as `<!DOCTYPE …>`, with all between `<` and `>`, references replaced; it ends at the first `>`. -/
inductive Decl : Stream → Bytes → Prop
  | short {u b} : Named u b (some 62) → IsDecl b → Decl u b
  | long {u b ch t x} : Named u b ch → IsDecl b → ch ≠ some 62 → Run (· ≠ 62) t x → Decl (u ++ t ++ [some 62]) (b ++ kept ch ++ x)

/-- An end tag of elements called `n`; whatever is behind the name is skipped. -/
inductive End (n : Bytes) : Stream → Prop
  | short {u ch} : Named u (47 :: n) ch → (ch = some 62 ∨ ch = none) → End n u
  | long {u c w ch} : Named u (47 :: n) (some c) → c ≠ 62 → (∀ x ∈ w, ∃ y, x = some y ∧ y ≠ 62) → (ch = some 62 ∨ ch = none) →
      End n (u ++ w ++ [ch])

def Spaces (s : Stream) : Prop := ∀ x ∈ s, ∃ c, x = some c ∧ isSpace c = true

/-- Up to the first NUL (in fact only for a first character that is a multiple of 256). -/
def upToNul (b : Bytes) : Bytes := b.takeWhile (· != 0)

/-- The name of an attribute (of its first character only the low byte). -/
inductive AttrName : Stream → Bytes → Prop
  | first {c} : isSpace c = false → c ≠ 47 → c ≠ 63 → c ≠ 60 → c ≠ 62 → c ≠ 34 → c ≠ 39 → AttrName [some c] [UInt8.ofNat c]
  | char {t b c} : AttrName t b → isSpace c = false → c ≠ 61 → c ≠ 47 → c ≠ 62 → c ≠ 63 → c ≠ 38 →
      AttrName (t ++ [some c]) (b ++ addChar c)
  | ref {t b r v} : AttrName t b → Ref r v → AttrName (t ++ r) (b ++ addChar v)

/-- An attribute up to its value: name, `=`, and spaces. -/
def AttrEq (s : Stream) (an : Bytes) : Prop :=
  ∃ t b w w', AttrName t b ∧ Spaces w ∧ Spaces w' ∧ an = upToNul b ∧ s = t ++ w ++ [some 61] ++ w'

/-- A character of a value without quotes. -/
def Bare (c : Nat) : Prop := isSpace c = false ∧ c ≠ 61 ∧ c ≠ 47 ∧ c ≠ 62

/-- With one attribute more. -/
def withAttr (e : Head) (an av : Bytes) : Head := (e.1, e.2 ++ [(an, some (upToNul av))])

mutual
/-- A start tag up to where the next attribute, `>`, `/` or `?` can be, with its name and attributes. -/
inductive InTag : Stream → Head → Prop
  | name {u b c} : Named u b (some c) → Plain b → isSpace c = true → InTag u (b, [])
  | space {t e c} : InTag t e → isSpace c = true → InTag (t ++ [some c]) e
  | quoted {t e a an q w av ch} : InTag t e → AttrEq a an → an ∉ e.2.map Prod.fst → (q = 34 ∨ q = 39) → Run (· ≠ q) w av →
      (ch = some q ∨ ch = none) → InTag (t ++ a ++ [some q] ++ w ++ [ch]) (withAttr e an av)
  | bare {t e ch} : InBare t e → (ch = none ∨ ch = some 61 ∨ ∃ c, ch = some c ∧ isSpace c = true) → InTag (t ++ [ch]) e
/-- The same when the last thing is a value without quotes. -/
inductive InBare : Stream → Head → Prop
  | mk {t e a an c w av} : InTag t e → AttrEq a an → an ∉ e.2.map Prod.fst → isSpace c = false → c ≠ 34 → c ≠ 39 → Run Bare w av →
      InBare (t ++ a ++ [some c] ++ w) (withAttr e an (UInt8.ofNat c :: av))
end

/-- A start tag (`<a ?>` is one as well). -/
inductive Start : Stream → Head → Prop
  | name {u b} : Named u b (some 62) → Plain b → Start u (b, [])
  | attrs {t e} : InTag t e → Start (t ++ [some 62]) e
  | bare {t e} : InBare t e → Start (t ++ [some 62]) e
  | question {t e} : InTag t e → Start (t ++ [some 63, some 62]) e

/-- The tag of an empty element. -/
inductive EmptyTag : Stream → Head → Prop
  | name {u b} : Named u b (some 47) → Plain b → EmptyTag (u ++ [some 62]) (b, [])
  | attrs {t e} : InTag t e → EmptyTag (t ++ [some 47, some 62]) e
  | bare {t e} : InBare t e → EmptyTag (t ++ [some 47, some 62]) e

/-! ### Trees -/

mutual
/-- One thing inside an element, with its node. -/
inductive Item : Stream → Node → Prop
  | comment {t b} : Comment t b → Item t (.elem b [] [])
  | cdata {t b} : CData t b → Item t (.elem b [] [])
  | pi {t b} : PI t b → Item t (.elem b [] [])
  | decl {t b} : Decl t b → Item t (.elem b [] [])
  | empty {t e} : EmptyTag t e → Item t (.elem e.1 e.2 [])
  | elem {h e c ns t b u} : Start h e → Items c ns → Text t b → End e.1 u → Item (h ++ c ++ t ++ u) (.elem e.1 e.2 (ns ++ textNodes b))
/-- Such things, with texts before each. -/
inductive Items : Stream → List Node → Prop
  | nil : Items [] []
  | snoc {c ns t b m n} : Items c ns → Text t b → Item m n → Items (c ++ t ++ m) (ns ++ textNodes b ++ [n])
end

/-- Outermost, a processing instruction and a declaration are start tags as well. -/
def Opening (s : Stream) (e : Head) : Prop := Start s e ∨ ∃ b, (PI s b ∨ Decl s b) ∧ e = (b, [])

/-- Outermost, these stand for themselves. -/
def Single (s : Stream) (n : Node) : Prop := (∃ b, (Comment s b ∨ CData s b) ∧ n = .elem b [] []) ∨ ∃ e, EmptyTag s e ∧ n = .elem e.1 e.2 []

/-- All that is accepted, up to the `none` where reading ends.  Texts outside are dropped. -/
inductive Document : Stream → Node → Prop
  | single {j b t n j' b'} : Text j b → Single t n → Text j' b' → Document (j ++ t ++ j' ++ [none]) n
  | closed {j b h e c ns t d u j' b'} : Text j b → Opening h e → Items c ns → Text t d → End e.1 u → Text j' b' →
      Document (j ++ h ++ c ++ t ++ u ++ j' ++ [none]) (.elem e.1 e.2 (ns ++ textNodes d))
  /-- without the end tag; the last text is dropped -/
  | unclosed {j b h e c ns t d} : Text j b → Opening h e → Items c ns → Text t d →
      Document (j ++ h ++ c ++ t ++ [none]) (.elem e.1 e.2 ns)
  /-- the text ends in the name of a tag inside -/
  | inName {j b h e c ns t d u n} : Text j b → Opening h e → Items c ns → Text t d → Named u n none → Plain n →
      Document (j ++ h ++ c ++ t ++ u) (.elem e.1 e.2 (ns ++ textNodes d ++ [.elem n [] []]))
  /-- the text ends in the name of the outermost tag -/
  | inRootName {j b u n} : Text j b → Named u n none → Plain n → Document (j ++ u) (.elem n [] [])

/-- The text begins with a document; behind the text there are as many `none` as wanted. -/
def Accepts (l : Stream) (v : Node) : Prop := ∃ k p q, l ++ List.replicate k none = p ++ q ∧ Document p v

/-- The characters of a text. -/
def chars (cs : List Char) : Stream := cs.map fun c => some c.toNat

end Afs.Spec.Accepted
