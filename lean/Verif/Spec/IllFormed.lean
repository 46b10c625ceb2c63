import Verif.Spec.Grammar
import Verif.Spec.Html
/-!
# Texts that begin like an XML document and then break a rule of XML
-/
namespace Afs.Spec.Grammar
open Afs Afs.Spec

/-- The beginning of a document, up to a place where markup can follow, and the names of the elements that are open there, innermost
    first. -/
inductive At : List Char → List (List Char) → Prop
  /-- at the start, perhaps behind spaces -/
  | start {w} : Spaces w → At w []
  /-- behind the declaration, comments and processing instructions -/
  | prolog {d m w is} : XmlDecl d → Misc m is → Spaces w → At ("<?".toList ++ d ++ "?>".toList ++ m ++ w) []
  /-- behind a start tag -/
  | open {p ns t n as} : At p ns → StartTag t n as → At (p ++ t) (n :: ns)
  /-- behind text, complete elements, references, … in an element -/
  | content {p n ns s is} : At p (n :: ns) → Content s is → At (p ++ s) (n :: ns)

/-- The beginning of a tag: its name, complete attributes, spaces. -/
inductive TagStart : List Char → List (List Char × List Char) → Prop
  | mk {n s w as} : Name n → Attributes s as → (as.map Prod.fst).Nodup → Spaces w → TagStart (['<'] ++ n ++ s ++ w) as

/-- The beginning of a tag, up to where the name of an attribute can be. -/
inductive BeforeAttribute : List Char → List (List Char × List Char) → Prop
  | mk {n s w as} : Name n → Attributes s as → (as.map Prod.fst).Nodup → w ≠ [] → Spaces w → BeforeAttribute (['<'] ++ n ++ s ++ w) as

/-- The beginning of a tag, up to a place inside the value of an attribute in quotes `q`. -/
inductive InValue : List Char → Prop
  | mk {b as a w1 w2 q t v} : BeforeAttribute b as → Name a → a ∉ as.map Prod.fst → Spaces w1 → Spaces w2 → (q = '"' ∨ q = '\'') →
      AttText q t v → InValue (b ++ a ++ w1 ++ ['='] ++ w2 ++ [q] ++ t)

/-- Letters, digits and `#`: what the text between `&` and `;` is made of. -/
def RefChar (c : Char) : Prop := (48 ≤ c.toNat ∧ c.toNat ≤ 57) ∨ (65 ≤ c.toNat ∧ c.toNat ≤ 90) ∨ (97 ≤ c.toNat ∧ c.toNat ≤ 122) ∨ c = '#'

instance (c : Char) : Decidable (RefChar c) := by unfold RefChar; infer_instance

/-- The names of HTML 4 and XML, and four older ones, which the reader knows without a declaration (mxml-entity.c:148-411). -/
def Known (r : List Char) : Prop := ∃ x ∈ Html.named ++ Html.others, x.1.toList = r

/-- Text that begins with `&` and is not a reference: it goes on with something else than a name and `;`, or the name is not known, or
    the number is the one of a control character. -/
inductive WrongReference : List Char → Prop
  | unended {r c} : (∀ x ∈ r, RefChar x) → ¬ RefChar c → c ≠ ';' → XmlChar c → WrongReference (['&'] ++ r ++ [c])
  | unknown {r} : (∀ x ∈ r, RefChar x) → r.head? ≠ some '#' → ¬ Known r → WrongReference (['&'] ++ r ++ [';'])
  | decimal {ds} : (∀ d ∈ ds, Decimal d) → number 10 ds < 32 → number 10 ds ≠ 9 → number 10 ds ≠ 10 → number 10 ds ≠ 13 →
      WrongReference ("&#".toList ++ ds ++ [';'])
  | hexadecimal {ds} : (∀ d ∈ ds, Hexadecimal d) → number 16 ds < 32 → number 16 ds ≠ 9 → number 16 ds ≠ 10 → number 16 ds ≠ 13 →
      WrongReference ("&#x".toList ++ ds ++ [';'])

/-- Text that breaks a rule at a place where the elements `ns` are open. -/
inductive Wrong (ns : List (List Char)) : List Char → Prop
  /-- the end tag of another element than the innermost open one, or of none at all -/
  | endTag {m c} : Name m → (Space c ∨ c = '>') → ns.head? ≠ some m → Wrong ns (['<', '/'] ++ m ++ [c])
  /-- the same attribute twice in a tag -/
  | twice {b as a c} : BeforeAttribute b as → Name a → a ∈ as.map Prod.fst → (Space c ∨ c = '=') → Wrong ns (b ++ a ++ [c])
  /-- an attribute without a value at the end of a tag -/
  | noValue {b as a c} : BeforeAttribute b as → Name a → (c = '>' ∨ c = '/') → Wrong ns (b ++ a ++ [c])
  /-- something else than `=` behind the name of an attribute -/
  | noEqual {b as a w c} : BeforeAttribute b as → Name a → w ≠ [] → Spaces w → ¬ Space c → c ≠ '=' → XmlChar c →
      Wrong ns (b ++ a ++ w ++ [c])
  /-- a `<` in a tag -/
  | less {b as} : TagStart b as → Wrong ns (b ++ ['<'])
  /-- a `/` in a tag that is not the end of the tag -/
  | slash {b as c} : TagStart b as → c ≠ '>' → XmlChar c → Wrong ns (b ++ ['/', c])
  /-- a character in a tag name, or in place of one, that cannot be there -/
  | char {n c} : (n = [] ∨ Name n) → c ∈ "<\"#$%'()*+,".toList → Wrong ns (['<'] ++ n ++ [c])
  /-- no reference behind `&`, in text -/
  | text {r} : WrongReference r → Wrong ns r
  /-- no reference behind `&`, in an attribute value -/
  | value {b r} : InValue b → WrongReference r → Wrong ns (b ++ r)

/-- A byte that is no character and begins none: a control character, or a byte that UTF-8 has only behind others or not at all. -/
def NoCharacter (b : UInt8) : Prop := (b.toNat < 32 ∧ b ≠ 0 ∧ b ≠ 9 ∧ b ≠ 10 ∧ b ≠ 13) ∨ (128 ≤ b.toNat ∧ b.toNat < 192) ∨ (248 ≤ b.toNat ∧ b.toNat < 254)

end Afs.Spec.Grammar
