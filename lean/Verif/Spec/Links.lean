import Verif.Model.Xml.Links
/-!
# What the links of a node tree should say

The meaning of a memory full of linked nodes is a function `kids`: the ordered list of the
children of every node.  Nothing here mentions the functions of the library.
-/
namespace Afs.Spec
open Afs Afs.Links Afs.Xml

/-- The element behind `a` in a list. -/
def nextIn : List Nat → Nat → Option Nat
  | [], _ => none
  | x :: xs, a => if x = a then xs.head? else nextIn xs a

/-- The element in front of `a` in a list. -/
def prevIn (l : List Nat) (a : Nat) : Option Nat := nextIn l.reverse a

/-- `b` is `a` or one of its descendants. -/
inductive Below (kids : Nat → List Nat) (a : Nat) : Nat → Prop where
  | self : Below kids a a
  | step {b c : Nat} : Below kids a b → c ∈ kids b → Below kids a c

/-- The pointers of all allocated nodes say exactly what `kids` says, and `kids` describes a
    finite set of finite ordered trees. -/
structure Linked (h : Heap) (kids : Nat → List Nat) : Prop where
  /-- only allocated nodes have children -/
  free : ∀ a, h a = none → kids a = []
  /-- no child is listed twice -/
  nodup : ∀ a, (kids a).Nodup
  /-- a listed child is allocated and points to its parent -/
  parent : ∀ p a, a ∈ kids p → ∃ c, h a = some c ∧ c.parent = some p
  /-- a node that points to a parent is listed there -/
  listed : ∀ a c p, h a = some c → c.parent = some p → a ∈ kids p
  /-- first and last child -/
  child : ∀ a c, h a = some c → c.child = (kids a).head? ∧ c.last = (kids a).getLast?
  /-- siblings -/
  sibling : ∀ p a c, a ∈ kids p → h a = some c →
    c.next = nextIn (kids p) a ∧ c.prev = prevIn (kids p) a
  /-- a root has no siblings -/
  root : ∀ a c, h a = some c → c.parent = none → c.next = none ∧ c.prev = none
  /-- no node is its own descendant -/
  acyclic : ∀ p a, a ∈ kids p → ¬ Below kids a p
  /-- finitely many nodes -/
  finite : ∃ l : List Nat, ∀ a, h a ≠ none → a ∈ l

/-- Nodes keep their values and reference counts. -/
def SameData (h h' : Heap) : Prop :=
  ∀ a, (h' a).map (fun c => (c.refs, c.data)) = (h a).map (fun c => (c.refs, c.data))

/-- Put `n` in front of `x`; in front of everything when `x` is missing. -/
def putBefore (x : Option Nat) (n : Nat) (l : List Nat) : List Nat :=
  match x with
  | none => n :: l
  | some x => if x ∈ l then l.takeWhile (· ≠ x) ++ n :: l.dropWhile (· ≠ x) else n :: l

/-- Put `n` behind `x`; behind everything when `x` is missing. -/
def putAfter (x : Option Nat) (n : Nat) (l : List Nat) : List Nat :=
  match x with
  | none => l ++ [n]
  | some x =>
    if x ∈ l then l.takeWhile (· ≠ x) ++ x :: n :: (l.dropWhile (· ≠ x)).drop 1 else l ++ [n]

/-- A tree of addresses. -/
inductive T where
  | mk (a : Nat) (ks : List T)

def T.addr : T → Nat
  | .mk a _ => a

def T.kids : T → List T
  | .mk _ ks => ks

mutual
/-- The tree is what `kids` says. -/
def Shape (kids : Nat → List Nat) : T → Prop
  | .mk a ks => kids a = ks.map T.addr ∧ ShapeL kids ks
def ShapeL (kids : Nat → List Nat) : List T → Prop
  | [] => True
  | t :: ts => Shape kids t ∧ ShapeL kids ts
end

mutual
/-- Document order: parents before children, earlier siblings first. -/
def pre : T → List Nat
  | .mk a ks => a :: preL ks
def preL : List T → List Nat
  | [] => []
  | t :: ts => pre t ++ preL ts
end

mutual
/-- The nodes of a tree in memory are those of an XML tree. -/
def IsNode (h : Heap) : T → Node → Prop
  | .mk a ks, .elem n as cs => (h a).map Cell.data = some (.elem n as) ∧ IsNodes h ks cs
  | .mk a ks, .text s => (h a).map Cell.data = some (.text s) ∧ ks = []
def IsNodes (h : Heap) : List T → List Node → Prop
  | [], [] => True
  | t :: ts, n :: ns => IsNode h t n ∧ IsNodes h ts ns
  | _, _ => False
end

/-- The names of the ancestors of a node, innermost first, along the `parent` pointers. -/
inductive Anc (h : Heap) : Nat → List Bytes → Prop where
  | root {a : Nat} {c : Cell} : h a = some c → c.parent = none → Anc h a []
  | step {a p : Nat} {c d : Cell} {names : List Bytes} : h a = some c → c.parent = some p →
      h p = some d → Anc h p names → Anc h a (d.data.name :: names)

/-- A callback on node pointers does what a callback on names does. -/
def CbMatches (h : Heap) (pcb : PtrCb) (cb : SaveCb) : Prop :=
  ∃ f : List Bytes → Option Bytes → Ws → Bytes, (∀ anc n w, cb anc n w = f anc n.element w) ∧
    ∀ a names n as k, (h a).map Cell.data = some (.elem n as) → Anc h a names →
      pcb a k = f names (some n) k

/-- The part of a list behind an element. -/
def behind : List Nat → Nat → List Nat
  | [], _ => []
  | x :: xs, a => if x = a then xs else behind xs a

/-- The value of the first attribute with that name. -/
def attrValue (a : Bytes) (as : List (Bytes × Option Bytes)) : Option Bytes :=
  (as.find? (fun p => p.1 = a)).bind Prod.snd

/-- The node is an element with that name, and has that attribute, and with that value, each as far
    as it is asked for. -/
def Wanted (name attr value : Option Bytes) (h : Heap) (x : Nat) : Prop :=
  ∃ n as, (h x).map Cell.data = some (.elem n as) ∧ (∀ m, name = some m → n = m) ∧
    ∀ a, attr = some a → ∃ v, attrValue a as = some v ∧ ∀ w, value = some w → w = v

/-- Whether the value at an address satisfies a test. -/
def test (f : Data → Bool) (h : Heap) (a : Nat) : Bool :=
  match h a with
  | none => false
  | some c => f c.data

end Afs.Spec
