import Verif.Model.Refs
/-!
# Who refers to what: the client's view of reference counting

A client of the library holds some references (`held`, one list entry per reference it owns:
one from each `create`, `clone` and `get_new_reference`, minus one for each `free` and each
object handed over to another object).  `Legal` says which calls a careful client makes;
it never looks at a reference count.
-/
namespace Afs.Spec
open Afs.Refs

/-- `f 0 + … + f (n-1)` -/
def sumTo (f : Nat → Nat) : Nat → Nat
  | 0 => 0
  | n + 1 => sumTo f n + f n

/-- How many of the pointers inside object `b` point to `a`. -/
def pointersIn (h : Heap) (a b : Nat) : Nat :=
  match h.cells b with
  | none => 0
  | some c => c.kids.count a

/-- All references to `a`: those the client holds and those inside other objects. -/
def references (h : Heap) (held : List Nat) (a : Nat) : Nat :=
  held.count a + sumTo (pointersIn h a) h.next

/-- `a` can be reached from a reference the client holds. -/
inductive Reach (h : Heap) (held : List Nat) : Nat → Prop where
  | held {a : Nat} : a ∈ held → Reach h held a
  | part {a b : Nat} {c : Cell} :
      Reach h held b → h.cells b = some c → a ∈ c.kids → Reach h held a

/-- An allocated, not yet freed object. -/
def Live (h : Heap) (a : Nat) : Prop := ∃ c, h.cells a = some c

/-- An allocated object of type `k`. -/
def Is (h : Heap) (a : Nat) (k : Kind) : Prop := ∃ c, h.cells a = some c ∧ c.kind = k

/-- What an object looks like from outside, down to a given depth: its type and the
    appearance of its parts; nothing of its addresses and counts. -/
inductive Tree where
  | cut
  | dangling
  | node (k : Kind) (parts : List Tree)

def appearance : Nat → Heap → Nat → Tree
  | 0, _, _ => .cut
  | n + 1, h, a =>
    match h.cells a with
    | none => .dangling
    | some c => .node c.kind (c.kids.map (appearance n h))

/-- The state of a program using the library: the heap and the references it holds. -/
structure World where
  heap : Heap
  held : List Nat

def World.start : World := ⟨Heap.empty, []⟩

/-- The calls. -/
inductive Call where
  /-- `create` / `create2`; the new object takes over the references `parts` -/
  | create (k : Kind) (parts : List Nat)
  | newRef (a : Nat)
  | free (a : Nat)
  | clone (a : Nat)
  /-- `add` of a container -/
  | add (p c : Nat) (accepted : Bool)
  /-- `add` through the inner container of type `k` -/
  | addInner (p : Nat) (k : Kind) (c : Nat) (o : Outcome)
  /-- `afs_toc_file_set_preview`, `afs_toc_file_set_metadata` -/
  | setPart (f : Nat) (k : Kind) (x : Option Nat)
  /-- `afs_toc_data_add_preview_layout_definitions` -/
  | addLayouts (t d : Nat) (oks : List Bool)

/-- Run a call and keep the books. -/
def World.step (w : World) : Call → Res World
  | .create k parts =>
      let r := w.heap.alloc k parts
      .ok ⟨r.1, r.2 :: parts.foldl List.erase w.held⟩
  | .newRef a => do
      let h ← Refs.newRef w.heap a
      .ok ⟨h, a :: w.held⟩
  | .free a => do
      let h ← Refs.free w.heap a
      .ok ⟨h, w.held.erase a⟩
  | .clone a => do
      let r ← Refs.clone w.heap a
      .ok ⟨r.1, r.2 :: w.held⟩
  | .add p c accepted => do
      let h ← Refs.add w.heap p c accepted
      .ok ⟨h, if accepted then w.held.erase c else w.held⟩
  | .addInner p k c o => do
      let h ← Refs.addInner w.heap p k c o
      .ok ⟨h, if o = .accepted then w.held.erase c else w.held⟩
  | .setPart f k x => do
      let h ← Refs.setPart w.heap f k x
      .ok ⟨h, w.held⟩
  | .addLayouts t d oks => do
      let h ← Refs.addLayouts w.heap t d oks
      .ok ⟨h, w.held⟩

/-- The heap in which file `f` no longer points to its part of type `k`. -/
def withoutPart (h : Heap) (f : Nat) (k : Kind) : Heap :=
  match part h f k with
  | none => h
  | some old => unlink h f old

/-- What a careful client does: it passes only objects it can reach, gives away and frees
    only references it holds, puts objects only where their type belongs, and does not pass
    to `set_preview` / `set_metadata` an object that it can reach only through the part that
    the call replaces. -/
def Legal (w : World) : Call → Prop
  | .create k parts =>
      (∀ a, parts.count a ≤ w.held.count a) ∧
      ∀ a ∈ parts, ∃ k', Is w.heap a k' ∧ k.owns k' = true
  | .newRef a => Reach w.heap w.held a
  | .free a => a ∈ w.held
  | .clone a => Reach w.heap w.held a
  | .add p c _ =>
      Reach w.heap w.held p ∧ c ∈ w.held ∧
      ∃ k k', Is w.heap p k ∧ Is w.heap c k' ∧ k.owns k' = true
  | .addInner p k c _ =>
      Reach w.heap w.held p ∧ c ∈ w.held ∧
      ∃ kp kc, Is w.heap p kp ∧ Is w.heap c kc ∧ kp.owns k = true ∧ k.owns kc = true
  | .setPart f k x =>
      Reach w.heap w.held f ∧ (∃ kf, Is w.heap f kf ∧ kf.owns k = true) ∧
      ∀ y, x = some y → Is w.heap y k ∧ Reach (withoutPart w.heap f k) w.held y
  | .addLayouts t d _ =>
      Reach w.heap w.held t ∧ Reach w.heap w.held d ∧
      Is w.heap t .tocData ∧ Is w.heap d .layoutDefs

/-- Run a list of calls. -/
def World.run (w : World) : List Call → Res World
  | [] => .ok w
  | c :: cs => do
      let w ← w.step c
      World.run w cs

/-- Every call of the list is legal in the state in which it is made. -/
def LegalRun (w : World) : List Call → Prop
  | [] => True
  | c :: cs => Legal w c ∧ ∀ w', w.step c = .ok w' → LegalRun w' cs

end Afs.Spec
