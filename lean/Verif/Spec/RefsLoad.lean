import Verif.Spec.Refs
import Verif.Model.RefsLoad
/-!
# Loading: the result, and what is lost, by what the document holds
-/
namespace Afs.Spec
open Afs.Refs

/-- All elements load, and all are accepted. -/
def allLoad {α : Type} (ok : α → Bool) (l : List (α × Bool)) : Bool := l.all fun x => ok x.1 && x.2

/-- What is lost in a container: what is lost in each element up to the first that fails; and that
    element itself if it does not load and is not `freed`. -/
def lostIn {α : Type} (freed : Bool) (ok : α → Bool) (lost : α → Nat) : List (α × Bool) → Nat
  | [] => 0
  | (x, accepted) :: l =>
    lost x + if ok x = false then (if freed then 0 else 1) else if accepted then lostIn freed ok lost l else 0

/-- The result for a list of pages, sources or sections. -/
def leavesOk (l : Leaves) : Bool := match l with | none => false | some l => allLoad id l

/-- What is lost in a list of pages, sources or sections. -/
def leavesLost (freed : Bool) (l : Leaves) : Nat := match l with | none => 0 | some l => lostIn freed id (fun _ => 0) l

/-- A part that is absent is no failure. -/
def ifThere {α β : Type} (d : β) (f : α → β) (x : Option α) : β := match x with | none => d | some x => f x

/-- The result for a file entry. -/
def fileOk (f : Option FilePlan) : Bool :=
  match f with
  | none => false
  | some f => ifThere true leavesOk f.preview && ifThere true leavesOk f.metadata

/-- What is lost with a new file entry: pages that do not load. -/
def fileLost (f : Option FilePlan) : Nat :=
  match f with
  | none => 0
  | some f => ifThere 0 (leavesLost false) f.preview

def filesOk (l : FilesPlan) : Bool := allLoad fileOk l
def filesLost (l : FilesPlan) : Nat := lostIn false fileOk fileLost l

def reelOk (r : Option (Option FilesPlan)) : Bool := match r with | none => false | some l => ifThere true filesOk l
def reelLost (r : Option (Option FilesPlan)) : Nat := match r with | none => 0 | some l => ifThere 0 filesLost l

def reelsOk (l : ReelsPlan) : Bool := allLoad reelOk l
def reelsLost (l : ReelsPlan) : Nat := lostIn false reelOk reelLost l

def layoutOk (d : Option Leaves) : Bool := match d with | none => false | some l => leavesOk l
def layoutLost (d : Option Leaves) : Nat := match d with | none => 0 | some l => leavesLost false l

def layoutsOk (l : LayoutsPlan) : Bool := match l with | none => false | some l => allLoad layoutOk l
def layoutsLost (l : LayoutsPlan) : Nat := match l with | none => 0 | some l => lostIn false layoutOk layoutLost l

def tocOk (t : Option TocPlan) : Bool :=
  match t with
  | none => false
  | some t => ifThere true leavesOk t.metadata && ifThere true layoutsOk t.layouts && ifThere true reelsOk t.reels

/-- What is lost with a table of contents: its parts are loaded one after the other until one fails. -/
def tocLost (t : Option TocPlan) : Nat :=
  match t with
  | none => 0
  | some t =>
    if ifThere true leavesOk t.metadata = false then 0
    else ifThere 0 layoutsLost t.layouts + if ifThere true layoutsOk t.layouts = false then 0 else ifThere 0 reelsLost t.reels

/-- Technical metadata: only the tables of contents can make it fail. -/
def techOk (t : Option TechPlan) : Bool := match t with | none => false | some t => ifThere true filesOk t.tocs
def techLost (t : Option TechPlan) : Nat :=
  match t with
  | none => 0
  | some t => ifThere 0 filesLost t.tocs + if ifThere true filesOk t.tocs = false then 0 else ifThere 0 filesLost t.apps

/-- Control data: both elements have to be there; the result of loading the parts does not count. -/
def controlOk (admin : Bool) (tech : Option (Option TechPlan)) : Bool := admin && tech.isSome
def controlLost (admin : Bool) (tech : Option (Option TechPlan)) : Nat := if admin then ifThere 0 techLost tech else 0

/-- The object has a part of the type. -/
def has (h : Heap) (p : Nat) (k : Kind) : Nat := if (part h p k).isSome then 1 else 0

/-! ## Objects that had parts before

Loading does not always free the part it replaces. -/

/-- What is lost when a file entry is loaded: pages, and the parts the entry had before. -/
def fileLostAt (plan : Option FilePlan) (h : Heap) (p : Nat) : Nat :=
  match plan with
  | none => 0
  | some x => ifThere 0 (fun l => leavesLost false l + if leavesOk l then has h p .preview else 0) x.preview +
      if ifThere true leavesOk x.preview = false then 0 else ifThere 0 (fun l => if leavesOk l then has h p .fileMeta else 0) x.metadata

/-- The list of files a reel had before is lost. -/
def reelLostAt (plan : Option (Option FilesPlan)) (h : Heap) (p : Nat) : Nat :=
  match plan with
  | some (some l) => filesLost l + has h p .files
  | _ => 0

/-- The sections a layout had before are lost. -/
def layoutLostAt (plan : Option Leaves) (h : Heap) (p : Nat) : Nat :=
  match plan with
  | some l => leavesLost false l + has h p .sections
  | none => 0

/-- The two pointers of technical metadata are among what the object owns, and are lists of files. -/
def techFits (plan : Option TechPlan) (h : Heap) (p : Nat) : Prop :=
  match plan with
  | none => True
  | some x => ∀ d, h.cells p = some d →
      (∀ a, (x.oldTocs.toList ++ x.oldApps.toList).count a ≤ d.kids.count a) ∧ ∀ a ∈ x.oldTocs.toList ++ x.oldApps.toList, Is h a .files

/-- The format, the tables of contents and the applications that technical metadata had before are lost. -/
def techLostAt (plan : Option TechPlan) (h : Heap) (p : Nat) : Nat :=
  match plan with
  | none => 0
  | some x => techLost (some x) + has h p .boxing + ifThere 0 (fun _ => if x.oldTocs.isSome then 1 else 0) x.tocs +
      if ifThere true filesOk x.tocs = false then 0 else ifThere 0 (fun _ => if x.oldApps.isSome then 1 else 0) x.apps

/-! ## Programs that load -/

/-- A call of a `load` function on object `p`; what the document holds. -/
inductive Load where
  /-- a page, a source, a section, administrative metadata, a boxing format -/
  | leaf (p : Nat) (ok : Bool)
  | preview (p : Nat) (x : Leaves)
  | fileMeta (p : Nat) (x : Leaves)
  | tocMeta (p : Nat) (x : Leaves)
  | sections (p : Nat) (x : Leaves)
  | file (p : Nat) (x : Option FilePlan)
  | files (p : Nat) (x : FilesPlan)
  | reel (p : Nat) (x : Option (Option FilesPlan))
  | reels (p : Nat) (x : ReelsPlan)
  | layout (p : Nat) (x : Option Leaves)
  | layouts (p : Nat) (x : LayoutsPlan)
  | toc (p : Nat) (x : Option TocPlan)
  | tech (p : Nat) (x : Option TechPlan)
  | control (p : Nat) (admin : Bool) (tech : Option (Option TechPlan))

/-- The function that is called. -/
def Load.run (h : Heap) : Load → Res Loaded
  | .leaf p ok => loadLeaf h p ok
  | .preview p x => loadPreview h p x
  | .fileMeta p x => loadFileMeta h p x
  | .tocMeta p x => loadTocMeta h p x
  | .sections p x => loadSections h p x
  | .file p x => loadFile h p x
  | .files p x => loadFiles h p x
  | .reel p x => loadReel h p x
  | .reels p x => loadReels h p x
  | .layout p x => loadLayout h p x
  | .layouts p x => loadLayouts h p x
  | .toc p x => loadToc h p x
  | .tech p x => loadTech h p x
  | .control p a t => loadControl h p a t

/-- The object is one the program can reach, and of the type the function is for. -/
def Load.Legal (h : Heap) (held : List Nat) : Load → Prop
  | .leaf p _ => Reach h held p
  | .preview p _ => Reach h held p ∧ Is h p .preview
  | .fileMeta p _ => Reach h held p ∧ Is h p .fileMeta
  | .tocMeta p _ => Reach h held p ∧ Is h p .tocMeta
  | .sections p _ => Reach h held p ∧ Is h p .sections
  | .file p _ => Reach h held p ∧ Is h p .file
  | .files p _ => Reach h held p ∧ Is h p .files
  | .reel p _ => Reach h held p ∧ Is h p .reel
  | .reels p _ => Reach h held p ∧ Is h p .reels
  | .layout p _ => Reach h held p ∧ Is h p .layoutDef
  | .layouts p _ => Reach h held p ∧ Is h p .layoutDefs
  | .toc p _ => Reach h held p ∧ Is h p .tocData
  | .tech p x => Reach h held p ∧ Is h p .tech ∧ techFits x h p
  | .control p _ _ => Reach h held p ∧ Is h p .control

/-- What the function returns. -/
def Load.ok : Load → Bool
  | .leaf _ ok => ok
  | .preview _ x => leavesOk x
  | .fileMeta _ x => leavesOk x
  | .tocMeta _ x => leavesOk x
  | .sections _ x => leavesOk x
  | .file _ x => fileOk x
  | .files _ x => filesOk x
  | .reel _ x => reelOk x
  | .reels _ x => reelsOk x
  | .layout _ x => layoutOk x
  | .layouts _ x => layoutsOk x
  | .toc _ x => tocOk x
  | .tech _ x => techOk x
  | .control _ a t => controlOk a t

/-- How many references are lost. -/
def Load.lost (h : Heap) : Load → Nat
  | .leaf _ _ => 0
  | .preview _ x => leavesLost false x
  | .fileMeta _ _ => 0
  | .tocMeta _ _ => 0
  | .sections _ x => leavesLost false x
  | .file p x => fileLostAt x h p
  | .files _ x => filesLost x
  | .reel p x => reelLostAt x h p
  | .reels _ x => reelsLost x
  | .layout p x => layoutLostAt x h p
  | .layouts _ x => layoutsLost x
  | .toc _ x => tocLost x
  | .tech p x => techLostAt x h p
  | .control _ a t => controlLost a t

/-- A program that loads: the heap, the references it holds, and those that were lost on the way. -/
structure LWorld where
  heap : Heap
  held : List Nat
  lost : List Nat

def LWorld.start : LWorld := ⟨Heap.empty, [], []⟩

/-- A call of C30 or a load. -/
inductive LCall where
  | base (c : Call)
  | load (l : Load)

def LWorld.step (w : LWorld) : LCall → Res LWorld
  | .base c => do
    let v ← World.step ⟨w.heap, w.held⟩ c
    .ok ⟨v.heap, v.held, w.lost⟩
  | .load l => do
    let r ← l.run w.heap
    .ok ⟨r.heap, w.held, r.lost ++ w.lost⟩

/-- A careful client, as in C30, who knows only the references it holds. -/
def LLegal (w : LWorld) : LCall → Prop
  | .base c => Legal ⟨w.heap, w.held⟩ c
  | .load l => l.Legal w.heap w.held

def LWorld.run (w : LWorld) : List LCall → Res LWorld
  | [] => .ok w
  | c :: cs => do
    let w ← w.step c
    LWorld.run w cs

def LLegalRun (w : LWorld) : List LCall → Prop
  | [] => True
  | c :: cs => LLegal w c ∧ ∀ w', w.step c = .ok w' → LLegalRun w' cs

/-- The object owns nothing yet. -/
def Empty (h : Heap) (p : Nat) : Prop := ∃ c, h.cells p = some c ∧ c.kids = []

/-- The object that is loaded. -/
def Load.object : Load → Nat
  | .leaf p _ | .preview p _ | .fileMeta p _ | .tocMeta p _ | .sections p _ | .file p _ | .files p _ | .reel p _ | .reels p _
  | .layout p _ | .layouts p _ | .toc p _ | .tech p _ | .control p _ _ => p

end Afs.Spec
