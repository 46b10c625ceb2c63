import Verif.Spec.Refs
import Verif.Model.Threads
/-!
# Threads and schedules

Some objects (`world`) exist before the threads start; from then on threads 1, 2, 3, … run.
A thread is a list of calls.  In its calls a thread names objects by numbers: a number below
`world.heap.next` is an object that existed before, a number from there on is an object the
thread has allocated itself, in the order of allocation – the numbering of `Refs.Heap`, as if
the thread were alone.

A schedule is a list of thread numbers: who makes the next memory access.
-/
namespace Afs.Spec
open Afs.Refs Afs.Threads

/-- The object a thread means by a number (`n0` objects existed before). -/
def named (n0 t : Nat) (i : Nat) : Name := if i < n0 then (0, i) else (t, i)

/-- What a thread does: the calls of C30, and `look`, which stands for every function that
    only reads an object and its parts (getters, `is_valid`, `is_equal`, `save_*`). -/
inductive TCall where
  | call (c : Call)
  | look (a : Nat)

/-- Read an object and all its parts. -/
def lookP : Nat → Name → Prog Tree
  | 0, _ => .done .cut
  | n + 1, a => .kindOf a fun kd => .getKids a fun l =>
      (looks (lookP n) l).bind fun ts => .done (.node (kd.getD .file) ts)
where
  looks (f : Name → Prog Tree) : List Name → Prog (List Tree)
    | [] => .done []
    | a :: l => (f a).bind fun x => (looks f l).bind fun xs => .done (x :: xs)

/-- The accesses a call makes. -/
def callP (e : Nat → Name) : Call → Prog Unit
  | .create k parts => .new k (parts.map e) fun _ => .done ()
  | .newRef a => newRefP (e a)
  | .free a => freeP maxDepth (e a)
  | .clone a => (cloneP maxDepth (e a)).bind fun _ => .done ()
  | .add p c accepted => addP (e p) (e c) accepted
  | .addInner p k c o => addInnerP (e p) k (e c) o
  | .setPart f k x => setPartP (e f) k (x.map e)
  | .addLayouts t d oks => addLayoutsP (e t) (e d) oks

/-- The accesses of a whole thread; its result is what it has looked at. -/
def threadP (e : Nat → Name) : List TCall → Prog (List Tree)
  | [] => .done []
  | .call c :: cs => (callP e c).bind fun _ => threadP e cs
  | .look a :: cs => (lookP maxDepth (e a)).bind fun x =>
      (threadP e cs).bind fun xs => .done (x :: xs)

/-- All threads together: the memory, how many objects each thread has allocated (counted
    from the objects that existed before), and what each still has to do. -/
structure Machine where
  mem : Mem
  next : Nat → Nat
  prog : Nat → Prog (List Tree)

/-- An object of the start world in memory. -/
def asObj (e : Nat → Name) (c : Cell) : Obj := ⟨c.kind, c.rc, c.kids.map e⟩

/-- The moment the threads start. -/
def Machine.start (world : World) (threads : Nat → List TCall) : Machine where
  mem := fun a => if a.1 = 0 then (world.heap.cells a.2).map (asObj (fun i => (0, i))) else none
  next := fun _ => world.heap.next
  prog := fun t => threadP (named world.heap.next t) (threads t)

/-- Thread `t` makes its next access (a finished thread does nothing). -/
def Machine.step (m : Machine) (t : Nat) : Res Machine :=
  match Threads.step t m.mem (m.next t) (m.prog t) with
  | .ub => .ub
  | .ok (mem, n, p) => .ok
      { mem := mem
        next := fun u => if u = t then n else m.next u
        prog := fun u => if u = t then p else m.prog u }

/-- A schedule. -/
def Machine.run (m : Machine) : List Nat → Res Machine
  | [] => .ok m
  | t :: ts => match m.step t with
    | .ub => .ub
    | .ok m' => m'.run ts

/-- The object that the next access of a program touches, and whether it writes.
    (`new` touches an object nobody knows yet.) -/
def touches {α : Type} : Prog α → Option (Name × Bool)
  | .getRc a _ => some (a, false)
  | .getKids a _ => some (a, false)
  | .setRc a _ _ => some (a, true)
  | .setKids a _ _ => some (a, true)
  | .del a _ => some (a, true)
  | _ => none

/-- Two accesses to the same object, one of them a write. -/
def Conflict {α : Type} (p q : Prog α) : Prop :=
  ∃ a w v, touches p = some (a, w) ∧ touches q = some (a, v) ∧ (w || v) = true

/-! ## One thread alone -/

/-- The thread alone, call by call, in the model of C30. -/
def World.tstep (w : World) : TCall → Res (World × List Tree)
  | .call c => do
      let w ← w.step c
      .ok (w, [])
  | .look a => .ok (w, [appearance maxDepth w.heap a])

def World.trun (w : World) : List TCall → Res (World × List Tree)
  | [] => .ok (w, [])
  | c :: cs => do
      let (w, x) ← w.tstep c
      let (w, xs) ← w.trun cs
      .ok (w, x ++ xs)

/-- The objects that existed before (numbers below `n0`) are only read: they are cloned,
    looked at, or given as the object that `set_preview` or `add_preview_layout_definitions`
    copies from.  References to them are neither taken nor given up. -/
def OnlyReads (n0 : Nat) : TCall → Prop
  | .look _ => True
  | .call (.create _ parts) => ∀ a ∈ parts, n0 ≤ a
  | .call (.newRef a) => n0 ≤ a
  | .call (.free a) => n0 ≤ a
  | .call (.clone _) => True
  | .call (.add p c _) => n0 ≤ p ∧ n0 ≤ c
  | .call (.addInner p _ c _) => n0 ≤ p ∧ n0 ≤ c
  | .call (.setPart f _ _) => n0 ≤ f
  | .call (.addLayouts t _ _) => n0 ≤ t

/-- Legal in the sense of C30; only reachable objects are looked at. -/
def TLegal (w : World) : TCall → Prop
  | .call c => Legal w c
  | .look a => Reach w.heap w.held a

/-- A thread that, alone, makes legal calls only and only reads what existed before. -/
def TLegalRun (n0 : Nat) (w : World) : List TCall → Prop
  | [] => True
  | c :: cs => TLegal w c ∧ OnlyReads n0 c ∧
      ∀ w' x, w.tstep c = .ok (w', x) → TLegalRun n0 w' cs

end Afs.Spec
