import Verif.Model.Refs
/-!
# The library called from several threads

The functions of `Model/Refs.lean` once more, now as sequences of single memory accesses, so
that the accesses of several threads can be interleaved.  `reference_count++` is a read and
a write (src/tocfile.c:391; the count is a plain `unsigned int` or `int`, no function of src/
takes a lock).

Objects have names instead of addresses: the thread that allocated the object and the number
of the object among those allocated by that thread.  So names are never used twice and an
access to a freed object is always seen.  Simplifications: the pointer fields (and the
vector) of an object are read and written in one access; the type of an object is known
without an access (it is static in C); plain data is left out as in `Model/Refs.lean`.
-/
namespace Afs.Threads
open Afs.Refs

/-- An object: who allocated it, and its number
    (modelling device for malloc, e.g. src/tocfile.c:125-130). -/
abbrev Name := Nat × Nat

/-- One allocated object, as `Refs.Cell`. The structures of inc/, e.g. inc/tocfile.h:50-69. -/
structure Obj where
  kind : Kind
  rc : Int
  kids : List Name
deriving DecidableEq, Repr

/-- The memory shared by all threads (modelling device, e.g. src/tocfile.c:125-130). -/
abbrev Mem := Name → Option Obj

/-- Write one object. E.g. src/tocfile.c:383-393. -/
def Mem.put (M : Mem) (a : Name) (o : Option Obj) : Mem := fun x => if x = a then o else M x

/-- What a thread still has to do: one constructor per memory access
    (modelling device; each function below cites its lines; e.g. src/tocfile.c:310-330). -/
inductive Prog (α : Type) where
  /-- finished, with a result -/
  | done (x : α)
  /-- undefined behaviour that is not a bad access: signed overflow -/
  | ub
  /-- read `reference_count` -/
  | getRc (a : Name) (k : Int → Prog α)
  /-- write `reference_count` -/
  | setRc (a : Name) (r : Int) (k : Prog α)
  /-- read the pointers in the object -/
  | getKids (a : Name) (k : List Name → Prog α)
  /-- write the pointers in the object -/
  | setKids (a : Name) (l : List Name) (k : Prog α)
  /-- the static type of the object (`none`: freed); not an access -/
  | kindOf (a : Name) (k : Option Kind → Prog α)
  /-- `malloc`, `reference_count = 1` -/
  | new (kd : Kind) (l : List Name) (k : Name → Prog α)
  /-- C `free` -/
  | del (a : Name) (k : Prog α)

/-- First the one, then the other (modelling device; e.g. src/tocfile.c:655-670). -/
def Prog.bind {α β : Type} : Prog α → (α → Prog β) → Prog β
  | .done x, f => f x
  | .ub, _ => .ub
  | .getRc a k, f => .getRc a fun r => (k r).bind f
  | .setRc a r k, f => .setRc a r (k.bind f)
  | .getKids a k, f => .getKids a fun l => (k l).bind f
  | .setKids a l k, f => .setKids a l (k.bind f)
  | .kindOf a k, f => .kindOf a fun kd => (k kd).bind f
  | .new kd l k, f => .new kd l fun a => (k a).bind f
  | .del a k, f => .del a (k.bind f)

/-- The next access of thread `t`, which has allocated `n` objects so far: new memory, new
    number, rest of the program.  Access to a freed object is undefined behaviour
    (modelling device; e.g. src/tocfile.c:310-330). -/
def step {α : Type} (t : Nat) (M : Mem) (n : Nat) : Prog α → Res (Mem × Nat × Prog α)
  | .done x => .ok (M, n, .done x)
  | .ub => .ub
  | .getRc a k => match M a with
      | none => .ub
      | some o => .ok (M, n, k o.rc)
  | .setRc a r k => match M a with
      | none => .ub
      | some o => .ok (M.put a (some { o with rc := r }), n, k)
  | .getKids a k => match M a with
      | none => .ub
      | some o => .ok (M, n, k o.kids)
  | .setKids a l k => match M a with
      | none => .ub
      | some o => .ok (M.put a (some { o with kids := l }), n, k)
  | .kindOf a k => .ok (M, n, k ((M a).map (·.kind)))
  | .new kd l k => .ok (M.put (t, n) (some ⟨kd, 1, l⟩), n + 1, k (t, n))
  | .del a k => match M a with
      | none => .ub
      | some _ => .ok (M.put a none, n, k)

/-! ## The functions of the library -/

/-- The same for each element of a vector, e.g. the loop of src/tocfiles.c:210-214. -/
def forP (f : Name → Prog Unit) : List Name → Prog Unit
  | [] => .done ()
  | a :: l => (f a).bind fun _ => forP f l

/-- The same for each element, with results, e.g. the loop of src/tocfiles.c:245-252. -/
def mapP (f : Name → Prog Name) : List Name → Prog (List Name)
  | [] => .done []
  | a :: l => (f a).bind fun b => (mapP f l).bind fun bs => .done (b :: bs)

/-- A value that must be an `int` (signed overflow is undefined), e.g. src/tocfile.c:391. -/
def intP {α : Type} (i : Int) (k : Int → Prog α) : Prog α :=
  match ckInt i with
  | .ub => .ub
  | .ok r => k r

/-- `*_get_new_reference`: `reference_count++` (e.g. src/framerange.c:156-166,
    src/tocfile.c:383-393). -/
def newRefP (a : Name) : Prog Unit :=
  .getRc a fun r => intP (r + 1) fun r' => .setRc a r' (.done ())

/-- `*_free`: `reference_count--`, then the count is read again, and when it says so the
    parts and the object are freed (functions as cited at `Refs.freeObj`, e.g.
    src/tocfile.c:310-330). -/
def freeP : Nat → Name → Prog Unit
  | 0, _ => .ub
  | n + 1, a =>
    .kindOf a fun kd => .getRc a fun r => intP (r - 1) fun r' => .setRc a r'
      (.getRc a fun r2 =>
        if dies (kd.getD .file) r2 then
          .getKids a fun l => (forP (freeP n) l).bind fun _ => .del a (.done ())
        else .done ())

/-- `*_clone` (functions as cited at `Refs.cloneObj`, e.g. src/tocfile.c:344-368). -/
def cloneP : Nat → Name → Prog Name
  | 0, _ => .ub
  | n + 1, a =>
    .kindOf a fun kd => .getKids a fun l => (mapP (cloneP n) l).bind fun l' =>
      .new (kd.getD .file) l' .done

/-- The append at the end of the `add` functions, as `Refs.append`. E.g. src/tocfiles.c:348-375. -/
def appendP (p c : Name) : Prog Unit :=
  .getKids p fun l => .setKids p (l ++ [c]) (.done ())

/-- `add` of a container, as `Refs.add`. E.g. src/tocfiles.c:348-374. -/
def addP (p c : Name) (accepted : Bool) : Prog Unit :=
  .getKids p fun _ => .getKids c fun _ => if accepted then appendP p c else .done ()

/-- The first of the pointers that has type `k`. E.g. `toc_data_file->preview`,
    inc/tocfile.h:50-69. -/
def findP (k : Kind) : List Name → Prog (Option Name)
  | [] => .done none
  | a :: l => .kindOf a fun kd => if kd = some k then .done (some a) else findP k l

/-- The part of type `k`, as `Refs.part`. E.g. `toc_data_file->preview`, inc/tocfile.h:50-69. -/
def partP (p : Name) (k : Kind) : Prog (Option Name) := .getKids p fun l => findP k l

/-- "create the inner container when it is NULL", as `Refs.ensurePart`
    (e.g. src/tocdata.c:727-730). -/
def ensureP (p : Name) (k : Kind) : Prog Name :=
  (partP p k).bind fun r => match r with
    | some m => .done m
    | none => .new k [] fun m => .getKids p fun l => .setKids p (l ++ [m]) (.done m)

/-- `add` through the inner container, as `Refs.addInner` (e.g. src/tocdatareel.c:265-297). -/
def addInnerP (p : Name) (k : Kind) (c : Name) (o : Outcome) : Prog Unit :=
  .getKids p fun _ => .getKids c fun _ => match o with
    | .refused => .done ()
    | .refusedByInner => (ensureP p k).bind fun _ => .done ()
    | .accepted => (ensureP p k).bind fun m => appendP m c

/-- "free the old part if there is one", as `Refs.dropPart` (src/tocfile.c:663-666). -/
def dropPartP (f : Name) (k : Kind) : Prog Unit :=
  (partP f k).bind fun r => match r with
    | none => .done ()
    | some old => .getKids f fun l => .setKids f (l.erase old) (freeP maxDepth old)

/-- `afs_toc_file_set_preview` / `_set_metadata`, as `Refs.setPart`
    (src/tocfile.c:655-670, 683-697). -/
def setPartP (f : Name) (k : Kind) (x : Option Name) : Prog Unit :=
  (dropPartP f k).bind fun _ => match x with
    | none => .done ()
    | some x => (cloneP maxDepth x).bind fun n => appendP f n

/-- The loop of `afs_toc_data_add_preview_layout_definitions`, as `Refs.addClones`
    (src/tocdata.c:834-845). -/
def addClonesP (t : Name) : List Name → List Bool → Prog Unit
  | [], _ => .done ()
  | d :: ds, oks => (cloneP maxDepth d).bind fun c => match oks with
    | true :: oks => (addInnerP t .layoutDefs c .accepted).bind fun _ => addClonesP t ds oks
    | _ => (addInnerP t .layoutDefs c .refusedByInner).bind fun _ => freeP maxDepth c

/-- `afs_toc_data_add_preview_layout_definitions`, as `Refs.addLayouts`
    (src/tocdata.c:810-846). -/
def addLayoutsP (t d : Name) (oks : List Bool) : Prog Unit :=
  .getKids t fun _ => .getKids d fun l =>
    if l.isEmpty then .done () else
      (ensureP t .layoutDefs).bind fun _ => addClonesP t l oks

end Afs.Threads
