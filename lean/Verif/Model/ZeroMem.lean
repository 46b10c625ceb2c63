import Verif.Model.ZeroRef

/-!
# The memory of zero reference frames

src/zeroreferenceframe.c with the blocks of memory it allocates and releases.  Unlike all other objects these have no reference count:
a frame owns its mark, and each is released once.
-/

namespace Afs.ZeroMem

/-- The member `zero_reference_mark` of a frame: not set yet, NULL, or an address. inc/zeroreferenceframe.h:34-39. -/
inductive MarkPtr where
  | unset
  | null
  | to (a : Nat)
deriving DecidableEq, Repr

/-- A block of memory: a mark (`none`: its members are not set) or a frame with its mark and its sizes (width, height; `none`: not
    set). inc/zeroreferenceframe.h:24-39. -/
inductive Block where
  | mark (m : Option Mark)
  | frame (mark : MarkPtr) (size : Option (Nat × Nat))
deriving DecidableEq, Repr

/-- The memory in use, by address, and how many times malloc was called. Not from the code. -/
structure Mem where
  at_ : Nat → Option Block
  mallocs : Nat

/-- Nothing in use. Not from the code. -/
def Mem.init : Mem := ⟨fun _ => none, 0⟩

/-- Changes one address. Not from the code. -/
def Mem.put (m : Mem) (a : Nat) (b : Option Block) : Mem := { m with at_ := fun x => if x = a then b else m.at_ x }

/-- An allocator: what the n-th call of malloc answers, an address or NULL. It may give an address again that was released. An address
    in use counts as NULL, so every function is an allocator. malloc (src/zeroreferenceframe.c:102, 210). -/
abbrev Allocator := Nat → (Nat → Option Block) → Option Nat

/-- malloc: the address of a new block, or NULL. src/zeroreferenceframe.c:102, 210. -/
def malloc (env : Allocator) (m : Mem) (b : Block) : Option Nat × Mem :=
  match (env m.mallocs m.at_).filter (fun a => (m.at_ a).isNone) with
  | none => (none, { m with mallocs := m.mallocs + 1 })
  | some a => (some a, { m.put a (some b) with mallocs := m.mallocs + 1 })

/-- free: undefined for an address not in use. src/zeroreferenceframe.c:174, 273. -/
def free (m : Mem) (a : Nat) : Res Mem :=
  match m.at_ a with
  | none => .ub
  | some _ => .ok (m.put a none)

/-- afs_zero_reference_mark_init: returns whether the members were set. src/zeroreferenceframe.c:130-155. -/
def markInit (m : Mem) (p : Option Nat) (width height : Nat) : Res (Bool × Mem) :=
  match p with
  | none => .ok (false, m)
  | some a => do
    match ← Mark.init width height with
    | none => return (false, m)
    | some k =>
      match m.at_ a with
      | some (.mark _) => return (true, m.put a (some (.mark (some k))))
      | _ => .ub

/-- afs_zero_reference_mark_free. src/zeroreferenceframe.c:167-175. -/
def markFree (m : Mem) (p : Option Nat) : Res Mem :=
  match p with
  | none => .ok m
  | some a => free m a

/-- afs_zero_reference_mark_create. src/zeroreferenceframe.c:95-111. -/
def markCreate (env : Allocator) (m : Mem) (width height : Nat) : Res (Option Nat × Mem) :=
  if width = 0 ∨ height = 0 then .ok (none, m)
  else do
    let r := malloc env m (.mark none)
    let i ← markInit r.2 r.1 width height
    if i.1 then return (r.1, i.2)
    else do
      let m ← markFree i.2 r.1
      return (none, m)

/-- afs_zero_reference_frame_init: the old mark of the frame is not released. src/zeroreferenceframe.c:233-254. -/
def frameInit (env : Allocator) (m : Mem) (p : Option Nat) (width height : Nat) : Res (Bool × Mem) :=
  match p with
  | none => .ok (false, m)
  | some a =>
    if width = 0 ∨ height = 0 then .ok (false, m)
    else do
      let r ← markCreate env m width height
      match r.1 with
      | none => return (false, r.2)
      | some k =>
        match r.2.at_ a with
        | some (.frame _ _) => return (true, r.2.put a (some (.frame (.to k) (some (width, height)))))
        | _ => .ub

/-- afs_zero_reference_frame_free. src/zeroreferenceframe.c:262-274. -/
def frameFree (m : Mem) (p : Option Nat) : Res Mem :=
  match p with
  | none => .ok m
  | some a =>
    match m.at_ a with
    | some (.frame .null _) => free m a
    | some (.frame (.to k) _) => do
      let m ← markFree m (some k)
      free m a
    | _ => .ub

/-- afs_zero_reference_frame_create: a NULL from malloc is not looked at. src/zeroreferenceframe.c:203-220. -/
def frameCreate (env : Allocator) (m : Mem) (width height : Nat) : Res (Option Nat × Mem) :=
  if width = 0 ∨ height = 0 then .ok (none, m)
  else
    let r := malloc env m (.frame .unset none)
    match r.1 with
    | none => .ub
    | some a => do
      let m := r.2.put a (some (.frame .null none))
      let i ← frameInit env m (some a) width height
      if i.1 then return (some a, i.2)
      else do
        let m ← frameFree i.2 (some a)
        return (none, m)

/-- afs_zero_reference_frame_create_image reads the frame and its mark; `fresh` is the memory of the new image, or `none` for NULL.
    The image itself is in `ZeroFrame.createImage`. src/zeroreferenceframe.c:290-322. -/
def image (m : Mem) (p : Option Nat) (fresh : Nat → Nat → Option Bytes) : Res (Option Image) :=
  match p with
  | none => .ok none
  | some a =>
    match m.at_ a with
    | some (.frame .null (some s)) => ZeroFrame.createImage ⟨none, s.2, s.1⟩ (fresh s.1 s.2)
    | some (.frame (.to k) (some s)) =>
      match fresh s.1 s.2, m.at_ k with
      | none, _ => .ok none
      | some d, some (.mark (some q)) => ZeroFrame.createImage ⟨some q, s.2, s.1⟩ (some d)
      | some _, _ => .ub
    | _ => .ub

/-- Calls on numbered pointers; pointers get their numbers in the order in which they are made. `newMark` and `newFrame` are blocks the
    caller made without setting their members. src/zeroreferenceframe.c:95-322. -/
inductive Call where
  | newMark
  | newFrame
  | markCreate (width height : Nat)
  | markInit (i width height : Nat)
  | markFree (i : Nat)
  | frameCreate (width height : Nat)
  | frameInit (i width height : Nat)
  | frameFree (i : Nat)
  | image (i : Nat) (fresh : Nat → Nat → Option Bytes)

/-- The pointers of the caller and the memory. Not from the code. -/
structure World where
  vars : List (Option Nat)
  mem : Mem

/-- A pointer of the caller; a number without a pointer stands for NULL. Not from the code. -/
def World.var (w : World) (i : Nat) : Option Nat := (w.vars[i]?).join

/-- One call. src/zeroreferenceframe.c:95-322. -/
def call (env : Allocator) (w : World) : Call → Res World
  | .newMark =>
    let r := malloc env w.mem (.mark none)
    .ok ⟨w.vars ++ [r.1], r.2⟩
  | .newFrame =>
    let r := malloc env w.mem (.frame .unset none)
    .ok ⟨w.vars ++ [r.1], r.2⟩
  | .markCreate x y => do
    let r ← markCreate env w.mem x y
    return ⟨w.vars ++ [r.1], r.2⟩
  | .markInit i x y => do
    let r ← markInit w.mem (w.var i) x y
    return { w with mem := r.2 }
  | .markFree i => do
    let m ← markFree w.mem (w.var i)
    return { w with mem := m }
  | .frameCreate x y => do
    let r ← frameCreate env w.mem x y
    return ⟨w.vars ++ [r.1], r.2⟩
  | .frameInit i x y => do
    let r ← frameInit env w.mem (w.var i) x y
    return { w with mem := r.2 }
  | .frameFree i => do
    let m ← frameFree w.mem (w.var i)
    return { w with mem := m }
  | .image i fresh => do
    let _ ← image w.mem (w.var i) fresh
    return w

/-- Calls one after the other. Not from the code. -/
def calls (env : Allocator) (w : World) : List Call → Res World
  | [] => .ok w
  | c :: cs => do
    let w ← call env w c
    calls env w cs

end Afs.ZeroMem
