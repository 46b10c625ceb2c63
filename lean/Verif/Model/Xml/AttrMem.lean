import Verif.Model.Strings
/-!
# The attributes of an element in memory (thirdparty/minixml/src/mxml-attr.c)

An element has a number of attributes and an array of pairs of strings.  Here the array and the strings are blocks of memory as in
Model/Strings.lean; what is in the array is kept beside its address.  The array of an element without attributes is NULL, has been
freed, or is one that was made for an attribute that could not be added.
-/
namespace Afs.AttrMem
open Afs Afs.Strings

/-- `num_attrs` and `attrs` of an element (thirdparty/minixml/inc/mxml.h:114-119), and what is in the array. -/
structure Attrs where
  num : Nat
  array : Option Nat
  entries : List (Nat × Option Nat)

/-- A new element has none: `calloc`, thirdparty/minixml/src/mxml-node.c:799. -/
def empty : Attrs := ⟨0, none, []⟩

/-- Which allocations fail in a call: the copy of the value (thirdparty/minixml/src/mxml-attr.c:166), the array (:278-281), the copy of the name (:293). -/
structure Refused where
  value : Bool
  array : Bool
  name : Bool
deriving DecidableEq, Repr

/-- No allocation fails (modelling device for thirdparty/minixml/src/mxml-attr.c:166-299). -/
def allGranted : Refused := ⟨false, false, false⟩

/-- `attrs[i]`: undefined if the array is not in use or has nothing there. thirdparty/minixml/src/mxml-attr.c:264-267. -/
def entryAt (s : Attrs) (i : Nat) : M (Nat × Option Nat) := fun m =>
  match s.array with
  | none => .ub
  | some a =>
    match m.cells a with
    | none => .ub
    | some _ =>
      match s.entries[i]? with
      | none => .ub
      | some e => .ok (e, m)

/-- The loops that look for a name, from `i` on, `k` entries (thirdparty/minixml/src/mxml-attr.c:59-67, 118-130, 264-267). -/
def search (s : Attrs) (name : Bytes) : Nat → Nat → M (Option Nat)
  | 0, _ => pure none
  | k + 1, i => do
    let e ← entryAt s i
    let t ← read e.1
    if t = name then pure (some i) else search s name k (i + 1)

/-- `mxmlElementGetAttr` (thirdparty/minixml/src/mxml-attr.c:95-141). `name` is not NULL here. -/
def getAttr (s : Attrs) (name : Bytes) : M (Option Nat) := do
  let r ← search s name s.num 0
  match r with
  | none => pure none
  | some i => do
    let e ← entryAt s i
    pure e.2

/-- The array, made larger by one entry: `malloc` if there is no attribute, otherwise `realloc`, which moves it
    (thirdparty/minixml/src/mxml-attr.c:277-281). -/
def grow (s : Attrs) : M Nat := do
  if s.num = 0 then alloc .other
  else do
    free s.array
    alloc .other

/-- `mxml_set_attr` (thirdparty/minixml/src/mxml-attr.c:252-308): whether the value was taken, and the attributes. -/
def putAttr (r : Refused) (s : Attrs) (name : Bytes) (value : Option Nat) : M (Bool × Attrs) := do
  let found ← search s name s.num 0
  match found with
  | some i => do
    let e ← entryAt s i
    free e.2
    pure (true, { s with entries := s.entries.set i (e.1, value) })
  | none =>
    if r.array then pure (false, s)
    else do
      let a ← grow s
      if r.name then pure (false, { s with array := some a })
      else do
        let p ← alloc (.text name)
        pure (true, ⟨s.num + 1, some a, s.entries.take s.num ++ [(p, value)]⟩)

/-- `strdup` of a value, which may be refused (thirdparty/minixml/src/mxml-attr.c:165-168). -/
def dupValue (refused : Bool) (value : Arg) : M (Option Nat) :=
  if refused then pure none else clone value

/-- `mxmlElementSetAttr` (thirdparty/minixml/src/mxml-attr.c:144-172). `name` is not NULL here; `value` may be one of the element's own strings. -/
def setAttr (r : Refused) (s : Attrs) (name : Bytes) (value : Arg) : M Attrs := do
  let v ← dupValue r.value value
  let x ← putAttr r s name v
  if x.1 then pure x.2
  else do
    free v
    pure x.2

/-- Undefined: `size = bytes + 1` overflows (thirdparty/minixml/src/mxml-string.c:462). -/
def tooLong : M (Option Nat) := fun _ => .ub

/-- `_mxml_vstrdupf` (thirdparty/minixml/src/mxml-string.c:424-474) of a format and arguments that give the text `text`: a buffer of 256
    bytes, which is made larger by `realloc` if the text does not fit; `first`, `grow`: whether `malloc` and `realloc` are refused.
    `size = bytes + 1` is undefined if it overflows `int`.  What the small buffer holds of a longer text is left out. -/
def vstrdupf (first grow : Bool) (text : Bytes) : M (Option Nat) := do
  if first then pure none
  else if text.length < 256 then do
    let p ← alloc (.text text)
    pure (some p)
  else if text.length < 2147483647 then do
    let p ← alloc .other
    if grow then pure none
    else do
      free (some p)
      let q ← alloc (.text text)
      pure (some q)
  else tooLong

/-- `mxmlElementSetAttrf` (thirdparty/minixml/src/mxml-attr.c:204-240). Neither `name` nor the format is NULL here. -/
def setAttrf (first grow : Bool) (r : Refused) (s : Attrs) (name text : Bytes) : M Attrs := do
  let v ← vstrdupf first grow text
  if v = none then pure s
  else do
    let x ← putAttr r s name v
    if x.1 then pure x.2
    else do
      free v
      pure x.2

/-- `mxmlElementDeleteAttr` (thirdparty/minixml/src/mxml-attr.c:39-92). `name` is not NULL here. -/
def deleteAttr (s : Attrs) (name : Bytes) : M Attrs := do
  let found ← search s name s.num 0
  match found with
  | none => pure s
  | some i => do
    let e ← entryAt s i
    freeBlock e.1
    free e.2
    if s.num - 1 = 0 then free s.array else pure ()
    pure ⟨s.num - 1, s.array, (s.entries.take s.num).eraseIdx i⟩

/-- The loop that frees the strings, from `i` on, `k` entries (thirdparty/minixml/src/mxml-node.c:738-744). -/
def freeEntries (s : Attrs) : Nat → Nat → M Unit
  | 0, _ => pure ()
  | k + 1, i => do
    let e ← entryAt s i
    freeBlock e.1
    free e.2
    freeEntries s k (i + 1)

/-- What `mxmlDelete` does to the attributes of an element: `mxml_free` (thirdparty/minixml/src/mxml-node.c:736-747). -/
def destroy (s : Attrs) : M Unit := do
  if s.num = 0 then pure ()
  else do
    freeEntries s s.num 0
    free s.array

end Afs.AttrMem
