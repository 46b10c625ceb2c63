import Verif.Model.Res
import Verif.Model.Xml.Entity
import Verif.Spec.EntityCallbacks
/-!
# The entity callbacks of mini-XML
(thirdparty/minixml/src/mxml-entity.c:30-140)

A function pointer is a number; what the functions return is a parameter.
-/
namespace Afs.Xml.EntityCb
open Afs Spec.EntityCallbacks

/-- `num_entity_cbs` and `entity_cbs` (thirdparty/minixml/src/mxml-private.h:32-33); `none` is NULL. -/
structure Globals where
  num : Nat
  cbs : List (Option Nat)

/-- `_mxml_entity_cb` (thirdparty/minixml/src/mxml-private.c:205). -/
def builtin : Nat := 0

/-- What a thread starts with (thirdparty/minixml/src/mxml-private.c:201-206). -/
def init : Globals := ⟨1, some builtin :: List.replicate 99 none⟩

/-- `_mxml_entity_cb` as an `int` (thirdparty/minixml/src/mxml-entity.c:141-444). -/
def builtinRun (name : Bytes) : Int :=
  match entityValue name with
  | some v => v
  | none => -1

/-- A slot of the array, inside of it (thirdparty/minixml/src/mxml-entity.c:99). -/
def slot (g : Globals) (i : Nat) : Res (Option Nat) :=
  match g.cbs[i]? with
  | some s => .ok s
  | none => .ub

/-- Calling a function pointer, not NULL (thirdparty/minixml/src/mxml-entity.c:99). -/
def callPtr (run : Nat → Bytes → Int) (f : Option Nat) (name : Bytes) : Res Int :=
  match f with
  | some f => .ok (run f name)
  | none => .ub

/-- `mxmlEntityAddCallback` (thirdparty/minixml/src/mxml-entity.c:30-51). -/
def addCallback (g : Globals) (cb : Nat) : Res (Int × Globals) :=
  if g.num < 100 then
    match g.cbs[g.num]? with
    | none => .ub
    | some _ => .ok (0, ⟨g.num + 1, g.cbs.set g.num (some cb)⟩)
  else .ok (-1, g)

/-- The loop of `mxmlEntityGetValue` with `n` turns left (thirdparty/minixml/src/mxml-entity.c:98-102). -/
def valueFrom (run : Nat → Bytes → Int) (g : Globals) (name : Bytes) : Nat → Nat → Res Int
  | 0, _ => .ok (-1)
  | n + 1, i =>
    (slot g i).bind fun f => (callPtr run f name).bind fun ch =>
      if 0 ≤ ch then .ok ch else valueFrom run g name n (i + 1)

/-- `mxmlEntityGetValue` (thirdparty/minixml/src/mxml-entity.c:89-103). -/
def getValue (run : Nat → Bytes → Int) (g : Globals) (name : Bytes) : Res Int := valueFrom run g name g.num 0

/-- `memmove` of `n` slots from `src` to `dst` (thirdparty/minixml/src/mxml-entity.c:129-130). -/
def memmove (cbs : List (Option Nat)) (dst src n : Nat) : Res (List (Option Nat)) :=
  if dst + n ≤ cbs.length ∧ src + n ≤ cbs.length then
    .ok (cbs.take dst ++ (cbs.drop src).take n ++ cbs.drop (dst + n))
  else .ub

/-- The loop of `mxmlEntityRemoveCallback` with `n` turns left (thirdparty/minixml/src/mxml-entity.c:119-133). -/
def removeFrom (g : Globals) (cb : Nat) : Nat → Nat → Res Globals
  | 0, _ => .ok g
  | n + 1, i =>
    (slot g i).bind fun f =>
      if some cb = f then
        if i < g.num - 1 then
          (memmove g.cbs i (i + 1) (g.num - 1 - i)).bind fun cbs => .ok ⟨g.num - 1, cbs⟩
        else .ok ⟨g.num - 1, g.cbs⟩
      else removeFrom g cb n (i + 1)

/-- `mxmlEntityRemoveCallback` (thirdparty/minixml/src/mxml-entity.c:110-134). -/
def removeCallback (g : Globals) (cb : Nat) : Res Globals := removeFrom g cb g.num 0

/-- One call (thirdparty/minixml/src/mxml-entity.c:30-134). -/
def call (run : Nat → Bytes → Int) (g : Globals) : Call → Res (Answer × Globals)
  | .add cb => (addCallback g cb).bind fun (r, g) => .ok (.added r, g)
  | .remove cb => (removeCallback g cb).bind fun g => .ok (.removed, g)
  | .value name => (getValue run g name).bind fun v => .ok (.value v, g)

/-- Several calls (thirdparty/minixml/src/mxml-entity.c:30-134). -/
def calls (run : Nat → Bytes → Int) : Globals → List Call → Res (List Answer)
  | _, [] => .ok []
  | g, c :: cs => (call run g c).bind fun (a, g) => (calls run g cs).bind fun as => .ok (a :: as)

end Afs.Xml.EntityCb
