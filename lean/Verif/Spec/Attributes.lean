import Verif.Model.Basic
/-!
# The attributes of an element as a map

Calls that set an attribute, copy one to another, or delete one; for each of the three allocations of a call, whether it is refused.
-/
namespace Afs.Spec.Attributes

inductive Call where
  /-- set `name` to a text, or to NULL -/
  | set (value array copy : Bool) (name : Bytes) (text : Option Bytes)
  /-- set `name` to what `mxmlElementGetAttr` answers for `other`, passed as the address it gave -/
  | copy (value array copy : Bool) (name other : Bytes)
  /-- set `name` to a text that is formatted (numbers); two allocations are for the text -/
  | print (small large array copy : Bool) (name text : Bytes)
  | delete (name : Bytes)

/-- What each attribute is: nothing, or a text or NULL. -/
abbrev Map : Type := Bytes → Option (Option Bytes)

/-- Setting succeeds if the attribute is there, or if neither the array nor the copy of the name is refused.  If the copy of the value
    is refused, the value is NULL. -/
def Map.set (f : Map) (value array copy : Bool) (name : Bytes) (text : Option Bytes) : Map :=
  if (f name).isSome = true ∨ (array = false ∧ copy = false) then
    fun n => if n = name then some (if value then none else text) else f n
  else f

/-- The text of a formatted value is made, in a small buffer, or in a large one if it has 256 bytes or more. -/
def printed (small large : Bool) (text : Bytes) : Bool := !small && !(large && decide (256 ≤ text.length))

def Map.step (f : Map) : Call → Map
  | .set v a c n t => f.set v a c n t
  | .copy v a c n o => f.set v a c n ((f o).getD none)
  | .print s l a c n t => if printed s l t then f.set false a c n (some t) else f
  | .delete n => fun m => if m = n then none else f m

/-- After these calls on a new element. -/
def after (cs : List Call) : Map := cs.foldl Map.step fun _ => none

/-- The calls in which the copy of the name is refused, or the large buffer. -/
def Call.refused : Call → Bool
  | .set _ _ c _ _ => c
  | .copy _ _ c _ _ => c
  | .print _ l _ c _ t => c || (l && decide (256 ≤ t.length))
  | .delete _ => false

/-- The length of a formatted text is an `int` (the one of the buffer, with the end mark, too). -/
def Call.fits : Call → Prop
  | .print _ _ _ _ _ t => t.length < 2147483647
  | _ => True

instance (c : Call) : Decidable c.fits := by cases c <;> unfold Call.fits <;> infer_instance

end Afs.Spec.Attributes
