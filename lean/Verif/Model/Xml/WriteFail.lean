import Verif.Model.Xml.Write
import Verif.Model.Io.Common
/-!
# Writing to a file that may fail

`mxml_file_putc` (thirdparty/minixml/src/mxml-file.c:1311-1316) is −1 when `putc` fails.  Here every
call of `putc` may fail or not; `ok i` says whether call number `i` gets through.  What the
writer does then follows the code call by call: most functions return −1 at once, but
`mxml_write_ws` returns −1 as if it were a column, and nobody looks at it (2744, 2821, 2835, 2848, 2974, 2987).
Line numbers are of thirdparty/minixml/src/mxml-file.c.
-/
namespace Afs.Xml
open Afs

/-- The file: what got through, and how often `putc` was called. mxml-file.c:1311-1316. -/
structure Out where
  file : Bytes
  calls : Nat
deriving DecidableEq

/-- Code that writes: new file, and `none` where the C function returns −1.
    Modelling device for mxml-file.c:2640-3073. -/
def W (α : Type) : Type := Out → Out × Option α

/-- Nothing written. Modelling device for mxml-file.c:2640-3073. -/
def W.pure {α : Type} (a : α) : W α := fun o => (o, some a)

/-- One after the other, with `if (… < 0) return (-1);` in between.
    Modelling device for mxml-file.c:2640-3073. -/
def W.bind {α β : Type} (m : W α) (f : α → W β) : W β := fun o =>
  match m o with
  | (o, none) => (o, none)
  | (o, some a) => f a o

instance : Monad W where
  pure := W.pure
  bind := W.bind

variable (ok : Nat → Bool)

/-- `mxml_file_putc` (1311-1316). -/
def wPutc (c : UInt8) : W Unit := fun o =>
  if ok o.calls then (⟨o.file ++ [c], o.calls + 1⟩, some ()) else (⟨o.file, o.calls + 1⟩, none)

/-- A C string without change (2698-2704, 2757-2761, 2668-2674). -/
def wBytes : Bytes → W Unit
  | [] => pure ()
  | c :: s => do wPutc ok c; wBytes s

/-- An entity: `&`, its name, `;` (2665-2677, 3014-3025). -/
def wEntity (n : Bytes) : W Unit := do
  wPutc ok 38
  wBytes ok n
  wPutc ok 59

/-- `mxml_write_string` (3001-3034). -/
def wString : Bytes → W Unit
  | [] => pure ()
  | c :: s => do
    match entityName c with
    | some n => wEntity ok n
    | none => wPutc ok c
    wString s

/-- The part of a quoted name up to the closing quote (2661-2683). -/
def wQuoted (q : UInt8) : Bytes → W Unit
  | [] => pure ()
  | c :: s =>
    if c = q then pure ()
    else do
      match entityName c with
      | some n => wEntity ok n
      | none => wPutc ok c
      wQuoted q s

/-- `mxml_write_name` (2640-2708). -/
def wName : Bytes → W Unit
  | [] => pure ()
  | q :: s =>
    if q = 34 ∨ q = 39 then do
      wPutc ok q
      wQuoted ok q s
      wPutc ok q
    else wBytes ok (q :: s)

/-- `mxml_write_ws` (3041-3073): the new column, or −1 when `putc` fails - as a value. -/
def wWs : Bytes → Int → W Int
  | [], col => pure col
  | c :: s, col => fun o =>
    match wPutc ok c o with
    | (o, none) => (o, some (-1))
    | (o, some _) => wWs s (if c = 10 then 0 else if c = 9 then (col + 8) - (col + 8).tmod 8 else col + 1) o

/-- The attributes of an element (2768-2808) without wrapping (`mxmlSetWrapMargin(0)`). -/
def wAttrs : List (Bytes × Option Bytes) → Int → W Int
  | [], col => pure col
  | (n, v) :: as, col => do
    wPutc ok 32
    wName ok n
    match v with
    | none => pure ()
    | some v => do
      wPutc ok 61
      wPutc ok 34
      wString ok v
      wPutc ok 34
    wAttrs as (col + 1 + n.length + (match v with | none => 0 | some v => v.length + 3))

/-- The name in an open tag (2748-2764). -/
def wOpenName (n : Bytes) : W Unit :=
  if n.head? = some 63 ∨ n.take 3 = b! "!--" ∨ n.take 8 = Node.cdataOpen then wBytes ok n else wName ok n

/-- White space, `<`, name and attributes (2744-2808). -/
def wOpen (ws : Bytes) (n : Bytes) (attrs : List (Bytes × Option Bytes)) (col : Int) : W Int := do
  let col ← wWs ok ws col
  wPutc ok 60
  wOpenName ok n
  wAttrs ok attrs (col + n.length + 1)

/-- The close tag (2971-2988). -/
def wClose (ws1 ws2 : Bytes) (n : Bytes) (col : Int) : W Int := do
  let col ← wWs ok ws1 col
  wPutc ok 60
  wPutc ok 47
  wString ok n
  wPutc ok 62
  wWs ok ws2 (col + n.length + 3)

mutual
/-- `mxml_write_node` (2715-2994) for a start node without siblings: the column. -/
def wNode (cb : SaveCb) (anc : List Bytes) : Node → Int → W Int
  | .text s, col => do
    wString ok s
    pure (col + s.length)
  | .elem n attrs [], col => do
    let col ← wOpen ok (cb anc (.elem n attrs []) .beforeOpen) n attrs col
    wBytes ok (if isDirective n then [62] else [32, 47, 62])
    wWs ok (cb anc (.elem n attrs []) .afterOpen) (col + (if isDirective n then 1 else 3))
  | .elem n attrs (c :: cs), col => do
    let col ← wOpen ok (cb anc (.elem n attrs (c :: cs)) .beforeOpen) n attrs col
    wPutc ok 62
    let col ← wWs ok (cb anc (.elem n attrs (c :: cs)) .afterOpen) (col + 1)
    let col ← wNodes cb (n :: anc) (c :: cs) col
    if isDirective n then pure col
    else wClose ok (cb anc (.elem n attrs (c :: cs)) .beforeClose) (cb anc (.elem n attrs (c :: cs)) .afterClose) n col
/-- The children one after the other (2715-2994). -/
def wNodes (cb : SaveCb) (anc : List Bytes) : List Node → Int → W Int
  | [], col => pure col
  | c :: cs, col => do
    let col ← wNode cb anc c col
    wNodes cb anc cs col
end

/-- `mxmlSaveFile` (322-348) on a file just opened with `w+`: whether it returns 0, and the file. -/
def saveFileOn (cb : SaveCb) (n : Node) : Bool × Bytes :=
  match wNode ok cb [] n 0 ⟨[], 0⟩ with
  | (o, none) => (false, o.file)
  | (o, some col) =>
    if col < 0 then (false, o.file)
    else if col > 0 then
      match wPutc ok 10 o with
      | (o, none) => (false, o.file)
      | (o, some _) => (true, o.file)
    else (true, o.file)

end Afs.Xml

namespace Afs
open Xml

/-- `*_save_file` (e.g. src/tocdata.c:1165-1208, src/tocfiles.c:712-754) with a file that can or cannot be opened, of which the
    contents are `old` before (`none`: there is no file), when writing may fail: the result and the contents afterwards.  The results of
    `mxmlSaveFile` and `fclose` are not looked at. -/
def docFileOn (canOpen : Bool) (ok : Nat → Bool) (openFirst : Bool) (cb : SaveCb) (compact : Bool) (x : Option Node) (old : Option Bytes) :
    Bool × Option Bytes :=
  match x with
  | none => (false, if openFirst && canOpen then some [] else old)
  | some n => if canOpen then (true, some (saveFileOn ok (if compact then noCb else cb) (Node.newXML.addChild n)).2) else (false, old)

end Afs
