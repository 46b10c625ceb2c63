import Verif.Model.Xml.Write
import Verif.Model.Io.Common
/-!
# The XML writer with the wrap margin (thirdparty/minixml/src/mxml-file.c:2718-2820, 580-587)

`global->wrap` is a variable all users of mini-XML share (mxml-private.c:301-314: without threads in
config.h there is one for the whole program).  The writer reads it before each attribute; here each of these
reads gets its own value, so that anybody may set the margin while a document is written.
-/
namespace Afs.Xml
open Afs

/-- What the two reads of `global->wrap` in `global->wrap > 0 && (col + width) > global->wrap` give at the `k`-th
    attribute that is written (mxml-file.c:2777). -/
abbrev Margins := Nat → Int × Int

/-- The test of line 2777. -/
def breaksLine (m : Int × Int) (col : Nat) : Bool := decide (m.1 > 0) && decide ((col : Int) > m.2)

/-- `width` (mxml-file.c:2772-2775). -/
def widthOf (a : Bytes × Option Bytes) : Nat := a.1.length + (match a.2 with | none => 0 | some v => v.length + 3)

/-- The attributes (mxml-file.c:2768-2808).  The state is the column and the number of attributes written so far;
    `col` is a natural number here, as in `colNode`. -/
def wrapAttrs (m : Margins) : List (Bytes × Option Bytes) → Nat × Nat → Bytes × (Nat × Nat)
  | [], s => ([], s)
  | a :: as, s =>
    let r := wrapAttrs m as ((if breaksLine (m s.2) (s.1 + widthOf a) then 0 else s.1 + 1) + widthOf a, s.2 + 1)
    ((if breaksLine (m s.2) (s.1 + widthOf a) then 10 else 32) :: writeName a.1 ++
      (match a.2 with
        | none => []
        | some v => [61, 34] ++ writeString v ++ [34]) ++ r.1, r.2)

mutual
/-- `mxml_write_node` (mxml-file.c:2718-3000): the text, and the state afterwards. -/
def wrapNode (m : Margins) (cb : SaveCb) (anc : List Bytes) : Node → Nat × Nat → Bytes × (Nat × Nat)
  | .text s, st => (writeString s, (st.1 + s.length, st.2))
  | .elem n attrs [], st =>
    let a := wrapAttrs m attrs (colWs st.1 (cb anc (.elem n attrs []) .beforeOpen) + n.length + 1, st.2)
    (cb anc (.elem n attrs []) .beforeOpen ++ [60] ++ writeOpenName n ++ a.1 ++
      (if isDirective n then [62] else [32, 47, 62]) ++ cb anc (.elem n attrs []) .afterOpen,
     (colWs (a.2.1 + (if isDirective n then 1 else 3)) (cb anc (.elem n attrs []) .afterOpen), a.2.2))
  | .elem n attrs (c :: cs), st =>
    let a := wrapAttrs m attrs (colWs st.1 (cb anc (.elem n attrs (c :: cs)) .beforeOpen) + n.length + 1, st.2)
    let b := wrapNodes m cb (n :: anc) (c :: cs) (colWs (a.2.1 + 1) (cb anc (.elem n attrs (c :: cs)) .afterOpen), a.2.2)
    (cb anc (.elem n attrs (c :: cs)) .beforeOpen ++ [60] ++ writeOpenName n ++ a.1 ++ [62] ++
      cb anc (.elem n attrs (c :: cs)) .afterOpen ++ b.1 ++
      (if isDirective n then []
       else cb anc (.elem n attrs (c :: cs)) .beforeClose ++ [60, 47] ++ writeString n ++ [62] ++ cb anc (.elem n attrs (c :: cs)) .afterClose),
     (if isDirective n then b.2.1
      else colWs (colWs b.2.1 (cb anc (.elem n attrs (c :: cs)) .beforeClose) + n.length + 3) (cb anc (.elem n attrs (c :: cs)) .afterClose),
      b.2.2))
/-- The children one after the other. mxml-file.c:2960-3000. -/
def wrapNodes (m : Margins) (cb : SaveCb) (anc : List Bytes) : List Node → Nat × Nat → Bytes × (Nat × Nat)
  | [], st => ([], st)
  | c :: cs, st =>
    let a := wrapNode m cb anc c st
    let b := wrapNodes m cb anc cs a.2
    (a.1 ++ b.1, b.2)
end

/-- The whole text, `k` attributes having been written before (mxml-file.c:303-318, 380-400), and how many have been
    written after it. -/
def wrapText (m : Margins) (k : Nat) (cb : SaveCb) (anc : List Bytes) (n : Node) : Bytes × Nat :=
  let r := wrapNode m cb anc n (0, k)
  (r.1 ++ (if r.2.1 > 0 then [10] else []), r.2.2)

/-- `mxmlSaveString` (mxml-file.c:345-404) of that text. -/
def wrapBuf (text : Bytes) (bufsize : Nat) : Bytes × Nat :=
  let b := text.foldl StrBuf.putc ⟨[], bufsize, 0⟩
  (if b.stored.length = b.size then b.stored.take (bufsize - 1) else b.stored, b.count)

/-- `mxmlSaveAllocString` (mxml-file.c:213-262): written into a buffer of 8192 bytes, and written once more if it does not fit;
    the second time the margins may be others. -/
def wrapAlloc (m : Margins) (cb : SaveCb) (anc : List Bytes) (n : Node) : Option Bytes :=
  let t := wrapText m 0 cb anc n
  let a := wrapBuf t.1 8192
  if a.2 = 0 then none
  else if a.2 < 8191 then some a.1
  else
    let b := wrapBuf (wrapText m t.2 cb anc n).1 (a.2 + 1)
    if b.2 ≠ a.2 then none else some b.1

/-- An access to `global->wrap` by a thread: `mxmlSetWrapMargin` (mxml-file.c:580-587) or a read by the writer (2777). -/
inductive Access where
  | set (v : Int)
  | read
deriving DecidableEq

/-- What each read gives, in an interleaving of the accesses of all threads (thread and access) from the
    margin `w` on: the value of the last set. mxml-file.c:586, 2777. -/
def readValues (w : Int) : List (Nat × Access) → List (Nat × Int)
  | [] => []
  | (_, .set v) :: l => readValues v l
  | (t, .read) :: l => (t, w) :: readValues w l

end Afs.Xml

namespace Afs
open Xml

/-- `afs_*_save_string` with such margins, of the document: src/tocdata.c:1223-1254 and the others like it. -/
def docStringW (m : Margins) (cb : SaveCb) (compact : Bool) (x : Option Node) : Option Bytes :=
  match x with
  | none => none
  | some n => wrapAlloc m (if compact then noCb else cb) [] (Node.newXML.addChild n)

/-- The same of the element alone (`document->child`): src/tocfile.c:1097-1128 and the others like it. -/
def elemStringW (m : Margins) (cb : SaveCb) (compact : Bool) (x : Option Node) : Option Bytes :=
  match x with
  | none => none
  | some n => wrapAlloc m (if compact then noCb else cb) [xmlDecl] n

/-- `afs_*_save_file` with such margins, on a disk that takes everything: src/tocfile.c:1144-1187 and the others like it. -/
def docFileW (m : Margins) (openFirst : Bool) (cb : SaveCb) (compact : Bool) (x : Option Node) : Bool × Option Bytes :=
  match x with
  | none => (false, if openFirst then some [] else none)
  | some n => (true, some (wrapText m 0 (if compact then noCb else cb) [] (Node.newXML.addChild n)).1)

end Afs
