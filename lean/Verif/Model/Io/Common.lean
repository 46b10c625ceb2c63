import Verif.Model.XmlUtils
import Verif.Model.Xml.Parse
import Verif.Model.Xml.Write
/-!
# The frame of the `*_save_file`, `*_save_string`, `*_load_file`, `*_load_string` functions

They differ only in the `*_save_xml` / `*_load_xml` function and the white-space callback they
use (e.g. src/tocfilepreviewpage.c:466-557, 618-686).  A `*_save_xml` function appends one
element to its output node; the model returns that element, `none` standing for DFALSE.
A `*_load_xml` function changes the object it is given; the model returns the new object and
the result.
-/
namespace Afs
open Xml

/-- `*_save_string` where the whole document is written (e.g. src/tocfilepreviewpage.c:526-557):
    `none` is NULL. -/
def docString (cb : SaveCb) (compact : Bool) (x : Option Node) : Option Bytes :=
  match x with
  | none => none
  | some n => saveAllocString (if compact then noCb else cb) [] (Node.newXML.addChild n)

/-- `*_save_string` where only the element is written (`document->child`,
    e.g. src/tocfile.c:1097-1135): the callback sees the declaration as ancestor. -/
def elemString (cb : SaveCb) (compact : Bool) (x : Option Node) : Option Bytes :=
  match x with
  | none => none
  | some n => saveAllocString (if compact then noCb else cb) [xmlDecl] n

/-- `*_save_file`: result and new contents of the file, `none` for an untouched file.  Some of
    these functions build the document before they open the file (`openFirst = false`, e.g.
    src/tocfilepreview.c:593-635), others open it with `w+`, which empties it, before they look at
    the object (`openFirst = true`, e.g. src/tocfile.c:1144-1187).  Opening and writing are
    assumed to succeed. -/
def docFile (openFirst : Bool) (cb : SaveCb) (compact : Bool) (x : Option Node) : Bool × Option Bytes :=
  match x with
  | none => (false, if openFirst then some [] else none)
  | some n => (true, some (saveText (if compact then noCb else cb) [] (Node.newXML.addChild n)))

/-- `*_load_string` (e.g. src/tocfilepreviewpage.c:668-686); `fail` is DFALSE with an unchanged
    object. -/
def loadFromString {β : Type} (load : Node → β) (fail : β) (s : Bytes) : β :=
  if s.length = 0 then fail
  else match Xml.loadString s with
    | none => fail
    | some d => load d

/-- `*_load_file` (e.g. src/tocfilepreviewpage.c:618-653) on a file with contents `s`. -/
def loadFromFile {β : Type} (load : Node → β) (fail : β) (s : Bytes) : β :=
  match Xml.loadFile s with
  | none => fail
  | some d => load d

/-- A callback given by the answers it has for element name, parent name (empty when there is
    none) and position.
    Modelling device: all `whitespace_cb` functions have this shape (e.g. src/tocmetadatasource.c:1024-1063). -/
def cbOf (f : Bytes → Bytes → Ws → Bytes) : SaveCb := fun anc n w => f (n.element.getD []) (anc.head?.getD []) w

end Afs
