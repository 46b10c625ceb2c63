import Verif.Model.Basic
/-!
# What saving, loading and checking leave behind

The kinds of objects that can be saved and loaded; one call; and how many XML documents the call leaves in memory that nobody can
reach any more.  Files that stay open do not occur.
-/
namespace Afs.Spec.Held

inductive Kind where
  | section | sections | layout | layouts | page | preview | metaSource | metadata | fileMetaSource | fileMetadata | file | files
  | reel | reels | toc | admin | format | technical | control
deriving DecidableEq, Repr

/-- `args`: the arguments pass the tests at the start of the function (they are not NULL, and the object is valid where that is asked
    for).  `text`: what saving the object gives, `none` if it cannot be saved.  `document`: what the text that is loaded is read as,
    if it is a well-formed document, and then whether the object loads from it. -/
inductive Call where
  | saveFile (kind : Kind) (args canOpen : Bool) (text : Option Bytes)
  | saveString (kind : Kind) (args : Bool) (text : Option Bytes)
  | loadFile (kind : Kind) (args canOpen : Bool) (document : Option Bool)
  | loadString (kind : Kind) (args : Bool) (document : Option Bool)
  | checksum (args canOpen : Bool) (sum : Option Bytes)

/-- Saving these to a file that cannot be opened leaves nothing. -/
def careful : Kind → Bool
  | .sections | .technical | .fileMetaSource => true
  | _ => false

/-- These open the file before they look whether the object can be saved. -/
def opensEarly : Kind → Bool
  | .layout | .fileMetadata | .reels | .preview | .files | .metadata | .control => false
  | _ => true

/-- The documents a call leaves. -/
def lost : Call → Nat
  | .saveFile k args canOpen text =>
    if args && !canOpen && !careful k && (text.isSome || opensEarly k) then 1 else 0
  | .saveString k args text => if args && text.isNone && (k == .page || k == .format) then 1 else 0
  | .loadFile _ _ _ _ => 0
  | .loadString k args document => if args && document == some false && k != .format then 1 else 0
  | .checksum _ _ _ => 0

/-- What the call answers (a text, or whether it succeeded) does not depend on any of this. -/
inductive Answer where
  | done (b : Bool)
  | text (s : Option Bytes)
deriving DecidableEq, Repr

def answer : Call → Answer
  | .saveFile _ args canOpen text => .done (args && canOpen && text.isSome)
  | .saveString _ args text => .text (if args then text else none)
  | .loadFile _ args canOpen document => .done (args && canOpen && document == some true)
  | .loadString _ args document => .done (args && document == some true)
  | .checksum args canOpen sum => .text (if args && canOpen then sum else none)

end Afs.Spec.Held
