import Verif.Model.Xml.Node
import Verif.Model.Xml.Utf8
import Verif.Model.Xml.Entity
/-!
# The XML reader: `mxml_load_data`, `mxml_parse_element`, `mxml_get_entity`
(thirdparty/minixml/src/mxml-file.c:1323-2358)

The C code is a set of nested loops around `getc` calls.  It is modelled as the automaton it
is: one control state (`PC`) per `getc` call site, holding the local variables alive there, and
a step function that runs the code from one `getc` to the next.  The load callback is always
`MXML_OPAQUE_CALLBACK`, there is no SAX callback and no `top` node; `buffer` is the list of
bytes between `buffer` and `bufptr`.
-/
namespace Afs.Xml
open Afs

/-- An element whose attributes are being read: name and attributes so far.
    mxml-file.c:2098-2358. -/
abbrev Head := Bytes × List (Bytes × Option Bytes)

/-- Control states, one per `getc` call site. mxml-file.c:1337-2324. -/
inductive PC where
  /-- main loop (1440) -/
  | main (buf : Bytes)
  /-- element name loop (1569) -/
  | name (buf : Bytes)
  /-- comment loop (1602) -/
  | comment (buf : Bytes)
  /-- CDATA loop (1671) -/
  | cdata (buf : Bytes)
  /-- processing instruction loop (1739) -/
  | pi (buf : Bytes)
  /-- declaration loop (1833) -/
  | decl (buf : Bytes)
  /-- rest of a close tag (1923) -/
  | close
  /-- after `<name/` (1978) -/
  | slash (n : Bytes)
  /-- attribute loop (2138) -/
  | attr (e : Head)
  /-- after `/` or `?` between attributes (2161) -/
  | attrSlash (e : Head) (ch : Nat)
  /-- quoted attribute name (2195) -/
  | qname (e : Head) (q : Nat) (an : Bytes)
  /-- attribute name (2214) -/
  | aname (e : Head) (an : Bytes)
  /-- spaces before `=` (2235) -/
  | aeq (e : Head) (an : Bytes)
  /-- spaces after `=` (2243) -/
  | vskip (e : Head) (an : Bytes)
  /-- quoted attribute value (2261) -/
  | qval (e : Head) (an : Bytes) (q : Nat) (av : Bytes)
  /-- unquoted attribute value (2285) -/
  | uval (e : Head) (an : Bytes) (av : Bytes)
  /-- after `/` or `?` directly behind a value (2324) -/
  | valSlash (e : Head) (ch : Nat)
  /-- inside `mxml_get_entity` (1337), to return to state `k` -/
  | ent (k : PC) (acc : Bytes)
  /-- the function has returned -/
  | done (r : Option Node)
deriving Repr, BEq

/-- The C string in a buffer: the bytes before the first NUL. mxml-file.c:1385-2358. -/
def cstr (b : Bytes) : Bytes := b.takeWhile (· != 0)

/-- An open element: name, attributes and its children so far, last one first.
    mxml-file.c:1385-2090. -/
structure Frame where
  name : Bytes
  attrs : List (Bytes × Option Bytes)
  rev : List Node
deriving Repr, BEq

/-- The element a frame stands for. mxml-file.c:1385-2090. -/
def Frame.node (f : Frame) : Node := .elem f.name f.attrs f.rev.reverse

/-- Parser state: control state, `parent` and its ancestors (innermost first), the finished
    root (`first` while `parent` is NULL) and whether `type` is `MXML_OPAQUE` (else
    `MXML_IGNORE`). mxml-file.c:1385-1440. -/
structure PS where
  pc : PC
  stack : List Frame
  root : Option Node
  opq : Bool
deriving Repr, BEq

namespace PS

/-- Initial state (1426-1438). -/
def init : PS := ⟨.main [], [], none, false⟩

/-- `goto error` (2083-2089). -/
def error (s : PS) : PS := { s with pc := .done none }

/-- After the main loop (2055-2077): an open element is accepted only if it is the root. -/
def finish (s : PS) : PS :=
  match s.stack with
  | [] => { s with pc := .done s.root }
  | [f] => { s with pc := .done (some f.node) }
  | _ :: _ :: _ => s.error

/-- Adding a finished node to `parent`, or making it `first` when there is none
    (1529-1530, 1643-1663, 1711-1731; mxmlNew…(parent, …)). -/
def addNode (s : PS) (n : Node) : PS :=
  match s.stack with
  | [] =>
    match s.root with
    | none => { s with root := some n }
    | some _ => s
  | f :: fs => { s with stack := { f with rev := n :: f.rev } :: fs }

/-- Making a new element `parent` (1804, 1892, 2004). -/
def push (s : PS) (e : Head) : PS :=
  { s with stack := ⟨e.1, e.2, []⟩ :: s.stack, opq := true }

/-- The flush of pending text (1442-1531). -/
def flush (s : PS) (buf : Bytes) : PS :=
  if buf = [] then s else if s.opq then s.addNode (.text buf) else s

/-- `!parent && first` (1632, 1700, 1767, 1855, 1949): would be a second root. -/
def secondRoot (s : PS) : Bool := s.stack.isEmpty && s.root.isSome

/-- The end of an element start tag (1992-2020); `ch` is what the attribute loop returned. -/
def afterHead (s : PS) (e : Head) (ch : Nat) : PS :=
  if ch = 47 then { s.addNode (.elem e.1 e.2 []) with pc := .main [] }
  else { s.push e with pc := .main [] }

/-- A comment or CDATA section is complete (1632-1663, 1700-1731). -/
def addSpecial (s : PS) (buf : Bytes) : PS :=
  if s.secondRoot then s.error
  else { s.addNode (.elem buf [] []) with pc := .main [] }

/-- A processing instruction or declaration is complete (1767-1811, 1855-1899): without
    `parent` it becomes the parent of everything that follows. -/
def addDirective (s : PS) (buf : Bytes) : PS :=
  if s.secondRoot then s.error
  else if s.stack.isEmpty then { s.push (buf, []) with pc := .main [] }
  else { s.addNode (.elem buf [] []) with pc := .main [] }

/-- A close tag is complete (1925-1942): `parent = parent->parent`. -/
def pop (s : PS) : PS :=
  match s.stack with
  | [] => s.error
  | [f] => { s with stack := [], root := some f.node, pc := .main [] }
  | f :: g :: fs =>
    { s with stack := { g with rev := f.node :: g.rev } :: fs, opq := true, pc := .main [] }

/-- One pass of the declaration loop body (1821-1831) with `ch` already read.  At `EOF` the
    C code appends the byte `(char)EOF`. -/
def declBody (s : PS) (buf : Bytes) (ch : Option Nat) : PS :=
  match ch with
  | none => { s with pc := .decl (buf ++ [255]) }
  | some c =>
    if c = 62 then s.addDirective buf
    else if c = 38 then { s with pc := .ent (.decl buf) [] }
    else { s with pc := .decl (buf ++ addChar c) }

/-- The `close` loop (1922-1925): `ch` already read. -/
def closeBody (s : PS) (ch : Option Nat) : PS :=
  match ch with
  | none => s.pop
  | some c => if c = 62 then s.pop else { s with pc := .close }

/-- What follows the element name loop (1594-1987); `ch` is the character that ended it,
    `none` at `EOF`. -/
def afterName (s : PS) (buf : Bytes) (ch : Option Nat) : PS :=
  if buf = b! "!--" then { s with pc := .comment buf }
  else if buf = Node.cdataOpen then { s with pc := .cdata buf }
  else if buf.head? = some 63 then { s with pc := .pi buf }
  else if buf.head? = some 33 then s.declBody buf ch
  else if buf.head? = some 47 then
    match s.stack with
    | [] => s.error
    | f :: _ => if buf.drop 1 = f.name then s.closeBody ch else s.error
  else if s.secondRoot then s.error
  else
    match ch with
    | none => (s.addNode (.elem buf [] [])).finish
    | some c =>
      if isSpace c then { s with pc := .attr (buf, []) }
      else if c = 47 then { s with pc := .slash buf }
      else s.afterHead (buf, []) c

/-- After an attribute name (2229-2241): duplicate check, then spaces and `=`.  The name is
    a C string: it ends at the first NUL, which the conversion of the first character to
    `char` (2184: `name[0] = ch`) may have put there. -/
def afterAttrName (s : PS) (e : Head) (an : Bytes) (ch : Option Nat) : PS :=
  let an := cstr an
  if (Node.findAttr an e.2).isSome then s.error
  else
    match ch with
    | none => s.error
    | some c =>
      if isSpace c then { s with pc := .aeq e an }
      else if c = 61 then { s with pc := .vskip e an }
      else s.error

/-- After an attribute value (2305-2336).  The value is a C string as well (2282:
    `value[0] = ch`). -/
def afterValue (s : PS) (e : Head) (an av : Bytes) (ch : Option Nat) : PS :=
  let e' : Head := (e.1, Node.setAttrList an (some (cstr av)) e.2)
  match ch with
  | none => { s with pc := .attr e' }
  | some c =>
    if c = 47 ∨ c = 63 then { s with pc := .valSlash e' c }
    else if c = 62 then s.afterHead e' c
    else { s with pc := .attr e' }

end PS

/-- Value of a digit in base 10 or 16, as `strtol` sees it. -/
def digitVal (c : UInt8) : Nat :=
  if 48 ≤ c.toNat ∧ c.toNat ≤ 57 then c.toNat - 48
  else if 97 ≤ c.toNat ∧ c.toNat ≤ 122 then c.toNat - 87
  else if 65 ≤ c.toNat ∧ c.toNat ≤ 90 then c.toNat - 55
  else 255

/-- The digits `strtol` accepts, accumulated. glibc; call in mxml-file.c:1360-1370. -/
def digitsLoop (base : Nat) : Bytes → Nat → Nat
  | [], acc => acc
  | c :: cs, acc => if digitVal c < base then digitsLoop base cs (acc * base + digitVal c) else acc

/-- `strtol(s, NULL, 16)` on a string of letters, digits and `#` (optional `0x`). -/
def strtol16 (s : Bytes) : Nat :=
  match s with
  | 48 :: x :: d :: rest =>
    if (x = 120 ∨ x = 88) ∧ digitVal d < 16 then digitsLoop 16 (d :: rest) 0
    else digitsLoop 16 s 0
  | _ => digitsLoop 16 s 0

/-- The tail of `mxml_get_entity` (1358-1376) for a complete entity: the character, or `none`
    for `EOF`.  `strtol` saturates at `LONG_MAX` and the result is converted to `int`. -/
def entityChar (acc : Bytes) : Option Nat :=
  let ch : Int :=
    match acc with
    | 35 :: 120 :: rest => intOfU (min (strtol16 rest) 9223372036854775807)
    | 35 :: rest => intOfU (min (digitsLoop 10 rest 0) 9223372036854775807)
    | _ => match entityValue acc with
      | none => -1
      | some v => v
  if badChar ch then none else some ch.toNat

/-- `isalnum(ch) || ch == '#'` for `ch <= 126` (1338). -/
def isEntChar (ch : Nat) : Bool :=
  (48 ≤ ch && ch ≤ 57) || (65 ≤ ch && ch ≤ 90) || (97 ≤ ch && ch ≤ 122) || ch == 35

/-- Return of `mxml_get_entity` to its call site (1582, 1829, 2201-2205, 2224, 2270, 2294, 2031). -/
def resume (s : PS) (k : PC) (ch : Nat) : PS :=
  match k with
  | .main buf => { s with pc := .main (buf ++ addChar ch) }
  | .name buf => { s with pc := .name (buf ++ addChar ch) }
  | .decl buf => { s with pc := .decl (buf ++ addChar ch) }
  | .qname e q an =>
    if ch = q then s.afterAttrName e (an ++ addChar ch) (some ch)
    else { s with pc := .qname e q (an ++ addChar ch) }
  | .aname e an => { s with pc := .aname e (an ++ addChar ch) }
  | .qval e an q av => { s with pc := .qval e an q (av ++ addChar ch) }
  | .uval e an av => { s with pc := .uval e an (av ++ addChar ch) }
  | _ => s.error

/-- The code between one `getc` result and the next `getc` call.
    mxml-file.c:1440-2045, 2098-2358. -/
def step (s : PS) (ch : Option Nat) : PS :=
  match s.pc, ch with
  | .done r, _ => { s with pc := .done r }
  -- main loop: 1440-2043
  | .main _, none => s.finish
  | .main buf, some c =>
    if c = 60 then { s.flush buf with pc := .name [] }
    else
      let flushed := isSpace c && !s.opq && !buf.isEmpty
      let s1 := if flushed then s.flush buf else s
      let buf1 := if flushed then [] else buf
      if c = 38 then { s1 with pc := .ent (.main buf1) [] }
      else if s.opq || !isSpace c then { s1 with pc := .main (buf1 ++ addChar c) }
      else { s1 with pc := .main buf1 }
  -- element name: 1569-1592
  | .name buf, none => s.afterName buf none
  | .name buf, some c =>
    if isSpace c || c == 62 || (c == 47 && !buf.isEmpty) then s.afterName buf (some c)
    else if c = 60 then s.error
    else if c = 38 then { s with pc := .ent (.name buf) [] }
    else if c < 48 ∧ c ≠ 33 ∧ c ≠ 45 ∧ c ≠ 46 ∧ c ≠ 47 then s.error
    else
      let buf' := buf ++ addChar c
      if buf' = b! "?" ∨ buf' = b! "!--" ∨ buf' = Node.cdataOpen then s.afterName buf' (some c)
      else { s with pc := .name buf' }
  -- comment: 1602-1609
  | .comment _, none => s.error
  | .comment buf, some c =>
    if c = 62 ∧ buf.length > 4 ∧ buf.reverse.getD 2 0 ≠ 45 ∧ buf.reverse.getD 1 0 = 45 ∧
        buf.reverse.getD 0 0 = 45 then s.addSpecial buf
    else { s with pc := .comment (buf ++ addChar c) }
  -- CDATA: 1671-1677
  | .cdata _, none => s.error
  | .cdata buf, some c =>
    if c = 62 ∧ buf.reverse.take 2 = Node.cdataClose then s.addSpecial buf
    else { s with pc := .cdata (buf ++ addChar c) }
  -- processing instruction: 1739-1745
  | .pi _, none => s.error
  | .pi buf, some c =>
    if c = 62 ∧ buf.getLast? = some 63 then s.addDirective buf
    else { s with pc := .pi (buf ++ addChar c) }
  -- declaration: 1819-1847
  | .decl _, none => s.error
  | .decl buf, some c => s.declBody buf (some c)
  -- close tag: 1922-1923
  | .close, ch => s.closeBody ch
  -- `<name/`: 1978-1986
  | .slash n, ch => if ch = some 62 then s.afterHead (n, []) 47 else s.error
  -- attribute loop: 2138-2193, 2214
  | .attr _, none => s.error
  | .attr e, some c =>
    if isSpace c then { s with pc := .attr e }
    else if c = 47 ∨ c = 63 then { s with pc := .attrSlash e c }
    else if c = 60 then s.error
    else if c = 62 then s.afterHead e c
    else if c = 34 ∨ c = 39 then { s with pc := .qname e c [UInt8.ofNat c] }
    else { s with pc := .aname e [UInt8.ofNat c] }
  | .attrSlash e c, ch => if ch = some 62 then s.afterHead e c else s.error
  -- quoted attribute name: 2195-2206
  | .qname e _ an, none => s.afterAttrName e an none
  | .qname e q an, some c =>
    if c = 38 then { s with pc := .ent (.qname e q an) [] }
    else if c = q then s.afterAttrName e (an ++ addChar c) (some c)
    else { s with pc := .qname e q (an ++ addChar c) }
  -- attribute name: 2214-2226
  | .aname e an, none => s.afterAttrName e an none
  | .aname e an, some c =>
    if isSpace c || c == 61 || c == 47 || c == 62 || c == 63 then s.afterAttrName e an (some c)
    else if c = 38 then { s with pc := .ent (.aname e an) [] }
    else { s with pc := .aname e (an ++ addChar c) }
  -- spaces before `=`: 2234-2237
  | .aeq _ _, none => s.error
  | .aeq e an, some c =>
    if isSpace c then { s with pc := .aeq e an }
    else if c = 61 then { s with pc := .vskip e an }
    else s.error
  -- spaces after `=`: 2243-2283
  | .vskip _ _, none => s.error
  | .vskip e an, some c =>
    if isSpace c then { s with pc := .vskip e an }
    else if c = 39 ∨ c = 34 then { s with pc := .qval e an c [] }
    else { s with pc := .uval e an [UInt8.ofNat c] }
  -- quoted value: 2261-2274
  | .qval e an _ av, none => s.afterValue e an av none
  | .qval e an q av, some c =>
    if c = q then s.afterValue e an av (some c)
    else if c = 38 then { s with pc := .ent (.qval e an q av) [] }
    else { s with pc := .qval e an q (av ++ addChar c) }
  -- unquoted value: 2285-2298
  | .uval e an av, none => s.afterValue e an av none
  | .uval e an av, some c =>
    if isSpace c || c == 61 || c == 47 || c == 62 then s.afterValue e an av (some c)
    else if c = 38 then { s with pc := .ent (.uval e an av) [] }
    else { s with pc := .uval e an (av ++ addChar c) }
  -- `/` or `?` behind a value: 2324-2331
  | .valSlash e c, ch => if ch = some 62 then s.afterHead e c else s.error
  -- entity: 1337-1376
  | .ent _ _, none => s.error
  | .ent k acc, some c =>
    if isEntChar c = true then
      if acc.length < 63 then { s with pc := .ent k (acc ++ [UInt8.ofNat c]) } else s.error
    else if c = 59 then
      match entityChar acc with
      | none => s.error
      | some v => resume s k v
    else s.error

/-- Running the automaton over a sequence of `getc` results. mxml-file.c:1440-2045. -/
def run (s : PS) (l : List (Option Nat)) : PS := l.foldl step s

/-- The result once the function has returned. mxml-file.c:2046-2090. -/
def PS.result (s : PS) : Option Node :=
  match s.pc with
  | .done r => r
  | _ => none

/-- `mxml_load_data` (1384-2090) on a sequence of `getc` results followed by `EOF`s.  Three
    `EOF`s always bring the automaton to `done` (theorem C21_reader_always_returns). -/
def loadData (l : List (Option Nat)) : Option Node :=
  (run (run PS.init l) [none, none, none]).result

/-- `mxmlLoadString(NULL, s, MXML_OPAQUE_CALLBACK)` (mxml-file.c:183-195). -/
def loadString (s : Bytes) : Option Node := loadData (decode s)

/-- `mxmlLoadFile(NULL, fp, MXML_OPAQUE_CALLBACK)` (mxml-file.c:155-165) on a file with contents `s`. -/
def loadFile (s : Bytes) : Option Node := loadData (decodeFile s)

end Afs.Xml
