import Verif.Model.Xml.ParseMem
/-!
# The XML reader when memory is refused (thirdparty/minixml/src/mxml-file.c:594-667, 1384-2358)

`Model/Xml/ParseMem.lean` is the reader with `malloc`, `calloc` and `realloc` always succeeding.  Here are the same functions with requests that may be refused: which of
them are refused at a step is the parameter `no`.  With `no` refusing nothing the functions are those of `ParseMem` (`MS.stepNo_none`).

Simplified: the copies of the strings of a node (`strdup` in mxml-node.c:387, 456 and mxml-attr.c:184, 297) are not refused; after a refused growth the `bufsize` variable is
not read again and is left out.
-/
namespace Afs.ParseMem
open Afs Afs.Xml Afs.Links

/-- The requests for memory of the reader (mxml-file.c:600-625, 2117-2130, mxml-node.c:799, mxml-attr.c:282-285). -/
inductive Request where
  /-- `realloc` of a work buffer in `mxml_add_char` (mxml-file.c:614) -/
  | grow
  /-- `calloc` of a node (mxml-node.c:799) -/
  | node
  /-- `malloc(64)` for an attribute's name (mxml-file.c:2117) -/
  | name
  /-- `malloc(64)` for an attribute's value (mxml-file.c:2125) -/
  | value
  /-- `malloc` or `realloc` of an element's attribute array (mxml-attr.c:282-285) -/
  | attr
deriving DecidableEq, Repr

/-- Which requests are refused while one character is handled. Not from the code. -/
abbrev Refusals := Request → Bool

/-- Whether `mxml_add_char` wants a larger buffer (mxml-file.c:603). -/
def CBuf.full (b : CBuf) : Bool := decide (b.size - 4 ≤ (b.ptr : Int))

namespace MS

/-- `if (mxml_add_char(…, &bufptr, &buffer, &bufsize)) goto error;` in `mxml_load_data`: a refused growth frees `buffer` (mxml-file.c:614-621), and the label `error` frees it again (mxml-file.c:2087).
    `f` is the addition, `k` goes on. mxml-file.c:1583, 1588, 1607, 1676, 1744, 1830, 2031, 2040. -/
def addBuf (no : Refusals) (s : MS) (f : CBuf → Res CBuf) (k : MS → Res MS) : Res MS := do
  let b ← live s.buf
  if no .grow && b.full then ({ s with buf := none } : MS).error
  else do
    let s ← s.onBuf f
    k s

/-- The same for the attribute's name in `mxml_parse_element`, whose label `error` frees `name` again (mxml-file.c:2354). mxml-file.c:2201, 2224. -/
def addName (no : Refusals) (s : MS) (f : CBuf → Res CBuf) (k : MS → Res MS) : Res MS := do
  let b ← live s.an
  if no .grow && b.full then ({ s with an := none } : MS).attrError
  else do
    let s ← s.onName f
    k s

/-- The same for the attribute's value (mxml-file.c:2355). mxml-file.c:2270, 2294. -/
def addValue (no : Refusals) (s : MS) (f : CBuf → Res CBuf) (k : MS → Res MS) : Res MS := do
  let b ← live s.av
  if no .grow && b.full then ({ s with av := none } : MS).attrError
  else do
    let s ← s.onValue f
    k s

/-- The flush of pending text (mxml-file.c:1442-1531): without a node, `goto error` (mxml-file.c:1510-1519); `k` goes on. -/
def flushNo (A : Heap → Nat) (no : Refusals) (s : MS) (k : MS → Res MS) : Res MS := do
  let b ← live s.buf
  if b.ptr = 0 then k s
  else do
    let b ← b.stop
    let _ ← b.load b.ptr
    if s.opq then do
      let t ← b.str
      if no .node then ({ s with buf := some b.reset } : MS).error
      else do
        let r ← newNode A { s with buf := some b.reset } (.text t)
        k (r.2.setFirst r.1)
    else k { s with buf := some b.reset }

/-- A comment or CDATA section is complete (mxml-file.c:1630-1663, 1698-1731): without a node for a comment the main loop is left as at the end of the text (mxml-file.c:1643-1651), for a CDATA section
    `goto error` (mxml-file.c:1711-1719). -/
def addSpecialNo (A : Heap → Nat) (no : Refusals) (comment : Bool) (s : MS) : Res MS := do
  let s ← s.onBuf CBuf.stop
  if s.second then s.error
  else do
    let b ← live s.buf
    let t ← b.str
    if no .node then (if comment then s.go .eof else s.error)
    else do
      let r ← newNode A s (.elem t [])
      (r.2.setFirst r.1).again

/-- A processing instruction or declaration is complete (mxml-file.c:1765-1811, 1853-1899); without a node, `goto error` (mxml-file.c:1778-1786, 1866-1874). -/
def addDirectiveNo (A : Heap → Nat) (no : Refusals) (s : MS) : Res MS := do
  let s ← s.onBuf CBuf.stop
  if s.second then s.error
  else do
    let b ← live s.buf
    let t ← b.str
    if no .node then s.error
    else do
      let r ← newNode A s (.elem t [])
      if s.parent.isNone then ({ r.2.setFirst r.1 with parent := some r.1, opq := true } : MS).again
      else (r.2.setFirst r.1).again

/-- The declaration loop body (mxml-file.c:1821-1831). -/
def declBodyNo (A : Heap → Nat) (no : Refusals) (s : MS) (ch : Option Nat) : Res MS :=
  match ch with
  | none => s.addBuf no CBuf.addEof (·.go .decl)
  | some c =>
    if c = 62 then s.addDirectiveNo A no
    else if c = 38 then s.go (.ent .decl .alloc)
    else s.addBuf no (·.add c) (·.go .decl)

/-- A new element (mxml-file.c:1949-1996): without a node, `goto error` (mxml-file.c:1960-1968); without one of the two 64 byte buffers `mxml_parse_element` returns `EOF` (mxml-file.c:2117-2130) and then
    `goto error` (mxml-file.c:1973-1974), with the new node not yet `first`. -/
def elementNo (A : Heap → Nat) (no : Refusals) (s : MS) (t : Bytes) (ch : Option Nat) : Res MS :=
  if no .node then s.error
  else do
    let r ← newNode A s (.elem t [])
    match ch with
    | none => (r.2.setFirst r.1).go .eof
    | some c =>
      if isSpace c then
        if no .name || no .value then r.2.error
        else ({ r.2 with an := some .alloc, av := some .alloc } : MS).go (.attr r.1)
      else if c = 47 then r.2.go (.slash r.1)
      else r.2.afterHead r.1 c

/-- Behind the name loop (mxml-file.c:1594-1996). -/
def afterNameNo (A : Heap → Nat) (no : Refusals) (s : MS) (ch : Option Nat) : Res MS := do
  let s ← s.onBuf CBuf.stop
  let b ← live s.buf
  let t ← b.str
  let c0 ← b.load 0
  if t = b! "!--" then s.go .comment
  else if t = Node.cdataOpen then s.go .cdata
  else if c0 = 63 then s.go .pi
  else if c0 = 33 then s.declBodyNo A no ch
  else if c0 = 47 then (if s.parent.isNone then s.error else s.checkClose t ch)
  else if s.second then s.error
  else s.elementNo A no t ch

/-- Behind the value of an attribute (mxml-file.c:2274/2298-2336): without memory `mxml_set_attr` returns -1 (mxml-attr.c:287-292), `mxmlElementSetAttr` frees the copied value
    (mxml-attr.c:188-189) and returns nothing, so the reader goes on without the attribute. -/
def afterValueNo (no : Refusals) (s : MS) (n : Nat) (ch : Option Nat) : Res MS := do
  let s ← s.onValue CBuf.stop
  let a ← live s.an
  let an ← a.str
  let v ← live s.av
  let av ← v.str
  let s ← if no .attr then Res.ok s else s.setAttr n an av
  match ch with
  | none => s.go (.attr n)
  | some c =>
    if c = 47 ∨ c = 63 then s.go (.valSlash n c)
    else if c = 62 then s.attrEnd n c
    else s.go (.attr n)

/-- `mxml_get_entity` returned the character `ch` to its caller.
    mxml-file.c:1579, 1826, 2028, 2198, 2221, 2267, 2291. -/
def resumeNo (no : Refusals) (s : MS) (k : MPC) (ch : Nat) : Res MS :=
  match k with
  | .main => s.addBuf no (·.add ch) (·.go .main)
  | .name => s.addBuf no (·.add ch) (·.go .name)
  | .decl => s.addBuf no (·.add ch) (·.go .decl)
  | .qname n q => s.addName no (·.add ch) fun s => if ch = q then s.afterAttrName n (some ch) else s.go (.qname n q)
  | .aname n => s.addName no (·.add ch) (·.go (.aname n))
  | .qval n q => s.addValue no (·.add ch) (·.go (.qval n q))
  | .uval n => s.addValue no (·.add ch) (·.go (.uval n))
  | _ => .ub

/-- `mxml_get_entity` (mxml-file.c:1337-1376) with the character `ch`. -/
def entityNo (no : Refusals) (s : MS) (k : MPC) (e : CBuf) (ch : Option Nat) : Res MS :=
  match ch with
  | none => do
    let _ ← e.stop
    s.entError k
  | some c =>
    if isEntChar c = true then
      if e.ptr < 63 then do
        let e ← e.push (UInt8.ofNat c)
        s.go (.ent k e)
      else do
        let _ ← e.stop
        s.entError k
    else do
      let e ← e.stop
      if c = 59 then do
        let t ← e.str
        match entityChar t with
        | none => s.entError k
        | some v => s.resumeNo no k v
      else s.entError k

/-- The name loop with a character that does not end it (mxml-file.c:1577-1592). -/
def nameCharNo (A : Heap → Nat) (no : Refusals) (s : MS) (c : Nat) : Res MS :=
  s.addBuf no (·.add c) fun s => do
    let b ← live s.buf
    let stop ←
      (if b.ptr = 1 then do
        let v ← b.load 0
        Res.ok (v == 63)
      else if b.ptr = 3 then do
        let v ← b.loadN 0 3
        Res.ok (v == b! "!--")
      else if b.ptr = 8 then do
        let v ← b.loadN 0 8
        Res.ok (v == Node.cdataOpen)
      else Res.ok false)
    if stop then s.afterNameNo A no (some c) else s.go .name

/-- The main loop behind the flush, with a character that is not `<` (mxml-file.c:2022-2042). -/
def mainTailNo (no : Refusals) (s : MS) (c : Nat) : Res MS :=
  if c = 38 then s.go (.ent .main .alloc)
  else if s.opq || !isSpace c then s.addBuf no (·.add c) (·.go .main)
  else s.go .main

/-- The main loop with a character that is not `<` (mxml-file.c:1442-1444, 2022-2042). -/
def mainCharNo (A : Heap → Nat) (no : Refusals) (s : MS) (c : Nat) : Res MS :=
  if isSpace c && !s.opq then s.flushNo A no (fun s => s.mainTailNo no c) else s.mainTailNo no c

/-- One character, from one call of `getc` to the next, with the refused requests. mxml-file.c:1440-2045, 2098-2358. -/
def stepNo (A : Heap → Nat) (no : Refusals) (s : MS) (ch : Option Nat) : Res MS :=
  match s.pc, ch with
  | .main, some c =>
    if c = 60 then s.flushNo A no fun s => do
      let s ← s.onBuf (fun b => .ok b.reset)
      s.go .name
    else s.mainCharNo A no c
  | .name, none => s.afterNameNo A no none
  | .name, some c => do
    let b ← live s.buf
    if isSpace c || c == 62 || (c == 47 && b.ptr != 0) then s.afterNameNo A no (some c)
    else if c = 60 then s.error
    else if c = 38 then s.go (.ent .name .alloc)
    else if c < 48 ∧ c ≠ 33 ∧ c ≠ 45 ∧ c ≠ 46 ∧ c ≠ 47 then s.error
    else s.nameCharNo A no c
  | .comment, some c => do
    let b ← live s.buf
    let e ← commentEnd b c
    if e then s.addSpecialNo A no true else s.addBuf no (·.add c) (·.go .comment)
  | .cdata, some c => do
    let b ← live s.buf
    let e ← cdataEnd b c
    if e then s.addSpecialNo A no false else s.addBuf no (·.add c) (·.go .cdata)
  | .pi, some c => do
    let b ← live s.buf
    let e ← piEnd b c
    if e then s.addDirectiveNo A no else s.addBuf no (·.add c) (·.go .pi)
  | .decl, some c => s.declBodyNo A no (some c)
  | .qname n q, some c =>
    if c = 38 then s.go (.ent (.qname n q) .alloc)
    else s.addName no (·.add c) fun s => if c = q then s.afterAttrName n (some c) else s.go (.qname n q)
  | .aname n, some c =>
    if isSpace c || c == 61 || c == 47 || c == 62 || c == 63 then s.afterAttrName n (some c)
    else if c = 38 then s.go (.ent (.aname n) .alloc)
    else s.addName no (·.add c) (·.go (.aname n))
  | .qval n _, none => s.afterValueNo no n none
  | .qval n q, some c =>
    if c = q then s.afterValueNo no n (some c)
    else if c = 38 then s.go (.ent (.qval n q) .alloc)
    else s.addValue no (·.add c) (·.go (.qval n q))
  | .uval n, none => s.afterValueNo no n none
  | .uval n, some c =>
    if isSpace c || c == 61 || c == 47 || c == 62 then s.afterValueNo no n (some c)
    else if c = 38 then s.go (.ent (.uval n) .alloc)
    else s.addValue no (·.add c) (·.go (.uval n))
  | .ent k e, ch => s.entityNo no k e ch
  -- the steps that ask for no memory
  | _, ch => s.step A ch

/-- All characters, each with the requests refused while it is handled. mxml-file.c:1440-2045. -/
def runNo (A : Heap → Nat) (s : MS) : List (Option Nat × Refusals) → Res MS
  | [] => .ok s
  | c :: cs => do
    let s ← s.stepNo A c.2 c.1
    runNo A s cs

end MS

/-- `mxml_load_data` (mxml-file.c:1384-2090) with memory refused: `first` tells whether `malloc(64)` for `buffer` is refused (mxml-file.c:1420-1424), the list has the characters of the input, then
    `EOF` as often as it is asked for, each with what is refused while it is handled. -/
def loadNo (A : Heap → Nat) (k : Nat) (h : Heap) (first : Bool) (l : List (Option Nat × Refusals)) : Option (Res (Heap × Option Nat)) :=
  if first then some (.ok (h, none))
  else
    match (MS.init h).runNo A l with
    | .ub => some .ub
    | .ok s => leave k s

end Afs.ParseMem
