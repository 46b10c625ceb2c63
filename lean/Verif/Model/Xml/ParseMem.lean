import Verif.Model.Xml.Parse
import Verif.Model.Xml.Links
/-!
# The XML reader in memory (thirdparty/minixml/src/mxml-file.c:594-667, 1323-2358)

`Model/Xml/Parse.lean` says which tree the reader builds.  Here is the same code with its memory:
the work buffers are arrays of a given size that grow, every read and write of them is checked,
and the tree is a set of linked nodes in a heap.  As there, the nested loops around `getc` are the
automaton they are, one control state per `getc` call site.

Simplified: `malloc` and `realloc` succeed; where a node comes from is left open (`A` picks any free
address); the strings and attribute arrays of a node are values of its cell; the error messages and
the reads for them are left out.  There is no SAX callback, no `top` node, and the load callback is
`MXML_OPAQUE_CALLBACK`.
-/
namespace Afs.ParseMem
open Afs Afs.Xml Afs.Links

/-! ### Work buffers -/

/-- An allocated array of chars (`none`: never written), its size variable and the index the write
    pointer points to: `buffer`, `bufsize`, `bufptr` (mxml-file.c:1398-1400), or `name`/`value`,
    `namesize`/`valsize`, `ptr` (2106-2110), or `entity`, `entptr` (1331-1332). -/
structure CBuf where
  data : List (Option UInt8)
  size : Int
  ptr : Nat
deriving DecidableEq, Repr

namespace CBuf

/-- `malloc(64)` and the size 64 (1420-1427, 2117-2132), `char entity[64]` (1331). -/
def alloc : CBuf := ⟨List.replicate 64 none, 64, 0⟩

/-- A write; undefined behaviour outside the array. E.g. mxml-file.c:630-660. -/
def store (b : CBuf) (i : Nat) (v : UInt8) : Res CBuf :=
  if i < b.data.length then .ok { b with data := b.data.set i (some v) } else .ub

/-- A read; undefined behaviour outside the array and where nothing was written.
    E.g. mxml-file.c:1671-1690. -/
def load (b : CBuf) (i : Int) : Res UInt8 :=
  if i < 0 then .ub
  else
    match b.data[i.toNat]? with
    | some (some v) => .ok v
    | _ => .ub

/-- The string at the start of an array: everything up to the first NUL is read.
    E.g. the `strcmp` calls of mxml-file.c:1593-1900. -/
def readStr : List (Option UInt8) → Res Bytes
  | [] => .ub
  | none :: _ => .ub
  | some v :: r => if v = 0 then .ok [] else do
    let s ← readStr r
    .ok (v :: s)

/-- The string in the buffer. E.g. mxml-file.c:1593-1900. -/
def str (b : CBuf) : Res Bytes := readStr b.data

/-- `*ptr++ = v`. mxml-file.c:630-660. -/
def push (b : CBuf) (v : UInt8) : Res CBuf := do
  let b ← b.store b.ptr v
  .ok { b with ptr := b.ptr + 1 }

/-- Several `*ptr++ = v` in a row. mxml-file.c:630-660. -/
def pushAll (b : CBuf) : Bytes → Res CBuf
  | [] => .ok b
  | v :: vs => do
    let b ← b.push v
    b.pushAll vs

/-- The growing of a buffer in `mxml_add_char` (603-625). -/
def grow (b : CBuf) : Res CBuf :=
  if b.size - 4 ≤ (b.ptr : Int) then do
    let n ← ckInt (if b.size < 1024 then b.size * 2 else b.size + 1024)
    .ok { b with data := b.data ++ List.replicate (n.toNat - b.data.length) none, size := n }
  else .ok b

/-- `mxml_add_char` (594-667); the bytes written are those of `Xml.addChar` (627-664). -/
def add (b : CBuf) (ch : Nat) : Res CBuf := do
  let b ← b.grow
  b.pushAll (Xml.addChar ch)

/-- `mxml_add_char(EOF, …)`: one byte, `(char)-1` (627-633). -/
def addEof (b : CBuf) : Res CBuf := do
  let b ← b.grow
  b.push 255

/-- `*ptr = '\0'`. -/
def stop (b : CBuf) : Res CBuf := b.store b.ptr 0

/-- `buf[0] = ch; ptr = buf + 1` (2184-2185, 2282-2283). -/
def start (b : CBuf) (ch : Nat) : Res CBuf := do
  let b ← b.store 0 (UInt8.ofNat ch)
  .ok { b with ptr := 1 }

/-- `bufptr = buffer` (1507, 1567, 2020), `ptr = value` (2259). -/
def reset (b : CBuf) : CBuf := { b with ptr := 0 }

/-- `bufptr[-n]`. mxml-file.c:1602-1612, 1671-1680. -/
def back (b : CBuf) (n : Nat) : Res UInt8 := b.load ((b.ptr : Int) - n)

/-- Reading `n` bytes from an index on, as `strncmp` does (1590-1591, 1673). -/
def loadN (b : CBuf) (i : Int) : Nat → Res Bytes
  | 0 => .ok []
  | n + 1 => do
    let v ← b.load i
    let r ← b.loadN (i + 1) n
    .ok (v :: r)

end CBuf

/-- A buffer that is still allocated. mxml-file.c:2047, 2083-2084, 2340-2356. -/
def live (b : Option CBuf) : Res CBuf :=
  match b with
  | none => .ub
  | some b => .ok b

/-! ### States -/

/-- Control states, one per `getc` call site as in `Xml.PC`; `n` is the variable `node`.
    mxml-file.c:1337-2324. -/
inductive MPC where
  /-- main loop (1440) -/
  | main
  /-- element name loop (1569) -/
  | name
  /-- comment loop (1602) -/
  | comment
  /-- CDATA loop (1671) -/
  | cdata
  /-- processing instruction loop (1739) -/
  | pi
  /-- declaration loop (1833) -/
  | decl
  /-- rest of a close tag (1923) -/
  | close
  /-- after `<name/` (1978) -/
  | slash (n : Nat)
  /-- attribute loop (2138) -/
  | attr (n : Nat)
  /-- after `/` or `?` between attributes (2161) -/
  | attrSlash (n : Nat) (ch : Nat)
  /-- quoted attribute name (2195) -/
  | qname (n : Nat) (q : Nat)
  /-- attribute name (2214) -/
  | aname (n : Nat)
  /-- spaces before `=` (2235) -/
  | aeq (n : Nat)
  /-- spaces after `=` (2243) -/
  | vskip (n : Nat)
  /-- quoted attribute value (2261) -/
  | qval (n : Nat) (q : Nat)
  /-- unquoted attribute value (2285) -/
  | uval (n : Nat)
  /-- after `/` or `?` directly behind a value (2324) -/
  | valSlash (n : Nat) (ch : Nat)
  /-- inside `mxml_get_entity` (1337), with the array `entity`, to return to `k` -/
  | ent (k : MPC) (entity : CBuf)
  /-- behind the main loop (2049) -/
  | eof
  /-- on the way to the label `error` (2083), `del` to be deleted before (1982) -/
  | fail (del : Option Nat)
deriving DecidableEq, Repr

/-- The local variables of `mxml_load_data` and `mxml_parse_element` and the node memory; a buffer
    that is not allocated is `none`. mxml-file.c:1393-1437, 2104-2135. -/
structure MS where
  pc : MPC
  h : Heap
  parent : Option Nat
  first : Option Nat
  opq : Bool
  buf : Option CBuf
  an : Option CBuf
  av : Option CBuf

namespace MS

/-- 1420-1438. -/
def init (h : Heap) : MS := ⟨.main, h, none, none, false, some .alloc, none, none⟩

/-- Work on `buffer`. mxml-file.c:1440-2045. -/
def onBuf (s : MS) (f : CBuf → Res CBuf) : Res MS := do
  let b ← live s.buf
  let b ← f b
  .ok { s with buf := some b }

/-- Work on the attribute name. mxml-file.c:2138-2330. -/
def onName (s : MS) (f : CBuf → Res CBuf) : Res MS := do
  let b ← live s.an
  let b ← f b
  .ok { s with an := some b }

/-- Work on the attribute value. mxml-file.c:2138-2330. -/
def onValue (s : MS) (f : CBuf → Res CBuf) : Res MS := do
  let b ← live s.av
  let b ← f b
  .ok { s with av := some b }

/-- Going to another call of `getc`. mxml-file.c:1440-2330. -/
def go (s : MS) (pc : MPC) : Res MS := .ok { s with pc := pc }

/-- `goto error` in `mxml_load_data`. mxml-file.c:2083. -/
def error (s : MS) : Res MS := s.go (.fail none)

/-- `if (!first) first = node` (1529, 1662, 1730, 1799, 1887, 1992). -/
def setFirst (s : MS) (a : Nat) : MS := if s.first.isNone then { s with first := some a } else s

/-- `mxmlNew…(parent, …)`: the new node and the state behind it; `A` picks a free address.
    Calls in mxml-file.c:1440-1990; mxml-node.c:785-820. -/
def newNode (A : Heap → Nat) (s : MS) (d : Data) : Res (Nat × MS) := do
  let h ← Links.new s.h (A s.h) s.parent d
  .ok (A s.h, { s with h := h })

/-- `!parent && first` (1632, 1700, 1767, 1855, 1949). -/
def second (s : MS) : Bool := s.parent.isNone && s.first.isSome

/-- `bufptr = buffer` and back to the main loop (2020). -/
def again (s : MS) : Res MS := do
  let s ← s.onBuf (fun b => .ok b.reset)
  s.go .main

/-- The flush of pending text (1442-1531). -/
def flush (A : Heap → Nat) (s : MS) : Res MS := do
  let b ← live s.buf
  if b.ptr = 0 then .ok s
  else do
    let b ← b.stop
    let _ ← b.load b.ptr
    if s.opq then do
      let t ← b.str
      let r ← newNode A { s with buf := some b.reset } (.text t)
      .ok (r.2.setFirst r.1)
    else .ok { s with buf := some b.reset }

/-- The end of a start tag (1992-2020). -/
def afterHead (s : MS) (n ch : Nat) : Res MS :=
  if ch = 47 then (s.setFirst n).again
  else ({ s.setFirst n with parent := some n, opq := true } : MS).again

/-- A comment or CDATA section is complete (1630-1663, 1698-1731). -/
def addSpecial (A : Heap → Nat) (s : MS) : Res MS := do
  let s ← s.onBuf CBuf.stop
  if s.second then s.error
  else do
    let b ← live s.buf
    let t ← b.str
    let r ← newNode A s (.elem t [])
    (r.2.setFirst r.1).again

/-- A processing instruction or declaration is complete (1765-1811, 1853-1899). -/
def addDirective (A : Heap → Nat) (s : MS) : Res MS := do
  let s ← s.onBuf CBuf.stop
  if s.second then s.error
  else do
    let b ← live s.buf
    let t ← b.str
    let r ← newNode A s (.elem t [])
    if s.parent.isNone then ({ r.2.setFirst r.1 with parent := some r.1, opq := true } : MS).again
    else (r.2.setFirst r.1).again

/-- A close tag is complete (1925-1942). -/
def pop (s : MS) : Res MS := do
  let c ← deref s.h s.parent
  ({ s with parent := c.parent, opq := c.parent.isSome || s.opq } : MS).again

/-- The declaration loop body (1821-1831). -/
def declBody (A : Heap → Nat) (s : MS) (ch : Option Nat) : Res MS :=
  match ch with
  | none => do
    let s ← s.onBuf CBuf.addEof
    s.go .decl
  | some c =>
    if c = 62 then s.addDirective A
    else if c = 38 then s.go (.ent .decl .alloc)
    else do
      let s ← s.onBuf (·.add c)
      s.go .decl

/-- The rest of a close tag (1922-1923). -/
def closeBody (s : MS) (ch : Option Nat) : Res MS :=
  match ch with
  | none => s.pop
  | some c => if c = 62 then s.pop else s.go .close

/-- `strcmp(buffer + 1, parent->value.element.name)` (1907-1916), `parent` is not NULL. -/
def checkClose (s : MS) (t : Bytes) (ch : Option Nat) : Res MS := do
  let c ← deref s.h s.parent
  if t.drop 1 = c.data.name then s.closeBody ch else s.error

/-- A new element (1949-1996); the attribute loop allocates its two buffers (2117-2132). -/
def element (A : Heap → Nat) (s : MS) (t : Bytes) (ch : Option Nat) : Res MS := do
  let r ← newNode A s (.elem t [])
  match ch with
  | none => (r.2.setFirst r.1).go .eof
  | some c =>
    if isSpace c then ({ r.2 with an := some .alloc, av := some .alloc } : MS).go (.attr r.1)
    else if c = 47 then r.2.go (.slash r.1)
    else r.2.afterHead r.1 c

/-- Behind the name loop (1594-1996). -/
def afterName (A : Heap → Nat) (s : MS) (ch : Option Nat) : Res MS := do
  let s ← s.onBuf CBuf.stop
  let b ← live s.buf
  let t ← b.str
  let c0 ← b.load 0
  if t = b! "!--" then s.go .comment
  else if t = Node.cdataOpen then s.go .cdata
  else if c0 = 63 then s.go .pi
  else if c0 = 33 then s.declBody A ch
  else if c0 = 47 then (if s.parent.isNone then s.error else s.checkClose t ch)
  else if s.second then s.error
  else s.element A t ch

/-- `free(name); free(value)` (2343-2344, 2354-2355). -/
def freeAttr (s : MS) : Res MS := do
  let _ ← live s.an
  let _ ← live s.av
  .ok { s with an := none, av := none }

/-- `goto error` in `mxml_parse_element` (2352-2357) and then in `mxml_load_data` (1974). -/
def attrError (s : MS) : Res MS := do
  let s ← s.freeAttr
  s.error

/-- `mxml_parse_element` returns `ch` (2343-2346). -/
def attrEnd (s : MS) (n ch : Nat) : Res MS := do
  let s ← s.freeAttr
  s.afterHead n ch

/-- `mxmlElementGetAttr(node, name)` (mxml-attr.c:102-151). -/
def hasAttr (s : MS) (n : Nat) (name : Bytes) : Res Bool := do
  let c ← get s.h n
  .ok (match c.data with
    | .elem _ as => (Node.findAttr name as).isSome
    | .text _ => false)

/-- `mxmlElementSetAttr(node, name, value)` (mxml-attr.c:164-190, 248-309). -/
def setAttr (s : MS) (n : Nat) (name value : Bytes) : Res MS := do
  let h ← upd s.h (some n) (fun c => { c with data := match c.data with
    | .elem e as => .elem e (Node.setAttrList name (some value) as)
    | .text t => .text t })
  .ok { s with h := h }

/-- Behind the name of an attribute (2229-2237, 2309-2311). -/
def afterAttrName (s : MS) (n : Nat) (ch : Option Nat) : Res MS := do
  let s ← s.onName CBuf.stop
  let b ← live s.an
  let t ← b.str
  let f ← s.hasAttr n t
  if f then s.attrError
  else
    match ch with
    | none => s.attrError
    | some c =>
      if isSpace c then s.go (.aeq n)
      else if c = 61 then s.go (.vskip n)
      else s.attrError

/-- Behind the value of an attribute (2274/2298-2336). -/
def afterValue (s : MS) (n : Nat) (ch : Option Nat) : Res MS := do
  let s ← s.onValue CBuf.stop
  let a ← live s.an
  let an ← a.str
  let v ← live s.av
  let av ← v.str
  let s ← s.setAttr n an av
  match ch with
  | none => s.go (.attr n)
  | some c =>
    if c = 47 ∨ c = 63 then s.go (.valSlash n c)
    else if c = 62 then s.attrEnd n c
    else s.go (.attr n)

/-- `mxml_get_entity` returned `EOF` to its caller (1579, 1826, 2028; 2198, 2221, 2267, 2291). -/
def entError (s : MS) (k : MPC) : Res MS :=
  match k with
  | .main => s.error
  | .name => s.error
  | .decl => s.error
  | _ => s.attrError

/-- `mxml_get_entity` returned the character `ch` to its caller.
    mxml-file.c:1579, 1826, 2028, 2198, 2221, 2267, 2291. -/
def resume (s : MS) (k : MPC) (ch : Nat) : Res MS :=
  match k with
  | .main => do let s ← s.onBuf (·.add ch); s.go .main
  | .name => do let s ← s.onBuf (·.add ch); s.go .name
  | .decl => do let s ← s.onBuf (·.add ch); s.go .decl
  | .qname n q => do
    let s ← s.onName (·.add ch)
    if ch = q then s.afterAttrName n (some ch) else s.go (.qname n q)
  | .aname n => do let s ← s.onName (·.add ch); s.go (.aname n)
  | .qval n q => do let s ← s.onValue (·.add ch); s.go (.qval n q)
  | .uval n => do let s ← s.onValue (·.add ch); s.go (.uval n)
  | _ => .ub

/-- `mxml_get_entity` (1337-1376) with the character `ch`. -/
def entity (s : MS) (k : MPC) (e : CBuf) (ch : Option Nat) : Res MS :=
  match ch with
  | none => do
    let _ ← e.stop
    s.entError k
  | some c =>
    if isEntChar c = true then
      if e.ptr < 63 then do
        let e ← e.push (UInt8.ofNat c)
        s.go (.ent k e)
      else do
        let _ ← e.stop
        s.entError k
    else do
      let e ← e.stop
      if c = 59 then do
        let t ← e.str
        match entityChar t with
        | none => s.entError k
        | some v => s.resume k v
      else s.entError k

/-- The name loop with a character that does not end it (1577-1592). -/
def nameChar (A : Heap → Nat) (s : MS) (c : Nat) : Res MS := do
  let s ← s.onBuf (·.add c)
  let b ← live s.buf
  let stop ←
    (if b.ptr = 1 then do
      let v ← b.load 0
      Res.ok (v == 63)
    else if b.ptr = 3 then do
      let v ← b.loadN 0 3
      Res.ok (v == b! "!--")
    else if b.ptr = 8 then do
      let v ← b.loadN 0 8
      Res.ok (v == Node.cdataOpen)
    else Res.ok false)
  if stop then s.afterName A (some c) else s.go .name

/-- Whether `-->` is complete (1604-1605). -/
def commentEnd (b : CBuf) (c : Nat) : Res Bool :=
  if c = 62 ∧ b.ptr > 4 then do
    let x ← b.back 3
    let y ← b.back 2
    let z ← b.back 1
    .ok (decide (x ≠ 45 ∧ y = 45 ∧ z = 45))
  else .ok false

/-- Whether `]]>` is complete (1673). -/
def cdataEnd (b : CBuf) (c : Nat) : Res Bool :=
  if c = 62 then do
    let v ← b.loadN ((b.ptr : Int) - 2) 2
    .ok (v == Node.cdataClose)
  else .ok false

/-- Whether `?>` is complete (1741). -/
def piEnd (b : CBuf) (c : Nat) : Res Bool :=
  if c = 62 ∧ b.ptr > 0 then do
    let z ← b.back 1
    .ok (z == 63)
  else .ok false

/-- The main loop with a character that is not `<` (1442-1444, 2022-2042). -/
def mainChar (A : Heap → Nat) (s : MS) (c : Nat) : Res MS := do
  let s ← if isSpace c && !s.opq then s.flush A else Res.ok s
  if c = 38 then s.go (.ent .main .alloc)
  else if s.opq || !isSpace c then do
    let s ← s.onBuf (·.add c)
    s.go .main
  else s.go .main

/-- One character, from one call of `getc` to the next. mxml-file.c:1440-2045, 2098-2358. -/
def step (A : Heap → Nat) (s : MS) (ch : Option Nat) : Res MS :=
  match s.pc, ch with
  | .eof, _ => .ok s
  | .fail _, _ => .ok s
  -- main loop: 1440-2043
  | .main, none => s.go .eof
  | .main, some c =>
    if c = 60 then do
      let s ← s.flush A
      let s ← s.onBuf (fun b => .ok b.reset)
      s.go .name
    else s.mainChar A c
  -- element name: 1569-1592
  | .name, none => s.afterName A none
  | .name, some c => do
    let b ← live s.buf
    if isSpace c || c == 62 || (c == 47 && b.ptr != 0) then s.afterName A (some c)
    else if c = 60 then s.error
    else if c = 38 then s.go (.ent .name .alloc)
    else if c < 48 ∧ c ≠ 33 ∧ c ≠ 45 ∧ c ≠ 46 ∧ c ≠ 47 then s.error
    else s.nameChar A c
  -- comment: 1602-1623
  | .comment, none => s.error
  | .comment, some c => do
    let b ← live s.buf
    let e ← commentEnd b c
    if e then s.addSpecial A
    else do
      let s ← s.onBuf (·.add c)
      s.go .comment
  -- CDATA: 1671-1691
  | .cdata, none => s.error
  | .cdata, some c => do
    let b ← live s.buf
    let e ← cdataEnd b c
    if e then s.addSpecial A
    else do
      let s ← s.onBuf (·.add c)
      s.go .cdata
  -- processing instruction: 1739-1759
  | .pi, none => s.error
  | .pi, some c => do
    let b ← live s.buf
    let e ← piEnd b c
    if e then s.addDirective A
    else do
      let s ← s.onBuf (·.add c)
      s.go .pi
  -- declaration: 1819-1847
  | .decl, none => s.error
  | .decl, some c => s.declBody A (some c)
  -- close tag: 1922-1923
  | .close, ch => s.closeBody ch
  -- `<name/`: 1978-1986
  | .slash n, ch => if ch = some 62 then s.afterHead n 47 else s.go (.fail (some n))
  -- attribute loop: 2138-2193, 2214
  | .attr _, none => s.attrError
  | .attr n, some c =>
    if isSpace c then s.go (.attr n)
    else if c = 47 ∨ c = 63 then s.go (.attrSlash n c)
    else if c = 60 then s.attrError
    else if c = 62 then s.attrEnd n c
    else do
      let s ← s.onName (·.start c)
      s.go (if c = 34 ∨ c = 39 then .qname n c else .aname n)
  | .attrSlash n c, ch => if ch = some 62 then s.attrEnd n c else s.attrError
  -- quoted attribute name: 2195-2206
  | .qname n _, none => s.afterAttrName n none
  | .qname n q, some c =>
    if c = 38 then s.go (.ent (.qname n q) .alloc)
    else do
      let s ← s.onName (·.add c)
      if c = q then s.afterAttrName n (some c) else s.go (.qname n q)
  -- attribute name: 2214-2226
  | .aname n, none => s.afterAttrName n none
  | .aname n, some c =>
    if isSpace c || c == 61 || c == 47 || c == 62 || c == 63 then s.afterAttrName n (some c)
    else if c = 38 then s.go (.ent (.aname n) .alloc)
    else do
      let s ← s.onName (·.add c)
      s.go (.aname n)
  -- spaces before `=`: 2234-2237
  | .aeq _, none => s.attrError
  | .aeq n, some c =>
    if isSpace c then s.go (.aeq n)
    else if c = 61 then s.go (.vskip n)
    else s.attrError
  -- spaces after `=`: 2243-2283
  | .vskip _, none => s.attrError
  | .vskip n, some c =>
    if isSpace c then s.go (.vskip n)
    else if c = 39 ∨ c = 34 then do
      let s ← s.onValue (fun b => .ok b.reset)
      s.go (.qval n c)
    else do
      let s ← s.onValue (·.start c)
      s.go (.uval n)
  -- quoted value: 2261-2274
  | .qval n _, none => s.afterValue n none
  | .qval n q, some c =>
    if c = q then s.afterValue n (some c)
    else if c = 38 then s.go (.ent (.qval n q) .alloc)
    else do
      let s ← s.onValue (·.add c)
      s.go (.qval n q)
  -- unquoted value: 2285-2298
  | .uval n, none => s.afterValue n none
  | .uval n, some c =>
    if isSpace c || c == 61 || c == 47 || c == 62 then s.afterValue n (some c)
    else if c = 38 then s.go (.ent (.uval n) .alloc)
    else do
      let s ← s.onValue (·.add c)
      s.go (.uval n)
  -- `/` or `?` behind a value: 2324-2331
  | .valSlash n c, ch => if ch = some 62 then s.attrEnd n c else s.attrError
  -- entity: 1337-1376
  | .ent k e, ch => s.entity k e ch

/-- All characters, one after the other. mxml-file.c:1440-2045. -/
def run (A : Heap → Nat) (s : MS) : List (Option Nat) → Res MS
  | [] => .ok s
  | c :: cs => do
    let s ← s.step A c
    run A s cs

end MS

/-! ### Leaving the function -/

/-- `while (parent->parent) parent = parent->parent` (2059-2060; `top` is NULL); with fuel. -/
def climbRoot (h : Heap) : Nat → Nat → Option (Res Nat)
  | 0, _ => none
  | k + 1, p =>
    match h p with
    | none => some .ub
    | some c =>
      match c.parent with
      | none => some (.ok p)
      | some q => climbRoot h k q

/-- `mxmlDelete` without its log. mxml-node.c:179-250. -/
def del (k : Nat) (h : Heap) (n : Option Nat) : Option (Res Heap) :=
  match delete k h n with
  | none => none
  | some .ub => some .ub
  | some (.ok r) => some (.ok r.1)

/-- The end of the function (2049-2089): memory and result.  It frees `buffer`, which must still be
    allocated; the attribute buffers must be freed by now (if not, they would be lost: counted as
    undefined here too).  A run that is still in a loop has no end. -/
def leave (k : Nat) (s : MS) : Option (Res (Heap × Option Nat)) :=
  match s.buf, s.an, s.av with
  | some _, none, none =>
    match s.pc with
    | .eof =>
      match s.parent with
      | none => some (.ok (s.h, s.first))
      | some p =>
        match climbRoot s.h k p with
        | none => none
        | some .ub => some .ub
        | some (.ok r) =>
          if p = r then some (.ok (s.h, some r))
          else
            match del k s.h s.first with
            | none => none
            | some .ub => some .ub
            | some (.ok h) => some (.ok (h, none))
    | .fail d =>
      match del k s.h d with
      | none => none
      | some .ub => some .ub
      | some (.ok h) =>
        match del k h s.first with
        | none => none
        | some .ub => some .ub
        | some (.ok h) => some (.ok (h, none))
    | _ => none
  | _, _, _ => some .ub

/-- `mxml_load_data` (1384-2090): after the input `getc` answers `EOF` as often as it is called. -/
def load (A : Heap → Nat) (k : Nat) (h : Heap) (l : List (Option Nat)) :
    Option (Res (Heap × Option Nat)) :=
  match (MS.init h).run A (l ++ [none, none, none]) with
  | .ub => some .ub
  | .ok s => leave k s

end Afs.ParseMem
