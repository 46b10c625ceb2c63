import Verif.Model.Xml.Parse
import Verif.Model.Res
/-!
# `mxml_string_getc` in memory (thirdparty/minixml/src/mxml-file.c:2365-2610)

`mem` is the memory from `*s` to the end of the object the string is in, terminator and
everything behind it included; a read behind the end of the object is undefined behaviour.
-/
namespace Afs.Xml
open Afs

/-- `ENCODE_UTF8`, `ENCODE_UTF16BE`, `ENCODE_UTF16LE` (mxml-file.c:31-33). -/
inductive Enc where
  | utf8 | be | le
deriving DecidableEq, Repr

/-- What one call gives: the character (`none` for `EOF`), the new encoding and the memory from the new `*s` on.
    mxml-file.c:2365-2610. -/
abbrev Getc := Option Nat × Enc × Bytes

/-- A read of a byte: undefined behaviour behind the end of the object. mxml-file.c:2365-2610. -/
def peek (mem : Bytes) (k : Bytes → UInt8 → Res Getc) : Res Getc :=
  match mem with
  | [] => .ub
  | c :: cs => k cs c

/-- The UTF-16 big endian case (2518-2557), `b` has been read already. -/
def getcBE (b : UInt8) (s : Bytes) : Res Getc :=
  peek s fun s c =>
    if badUnit (unit16 true b c) = true then .ok (none, .be, s)
    else if isHighUnit (unit16 true b c) = true then
      peek s fun s1 d =>
        if d = 0 then .ok (none, .be, s)
        else peek s1 fun s2 e => .ok (lowHalf (unit16 true b c) (some (unit16 true d e)), .be, s2)
    else .ok (some (unit16 true b c), .be, s)

/-- The UTF-16 little endian case (2559-2605), `b` has been read already.  A zero code unit is the
    end: `(*s)--` goes back to it. -/
def getcLE (b : UInt8) (s : Bytes) : Res Getc :=
  peek s fun s' c =>
    if unit16 false b c = 0 then .ok (none, .le, b :: s)
    else if badUnit (unit16 false b c) = true then .ok (none, .le, s')
    else if isHighUnit (unit16 false b c) = true then
      peek s' fun s1 d => peek s1 fun s2 e =>
        if e = 0 then .ok (none, .le, s')
        else .ok (lowHalf (unit16 false b c) (some (unit16 false d e)), .le, s2)
    else .ok (some (unit16 false b c), .le, s')

/-- The first byte of a string in UTF-16 (2375-2381, 2518-2606). -/
def getc16 (bigEndian : Bool) (mem : Bytes) : Res Getc :=
  peek mem fun s b =>
    if bigEndian then (if b = 0 then .ok (none, .be, mem) else getcBE b s)
    else getcLE b s

/-- A read of a continuation byte: `((*s)[i] & 0xc0) != 0x80` ends the call without moving on; `fail`
    is where `*s` stays. -/
def contByte (fail mem : Bytes) (k : Bytes → Nat → Res Getc) : Res Getc :=
  peek mem fun s c => if isCont c = true then k s (c.toNat % 64) else .ok (none, .utf8, fail)

/-- `mxml_string_getc` with `*encoding == ENCODE_UTF8` (2375-2516). -/
def getcUtf8 : Bytes → Res Getc
  | [] => .ub
  | b :: s =>
    if b = 0 then .ok (none, .utf8, b :: s)
    else if b.toNat < 128 then .ok (if badUnit b.toNat = true then none else some b.toNat, .utf8, s)
    else if b.toNat = 254 then
      peek s fun s' c => if c.toNat = 255 then getc16 true s' else .ok (none, .utf8, s)
    else if b.toNat = 255 then
      peek s fun s' c => if c.toNat = 254 then getc16 false s' else .ok (none, .utf8, s)
    else if 192 ≤ b.toNat ∧ b.toNat < 224 then
      contByte s s fun s1 x =>
        .ok (if b.toNat % 32 * 64 + x < 128 then none else some (b.toNat % 32 * 64 + x), .utf8, s1)
    else if 224 ≤ b.toNat ∧ b.toNat < 240 then
      match s with
      | [] => .ub
      | c :: s1 =>
        if isCont c = true then
          match s1 with
          | [] => .ub
          | d :: s2 =>
            if isCont d = true then
              if (b.toNat % 16 * 64 + c.toNat % 64) * 64 + d.toNat % 64 < 2048 then .ok (none, .utf8, s2)
              else if (b.toNat % 16 * 64 + c.toNat % 64) * 64 + d.toNat % 64 = 65279 then getcUtf8 s2
              else .ok (some ((b.toNat % 16 * 64 + c.toNat % 64) * 64 + d.toNat % 64), .utf8, s2)
            else .ok (none, .utf8, s)
        else .ok (none, .utf8, s)
    else if 240 ≤ b.toNat ∧ b.toNat < 248 then
      contByte s s fun s1 x => contByte s s1 fun s2 y => contByte s s2 fun s3 z =>
        .ok (if ((b.toNat % 8 * 64 + x) * 64 + y) * 64 + z < 65536 then none
          else some (((b.toNat % 8 * 64 + x) * 64 + y) * 64 + z), .utf8, s3)
    else .ok (none, .utf8, s)

/-- `mxml_string_getc` (2365-2610). -/
def stringGetc (enc : Enc) (mem : Bytes) : Res Getc :=
  match enc with
  | .utf8 => getcUtf8 mem
  | .be => getc16 true mem
  | .le => getc16 false mem

/-- `mxml_load_data` pulling its characters from memory: at most `n` calls of `mxml_string_getc`.
    `.ok none` when it has not returned by then. mxml-file.c:1440-2045. -/
def loadMem : Nat → PS → Enc → Bytes → Res (Option (Option Node))
  | 0, s, _, _ => .ok (match s.pc with | .done r => some r | _ => none)
  | n + 1, s, enc, mem =>
    match s.pc with
    | .done r => .ok (some r)
    | _ => (stringGetc enc mem).bind fun g => loadMem n (step s g.1) g.2.1 g.2.2

end Afs.Xml
