import Verif.Model.Basic
/-!
# Characters: `mxml_string_getc`, `mxml_file_getc`, `mxml_add_char`
(thirdparty/minixml/src/mxml-file.c)
-/
namespace Afs.Xml
open Afs

/-- `mxml_bad_char` (mxml-file.c:40). -/
def badChar (ch : Int) : Bool := ch < 32 && ch != 10 && ch != 13 && ch != 9

/-- `mxml_isspace` (mxml-file.c:74-78). -/
def isSpace (ch : Nat) : Bool := ch == 32 || ch == 9 || ch == 13 || ch == 10

/-- `(c & 0xc0) == 0x80`. -/
def isCont (c : UInt8) : Bool := 128 ≤ c.toNat && c.toNat < 192

/-- The sequence of results of successive `mxml_string_getc` calls on a string
    (mxml-file.c:2365-2610), `none` = `EOF`; after the list has ended every further call
    returns `EOF`.  Masks and shifts are written as remainders, products and sums.
    Simplification: the switch to UTF-16 after the bytes FE FF / FF FE (2401-2428) is not
    in this function; those bytes give `EOF`, as any other invalid lead byte does.  The function
    with that switch and with the reads behind the end of the text is `stringGetc`
    (Model/Xml/StringGetc.lean); C53 shows when the two agree. -/
def decode : Bytes → List (Option Nat)
  | [] => []
  | b :: bs =>
    if b.toNat < 128 then
      (if badChar b.toNat then none else some b.toNat) :: decode bs
    else if 192 ≤ b.toNat ∧ b.toNat < 224 then
      match bs with
      | c :: cs =>
        if isCont c = true then
          let ch := b.toNat % 32 * 64 + c.toNat % 64
          (if ch < 128 then none else some ch) :: decode cs
        else none :: decode (c :: cs)
      | [] => [none]
    else if 224 ≤ b.toNat ∧ b.toNat < 240 then
      match bs with
      | c :: d :: ds =>
        if isCont c = true ∧ isCont d = true then
          let ch := (b.toNat % 16 * 64 + c.toNat % 64) * 64 + d.toNat % 64
          if ch < 2048 then none :: decode ds
          else if ch = 65279 then decode ds
          else some ch :: decode ds
        else none :: decode (c :: d :: ds)
      | [c] => none :: decode [c]
      | [] => [none]
    else if 240 ≤ b.toNat ∧ b.toNat < 248 then
      match bs with
      | c :: d :: e :: es =>
        if isCont c = true ∧ isCont d = true ∧ isCont e = true then
          let ch := ((b.toNat % 8 * 64 + c.toNat % 64) * 64 + d.toNat % 64) * 64 + e.toNat % 64
          (if ch < 65536 then none else some ch) :: decode es
        else none :: decode (c :: d :: e :: es)
      | [c, d] => none :: decode [c, d]
      | [c] => none :: decode [c]
      | [] => [none]
    else none :: decode bs

/-- A code unit from two bytes: `(ch << 8) | getc(fp)` (mxml-file.c:1245, 1260) or
    `ch | (getc(fp) << 8)` (1274, 1289). -/
def unit16 (be : Bool) (a b : UInt8) : Nat := if be then a.toNat * 256 + b.toNat else b.toNat * 256 + a.toNat

/-- `ch >= 0xd800 && ch <= 0xdbff` (1253, 1282). -/
def isHighUnit (ch : Nat) : Bool := 55296 ≤ ch && ch ≤ 56319

/-- The second half is accepted unless `lch < 0xdc00 || lch >= 0xdfff` (1262, 1291). -/
def isLowUnit (lch : Nat) : Bool := !(lch < 56320 || 57343 ≤ lch)

/-- `(((ch & 0x3ff) << 10) | (lch & 0x3ff)) + 0x10000` (1265, 1294). -/
def pairUnits (ch lch : Nat) : Nat := ch % 1024 * 1024 + lch % 1024 + 65536

/-- `mxml_bad_char(ch)` for a code unit (1247, 1276). -/
@[irreducible] def badUnit (ch : Nat) : Bool := badChar ch

/-- The second half of a pair: the character, or `EOF` when it is missing, incomplete or not accepted (1259-1265, 1288-1294). -/
def lowHalf (ch : Nat) : Option Nat → Option Nat
  | some lch => if isLowUnit lch = true then some (pairUnits ch lch) else none
  | none => none

/-- The bytes of the file two by two.  `none`: the second byte is missing; `getc` then gives `EOF` (-1) and
    the code unit is negative (1245, 1260, 1274, 1289). -/
def units16 (be : Bool) : Bytes → List (Option Nat)
  | [] => []
  | [_] => [none]
  | a :: b :: r => some (unit16 be a b) :: units16 be r

/-- `mxml_file_getc` in the modes `ENCODE_UTF16BE` and `ENCODE_UTF16LE` (mxml-file.c:1240-1296) on the
    code units.  A negative code unit is a bad character. -/
def decodeUnits : List (Option Nat) → List (Option Nat)
  | [] => []
  | none :: r => none :: decodeUnits r
  | some ch :: r =>
    if badUnit ch = true then none :: decodeUnits r
    else if isHighUnit ch = true then
      match r with
      | l :: r' => lowHalf ch l :: decodeUnits r'
      | [] => [none]
    else some ch :: decodeUnits r

/-- The two steps together. mxml-file.c:1230-1305, 2500-2605. -/
def decode16 (be : Bool) (s : Bytes) : List (Option Nat) := decodeUnits (units16 be s)

/-- The same for `mxml_file_getc` (mxml-file.c:1094-1304): a byte that fails the
    continuation test has been consumed.  The bytes FE FF and FF FE switch to UTF-16. -/
def decodeFile : Bytes → List (Option Nat)
  | [] => []
  | b :: bs =>
    if b.toNat < 128 then
      (if badChar b.toNat then none else some b.toNat) :: decodeFile bs
    else if 192 ≤ b.toNat ∧ b.toNat < 224 then
      match bs with
      | c :: cs =>
        if isCont c = true then
          let ch := b.toNat % 32 * 64 + c.toNat % 64
          (if ch < 128 then none else some ch) :: decodeFile cs
        else none :: decodeFile cs
      | [] => [none]
    else if 224 ≤ b.toNat ∧ b.toNat < 240 then
      match bs with
      | c :: d :: ds =>
        if isCont c = true then
          if isCont d = true then
            let ch := (b.toNat % 16 * 64 + c.toNat % 64) * 64 + d.toNat % 64
            if ch < 2048 then none :: decodeFile ds
            else if ch = 65279 then decodeFile ds
            else some ch :: decodeFile ds
          else none :: decodeFile ds
        else none :: decodeFile (d :: ds)
      | [_] => [none]
      | [] => [none]
    else if 240 ≤ b.toNat ∧ b.toNat < 248 then
      match bs with
      | c :: d :: e :: es =>
        if isCont c = true then
          if isCont d = true then
            if isCont e = true then
              let ch := ((b.toNat % 8 * 64 + c.toNat % 64) * 64 + d.toNat % 64) * 64 + e.toNat % 64
              (if ch < 65536 then none else some ch) :: decodeFile es
            else none :: decodeFile es
          else none :: decodeFile (e :: es)
        else none :: decodeFile (d :: e :: es)
      | [c, d] => if isCont c = true then [none] else none :: decodeFile [d]
      | [_] => [none]
      | [] => [none]
    else if b.toNat = 254 then
      match bs with
      | c :: cs => if c.toNat = 255 then decode16 true cs else none :: decodeFile cs
      | [] => [none]
    else if b.toNat = 255 then
      match bs with
      | c :: cs => if c.toNat = 254 then decode16 false cs else none :: decodeFile cs
      | [] => [none]
    else none :: decodeFile bs

/-- `mxml_add_char` (mxml-file.c:594-667): the bytes appended to the buffer.  The growth of the
    buffer (603-625) is not modelled: allocation never fails. -/
def addChar (ch : Nat) : Bytes :=
  if ch < 128 then [UInt8.ofNat ch]
  else if ch < 2048 then [UInt8.ofNat (192 ||| ch / 64), UInt8.ofNat (128 ||| ch % 64)]
  else if ch < 65536 then
    [UInt8.ofNat (224 ||| ch / 4096), UInt8.ofNat (128 ||| ch / 64 % 64),
     UInt8.ofNat (128 ||| ch % 64)]
  else
    [UInt8.ofNat (240 ||| ch / 262144), UInt8.ofNat (128 ||| ch / 4096 % 64),
     UInt8.ofNat (128 ||| ch / 64 % 64), UInt8.ofNat (128 ||| ch % 64)]

end Afs.Xml
