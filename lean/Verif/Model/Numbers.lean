import Verif.Model.Basic
/-!
# Printing and parsing of numbers

`sprintf` with `%d`, `%u`, `%lld`, `%06d`, `%ux%u` as used by src/xmlutils.c:317-358,
src/tocfile.c:1476-1520, src/tocfilepreviewpage.c:588-599 and the other `*_save_xml`
functions; `atoi`, `strtol`, `sscanf("%ux%u")` as used by the `*_load_xml` functions.

The C library functions are modelled as glibc on a 64-bit platform implements them:
`atoi(s)` is `(int)strtol(s, NULL, 10)`, `long` has 64 bits and saturates, and the conversion
to `int` keeps the low 32 bits.  Locale is "C".
-/
namespace Afs

/-- The digit `'0' + n`. -/
def digitByte (n : Nat) : UInt8 := UInt8.ofNat (48 + n)

/-- Decimal digits of `n`, most significant first; `fuel` bounds their number.
    glibc, used by the `%d`/`%u` calls of e.g. src/tocfile.c:1513-1517. -/
def decFuel : Nat → Nat → Bytes
  | 0, _ => []
  | fuel + 1, n =>
    if n < 10 then [digitByte n] else decFuel fuel (n / 10) ++ [digitByte (n % 10)]

/-- `%u` (and `%d`, `%lld` of a non-negative number).
    glibc; calls e.g. src/tocfilepreviewpage.c:588-590. -/
def printNat (n : Nat) : Bytes := decFuel (n + 1) n

/-- `%d`, `%lld`. glibc; calls e.g. src/tocfile.c:1513-1517. -/
def printInt (i : Int) : Bytes := if i < 0 then 45 :: printNat i.natAbs else printNat i.natAbs

/-- `%06d`: zeros between the sign and the digits up to a total width of 6
    (src/tocfile.c:1510-1517). -/
def printInt06 (i : Int) : Bytes :=
  if i < 0 then 45 :: (List.replicate (5 - (printNat i.natAbs).length) 48 ++ printNat i.natAbs)
  else List.replicate (6 - (printNat i.natAbs).length) 48 ++ printNat i.natAbs

/-- `isspace` in the C locale. glibc; used by `atoi` in src/xmlutils.c:243, 275, 394. -/
def isSpaceByte (c : UInt8) : Bool := c == 32 || (9 ≤ c && c ≤ 13)

/-- `isdigit`. glibc; used by `atoi` in src/xmlutils.c:243, 275, 394. -/
def isDigitByte (c : UInt8) : Bool := 48 ≤ c && c ≤ 57

/-- The digits at the front of a string, folded into a number, and what follows them.
    glibc; used by `atoi` in src/xmlutils.c:243, 275, 394. -/
def readDigits (acc : Nat) : Bytes → Nat × Bytes
  | [] => (acc, [])
  | c :: cs => if isDigitByte c then readDigits (acc * 10 + (c.toNat - 48)) cs else (acc, c :: cs)

/-- White space skipped by `strtol` and `scanf`.
    glibc; used by `atoi` in src/xmlutils.c:243, 275, 394. -/
def skipSpace : Bytes → Bytes
  | [] => []
  | c :: cs => if isSpaceByte c then skipSpace cs else c :: cs

/-- Optional sign, then digits: negative?, value, rest.  `none` without a digit.
    glibc; used by `atoi` in src/xmlutils.c:243, 275, 394. -/
def readSigned (s : Bytes) : Option (Bool × Nat × Bytes) :=
  match skipSpace s with
  | [] => none
  | c :: cs =>
    let neg := c == 45
    let body := if c == 45 || c == 43 then cs else c :: cs
    match body with
    | [] => none
    | d :: ds => if isDigitByte d then
        let r := readDigits 0 (d :: ds)
        some (neg, r.1, r.2)
      else none

/-- `strtol(s, NULL, 10)` with a 64-bit saturating `long`. -/
def strtol (s : Bytes) : Int :=
  match readSigned s with
  | none => 0
  | some (neg, n, _) =>
    if neg then (if n ≤ 9223372036854775808 then -(n : Int) else -9223372036854775808)
    else (if n ≤ 9223372036854775807 then (n : Int) else 9223372036854775807)

/-- Conversion `long` → `int`: the low 32 bits. -/
def intOfLong (i : Int) : Int := intOfU (uOfInt i)

/-- `atoi`. glibc; calls in src/xmlutils.c:243, 275, 394. -/
def atoi (s : Bytes) : Int := intOfLong (strtol s)

/-- `%u` of `sscanf`: `strtoul` with a 64-bit saturating `unsigned long`, low 32 bits kept;
    value and rest, `none` when nothing matches. -/
def scanU (s : Bytes) : Option (Nat × Bytes) :=
  match readSigned s with
  | none => none
  | some (neg, n, r) =>
    let v := if n < 18446744073709551616 then (if neg then (18446744073709551616 - n) % 18446744073709551616 else n)
      else 18446744073709551615
    some (u32 v, r)

/-- `sscanf(text, "%ux%u", x, y) == 2`: the two numbers, else `none`
    (src/tocfilepreviewpage.c:772).  Partial matches store into `*x` only (`Page.storedX`). -/
def scanUxU (s : Bytes) : Option (Nat × Nat) :=
  match scanU s with
  | none => none
  | some (x, r) =>
    match r with
    | [] => none
    | c :: r => if c = 120 then
        match scanU r with
        | none => none
        | some (y, _) => some (x, y)
      else none

end Afs
