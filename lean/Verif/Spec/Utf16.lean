import Verif.Model.Basic
/-!
# UTF-16 (independent of the code)
-/
namespace Afs.Spec
open Afs

/-- The code units of a character: itself below U+10000, else a pair of surrogates. -/
def codeUnits (c : Char) : List Nat :=
  if c.toNat < 0x10000 then [c.toNat]
  else [0xD800 + (c.toNat - 0x10000) / 0x400, 0xDC00 + (c.toNat - 0x10000) % 0x400]

/-- A code unit as two bytes, high one first (big endian) or low one first. -/
def unitBytes (bigEndian : Bool) (u : Nat) : Bytes :=
  if bigEndian then [UInt8.ofNat (u / 256), UInt8.ofNat (u % 256)] else [UInt8.ofNat (u % 256), UInt8.ofNat (u / 256)]

/-- The byte order mark. -/
def byteOrderMark (bigEndian : Bool) : Bytes := if bigEndian then [0xFE, 0xFF] else [0xFF, 0xFE]

/-- A UTF-16 file with byte order mark. -/
def utf16File (bigEndian : Bool) (cs : List Char) : Bytes :=
  byteOrderMark bigEndian ++ (cs.flatMap codeUnits).flatMap (unitBytes bigEndian)

/-- A UTF-8 file. -/
def utf8File (cs : List Char) : Bytes := cs.flatMap String.utf8EncodeChar

/-- The characters whose second surrogate is DFFF: U+103FF, U+107FF, …, one in 1024 of those above U+FFFF. -/
def EndsDFFF (c : Char) : Prop := 0x10000 ≤ c.toNat ∧ (c.toNat - 0x10000) % 0x400 = 0x3FF

instance (c : Char) : Decidable (EndsDFFF c) := by unfold EndsDFFF; infer_instance

/-- The byte pairs FE FF and FF FE, the byte order marks of UTF-16, are nowhere in the string. -/
def NoMark (s : Bytes) : Prop := ¬ [0xFE, 0xFF] <:+: s ∧ ¬ [0xFF, 0xFE] <:+: s

/-- What the string reader makes of a sequence of UTF-16 code units, character by character; `none` is a
    failed read.  Control characters fail; a first surrogate goes together with the next code unit, if that
    is at least U+0100 (one below is left for the next read), and gives a character when that is a second
    surrogate, other than DFFF. -/
def charsOfUnits : List Nat → List (Option Nat)
  | [] => []
  | u :: us =>
    if u < 0x20 ∧ u ≠ 9 ∧ u ≠ 10 ∧ u ≠ 13 then none :: charsOfUnits us
    else if 0xD800 ≤ u ∧ u < 0xDC00 then
      match us with
      | [] => [none]
      | l :: r =>
        if l < 0x100 then none :: charsOfUnits (l :: r)
        else (if 0xDC00 ≤ l ∧ l < 0xDFFF then some ((u - 0xD800) * 0x400 + (l - 0xDC00) + 0x10000) else none) :: charsOfUnits r
    else some u :: charsOfUnits us

/-- How a UTF-16 string ends: with a zero code unit when it is little endian; a zero byte where the first
    byte of a code unit is expected when it is big endian. -/
def endOf16 (bigEndian : Bool) : Bytes := if bigEndian then [0] else [0, 0]

/-- Code units that do not end the string. -/
def GoesOn (bigEndian : Bool) (us : List Nat) : Prop :=
  ∀ u ∈ us, u < 0x10000 ∧ (if bigEndian then 0x100 ≤ u else u ≠ 0)

end Afs.Spec
