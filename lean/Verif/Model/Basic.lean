/-!
# Basic conventions of the model

`Bytes` models a non-NULL C string without its terminating NUL;
`Option Bytes` models a `char *` that may be NULL.
-/
namespace Afs

/-- A C string (`char *`, not NULL), as its bytes before the terminating NUL.
    Example: `char * checksum` in inc/tocfile.h:50-69. -/
abbrev Bytes := List UInt8

/-- `b! "abc"` is the byte list of a string literal (elaborated to explicit numerals). -/
macro "b!" s:str : term => do
  let bs := s.getString.toUTF8.toList
  let elems ← bs.toArray.mapM fun (b : UInt8) => `(($(Lean.quote b.toNat) : UInt8))
  `(([$elems,*] : Bytes))

/-- `s ? s : ""` — the idiom used before every `strcmp` in the `*_equal` functions
    (e.g. src/tocdatareel.c:214). -/
def orEmpty : Option Bytes → Bytes
  | none => []
  | some s => s

/-- `s == NULL || strlen(s) == 0` — the emptiness test of the `is_valid` functions
    (e.g. src/tocfile.c:1364-1422). -/
def nullOrEmpty : Option Bytes → Bool
  | none => true
  | some s => s.isEmpty

/-- 2^32, the modulus of C `unsigned int`. -/
def two32 : Nat := 4294967296

/-- Reduction performed by unsigned 32-bit arithmetic. -/
def u32 (n : Nat) : Nat := n % two32

/-- Conversion `int` → `unsigned int`.
    Used where the code assigns between the two, e.g. src/tocfiles.c:1575-1579, src/tocdatareel.c:757-788. -/
def uOfInt (i : Int) : Nat := (i % (two32 : Int)).toNat

/-- Conversion `unsigned int` → `int` (two's complement, implementation-defined but
    universal). Example: `(int)` counts in src/tocfiles.c:389-407. -/
def intOfU (n : Nat) : Int := if n % two32 < 2147483648 then (n % two32 : Nat) else ((n % two32 : Nat) : Int) - (two32 : Int)

/-- `INT_MAX` of the 32-bit `int` (used by the `int` arithmetic of e.g. inc/tocfile.h:50-69). -/
def INT_MAX : Int := 2147483647
/-- `INT_MIN` of the same type; signed overflow is undefined (e.g. src/tocdatareel.c:1241-1252 adds frame numbers). -/
def INT_MIN : Int := -2147483648

end Afs
