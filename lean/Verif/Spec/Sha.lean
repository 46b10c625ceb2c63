import Verif.Model.Basic
/-!
# FIPS 180-4, transcribed

Words are `BitVec 32`; `+` is addition modulo 2^32.  Nothing here mentions the model of the
implementation.
-/
namespace Afs.Spec

/-- Section 5.1.1: append the bit 1, the least number of 0 bits and the 64-bit big-endian
    bit count, giving a multiple of 512 bits (messages are byte strings here). -/
def padZeros (len : Nat) : Nat := (119 - len % 64) % 64

/-- `n`, big endian, in 8 bytes. -/
def be64 (n : Nat) : Bytes := (List.range 8).map fun i => UInt8.ofNat (n / 256 ^ (7 - i))

def pad (msg : Bytes) : Bytes :=
  msg ++ [0x80] ++ List.replicate (padZeros msg.length) 0 ++ be64 (8 * msg.length)

/-- Section 5.2.1: the 512-bit blocks (a trailing incomplete block is not a block). -/
def blocks (l : Bytes) : List Bytes :=
  if 64 ≤ l.length then l.take 64 :: blocks (l.drop 64) else []
termination_by l.length
decreasing_by simp; omega

/-- Big-endian 32-bit word number `t` of a block. -/
def word (M : Bytes) (t : Nat) : BitVec 32 :=
  (M.getD (4 * t) 0).toBitVec ++ (M.getD (4 * t + 1) 0).toBitVec ++
    (M.getD (4 * t + 2) 0).toBitVec ++ (M.getD (4 * t + 3) 0).toBitVec

/-- Big-endian bytes of a word. -/
def wordBytes (x : BitVec 32) : Bytes :=
  [UInt8.ofBitVec (x.extractLsb' 24 8), UInt8.ofBitVec (x.extractLsb' 16 8),
   UInt8.ofBitVec (x.extractLsb' 8 8), UInt8.ofBitVec (x.extractLsb' 0 8)]

/-- Section 4.1: `Ch`, `Parity`, `Maj`. -/
def Ch (x y z : BitVec 32) : BitVec 32 := (x &&& y) ^^^ (~~~x &&& z)
def Parity (x y z : BitVec 32) : BitVec 32 := x ^^^ y ^^^ z
def Maj (x y z : BitVec 32) : BitVec 32 := (x &&& y) ^^^ (x &&& z) ^^^ (y &&& z)

/-! ## SHA-1 (sections 4.1.1, 4.2.1, 5.3.1, 6.1.2) -/

structure H5 where
  a : BitVec 32
  b : BitVec 32
  c : BitVec 32
  d : BitVec 32
  e : BitVec 32
deriving DecidableEq

def sha1f (t : Nat) : BitVec 32 → BitVec 32 → BitVec 32 → BitVec 32 :=
  if t < 20 then Ch else if t < 40 then Parity else if t < 60 then Maj else Parity

def sha1K (t : Nat) : BitVec 32 :=
  if t < 20 then 0x5a827999 else if t < 40 then 0x6ed9eba1
  else if t < 60 then 0x8f1bbcdc else 0xca62c1d6

def sha1W (M : Bytes) (t : Nat) : BitVec 32 :=
  if t < 16 then word M t
  else (sha1W M (t - 3) ^^^ sha1W M (t - 8) ^^^ sha1W M (t - 14) ^^^ sha1W M (t - 16)).rotateLeft 1
termination_by t

def sha1Step (M : Bytes) (s : H5) (t : Nat) : H5 :=
  { a := s.a.rotateLeft 5 + sha1f t s.b s.c s.d + s.e + sha1K t + sha1W M t
    b := s.a
    c := s.b.rotateLeft 30
    d := s.c
    e := s.d }

def sha1Block (H : H5) (M : Bytes) : H5 :=
  let s := (List.range 80).foldl (sha1Step M) H
  ⟨H.a + s.a, H.b + s.b, H.c + s.c, H.d + s.d, H.e + s.e⟩

def sha1H0 : H5 := ⟨0x67452301, 0xefcdab89, 0x98badcfe, 0x10325476, 0xc3d2e1f0⟩

/-- The SHA-1 digest of a byte string. -/
def sha1 (msg : Bytes) : Bytes :=
  let H := (blocks (pad msg)).foldl sha1Block sha1H0
  wordBytes H.a ++ wordBytes H.b ++ wordBytes H.c ++ wordBytes H.d ++ wordBytes H.e

/-! ## SHA-256 (sections 4.1.2, 4.2.2, 5.3.3, 6.2.2) -/

structure H8 where
  a : BitVec 32
  b : BitVec 32
  c : BitVec 32
  d : BitVec 32
  e : BitVec 32
  f : BitVec 32
  g : BitVec 32
  h : BitVec 32
deriving DecidableEq

def Sigma0 (x : BitVec 32) : BitVec 32 := x.rotateRight 2 ^^^ x.rotateRight 13 ^^^ x.rotateRight 22
def Sigma1 (x : BitVec 32) : BitVec 32 := x.rotateRight 6 ^^^ x.rotateRight 11 ^^^ x.rotateRight 25
def sigma0 (x : BitVec 32) : BitVec 32 := x.rotateRight 7 ^^^ x.rotateRight 18 ^^^ x >>> 3
def sigma1 (x : BitVec 32) : BitVec 32 := x.rotateRight 17 ^^^ x.rotateRight 19 ^^^ x >>> 10

/-- The first 64 primes (used to define the constants). -/
def primes64 : List Nat :=
  [2, 3, 5, 7, 11, 13, 17, 19, 23, 29, 31, 37, 41, 43, 47, 53, 59, 61, 67, 71, 73, 79, 83, 89, 97,
   101, 103, 107, 109, 113, 127, 131, 137, 139, 149, 151, 157, 163, 167, 173, 179, 181, 191, 193,
   197, 199, 211, 223, 227, 229, 233, 239, 241, 251, 257, 263, 269, 271, 277, 281, 283, 293, 307,
   311]

/-- Largest `c ≤ lo + 2^bits - 1` above `lo` with `c^3 ≤ n`, by bisection on the bits. -/
def cbrtBits (n : Nat) : Nat → Nat → Nat
  | 0, lo => lo
  | b + 1, lo => if (lo + 2 ^ b) ^ 3 ≤ n then cbrtBits n b (lo + 2 ^ b) else cbrtBits n b lo

/-- Largest `c` above `lo` with `c^2 ≤ n`, by bisection on the bits. -/
def sqrtBits (n : Nat) : Nat → Nat → Nat
  | 0, lo => lo
  | b + 1, lo => if (lo + 2 ^ b) ^ 2 ≤ n then sqrtBits n b (lo + 2 ^ b) else sqrtBits n b lo

/-- Section 4.2.2: "the first thirty-two bits of the fractional parts of the cube roots of the
    first sixty-four prime numbers": `⌊∛p · 2^32⌋ mod 2^32`. -/
def sha256K (t : Nat) : BitVec 32 :=
  BitVec.ofNat 32 (cbrtBits (primes64.getD t 0 * 2 ^ 96) 36 0)

def sha256W (M : Bytes) (t : Nat) : BitVec 32 :=
  if t < 16 then word M t
  else sigma1 (sha256W M (t - 2)) + sha256W M (t - 7) + sigma0 (sha256W M (t - 15)) +
    sha256W M (t - 16)
termination_by t

def sha256Step (M : Bytes) (s : H8) (t : Nat) : H8 :=
  let T1 := s.h + Sigma1 s.e + Ch s.e s.f s.g + sha256K t + sha256W M t
  let T2 := Sigma0 s.a + Maj s.a s.b s.c
  { a := T1 + T2, b := s.a, c := s.b, d := s.c, e := s.d + T1, f := s.e, g := s.f, h := s.g }

def sha256Block (H : H8) (M : Bytes) : H8 :=
  let s := (List.range 64).foldl (sha256Step M) H
  ⟨H.a + s.a, H.b + s.b, H.c + s.c, H.d + s.d, H.e + s.e, H.f + s.f, H.g + s.g, H.h + s.h⟩

/-- Section 5.3.3: the first thirty-two bits of the fractional parts of the square roots of the
    first eight primes. -/
def sha256H0word (t : Nat) : BitVec 32 :=
  BitVec.ofNat 32 (sqrtBits (primes64.getD t 0 * 2 ^ 64) 36 0)

def sha256H0 : H8 :=
  ⟨sha256H0word 0, sha256H0word 1, sha256H0word 2, sha256H0word 3,
   sha256H0word 4, sha256H0word 5, sha256H0word 6, sha256H0word 7⟩

/-- The SHA-256 digest of a byte string. -/
def sha256 (msg : Bytes) : Bytes :=
  let H := (blocks (pad msg)).foldl sha256Block sha256H0
  wordBytes H.a ++ wordBytes H.b ++ wordBytes H.c ++ wordBytes H.d ++
    wordBytes H.e ++ wordBytes H.f ++ wordBytes H.g ++ wordBytes H.h

end Afs.Spec
