import Verif.Model.Hash
/-!
# `src/sha1hash.c`

Chaining words are `unsigned long`, 64 bits wide on the platforms the library is built for
with GCC; nothing masks them back to 32 bits, so the upper halves fill with carries.
-/
namespace Afs

/-- `state[5]` of `struct afs_sha1_state` (inc/sha1hash.h:74), also the locals
    `a, b, c, d, e` of `compress`. -/
structure Sha1Words where
  a : BitVec 64
  b : BitVec 64
  c : BitVec 64
  d : BitVec 64
  e : BitVec 64

/-- `rotl` (src/sha1hash.c:592-600). -/
def rotl (value : BitVec 32) (shift : Nat) : BitVec 32 :=
  let shift := shift % 32
  if shift = 0 then value else (value <<< shift) ||| (value >>> (32 - shift))

/-- `AFS_ROL` / `AFS_ROLc` (inc/platform/io.h:30-37): the `unsigned long` argument is converted to
    `unsigned int`, the result back. -/
def rol64 (x : BitVec 64) (n : Nat) : BitVec 64 := (rotl (x.setWidth 32) n).setWidth 64

/-- `AFS_F0` (src/sha1hash.c:66). -/
def sha1F0 (x y z : BitVec 64) : BitVec 64 := z ^^^ (x &&& (y ^^^ z))
/-- `AFS_F1` (src/sha1hash.c:67). -/
def sha1F1 (x y z : BitVec 64) : BitVec 64 := x ^^^ y ^^^ z
/-- `AFS_F2` (src/sha1hash.c:68). -/
def sha1F2 (x y z : BitVec 64) : BitVec 64 := (x &&& y) ||| (z &&& (x ||| y))
/-- `AFS_F3` (src/sha1hash.c:69). -/
def sha1F3 (x y z : BitVec 64) : BitVec 64 := x ^^^ y ^^^ z

/-- The macros `FF0`..`FF3` (src/sha1hash.c:627-630): the new `e` and the new `b`. -/
def sha1FF (F : BitVec 64 → BitVec 64 → BitVec 64 → BitVec 64) (K : BitVec 64)
    (a b c d e w : BitVec 64) : BitVec 64 × BitVec 64 :=
  (rol64 a 5 + F b c d + e + w + K, rol64 b 30)

/-- `W[i]`. src/sha1hash.c:606-666. -/
def wAt (W : List (BitVec 64)) (i : Nat) : BitVec 64 := W.getD i 0

/-- One iteration of the round loops (src/sha1hash.c:633-639, 642-648, 651-657, 660-666): five
    macro calls with the variables rotated. -/
def sha1Body (F : BitVec 64 → BitVec 64 → BitVec 64 → BitVec 64) (K : BitVec 64)
    (W : List (BitVec 64)) (i : Nat) (s : Sha1Words) : Sha1Words :=
  let ⟨a, b, c, d, e⟩ := s
  let (e, b) := sha1FF F K a b c d e (wAt W i)
  let (d, a) := sha1FF F K e a b c d (wAt W (i + 1))
  let (c, e) := sha1FF F K d e a b c (wAt W (i + 2))
  let (b, d) := sha1FF F K c d e a b (wAt W (i + 3))
  let (a, c) := sha1FF F K b c d e a (wAt W (i + 4))
  ⟨a, b, c, d, e⟩

/-- Filling `W[0..15]` and the expansion loop (src/sha1hash.c:606-622).
    Simplification: the array grows by appending instead of being overwritten in place. -/
def sha1Schedule (buf : Bytes) : List (BitVec 64) :=
  (List.range' 16 64).foldl
    (fun W i =>
      W ++ [rol64 (wAt W (i - 3) ^^^ wAt W (i - 8) ^^^ wAt W (i - 14) ^^^ wAt W (i - 16)) 1])
    ((List.range 16).map fun i => load32H buf (4 * i))

/-- `compress` (src/sha1hash.c:602-681). -/
def sha1Compress (st : Sha1Words) (buf : Bytes) : Sha1Words :=
  let W := sha1Schedule buf
  let s := st
  let s := [0, 5, 10, 15].foldl (fun s i => sha1Body sha1F0 0x5a827999 W i s) s
  let s := [20, 25, 30, 35].foldl (fun s i => sha1Body sha1F1 0x6ed9eba1 W i s) s
  let s := [40, 45, 50, 55].foldl (fun s i => sha1Body sha1F2 0x8f1bbcdc W i s) s
  let s := [60, 65, 70, 75].foldl (fun s i => sha1Body sha1F3 0xca62c1d6 W i s) s
  ⟨st.a + s.a, st.b + s.b, st.c + s.c, st.d + s.d, st.e + s.e⟩

/-- `afs_sha1_init` (src/sha1hash.c:366-381); `buf` is what the caller's memory held. -/
def sha1Init (buf : Bytes) : MdState Sha1Words :=
  { state := ⟨0x67452301, 0xefcdab89, 0x98badcfe, 0x10325476, 0xc3d2e1f0⟩
    curlen := 0, length := 0, buf := buf }

/-- `afs_sha1_process` (src/sha1hash.c:395-442) for non-NULL arguments: the new state, or
    the error code (the state is then unchanged). -/
def sha1Process (md : MdState Sha1Words) (inp : Bytes) : Except Nat (MdState Sha1Words) :=
  if md.curlen > 64 then .error CRYPT_INVALID_ARG
  else .ok (mdLoop sha1Compress md inp)

/-- `afs_sha1_done` (src/sha1hash.c:456-507) for non-NULL arguments: the 20 bytes
    written to `out`, or the error code. -/
def sha1Done (md : MdState Sha1Words) : Except Nat Bytes :=
  if md.curlen ≥ 64 then .error CRYPT_INVALID_ARG
  else
    let s := (mdFinish sha1Compress md).state
    .ok (store32H s.a ++ store32H s.b ++ store32H s.c ++ store32H s.d ++ store32H s.e)

end Afs
