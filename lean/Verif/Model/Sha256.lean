import Verif.Model.Sha1
/-!
# `src/sha256hash.c`
-/
namespace Afs

/-- `state[8]` of `struct afs_sha256_state` (inc/sha256hash.h), also the local `S[8]`. -/
structure Sha256Words where
  s0 : BitVec 64
  s1 : BitVec 64
  s2 : BitVec 64
  s3 : BitVec 64
  s4 : BitVec 64
  s5 : BitVec 64
  s6 : BitVec 64
  s7 : BitVec 64

/-- `rotr` (src/sha256hash.c:715-724). -/
def rotr (value : BitVec 32) (shift : Nat) : BitVec 32 :=
  let shift := shift % 32
  if shift = 0 then value else (value >>> shift) ||| (value <<< (32 - shift))

/-- `AFS_S` = `AFS_RORc` (src/sha256hash.c:48-49, 53), through `unsigned int` and back. -/
def ror64 (x : BitVec 64) (n : Nat) : BitVec 64 := (rotr (x.setWidth 32) n).setWidth 64

/-- `AFS_R` (src/sha256hash.c:54). -/
def shr64 (x : BitVec 64) (n : Nat) : BitVec 64 := (x &&& 0xFFFFFFFF#64) >>> n

/-- `AFS_Ch` (src/sha256hash.c:51). -/
def sha2Ch (x y z : BitVec 64) : BitVec 64 := z ^^^ (x &&& (y ^^^ z))
/-- `AFS_Maj` (src/sha256hash.c:52). -/
def sha2Maj (x y z : BitVec 64) : BitVec 64 := ((x ||| y) &&& z) ||| (x &&& y)
/-- `AFS_Sigma0` (src/sha256hash.c:55). -/
def sha2Sigma0 (x : BitVec 64) : BitVec 64 := ror64 x 2 ^^^ ror64 x 13 ^^^ ror64 x 22
/-- `AFS_Sigma1` (src/sha256hash.c:56). -/
def sha2Sigma1 (x : BitVec 64) : BitVec 64 := ror64 x 6 ^^^ ror64 x 11 ^^^ ror64 x 25
/-- `AFS_Gamma0` (src/sha256hash.c:57). -/
def sha2Gamma0 (x : BitVec 64) : BitVec 64 := ror64 x 7 ^^^ ror64 x 18 ^^^ shr64 x 3
/-- `AFS_Gamma1` (src/sha256hash.c:58). -/
def sha2Gamma1 (x : BitVec 64) : BitVec 64 := ror64 x 17 ^^^ ror64 x 19 ^^^ shr64 x 10

/-- The last argument of the 64 `RND` calls, in order (src/sha256hash.c:639-702). -/
def sha256KTable : List (BitVec 64) :=
  [
   0x428a2f98, 0x71374491, 0xb5c0fbcf, 0xe9b5dba5,
   0x3956c25b, 0x59f111f1, 0x923f82a4, 0xab1c5ed5,
   0xd807aa98, 0x12835b01, 0x243185be, 0x550c7dc3,
   0x72be5d74, 0x80deb1fe, 0x9bdc06a7, 0xc19bf174,
   0xe49b69c1, 0xefbe4786, 0x0fc19dc6, 0x240ca1cc,
   0x2de92c6f, 0x4a7484aa, 0x5cb0a9dc, 0x76f988da,
   0x983e5152, 0xa831c66d, 0xb00327c8, 0xbf597fc7,
   0xc6e00bf3, 0xd5a79147, 0x06ca6351, 0x14292967,
   0x27b70a85, 0x2e1b2138, 0x4d2c6dfc, 0x53380d13,
   0x650a7354, 0x766a0abb, 0x81c2c92e, 0x92722c85,
   0xa2bfe8a1, 0xa81a664b, 0xc24b8b70, 0xc76c51a3,
   0xd192e819, 0xd6990624, 0xf40e3585, 0x106aa070,
   0x19a4c116, 0x1e376c08, 0x2748774c, 0x34b0bcb5,
   0x391c0cb3, 0x4ed8aa4a, 0x5b9cca4f, 0x682e6ff3,
   0x748f82ee, 0x78a5636f, 0x84c87814, 0x8cc70208,
   0x90befffa, 0xa4506ceb, 0xbef9a3f7, 0xc67178f2
  ]

/-- The macro `RND` (src/sha256hash.c:633-637): the new `d` and the new `h`. -/
def sha2Rnd (a b c d e f g h w k : BitVec 64) : BitVec 64 × BitVec 64 :=
  let t0 := h + sha2Sigma1 e + sha2Ch e f g + k + w
  let t1 := sha2Sigma0 a + sha2Maj a b c
  (d + t0, t0 + t1)

/-- Eight consecutive `RND` lines starting at index `i`, a multiple of 8
    (src/sha256hash.c:639-646 for `i = 0`).  The source unrolls all 64; the argument pattern repeats
    every 8 lines and only the index and constant change. -/
def sha2Body (W K : List (BitVec 64)) (i : Nat) (s : Sha256Words) : Sha256Words :=
  let ⟨s0, s1, s2, s3, s4, s5, s6, s7⟩ := s
  let (s3, s7) := sha2Rnd s0 s1 s2 s3 s4 s5 s6 s7 (wAt W i) (wAt K i)
  let (s2, s6) := sha2Rnd s7 s0 s1 s2 s3 s4 s5 s6 (wAt W (i + 1)) (wAt K (i + 1))
  let (s1, s5) := sha2Rnd s6 s7 s0 s1 s2 s3 s4 s5 (wAt W (i + 2)) (wAt K (i + 2))
  let (s0, s4) := sha2Rnd s5 s6 s7 s0 s1 s2 s3 s4 (wAt W (i + 3)) (wAt K (i + 3))
  let (s7, s3) := sha2Rnd s4 s5 s6 s7 s0 s1 s2 s3 (wAt W (i + 4)) (wAt K (i + 4))
  let (s6, s2) := sha2Rnd s3 s4 s5 s6 s7 s0 s1 s2 (wAt W (i + 5)) (wAt K (i + 5))
  let (s5, s1) := sha2Rnd s2 s3 s4 s5 s6 s7 s0 s1 (wAt W (i + 6)) (wAt K (i + 6))
  let (s4, s0) := sha2Rnd s1 s2 s3 s4 s5 s6 s7 s0 (wAt W (i + 7)) (wAt K (i + 7))
  ⟨s0, s1, s2, s3, s4, s5, s6, s7⟩

/-- Filling `W[0..15]` and `W[16..63]` (src/sha256hash.c:620-630); the array grows by appending. -/
def sha256Schedule (buf : Bytes) : List (BitVec 64) :=
  (List.range' 16 48).foldl
    (fun W i =>
      W ++ [sha2Gamma1 (wAt W (i - 2)) + wAt W (i - 7) + sha2Gamma0 (wAt W (i - 15)) +
        wAt W (i - 16)])
    ((List.range 16).map fun i => load32H buf (4 * i))

/-- `compress` (src/sha256hash.c:609-712). -/
def sha256Compress (st : Sha256Words) (buf : Bytes) : Sha256Words :=
  let W := sha256Schedule buf
  let s := [0, 8, 16, 24, 32, 40, 48, 56].foldl (fun s i => sha2Body W sha256KTable i s) st
  ⟨st.s0 + s.s0, st.s1 + s.s1, st.s2 + s.s2, st.s3 + s.s3,
   st.s4 + s.s4, st.s5 + s.s5, st.s6 + s.s6, st.s7 + s.s7⟩

/-- `afs_sha256_init` (src/sha256hash.c:440-459); `buf` is what the caller's memory held. -/
def sha256Init (buf : Bytes) : MdState Sha256Words :=
  { state := ⟨0x6A09E667, 0xBB67AE85, 0x3C6EF372, 0xA54FF53A,
              0x510E527F, 0x9B05688C, 0x1F83D9AB, 0x5BE0CD19⟩
    curlen := 0, length := 0, buf := buf }

/-- `afs_sha256_process` (src/sha256hash.c:80-132, 475) for non-NULL arguments; `inlen` is an
    `unsigned long` and the overflow test adds it to the bit counter with 64-bit wrap-around. -/
def sha256Process (md : MdState Sha256Words) (inp : Bytes) : Except Nat (MdState Sha256Words) :=
  if md.curlen > 64 then .error CRYPT_INVALID_ARG
  else if (md.length + BitVec.ofNat 64 inp.length).toNat < md.length.toNat then
    .error CRYPT_HASH_OVERFLOW
  else .ok (mdLoop sha256Compress md inp)

/-- `afs_sha256_done` (src/sha256hash.c:489-541) for non-NULL arguments. -/
def sha256Done (md : MdState Sha256Words) : Except Nat Bytes :=
  if md.curlen ≥ 64 then .error CRYPT_INVALID_ARG
  else
    let s := (mdFinish sha256Compress md).state
    .ok (store32H s.s0 ++ store32H s.s1 ++ store32H s.s2 ++ store32H s.s3 ++
         store32H s.s4 ++ store32H s.s5 ++ store32H s.s6 ++ store32H s.s7)

end Afs
