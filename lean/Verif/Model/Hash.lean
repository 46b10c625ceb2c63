import Verif.Model.Basic
/-!
# The streaming part shared by `src/sha1hash.c` and `src/sha256hash.c`

The two files contain the same `process` loop and the same `done` padding code around
different `compress` functions and state arrays (in sha256hash.c the loop is even a macro
over the compress function, lines 80-132).  They are modelled once, over the type `σ` of
the state array and the function `compress`.
-/
namespace Afs

/-- `CRYPT_OK` (inc/sha1hash.h:34). -/
def CRYPT_OK : Nat := 0
/-- `CRYPT_INVALID_ARG` (inc/sha1hash.h:57). -/
def CRYPT_INVALID_ARG : Nat := 16
/-- `CRYPT_HASH_OVERFLOW` (inc/sha256hash.h:62); only its being different from `CRYPT_OK` matters. -/
def CRYPT_HASH_OVERFLOW : Nat := 25

/-- `struct afs_sha1_state` / `struct afs_sha256_state` (inc/sha1hash.h:71-77,
    inc/sha256hash.h): bit count, chaining words, fill count and 64-byte buffer.  `length` is
    an `unsigned long long` that wraps at 2^64. -/
structure MdState (σ : Type) where
  length : BitVec 64
  state : σ
  curlen : Nat
  buf : Bytes

/-- `memcpy(buf + off, src, n)` with `n = src.length` (src/sha1hash.c:425). -/
def memcpyAt (buf : Bytes) (off : Nat) (src : Bytes) : Bytes :=
  buf.take off ++ src ++ buf.drop (off + src.length)

/-- The `while (inlen > 0)` loop of `afs_sha1_process` (src/sha1hash.c:410-439) and of the macro
    `AFS_SHA3_HASH_PROCESS` (src/sha256hash.c:101-129); `compress` never fails in either file.
    Simplification: `in`/`inlen` are one list.  The branch marked (*) is unreachable after the
    callers' check `curlen <= 64`; it only makes the recursion total. -/
def mdLoop {σ : Type} (compress : σ → Bytes → σ) (md : MdState σ) (inp : Bytes) : MdState σ :=
  if inp.length = 0 then md
  else if md.curlen = 0 ∧ inp.length ≥ 64 then
    mdLoop compress
      { md with state := compress md.state (inp.take 64), length := md.length + 64 * 8 }
      (inp.drop 64)
  else
    let n := min inp.length (64 - md.curlen)
    let buf := memcpyAt md.buf md.curlen (inp.take n)
    let curlen := md.curlen + n
    if curlen = 64 then
      mdLoop compress
        { state := compress md.state buf, length := md.length + 8 * 64, curlen := 0, buf := buf }
        (inp.drop n)
    else if n = 0 then md -- (*)
    else mdLoop compress { md with buf := buf, curlen := curlen } (inp.drop n)
termination_by 2 * inp.length + (if md.curlen = 64 then 1 else 0)
decreasing_by
  all_goals simp_all
  all_goals (try split)
  all_goals omega

/-- `while (curlen < lim) buf[curlen++] = 0` (src/sha1hash.c:482-485, 491-494,
    src/sha256hash.c:515-518, 525-528). -/
def zeroFill (buf : Bytes) (cur lim : Nat) : Bytes :=
  if cur < lim then zeroFill (buf.set cur 0) (cur + 1) lim else buf
termination_by lim - cur

/-- `(unsigned char)(((x) >> s) & 255)` as used by the STORE macros (src/sha1hash.c:56-64). -/
def byteOf (x : BitVec 64) (s : Nat) : UInt8 :=
  UInt8.ofBitVec (((x >>> s) &&& 255#64).setWidth 8)

/-- `AFS_STORE64H` (src/sha1hash.c:60-64, src/sha256hash.c:73-77): the 8 bytes written. -/
def store64H (x : BitVec 64) : Bytes :=
  [byteOf x 56, byteOf x 48, byteOf x 40, byteOf x 32,
   byteOf x 24, byteOf x 16, byteOf x 8, byteOf x 0]

/-- `AFS_STORE32H` (src/sha1hash.c:56-58, src/sha256hash.c:69-71): the 4 bytes written. -/
def store32H (x : BitVec 64) : Bytes :=
  [byteOf x 24, byteOf x 16, byteOf x 8, byteOf x 0]

/-- `(unsigned long)(y & 255) << s`. -/
def loadByte (y : UInt8) (s : Nat) : BitVec 64 :=
  (y.toBitVec.setWidth 64 &&& 255#64) <<< s

/-- `AFS_LOAD32H` (src/sha1hash.c:46-50, src/sha256hash.c:60-67) of `buf + off`. -/
def load32H (buf : Bytes) (off : Nat) : BitVec 64 :=
  loadByte (buf.getD off 0) 24 ||| loadByte (buf.getD (off + 1) 0) 16 |||
    loadByte (buf.getD (off + 2) 0) 8 ||| loadByte (buf.getD (off + 3) 0) 0

/-- The padding part of `afs_sha1_done` (src/sha1hash.c:470-498) and `afs_sha256_done`
    (src/sha256hash.c:503-532): everything up to and including the last `compress`.
    Precondition, checked by the callers: `curlen < 64`. -/
def mdFinish {σ : Type} (compress : σ → Bytes → σ) (md : MdState σ) : MdState σ :=
  let length := md.length + BitVec.ofNat 64 (md.curlen * 8)
  let buf := md.buf.set md.curlen 0x80
  let curlen := md.curlen + 1
  let (state, buf, curlen) :=
    if curlen > 56 then
      let buf := zeroFill buf curlen 64
      (compress md.state buf, buf, 0)
    else (md.state, buf, curlen)
  let buf := zeroFill buf curlen 56
  let buf := memcpyAt buf 56 (store64H length)
  { length := length, state := compress state buf, curlen := max curlen 56, buf := buf }

/-- `sprintf(out, "%02x", b)` digits (src/sha1hash.c:532, src/sha1.c:263, src/sha256.c:216). -/
def hexDigit (n : Nat) : UInt8 := if n < 10 then UInt8.ofNat (48 + n) else UInt8.ofNat (87 + n)

/-- `afs_sha1_hash_to_hex_string` (src/sha1hash.c:521-537) and the identical loops of
    `sum2_private` (src/sha1.c:260-265, src/sha256.c:213-218): "%02x" per byte. -/
def hexString (h : Bytes) : Bytes :=
  h.flatMap fun b => [hexDigit (b.toNat / 16), hexDigit (b.toNat % 16)]

end Afs
