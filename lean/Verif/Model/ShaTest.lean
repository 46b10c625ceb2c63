import Verif.Model.Sha1
import Verif.Model.Sha256
/-!
# The self tests of the checksums
-/
namespace Afs

/-- `CRYPT_FAIL_TESTVECTOR` (inc/sha1hash.h:40, inc/sha256hash.h:33); only its being different from `CRYPT_OK` matters. -/
def CRYPT_FAIL_TESTVECTOR : Nat := 5

/-- The table of `afs_sha1hash_test`. src/sha1hash.c:551-566. -/
def sha1Vectors : List (Bytes × Bytes) :=
  [(b! "abc", [0xa9, 0x99, 0x3e, 0x36, 0x47, 0x06, 0x81, 0x6a, 0xba, 0x3e, 0x25, 0x71, 0x78, 0x50, 0xc2, 0x6c, 0x9c, 0xd0, 0xd8, 0x9d]),
   (b! "abcdbcdecdefdefgefghfghighijhijkijkljklmklmnlmnomnopnopq",
    [0x84, 0x98, 0x3E, 0x44, 0x1C, 0x3B, 0xD2, 0x6E, 0xBA, 0xAE, 0x4A, 0xA1, 0xF9, 0x51, 0x29, 0xE5, 0xE5, 0x46, 0x70, 0xF1])]

/-- The table of `afs_sha256hash_test`. src/sha256hash.c:555-573. -/
def sha256Vectors : List (Bytes × Bytes) :=
  [(b! "abc", [0xba, 0x78, 0x16, 0xbf, 0x8f, 0x01, 0xcf, 0xea, 0x41, 0x41, 0x40, 0xde, 0x5d, 0xae, 0x22, 0x23,
     0xb0, 0x03, 0x61, 0xa3, 0x96, 0x17, 0x7a, 0x9c, 0xb4, 0x10, 0xff, 0x61, 0xf2, 0x00, 0x15, 0xad]),
   (b! "abcdbcdecdefdefgefghfghighijhijkijkljklmklmnlmnomnopnopq",
    [0x24, 0x8d, 0x6a, 0x61, 0xd2, 0x06, 0x38, 0xb8, 0xe5, 0xc0, 0x26, 0x93, 0x0c, 0x3e, 0x60, 0x39,
     0xa3, 0x3c, 0xe4, 0x59, 0x64, 0xff, 0x21, 0x67, 0xf6, 0xec, 0xed, 0xd4, 0x19, 0xdb, 0x06, 0xc1])]

/-- The loop of the self tests (src/sha1hash.c:572-581, src/sha256hash.c:579-597): `init`, `process`, `done`, whose answers are not looked at, and the comparison of `tmp`.
    `bufs i` is what is in the block buffer of `md` before the `i`-th `init` (nobody has written there before the first), `tmps i` what is in `tmp`.  A `process` that fails
    leaves `md` as it was, a `done` that fails leaves `tmp`. -/
def selfTest {σ : Type} (init : Bytes → MdState σ) (process : MdState σ → Bytes → Except Nat (MdState σ)) (done : MdState σ → Except Nat Bytes)
    (bufs tmps : Nat → Bytes) : Nat → List (Bytes × Bytes) → Nat
  | _, [] => CRYPT_OK
  | i, (msg, hash) :: rest =>
    let md := match process (init (bufs i)) msg with
      | .ok md => md
      | .error _ => init (bufs i)
    let tmp := match done md with
      | .ok t => t
      | .error _ => tmps i
    if tmp ≠ hash then CRYPT_FAIL_TESTVECTOR else selfTest init process done bufs tmps (i + 1) rest

/-- `afs_sha1hash_test` and `afs_sha1_test`. src/sha1hash.c:549-583, src/sha1.c:60-63. -/
def sha1Test (bufs tmps : Nat → Bytes) : Nat := selfTest sha1Init sha1Process sha1Done bufs tmps 0 sha1Vectors

/-- `afs_sha256hash_test` and `afs_sha256_test`. src/sha256hash.c:553-600, src/sha256.c:108-111. -/
def sha256Test (bufs tmps : Nat → Bytes) : Nat := selfTest sha256Init sha256Process sha256Done bufs tmps 0 sha256Vectors

end Afs
