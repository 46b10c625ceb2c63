import Verif.Model.Sha256
import Verif.Model.Res
/-!
# `src/sha1.c` and `src/sha256.c`: checksum of a region of a file

The two files are textual copies of each other around `afs_sha1_*` / `afs_sha256_*`, so the
region logic is modelled once over a hash engine.  A file is its contents; `fread` returns
`min n remaining` bytes (C11 7.21.8.1, no I/O error); `fseek` to a negative position fails.
-/
namespace Afs

/-- The init/process/done triple of one hash function.
    Calls in src/sha1.c:173-272 and src/sha256.c:125-225. -/
structure HashEngine (σ : Type) where
  init : MdState σ
  process : MdState σ → Bytes → Except Nat (MdState σ)
  done : MdState σ → Except Nat Bytes

/-- The functions of src/sha1hash.c; `buf` is the uninitialised buffer of the local
    `afs_hash1_state md` (src/sha1.c:180). -/
def sha1Engine (buf : Bytes) : HashEngine Sha1Words := ⟨sha1Init buf, sha1Process, sha1Done⟩

/-- The functions of src/sha256hash.c. -/
def sha256Engine (buf : Bytes) : HashEngine Sha256Words := ⟨sha256Init buf, sha256Process, sha256Done⟩

/-- `BUFFER_SIZE` (src/sha1.c:181, src/sha256.c:133). -/
def BUFFER_SIZE : Int := 512

/-- The `while (size)` loop of `hash_filehandle` (src/sha1.c:169-212, loop 190-207, src/sha256.c:122-165).
    `rest` is what is left of the file from the current position, `errnoSet` says whether `errno`
    is non-zero.  Outcomes: `ub` when `fread` is asked for more than the 512 bytes of
    `buf` and that many are there (buffer overrun); `ok (some md)` when the loop ended with the
    final `done` still to come; `ok none` when the function returned early and the digest buffer
    stays uninitialised. -/
def hashLoop {σ : Type} (eng : HashEngine σ) (errnoSet : Bool) (md : MdState σ) (size : Int)
    (rest : Bytes) : Res (Option (MdState σ)) :=
  if size = 0 then .ok (some md)
  else
    let maxSize : Nat :=
      if size > BUFFER_SIZE then 512 else (size % 18446744073709551616).toNat
    let n := min maxSize rest.length
    if n > 512 then .ub
    else if n = 0 then
      if errnoSet then .ok none else .ok (some md)
    else
      match eng.process md (rest.take n) with
      | .error _ => .ok none
      | .ok md' => hashLoop eng errnoSet md' (size - n) (rest.drop n)
termination_by rest.length
decreasing_by rw [List.length_drop]; omega

/-- `sum2_private` (src/sha1.c:215-272, src/sha256.c:168-225) on a file with contents `file`.
    `ub` also stands for reading the uninitialised digest buffer (the error code of
    `hash_filehandle` is ignored, src/sha1.c:253-258). -/
def sum2Private {σ : Type} (eng : HashEngine σ) (errnoSet : Bool) (file : Bytes)
    (start size : Int) : Res (Option Bytes) := do
  let fileSize : Int := file.length
  let stop ← ckInt64 (start + size)
  if stop > fileSize then return none
  let size ← if size = -1 then ckInt64 (fileSize - start) else .ok size
  if start < 0 then return none
  match ← hashLoop eng errnoSet eng.init size (file.drop start.toNat) with
  | none => .ub
  | some md =>
    match eng.done md with
    | .error _ => .ub
    | .ok h => return some (hexString h)

/-- `afs_sha1_sum2` (src/sha1.c:102-127): `file` is NULL when the name is NULL or cannot be opened. -/
def sha1Sum2 (buf : Bytes) (errnoSet : Bool) (file : Option Bytes) (start size : Int) :
    Res (Option Bytes) :=
  match file with
  | none => .ok none
  | some f => sum2Private (sha1Engine buf) errnoSet f start size

/-- `afs_sha1_sum1` (src/sha1.c:76-79). -/
def sha1Sum1 (buf : Bytes) (errnoSet : Bool) (file : Option Bytes) : Res (Option Bytes) :=
  sha1Sum2 buf errnoSet file 0 (-1)

/-- `afs_sha256_sum2` (src/sha256.c:56-81). -/
def sha256Sum2 (buf : Bytes) (errnoSet : Bool) (file : Option Bytes) (start size : Int) :
    Res (Option Bytes) :=
  match file with
  | none => .ok none
  | some f => sum2Private (sha256Engine buf) errnoSet f start size

/-- `afs_sha256_sum1` (src/sha256.c:94-97). -/
def sha256Sum1 (buf : Bytes) (errnoSet : Bool) (file : Option Bytes) : Res (Option Bytes) :=
  sha256Sum2 buf errnoSet file 0 (-1)

end Afs
