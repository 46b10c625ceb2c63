import Verif.Model.ShaFile
/-!
# `src/sha1.c` and `src/sha256.c`: checksums when reading the file fails or comes in pieces

`Model/ShaFile.lean` with the calls of the C library that can fail: `fread` may deliver fewer bytes than asked for, or none.
-/
namespace Afs

/-- What one call of `fread` does (C11 7.21.8.1): it delivers `n + 1` bytes (or all it was asked for, or all there are, if that is
    less), or none although there are some — with `errno` set (a read error), or not (somebody made the file shorter).
    Calls in src/sha1.c:193, src/sha256.c:146. -/
inductive Read where
  | got (n : Nat)
  | nothing (setsErrno : Bool)
deriving DecidableEq, Repr

/-- How many bytes a call delivers, asked for `want` of which `avail` are there; a list of calls that has run out delivers all
    (src/sha1.c:193, src/sha256.c:146). -/
def Read.count (reads : List Read) (want avail : Nat) : Nat :=
  match reads with
  | [] => min want avail
  | .got n :: _ => min (n + 1) (min want avail)
  | .nothing _ :: _ => 0

/-- Whether `errno` is non-zero behind the call; `fread` does not clear it (C11 7.5 p3). -/
def Read.errno (reads : List Read) (errnoSet : Bool) : Bool :=
  match reads with
  | .nothing true :: _ => true
  | _ => errnoSet

/-- The `while (size)` loop of `hash_filehandle` (src/sha1.c:169-212, loop 190-207, src/sha256.c:122-165); outcomes as for `hashLoop`. -/
def hashReads {σ : Type} (eng : HashEngine σ) (errnoSet : Bool) (md : MdState σ) (size : Int) (rest : Bytes) (reads : List Read) :
    Res (Option (MdState σ)) :=
  if size = 0 then .ok (some md)
  else
    let maxSize : Nat :=
      if size > BUFFER_SIZE then 512 else (size % 18446744073709551616).toNat
    let n := Read.count reads maxSize rest.length
    if n > 512 then .ub
    else if n = 0 then
      if Read.errno reads errnoSet then .ok none else .ok (some md)
    else
      match eng.process md (rest.take n) with
      | .error _ => .ok none
      | .ok md' => hashReads eng (Read.errno reads errnoSet) md' (size - n) (rest.drop n) reads.tail
termination_by rest.length
decreasing_by
  rename_i h1 h2
  have h3 : n ≤ rest.length := by
    show Read.count reads maxSize rest.length ≤ rest.length
    unfold Read.count
    split <;> omega
  have h : (rest.drop n).length < rest.length := by rw [List.length_drop]; omega
  exact h

/-- Which of the calls that find out the size of the file and go to the start of the region succeed
    (src/sha1.c:220, 225-226, 244, src/sha256.c:173, 178-179, 197). -/
structure Seeks where
  toEnd : Bool := true
  tell : Bool := true
  toStart : Bool := true

/-- `sum2_private` (src/sha1.c:215-272, src/sha256.c:168-225). -/
def sum2Reads {σ : Type} (eng : HashEngine σ) (errnoSet : Bool) (seeks : Seeks) (reads : List Read) (file : Bytes)
    (start size : Int) : Res (Option Bytes) := do
  if seeks.toEnd = false then return none
  if seeks.tell = false then return none
  let fileSize : Int := file.length
  let stop ← ckInt64 (start + size)
  if stop > fileSize then return none
  let size ← if size = -1 then ckInt64 (fileSize - start) else .ok size
  if start < 0 then return none
  if seeks.toStart = false then return none
  match ← hashReads eng errnoSet eng.init size (file.drop start.toNat) reads with
  | none => .ub
  | some md =>
    match eng.done md with
    | .error _ => .ub
    | .ok h => return some (hexString h)

/-- `afs_sha1_sum2` (src/sha1.c:102-127) of a file that could be opened. -/
def sha1Reads (buf : Bytes) (errnoSet : Bool) (seeks : Seeks) (reads : List Read) (file : Bytes) (start size : Int) : Res (Option Bytes) :=
  sum2Reads (sha1Engine buf) errnoSet seeks reads file start size

/-- `afs_sha256_sum2` (src/sha256.c:56-81) of a file that could be opened. -/
def sha256Reads (buf : Bytes) (errnoSet : Bool) (seeks : Seeks) (reads : List Read) (file : Bytes) (start size : Int) : Res (Option Bytes) :=
  sum2Reads (sha256Engine buf) errnoSet seeks reads file start size

end Afs
