import Verif.Model.File
import Verif.Model.FrameRange
/-!
# Reels (src/tocdatareel.c, src/tocdatareels.c)
-/
namespace Afs

/-- `AFS_TOC_DATA_REEL_SECTION_*` (inc/tocdatareel_c.h:28-31). -/
def SECTION_DIGITAL : Nat := 1
/-- inc/tocdatareel_c.h:29. -/
def SECTION_PREVIEW : Nat := 2
/-- inc/tocdatareel_c.h:30. -/
def SECTION_FILE_FORMAT_DESCRIPTIONS : Nat := 4
/-- inc/tocdatareel_c.h:31. -/
def SECTION_ALL : Nat := 7

/-- `afs_toc_data_reel` (inc/tocdatareel_c.h). Lines 35-41. -/
structure Reel where
  id : Option Bytes
  files : Option Files
deriving DecidableEq, Repr

/-- Conversion of a section mask to a file type mask, repeated in every reel function
    (e.g. src/tocdatareel.c:465-475). -/
def sectionToType (section_ : Nat) : Nat :=
  (if section_ &&& SECTION_DIGITAL ≠ 0 then TYPE_DIGITAL else 0) |||
  (if section_ &&& SECTION_PREVIEW ≠ 0 then TYPE_PREVIEW else 0)

namespace Reel

/-- `afs_toc_data_reel_create` (src/tocdatareel.c:80-87). -/
def create : Reel := ⟨none, none⟩

/-- `afs_toc_data_reel_create2` (src/tocdatareel.c:102-109). -/
def create2 (id : Option Bytes) : Reel := ⟨strClone id, none⟩

/-- `afs_toc_data_reel_clone` (src/tocdatareel.c:150-163). -/
def clone (r : Reel) : Reel := ⟨strClone r.id, r.files.map Files.clone⟩

/-- `afs_toc_data_reel_equal`, non-NULL part (src/tocdatareel.c:214-220). -/
def eqFields (a b : Reel) : Bool := strEq a.id b.id && Files.equal a.files b.files

/-- `afs_toc_data_reel_equal` (src/tocdatareel.c:202-221). -/
def equal : Option Reel → Option Reel → Bool := ptrEqual eqFields

/-- `afs_toc_data_reel_set_id` (src/tocdatareel.c:234-248). -/
def setId (r : Reel) (id : Option Bytes) : Reel := { r with id := strClone id }

/-- The files of a reel in order, NULL read as empty.
    NULL tests as in src/tocdatareel.c:441-460. -/
def list (r : Reel) : List File :=
  match r.files with
  | none => []
  | some f => f.list

/-- `afs_toc_data_reel_add_file` (src/tocdatareel.c:265-297). -/
def addFile (r : Reel) (x : Option File) : Bool × Reel :=
  match x with
  | none => (false, r)
  | some x =>
    if !x.isValid then (false, r)
    else
      let fs := match r.files with
        | none => Files.create
        | some f => f
      (true, { r with files := some ⟨vecAppend fs.tocs x⟩ })

/-- `afs_toc_data_reel_get_file_by_index` (src/tocdatareel.c:310-333). -/
def fileByIndex (r : Option Reel) (i : Nat) : Option File :=
  match r with
  | none => none
  | some r =>
    match r.files with
    | none => none
    | some f => vecGet f.tocs i

/-- Loop of `afs_toc_data_reel_get_file_by_id` (src/tocdatareel.c:369-379). -/
def findId (id : Int) : List File → Option File
  | [] => none
  | f :: fs => if f.id = id then some f else findId id fs

/-- `afs_toc_data_reel_get_file_by_id` (src/tocdatareel.c:347-380). -/
def fileById (r : Option Reel) (id : Int) : Option File :=
  match r with
  | none => none
  | some r => findId id r.list

/-- Loop of `afs_toc_data_reel_get_file_by_unique_id` (src/tocdatareel.c:416-426): `strcmp`
    on a NULL unique id is undefined behaviour. -/
def findUniqueId (u : Bytes) : List File → Res (Option File)
  | [] => .ok none
  | f :: fs => do
    if ← strcmpEq f.uniqueId (some u) then return some f else findUniqueId u fs

/-- `afs_toc_data_reel_get_file_by_unique_id` (src/tocdatareel.c:394-427). -/
def fileByUniqueId (r : Option Reel) (u : Option Bytes) : Res (Option File) :=
  match r, u with
  | some r, some u => if u.length = 0 then .ok none else findUniqueId u r.list
  | _, _ => .ok none

/-- The selection loop shared by `get_parent_files`, `get_child_files` and
    `get_standalone_files` (src/tocdatareel.c:477-490, 543-562, 615-628): clone and
    `afs_toc_files_add_toc` every file with the property and a matching type; the result is
    created on the first match (so it is non-NULL even if the add then rejects the file). -/
def selectLoop (p : File → Bool) (type : Nat) : Option Files → List File → Option Files
  | acc, [] => acc
  | acc, f :: fs =>
    if p f = true ∧ f.types &&& type ≠ 0 then
      let a := match acc with
        | none => Files.create
        | some a => a
      selectLoop p type (some (Files.addToc a (some f.clone)).2) fs
    else selectLoop p type acc fs

/-- `afs_toc_data_reel_get_parent_files` (src/tocdatareel.c:441-493). -/
def parentFiles (r : Option Reel) (types : Nat) : Option Files :=
  match r with
  | none => none
  | some r => selectLoop (fun f => f.isParent) (sectionToType types) none r.list

/-- `afs_toc_data_reel_get_child_files` (src/tocdatareel.c:507-565): every file that is not a
    parent, standalone files included. -/
def childFiles (r : Option Reel) (types : Nat) : Option Files :=
  match r with
  | none => none
  | some r => selectLoop (fun f => !f.isParent) (sectionToType types) none r.list

/-- `afs_toc_data_reel_get_standalone_files` (src/tocdatareel.c:579-631). -/
def standaloneFiles (r : Option Reel) (types : Nat) : Option Files :=
  match r with
  | none => none
  | some r => selectLoop (fun f => f.isStandalone) (sectionToType types) none r.list

/-- `afs_toc_data_reel_file_count` (src/tocdatareel.c:645-663). -/
def fileCount : Option Reel → Nat
  | none => 0
  | some r => r.list.length

/-- `afs_toc_data_reel_first_frame` (src/tocdatareel.c:710-741). -/
def firstFrame (r : Option Reel) (section_ : Nat) : Int :=
  match r with
  | none => -1
  | some r =>
    match r.files with
    | none => -1
    | some f =>
      if sectionToType section_ ≠ 0 then Files.firstFrame (some f) (sectionToType section_) else -1

/-- `afs_toc_data_reel_last_frame` (src/tocdatareel.c:757-788): definitions are passed as NULL. -/
def lastFrame (r : Option Reel) (section_ : Nat) : Res Int :=
  match r with
  | none => .ok (-1)
  | some r =>
    match r.files with
    | none => .ok (-1)
    | some f =>
      if sectionToType section_ ≠ 0 then Files.lastFrame (some f) (sectionToType section_) none
      else .ok (-1)

/-- `afs_toc_data_reel_frame_count` (src/tocdatareel.c:678-694); the `int` difference cannot
    overflow for `0 ≤ first ≤ last`, the `+ 1` can. -/
def frameCount (r : Option Reel) (section_ : Nat) : Res Nat :=
  match r with
  | none => .ok 0
  | some r => do
    let first := firstFrame (some r) section_
    let last ← lastFrame (some r) section_
    if first < 0 ∨ last < 0 ∨ first > last then return 0
    else
      let n ← ckInt (last - first + 1)
      return uOfInt n

/-- `afs_toc_data_reel_add_frame_offset` (src/tocdatareel.c:804-837). -/
def addFrameOffset (r : Reel) (offset section_ : Nat) : Reel :=
  match r.files with
  | none => r
  | some f =>
    match f.tocs with
    | none => r
    | some _ =>
      if sectionToType section_ ≠ 0 then
        { r with files := some (f.addFrameOffset offset (sectionToType section_)) }
      else r

/-- Loop of `afs_toc_data_reel_size_bytes` (src/tocdatareel.c:867-875): the extent is computed
    in `int` before the widening cast. -/
def sizeLoop : List File → Int → Res Int
  | [], acc => .ok acc
  | f :: fs, acc =>
    if f.startByte > f.endByte then .ok 0
    else do
      let d ← ckInt (f.endByte - f.startByte)
      let d ← ckInt (d + 1)
      let acc ← ckInt64 (acc + d)
      sizeLoop fs acc

/-- `afs_toc_data_reel_size_bytes` (src/tocdatareel.c:853-878). -/
def sizeBytes : Option Reel → Res Int
  | none => .ok 0
  | some r => sizeLoop r.list 0

/-- `afs_toc_data_reel_is_valid` (src/tocdatareel.c:892-910), non-NULL part. -/
def isValid (r : Reel) : Bool :=
  if fileCount (some r) ≠ 0 ∧ Files.isValid r.files = false then false
  else if nullOrEmpty r.id then false
  else true

end Reel

/-- Argument conversion of `afs_frame_range_create2` in `afs_toc_data_reel_get_frame_ranges`
    (src/tocdatareel.c:938): the count is computed in `int`, both are converted to unsigned. -/
def fileRange (f : File) : Res FrameRange := do
  let d ← ckInt (f.endFrame - f.startFrame)
  let n ← ckInt (d + 1)
  return FrameRange.create2 (uOfInt f.startFrame) (uOfInt n)

/-- Loop of `afs_toc_data_reel_get_frame_ranges` (src/tocdatareel.c:935-945). -/
def fileRanges : List File → Res (List FrameRange)
  | [] => .ok []
  | f :: fs => do
    let r ← fileRange f
    let rs ← fileRanges fs
    return r :: rs

/-- `afs_toc_data_reel_get_frame_ranges` (src/tocdatareel.c:924-949). -/
def getFrameRanges (f : Option Files) : Res (Option FrameRanges) :=
  match f with
  | none => .ok none
  | some f =>
    if f.list.length = 0 then .ok none
    else do
      let rs ← fileRanges f.list
      return some ⟨some (mergeRanges rs)⟩

/-- `afs_toc_data_reels` (inc/tocdatareels.h). Lines 29-34. -/
structure Reels where
  reels : Option (List Reel)
deriving DecidableEq, Repr

namespace Reels

/-- `afs_toc_data_reels_create`: NULL vector. src/tocdatareels.c:61-67. -/
def create : Reels := ⟨none⟩

/-- The reels in order, NULL vector read as empty. NULL tests as in src/tocdatareels.c:323-336. -/
def list (r : Reels) : List Reel := r.reels.getD []

/-- `afs_toc_data_reels_clone` (src/tocdatareels.c:136-158). -/
def clone (r : Reels) : Reels := ⟨vecClone Reel.clone r.reels⟩

/-- `afs_toc_data_reels_equal`, non-NULL part (src/tocdatareels.c:209-232). -/
def eqFields (a b : Reels) : Bool := vecEqual Reel.eqFields a.reels b.reels

/-- `afs_toc_data_reels_equal` (src/tocdatareels.c:197-233). -/
def equal : Option Reels → Option Reels → Bool := ptrEqual eqFields

/-- `afs_toc_data_reels_add_reel` (src/tocdatareels.c:250-277). -/
def addReel (r : Reels) (x : Option Reel) : Bool × Reels :=
  match x with
  | none => (false, r)
  | some x => if !x.isValid then (false, r) else (true, ⟨vecAppend r.reels x⟩)

/-- `afs_toc_data_reels_get_reel` (src/tocdatareels.c:291-309). -/
def getReel (r : Option Reels) (i : Nat) : Option Reel :=
  match r with
  | none => none
  | some r => vecGet r.reels i

/-- `afs_toc_data_reels_get_reels_count` (src/tocdatareels.c:323-336). -/
def count : Option Reels → Nat
  | none => 0
  | some r => vecSize r.reels

/-- `afs_toc_data_reels_is_valid` (src/tocdatareels.c:350-371). -/
def isValid : Option Reels → Bool
  | none => false
  | some r => r.list.all Reel.isValid

end Reels
end Afs
