import Verif.Model.BoxingConfig
/-!
# The memory of boxing formats

A boxing format owns its configuration and has a pointer `name` into it, to a string that the configuration owns
(inc/controlframe/boxingformat.h:28-45).  Model/BoxingConfig models the values; here are the blocks: which configuration is where, who frees it, and what the
pointer points at.  The boxing library is not part of /repo: `boxing_config_clone` gives a new configuration with the same properties and NULL for NULL,
`boxing_config_free` frees it and does nothing with NULL, and the string that `boxing_config_property` gives lives as long as the configuration.
Simplifications: addresses are never used again after free; `malloc` does not fail.
-/
namespace Afs.FormatMem
open Afs Xml

/-- The pointer `name` (inc/controlframe/boxingformat.h:32): NULL, a pointer to the name in the configuration at an address, or never written. -/
inductive Name where
  | null
  | within (c : Nat)
  | unset
deriving DecidableEq

/-- `afs_boxing_format` (inc/controlframe/boxingformat.h:28-45).  `numbers` are its ten numbers (kept as a format with neither configuration nor name),
    `none` when they were never written. -/
structure Block (L : ConfigLib) where
  rc : Int
  config : Option Nat
  name : Name
  numbers : Option (Format L)

/-- The memory: configurations and formats by address. Not from the code. -/
structure Mem (L : ConfigLib) where
  configs : Nat → Option L.Config
  formats : Nat → Option (Block L)
  next : Nat

variable {L : ConfigLib}

/-- Nothing allocated: the state before the first call, for every function of src/controlframe/boxingformat.c:83-343. -/
def Mem.empty : Mem L := ⟨fun _ => none, fun _ => none, 0⟩

/-- Write a format, as the assignments in src/controlframe/boxingformat.c:83-343 do. -/
def Mem.put (m : Mem L) (a : Nat) (b : Block L) : Mem L := { m with formats := fun x => if x = a then some b else m.formats x }

/-- `malloc` of a format (src/controlframe/boxingformat.c:85, 108). -/
def Mem.alloc (m : Mem L) (b : Block L) : Mem L × Nat :=
  ({ m with
      formats := fun x => if x = m.next then some b else m.formats x
      next := m.next + 1 }, m.next)

/-- A new configuration: `boxing_config_create` and the `boxing_config_set_property` calls that follow it
    (src/controlframe/boxingformat.c:454-468), or the caller's own. -/
def newConfig (m : Mem L) (v : L.Config) : Mem L × Nat :=
  ({ m with
      configs := fun x => if x = m.next then some v else m.configs x
      next := m.next + 1 }, m.next)

/-- `boxing_config_clone` as used in src/controlframe/boxingformat.c:157, 210, 341. -/
def cloneConfig (m : Mem L) (c : Option Nat) : Res (Mem L × Option Nat) :=
  match c with
  | none => .ok (m, none)
  | some c =>
    match m.configs c with
    | none => .ub
    | some v => .ok ((newConfig m v).1, some (newConfig m v).2)

/-- `boxing_config_free` as used in src/controlframe/boxingformat.c:184, 338, 473. -/
def freeConfig (m : Mem L) (c : Option Nat) : Res (Mem L) :=
  match c with
  | none => .ok m
  | some c =>
    match m.configs c with
    | none => .ub
    | some _ => .ok { m with configs := fun x => if x = c then none else m.configs x }

/-- The ten numbers of a format (inc/controlframe/boxingformat.h:33-42). -/
def numbersOf (f : Format L) : Format L := { f with config := none, name := none }

/-- A pointer to the name a configuration has, or NULL (src/controlframe/boxingformat.c:882-895). -/
def pointTo (c : Nat) (name : Option Bytes) : Name := if name.isSome then .within c else .null

/-- `initialize_instance` (src/controlframe/boxingformat.c:845-880; `initialize_empty_instance` 822-843). -/
def initInstance (m : Mem L) (a : Nat) : Res (Mem L) :=
  match m.formats a with
  | none => .ub
  | some b =>
    match b.config with
    | none => .ok (m.put a { b with name := .null, numbers := some (numbersOf (Format.init none)) })
    | some c =>
      match m.configs c with
      | none => .ub
      | some v => .ok (m.put a { b with name := pointTo c (Format.init (some v)).name, numbers := some (numbersOf (Format.init (some v))) })

/-- `afs_boxing_format_create` (src/controlframe/boxingformat.c:83-93). -/
def create (m : Mem L) : Res (Mem L × Nat) := do
  let r := m.alloc ⟨1, none, .unset, none⟩
  let m ← initInstance r.1 r.2
  .ok (m, r.2)

/-- `afs_boxing_format_create2` (src/controlframe/boxingformat.c:106-111) and `afs_boxing_format_init2` (150-161): the configuration is cloned, the fields are
    set from it.  Also what `afs_technical_metadata_clone` (src/technicalmetadata.c:158-172) does with the configuration of the format it copies. -/
def create2 (m : Mem L) (c : Option Nat) : Res (Mem L × Nat) := do
  let (m, c) ← cloneConfig m c
  let r := m.alloc ⟨1, c, .unset, none⟩
  let m ← initInstance r.1 r.2
  .ok (m, r.2)

/-- `afs_boxing_format_init` (src/controlframe/boxingformat.c:124-134), on memory the caller has allocated: only the configuration and the count are set. -/
def init (m : Mem L) : Mem L × Nat := m.alloc ⟨1, none, .unset, none⟩

/-- `afs_boxing_format_free` (src/controlframe/boxingformat.c:173-187). -/
def free (m : Mem L) (a : Nat) : Res (Mem L) :=
  match m.formats a with
  | none => .ub
  | some b => do
    let rc ← ckInt (b.rc - 1)
    if rc ≤ 0 then do
      let m ← freeConfig m b.config
      .ok { m with formats := fun x => if x = a then none else m.formats x }
    else .ok (m.put a { b with rc := rc })

/-- `afs_boxing_format_get_new_reference` (src/controlframe/boxingformat.c:239-249). -/
def newRef (m : Mem L) (a : Nat) : Res (Mem L) :=
  match m.formats a with
  | none => .ub
  | some b => do
    let rc ← ckInt (b.rc + 1)
    .ok (m.put a { b with rc := rc })

/-- `get_name` of a format whose configuration is at an address (src/controlframe/boxingformat.c:882-895). -/
def getName (m : Mem L) (c : Option Nat) : Res Name :=
  match c with
  | none => .ok .null
  | some c =>
    match m.configs c with
    | none => .ub
    | some v => .ok (pointTo c (Format.getName (some v)))

/-- `afs_boxing_format_clone` (src/controlframe/boxingformat.c:201-224): reading numbers that were never written is undefined. -/
def clone (m : Mem L) (a : Nat) : Res (Mem L × Nat) := do
  let (m, n) ← create m
  match m.formats a with
  | none => .ub
  | some b => do
    let (m, c) ← cloneConfig m b.config
    let name ← getName m c
    match b.numbers with
    | none => .ub
    | some x => .ok (m.put n ⟨1, c, name, some x⟩, n)

/-- `afs_boxing_format_set_config` (src/controlframe/boxingformat.c:329-343): the old configuration is freed before the new one is copied. -/
def setConfig (m : Mem L) (a : Nat) (c : Option Nat) : Res (Mem L) :=
  match m.formats a with
  | none => .ub
  | some b => do
    let m ← freeConfig m b.config
    let (m, c) ← cloneConfig m c
    initInstance (m.put a { b with config := c }) a

/-- `afs_boxing_format_load_xml` (src/controlframe/boxingformat.c:432-478). -/
def loadXml (m : Mem L) (a : Nat) (node : Node) : Res (Mem L × Bool) :=
  match m.formats a with
  | none => .ub
  | some _ =>
    match find node (b! "NULL") with
    | some _ => do
      let m ← setConfig m a none
      .ok (m, true)
    | none =>
      match find node (b! "work") with
      | none => .ok (m, false)
      | some w => do
        let r := newConfig m (Format.loadConfig w)
        let m ← setConfig r.1 a (some r.2)
        let m ← freeConfig m (some r.2)
        .ok (m, true)

/-- What the configuration pointer gives: the properties of the configuration (as in `boxing_config_is_equal`, src/controlframe/boxingformat.c:275). -/
def readConfig (m : Mem L) (c : Option Nat) : Res (Option L.Config) :=
  match c with
  | none => .ok none
  | some c =>
    match m.configs c with
    | none => .ub
    | some v => .ok (some v)

/-- What the pointer `name` gives (src/controlframe/boxingformat.c:276): the string in the configuration, if that is still there. -/
def readName (m : Mem L) : Name → Res (Option Bytes)
  | .null => .ok none
  | .unset => .ub
  | .within c =>
    match m.configs c with
    | none => .ub
    | some v => .ok (L.property v (b! "FormatInfo") (b! "name"))

/-- All of a format, as `afs_boxing_format_equal` (src/controlframe/boxingformat.c:263-293) reads it; the users of the library read the same fields, which are
    public (inc/controlframe/boxingformat.h:28-45). -/
def readFormat (m : Mem L) (a : Nat) : Res (Format L) :=
  match m.formats a with
  | none => .ub
  | some b => do
    let c ← readConfig m b.config
    let name ← readName m b.name
    match b.numbers with
    | none => .ub
    | some x => .ok { x with config := c, name := name }

/-- `afs_boxing_format_equal` (src/controlframe/boxingformat.c:263-293) of two formats.  Simplification: all fields are read, also behind the first that differs. -/
def equal (m : Mem L) (a b : Nat) : Res Bool := do
  let f ← readFormat m a
  let g ← readFormat m b
  .ok (Format.equal (some f) (some g))

/-- `afs_boxing_format_save_xml` (src/controlframe/boxingformat.c:358-373) reads the configuration only. -/
def saveXml (m : Mem L) (a : Nat) : Res (Option Node) :=
  match m.formats a with
  | none => .ub
  | some b => do
    let c ← readConfig m b.config
    .ok (Format.saveXml (Format.empty c))

end Afs.FormatMem
