import Verif.Model.BoxingFormat
import Verif.Model.Admin
/-!
# Boxing formats (`src/controlframe/boxingformat.c`)

A boxing format wraps a `boxing_config` of the boxing library, which is not in /repo.  What the
code calls of that library is the parameter `L : ConfigLib` of the model; nothing is assumed about
it here.  The theorems that need something say so with `Spec.LawfulConfig`.

The constants `CONFIG_XML_NODE_CLASS` … come from a header of that library; the values below are
the ones the writer uses as literals (src/controlframe/boxingformat.c:779-812) and the ones in the
files under conf/.
-/
namespace Afs
open Xml

/-- What is asked of a frame object (src/controlframe/boxingformat.c:905, 916, 971-1004, 1021). -/
structure FrameInfo where
  width : Nat
  height : Nat
  dataWidth : Nat
  dataHeight : Nat
  levels : Nat
  capacity : Nat
deriving DecidableEq, Repr

/-- The functions of the boxing library the code calls.  A configuration is a value, so
    `boxing_config_clone` and `boxing_config_free` do not appear.
    The calls are in src/controlframe/boxingformat.c:126-934; the library itself is not in /repo. -/
structure ConfigLib where
  Config : Type
  /-- iteration over `config->groups`, in the order of the hash tables: the name of the class, and
      its properties with the values as `g_variant_to_string` gives them -/
  classes : Config → List (Bytes × List (Bytes × Bytes))
  /-- iteration over `config->aliases`: alias, name of the class -/
  aliases : Config → List (Bytes × Bytes)
  /-- `boxing_config_create` -/
  create : Config
  /-- `boxing_config_set_property(config, class, property, value)` -/
  setProperty : Config → Bytes → Bytes → Bytes → Config
  /-- `boxing_config_property(config, class, property)` -/
  property : Config → Bytes → Bytes → Option Bytes
  /-- `boxing_config_is_set` -/
  isSet : Config → Bytes → Bytes → Bool
  /-- `boxing_config_property_int`, as the `unsigned int` it is returned as -/
  propertyInt : Config → Bytes → Bytes → Nat
  /-- `boxing_config_property_uint` -/
  propertyUint : Config → Bytes → Bytes → Nat
  /-- `boxing_config_is_equal` -/
  isEqual : Option Config → Option Config → Bool
  /-- `boxing_generic_frame_factory_create` -/
  frame : Config → Option FrameInfo
  /-- `boxing_codecdispatcher_get_stripe_size` -/
  stripeSize : Config → Nat
  /-- `boxing_codecdispatcher_create(capacity, levels, config, "DataCodingScheme")` followed by
      `boxing_codecdispatcher_get_decoded_packet_size` -/
  packetSize : Nat → Nat → Config → Nat
  /-- the value of `FRAME_BUILDER_SCALINGFACTOR` -/
  scalingKey : Bytes

/-- `afs_boxing_format` (inc/controlframe/boxingformat.h:28-45). -/
structure Format (L : ConfigLib) where
  config : Option L.Config
  name : Option Bytes
  bytesPerFrame : Nat
  dataBytesPerFrame : Nat
  dataStripeSize : Nat
  scalingFactor : Nat
  width : Nat
  height : Nat
  dataFrameWidth : Nat
  dataFrameHeight : Nat
  bitsPerPixel : Nat
  symbolPerPixel : Nat

namespace Format
variable {L : ConfigLib}

/-- `initialize_empty_instance` (src/controlframe/boxingformat.c:822-842). -/
def empty (c : Option L.Config) : Format L := ⟨c, none, 0, 0, 0, 0, 0, 0, 0, 0, 0, 0⟩

/-- `get_name` (src/controlframe/boxingformat.c:882-895). -/
def getName (c : Option L.Config) : Option Bytes :=
  match c with
  | none => none
  | some c => L.property c (b! "FormatInfo") (b! "name")

/-- `get_scaling_factor` (src/controlframe/boxingformat.c:937-961). -/
def getScaling (c : L.Config) : Nat :=
  if L.isSet c (b! "FrameRaster") (b! "scalingFactor") then L.propertyInt c (b! "FrameRaster") (b! "scalingFactor")
  else if !L.isSet c (b! "BaseBuilder") L.scalingKey then 1
  else L.propertyUint c (b! "BaseBuilder") L.scalingKey

/-- `initialize_instance` (src/controlframe/boxingformat.c:845-879) for a format with configuration
    `c`.  `1 << bits` (918) is taken as the power of two. -/
def init (c : Option L.Config) : Format L :=
  match c with
  | none => empty none
  | some cfg =>
    match L.frame cfg with
    | none => empty (some cfg)
    | some f =>
      { config := some cfg
        name := getName (some cfg)
        dataStripeSize := L.stripeSize cfg
        scalingFactor := getScaling cfg
        width := f.width
        height := f.height
        dataFrameWidth := f.dataWidth
        dataFrameHeight := f.dataHeight
        bitsPerPixel := Afs.bitsPerPixel f.levels
        symbolPerPixel := Afs.symbolPerPixel (Afs.bitsPerPixel f.levels)
        bytesPerFrame := u32 (f.capacity * Afs.bitsPerPixel f.levels) / 8
        dataBytesPerFrame := L.packetSize f.capacity (2 ^ Afs.bitsPerPixel f.levels) cfg }

/-- `afs_boxing_format_create` (src/controlframe/boxingformat.c:83-93). -/
def create : Format L := init none

/-- `afs_boxing_format_create2` (src/controlframe/boxingformat.c:108-113, 150-161). -/
def create2 (c : Option L.Config) : Format L := init c

/-- `afs_boxing_format_set_config` (src/controlframe/boxingformat.c:329-343): every other field is
    written again. -/
def setConfig (_ : Format L) (c : Option L.Config) : Format L := init c

/-- `afs_boxing_format_clone` (src/controlframe/boxingformat.c:201-224). -/
def clone (f : Format L) : Format L := { f with name := getName f.config }

/-- The comparison of the fields (src/controlframe/boxingformat.c:275-291). -/
def eqFields (a b : Format L) : Bool :=
  L.isEqual a.config b.config && strEqStrict a.name b.name && a.bytesPerFrame == b.bytesPerFrame &&
  a.dataBytesPerFrame == b.dataBytesPerFrame && a.dataStripeSize == b.dataStripeSize &&
  a.scalingFactor == b.scalingFactor && a.width == b.width && a.height == b.height &&
  a.dataFrameWidth == b.dataFrameWidth && a.dataFrameHeight == b.dataFrameHeight &&
  a.bitsPerPixel == b.bitsPerPixel && a.symbolPerPixel == b.symbolPerPixel

/-- `afs_boxing_format_equal` (src/controlframe/boxingformat.c:263-292). -/
def equal : Option (Format L) → Option (Format L) → Bool := ptrEqual eqFields

/-- `get_key_by_value` (src/controlframe/boxingformat.c:720-742). -/
def keyByValue (l : List (Bytes × Bytes)) (v : Bytes) : Option Bytes := (l.find? fun x => x.2 == v).map Prod.fst

/-- One property element (src/controlframe/boxingformat.c:807-813). -/
def propertyNode (p : Bytes × Bytes) : Node :=
  ((Node.new (b! "property")).setAttr (b! "key") (some p.1)).setAttr (b! "value") (some p.2)

/-- The `class` element without its properties, with `set_version`
    (src/controlframe/boxingformat.c:745-754, 779-782). -/
def classHead (g : Bytes × List (Bytes × Bytes)) : Node :=
  let n := (Node.new (b! "class")).setAttr (b! "key") (some g.1)
  match g.2.lookup (b! "version") with
  | none => n
  | some v => n.setAttr (b! "version") (some v)

/-- One turn of the loop of `save_config_xml` (src/controlframe/boxingformat.c:777-815): of a class
    with an alias only the alias is written. -/
def classNode (aliases : List (Bytes × Bytes)) (g : Bytes × List (Bytes × Bytes)) : Node :=
  match keyByValue aliases g.1 with
  | some a => (classHead g).addChild (propertyNode (b! "alias", a))
  | none => ((g.2.filter fun p => p.1 != b! "version").map propertyNode).foldl Node.addChild (classHead g)

/-- `save_config_xml` (src/controlframe/boxingformat.c:757-819). -/
def configNode (c : L.Config) : Node :=
  ((L.classes c).map (classNode (L.aliases c))).foldl Node.addChild
    ((Node.new (b! "work")).setAttr (b! "version") (some (b! "1.0.0.0")))

/-- The element `afs_boxing_format_save_xml` adds (src/controlframe/boxingformat.c:358-373). -/
def saveXml (f : Format L) : Option Node :=
  match f.config with
  | none => some (Node.new (b! "NULL"))
  | some c => some (configNode c)

/-- One `property` element in `set_class_from_xml` (src/controlframe/boxingformat.c:654-665). -/
def loadProperty (k : Bytes) (c : L.Config) (p : Node) : L.Config :=
  match p.getAttr (b! "key") with
  | none => c
  | some a =>
    if a = [] then c
    else match p.getAttr (b! "value") with
      | none => c
      | some v => if v = [] then c else L.setProperty c k a v

/-- The version attribute in `set_class_from_xml` (src/controlframe/boxingformat.c:642-646). -/
def loadVersion (k : Bytes) (c : L.Config) (n : Node) : L.Config :=
  match n.getAttr (b! "version") with
  | none => c
  | some v => L.setProperty c k (b! "version") v

/-- `set_class_from_xml` (src/controlframe/boxingformat.c:636-677); the warning is left out. -/
def loadClass (c : L.Config) (n : Node) : L.Config :=
  match n.getAttr (b! "key") with
  | none => c
  | some k =>
    if k = [] then c
    else (n.children.filter (named (b! "property"))).foldl (loadProperty k) (loadVersion k c n)

/-- The loop of `afs_boxing_format_load_xml` (src/controlframe/boxingformat.c:455-468). -/
def loadConfig (w : Node) : L.Config := (w.children.filter (named (b! "class"))).foldl loadClass L.create

/-- `afs_boxing_format_load_xml` (src/controlframe/boxingformat.c:432-475). -/
def loadXml (f : Format L) (node : Node) : Bool × Format L :=
  match find node (b! "NULL") with
  | some _ => (true, f.setConfig none)
  | none =>
    match find node (b! "work") with
    | none => (false, f)
    | some w => (true, f.setConfig (some (loadConfig w)))

/-- `whitespace_cb` (src/controlframe/boxingformat.c:680-717). -/
def cb : SaveCb := cbOf fun name _ w =>
  if name = b! "work" ∧ wsBefore w then indent 0
  else if name = b! "class" ∧ wsBefore w then indent 4
  else if name = b! "property" ∧ wsBefore w then indent 8
  else []

/-- `afs_boxing_format_save_string` (src/controlframe/boxingformat.c:388-417). -/
def saveString (f : Format L) (compact : Bool) : Option Bytes := docString cb compact f.saveXml
/-- `afs_boxing_format_save_config_file` (src/controlframe/boxingformat.c:525-575). -/
def saveFile (f : Format L) (compact : Bool) : Bool × Option Bytes := docFile true cb compact f.saveXml
/-- `afs_boxing_format_load_string` (src/controlframe/boxingformat.c:490-509): the empty string is
    given to the reader, which refuses it. -/
def loadString (f : Format L) (s : Bytes) : Bool × Format L :=
  match Xml.loadString s with
  | none => (false, f)
  | some d => f.loadXml d
/-- `afs_boxing_format_load_config_file` (src/controlframe/boxingformat.c:590-624). -/
def loadFile (f : Format L) (s : Bytes) : Bool × Format L := loadFromFile f.loadXml (false, f) s

end Format
end Afs
