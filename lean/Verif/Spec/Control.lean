import Verif.Spec.Storable
import Verif.Model.ControlData
/-!
# What control data means, and what is assumed of the boxing library's configurations
-/
namespace Afs.Spec
open Afs

variable (L : ConfigLib)

/-- The value of property `p` of class `k`, as one finds it by iterating over the configuration. -/
def configGet (c : L.Config) (k p : Bytes) : Option Bytes := ((L.classes c).lookup k).bind fun ps => ps.lookup p

/-- The configuration has a class of that name. -/
def HasClass (c : L.Config) (k : Bytes) : Prop := k ∈ (L.classes c).map Prod.fst

/-- A configuration is a two-level map: names are not repeated, setting a property (other than
    `alias`, which has a meaning of its own) changes that property only, configurations with the
    same classes, the same properties and no aliases are equal, and everything that is computed
    from a configuration is the same for equal ones. -/
structure LawfulConfig : Prop where
  classes_nodup : ∀ c, ((L.classes c).map Prod.fst).Nodup
  properties_nodup : ∀ c, ∀ g ∈ L.classes c, (g.2.map Prod.fst).Nodup
  create_classes : L.classes L.create = []
  create_aliases : L.aliases L.create = []
  set_get : ∀ c k p v, p ≠ b! "alias" → ∀ k' p',
    configGet L (L.setProperty c k p v) k' p' = if k' = k ∧ p' = p then some v else configGet L c k' p'
  set_class : ∀ c k p v, p ≠ b! "alias" → ∀ k', HasClass L (L.setProperty c k p v) k' ↔ k' = k ∨ HasClass L c k'
  set_aliases : ∀ c k p v, p ≠ b! "alias" → L.aliases (L.setProperty c k p v) = L.aliases c
  equal_null : L.isEqual none none = true
  equal_refl : ∀ c, L.isEqual (some c) (some c) = true
  equal_of_same : ∀ a b, (∀ k p, configGet L a k p = configGet L b k p) → (∀ k, HasClass L a k ↔ HasClass L b k) →
    L.aliases a = [] → L.aliases b = [] → L.isEqual (some a) (some b) = true
  equal_property : ∀ a b, L.isEqual (some a) (some b) = true → L.property a = L.property b
  equal_isSet : ∀ a b, L.isEqual (some a) (some b) = true → L.isSet a = L.isSet b
  equal_propertyInt : ∀ a b, L.isEqual (some a) (some b) = true → L.propertyInt a = L.propertyInt b
  equal_propertyUint : ∀ a b, L.isEqual (some a) (some b) = true → L.propertyUint a = L.propertyUint b
  equal_frame : ∀ a b, L.isEqual (some a) (some b) = true → L.frame a = L.frame b
  equal_stripeSize : ∀ a b, L.isEqual (some a) (some b) = true → L.stripeSize a = L.stripeSize b
  equal_packetSize : ∀ a b, L.isEqual (some a) (some b) = true → ∀ n l, L.packetSize n l a = L.packetSize n l b

/-- A property that can be written: clean texts, and a name that is not empty and not `alias`. -/
def PropertyWritable (p : Bytes × Bytes) : Prop :=
  CleanText p.1 ∧ CleanText p.2 ∧ p.1 ≠ [] ∧ p.1 ≠ b! "alias"

/-- A configuration that can be written: no aliases, and every class has a name and properties that
    can be written. -/
def ConfigWritable (c : L.Config) : Prop :=
  L.aliases c = [] ∧ ∀ g ∈ L.classes c, CleanText g.1 ∧ g.1 ≠ [] ∧ ∀ p ∈ g.2, PropertyWritable p

/-- A configuration that can be stored: it can be written, no class is without properties, and every
    property has a value, except that the version of a class may be empty. -/
def ConfigStorable (c : L.Config) : Prop :=
  ConfigWritable L c ∧ ∀ g ∈ L.classes c, g.2 ≠ [] ∧ ∀ p ∈ g.2, p.1 = b! "version" ∨ p.2 ≠ []

end Afs.Spec

namespace Afs
open Spec

/-- A text field of administrative metadata that can be stored: the empty string, or as in any other
    text field (NULL, or clean text with nothing to trim). -/
def Admin.storable (a : Admin) : Prop :=
  ∀ s ∈ [a.reelId, a.printReelId, a.title, a.description, a.creator, a.creationDate], s = some [] ∨ TextField s

/-- A boxing format as the library makes them (`afs_boxing_format_create`, `_create2`, `_set_config`):
    everything is computed from the configuration, which can be stored. -/
def Format.storable {L : ConfigLib} (f : Format L) : Prop :=
  f = Format.create2 f.config ∧ ∀ c, f.config = some c → ConfigStorable L c

/-- Technical metadata that can be written: a format and a list of tables of contents are there, the
    format is storable, the files in the lists are writable. -/
def TechMeta.writable {L : ConfigLib} (t : TechMeta L) : Prop :=
  (∃ f, t.format = some f ∧ f.storable) ∧ (∃ x, t.tocs = some x ∧ ∀ y ∈ x.list, y.writable) ∧
    ∀ x, t.apps = some x → ∀ y ∈ x.list, y.writable

/-- Technical metadata that can be stored: the files in the lists are storable too. -/
def TechMeta.storable {L : ConfigLib} (t : TechMeta L) : Prop :=
  (∃ f, t.format = some f ∧ f.storable) ∧ (∃ x, t.tocs = some x ∧ x.storable) ∧ ∀ x, t.apps = some x → x.storable

/-- Control data that can be written: both parts are there. -/
def ControlData.writable {L : ConfigLib} (c : ControlData L) : Prop :=
  (∃ a, c.admin = some a ∧ a.storable) ∧ ∃ t, c.tech = some t ∧ t.writable

/-- Control data that can be stored. -/
def ControlData.storable {L : ConfigLib} (c : ControlData L) : Prop :=
  (∃ a, c.admin = some a ∧ a.storable) ∧ ∃ t, c.tech = some t ∧ t.storable

end Afs

namespace Afs.Spec
open Afs

/-- The six fields of administrative metadata. -/
inductive AdminField
  | reelId | printReelId | title | description | creator | creationDate
deriving DecidableEq, Repr

/-- The field of an object. -/
def AdminField.get : AdminField → Admin → Option Bytes
  | .reelId, a => a.reelId
  | .printReelId, a => a.printReelId
  | .title, a => a.title
  | .description, a => a.description
  | .creator, a => a.creator
  | .creationDate, a => a.creationDate

/-- The call that sets the field. -/
def AdminField.call : AdminField → Admin → Option Bytes → Admin
  | .reelId => Admin.setReelId
  | .printReelId => Admin.setPrintReelId
  | .title => Admin.setTitle
  | .description => Admin.setDescription
  | .creator => Admin.setCreator
  | .creationDate => Admin.setCreationDate

/-- The value given last for `f` in a history of calls, `old` if there is none. -/
def lastGiven (f : AdminField) (old : Option Bytes) (h : List (AdminField × Option Bytes)) : Option Bytes :=
  match (h.filter fun x => x.1 = f).getLast? with
  | none => old
  | some x => x.2

end Afs.Spec
