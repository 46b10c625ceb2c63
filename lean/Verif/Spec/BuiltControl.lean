import Verif.Spec.Built
/-!
# Specification: control data built from clean arguments

`BuiltControl o`: the value `o` (administrative metadata, boxing format, technical metadata or control
data) is made by calls whose arguments are fit for XML.  The lists of files handed over are `Built`.
The fields of technical metadata and control data have no setters: they are written directly.
-/
namespace Afs.Spec
open Afs Xml

/-- A value of one of the four kinds. -/
inductive ControlObj (L : ConfigLib) where
  | admin (a : Admin)
  | format (f : Format L)
  | tech (t : TechMeta L)
  | control (c : ControlData L)

/-- A list of files, if there is one, is built from clean arguments. -/
def BuiltFiles (x : Option Files) : Prop := ∀ y, x = some y → Built (.files y)

/-- A configuration that can be stored, if there is one. -/
def CleanConfig {L : ConfigLib} (c : Option L.Config) : Prop := ∀ d, c = some d → ConfigStorable L d

/-- Objects of the control frame obtained by calls with clean arguments. -/
inductive BuiltControl {L : ConfigLib} : ControlObj L → Prop where
  -- administrative metadata
  | adminNew : BuiltControl (.admin Admin.create)
  | adminNew2 {reelId printReelId title description creator creationDate} : CleanArg reelId → CleanArg printReelId → CleanArg title →
      CleanArg description → CleanArg creator → CleanArg creationDate →
      BuiltControl (.admin (Admin.create2 reelId printReelId title description creator creationDate))
  | adminReelId {a s} : BuiltControl (.admin a) → CleanArg s → BuiltControl (.admin (a.setReelId s))
  | adminPrintReelId {a s} : BuiltControl (.admin a) → CleanArg s → BuiltControl (.admin (a.setPrintReelId s))
  | adminTitle {a s} : BuiltControl (.admin a) → CleanArg s → BuiltControl (.admin (a.setTitle s))
  | adminDescription {a s} : BuiltControl (.admin a) → CleanArg s → BuiltControl (.admin (a.setDescription s))
  | adminCreator {a s} : BuiltControl (.admin a) → CleanArg s → BuiltControl (.admin (a.setCreator s))
  | adminCreationDate {a s} : BuiltControl (.admin a) → CleanArg s → BuiltControl (.admin (a.setCreationDate s))
  | adminClone {a} : BuiltControl (.admin a) → BuiltControl (.admin a.clone)
  | adminXml {a n} : BuiltControl (.admin a) → CleanDoc n → BuiltControl (.admin (a.loadXml n).2)
  | adminOf {c a} : BuiltControl (.control c) → c.admin = some a → BuiltControl (.admin a)
  -- boxing formats
  | formatNew : BuiltControl (.format Format.create)
  | formatNew2 {c} : CleanConfig c → BuiltControl (.format (Format.create2 c))
  | formatConfig {f c} : BuiltControl (.format f) → CleanConfig c → BuiltControl (.format (f.setConfig c))
  -- a copy of a format for whose configuration no frame can be made may differ from it (C49): left out
  | formatClone {f} : BuiltControl (.format f) → (∀ c, f.config = some c → L.frame c ≠ none) → BuiltControl (.format f.clone)
  | formatXml {f n} : BuiltControl (.format f) → CleanDoc n → NoAliases n → BuiltControl (.format (f.loadXml n).2)
  | formatOf {t f} : BuiltControl (.tech t) → t.format = some f → BuiltControl (.format f)
  -- technical metadata
  | techNew : BuiltControl (.tech TechMeta.create)
  | techNew2 {x f} : BuiltFiles x → (∀ g, f = some g → BuiltControl (.format g)) → BuiltControl (.tech (TechMeta.create2 x f))
  | techFormat {t f} : BuiltControl (.tech t) → (∀ g, f = some g → BuiltControl (.format g)) → BuiltControl (.tech { t with format := f })
  | techTocs {t x} : BuiltControl (.tech t) → BuiltFiles x → BuiltControl (.tech { t with tocs := x })
  | techApps {t x} : BuiltControl (.tech t) → BuiltFiles x → BuiltControl (.tech { t with apps := x })
  | techClone {t} : BuiltControl (.tech t) → BuiltControl (.tech t.clone)
  | techXml {t n} : BuiltControl (.tech t) → CleanDoc n → NoAliases n → BuiltControl (.tech (t.loadXml n).2)
  | techOf {c t} : BuiltControl (.control c) → c.tech = some t → BuiltControl (.tech t)
  -- control data
  | controlNew : BuiltControl (.control ControlData.create)
  | controlNew2 {a t} : (∀ x, a = some x → BuiltControl (.admin x)) → (∀ x, t = some x → BuiltControl (.tech x)) →
      BuiltControl (.control (ControlData.create2 a t))
  | controlClone {c} : BuiltControl (.control c) → BuiltControl (.control c.clone)
  | controlXml {c n} : BuiltControl (.control c) → CleanDoc n → NoAliases n → BuiltControl (.control (c.loadXml n).2)

end Afs.Spec
