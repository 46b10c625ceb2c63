import Verif.Spec.Made
import Verif.Spec.Stable
/-!
# Specification: objects built from clean arguments

`Built o`: the value `o` is made by calls whose arguments are fit for XML: texts in UTF-8 of allowed
characters without blanks at their ends, numbers of their C types, documents with clean texts.
Nothing is asked of an object beyond that: calls may refuse, objects may be unfinished.  A text that
is loaded and is not well-formed changes nothing, and one that is well-formed is loaded as its
document, so loading from a string or a file needs no rule of its own.
-/
namespace Afs.Spec
open Afs Xml

/-- A text argument: NULL, or clean and without blanks at its ends. -/
def CleanArg (s : Option Bytes) : Prop := ∀ t, s = some t → CleanText t ∧ Trimmed t

/-- A metadata source made from clean arguments; its tags come from splitting a text. -/
def CleanSource (s : MetaSource) : Prop :=
  AttrField s.format ∧ IsInt s.id ∧ IsInt s.fileId ∧ (∀ d, s.data = some d → CleanData d) ∧
    (∀ l, s.tags = some l → ∃ t, TextField (some t) ∧ l = splitOn semicolon t)

/-- A metadata source of a file made from clean arguments. -/
def CleanFileSource (s : FileMetaSource) : Prop :=
  AttrField s.formatId ∧ IsInt s.fileId ∧ IsInt s.sourceId ∧ ∀ d, s.data = some d → CleanData d

/-- Objects obtained by calls with clean arguments. -/
inductive Built : Obj → Prop where
  -- lists of sections
  | sectionsNew : Built (.sections Sections.create)
  | sectionsAdd {s x} : Built (.sections s) → (∀ y, x = some y → Section.inRange y) → Built (.sections (s.append x).2)
  | sectionsClone {s} : Built (.sections s) → Built (.sections s.clone)
  | sectionsXml {s} (n : Node) : Built (.sections s) → Built (.sections (s.loadXml n).2)
  | sectionsOf {d s} : Built (.layout d) → d.sections = some s → Built (.sections s)
  -- layout definitions
  | layoutNew : Built (.layout LayoutDef.create)
  | layoutNew2 {id name} : CleanArg id → CleanArg name → Built (.layout (LayoutDef.create2 id name))
  | layoutAdd {d x} : Built (.layout d) → (∀ y, x = some y → Section.inRange y) → Built (.layout (d.addSection x).2)
  | layoutClone {d} : Built (.layout d) → Built (.layout d.clone)
  | layoutXml {d n} : Built (.layout d) → CleanDoc n → Built (.layout (d.loadXml n).2)
  | layoutOf {ds d} (i : Nat) : Built (.layouts ds) → LayoutDefs.byIndex (some ds) i = some d → Built (.layout d)
  -- lists of layout definitions
  | layoutsNew : Built (.layouts LayoutDefs.create)
  | layoutsAdd {ds d b ds'} : Built (.layouts ds) → Built (.layout d) →
      LayoutDefs.add ds (some d) = .ok (b, ds') → Built (.layouts ds')
  | layoutsClone {ds} : Built (.layouts ds) → Built (.layouts ds.clone)
  | layoutsXml {ds b ds' n} : Built (.layouts ds) → CleanDoc n → ds.loadXml n = .ok (b, ds') → Built (.layouts ds')
  | layoutsOf {t ds} : Built (.toc t) → t.layouts = some ds → Built (.layouts ds)
  | layoutsUsed {t ds} : Built (.toc t) → TocData.usedLayouts (some t) = .ok (some ds) → Built (.layouts ds)
  -- previews
  | previewNew : Built (.preview Preview.create)
  | previewAdd {p x} : Built (.preview p) → (∀ y, x = some y → Page.writable y) → Built (.preview (p.addPage x).2)
  | previewDpi {p dpi} : Built (.preview p) → IsInt dpi → Built (.preview (p.setDpi dpi))
  | previewShift {p} (offset : Nat) : Built (.preview p) → Built (.preview (p.addFrameOffset offset))
  | previewClone {p} : Built (.preview p) → Built (.preview p.clone)
  | previewXml {p n} : Built (.preview p) → CleanDoc n → Built (.preview (p.loadXml n).2)
  | previewOf {f p} : Built (.file f) → f.preview = some p → Built (.preview p)
  -- metadata of a file
  | fileMetaNew : Built (.fileMeta FileMeta.create)
  | fileMetaAdd {m x} : Built (.fileMeta m) → (∀ y, x = some y → CleanFileSource y) → Built (.fileMeta (m.addSource x).2)
  | fileMetaClone {m} : Built (.fileMeta m) → Built (.fileMeta m.clone)
  | fileMetaXml {m n} : Built (.fileMeta m) → CleanDoc n → Built (.fileMeta (m.loadXml n).2)
  | fileMetaOf {f m} : Built (.file f) → f.metadata = some m → Built (.fileMeta m)
  -- files
  | fileNew : Built (.file File.create)
  | fileNew2 {p m name date checksum size id sf sb ef eb uniqueId parentId format} (types : Nat) :
      (∀ q, p = some q → Built (.preview q)) → (∀ q, m = some q → Built (.fileMeta q)) →
      CleanArg name → CleanArg date → CleanArg checksum → CleanArg uniqueId → AttrField format →
      IsInt64 size → IsInt id → IsInt sf → IsInt sb → IsInt ef → IsInt eb → IsInt parentId →
      Built (.file (File.create2 name date checksum size id sf sb ef eb uniqueId parentId types p format m))
  | fileName {f s} : Built (.file f) → CleanArg s → Built (.file (f.setName s))
  | fileDate {f s} : Built (.file f) → CleanArg s → Built (.file (f.setDate s))
  | fileChecksum {f s} : Built (.file f) → CleanArg s → Built (.file (f.setChecksum s))
  | fileUniqueId {f s} : Built (.file f) → CleanArg s → Built (.file (f.setUniqueId s))
  | fileFormat {f s} : Built (.file f) → AttrField s → Built (.file (f.setFileFormat s))
  | filePreview {f p} : Built (.file f) → (∀ q, p = some q → Built (.preview q)) → Built (.file (f.setPreview p))
  | fileMetadata {f m} : Built (.file f) → (∀ q, m = some q → Built (.fileMeta q)) → Built (.file (f.setMetadata m))
  | fileType {f} (t : Nat) : Built (.file f) → Built (.file (f.addType t))
  | fileShift {f} (offset : Nat) : Built (.file f) → Built (.file (f.addFrameOffset offset))
  | fileClone {f} : Built (.file f) → Built (.file f.clone)
  | fileXml {f n} : Built (.file f) → CleanDoc n → Built (.file (f.loadXml n).2)
  | fileOf {fs f} (i : Nat) : Built (.files fs) → Files.getToc (some fs) i = some f → Built (.file f)
  -- lists of files
  | filesNew : Built (.files Files.create)
  | filesAdd {fs f} : Built (.files fs) → Built (.file f) → Built (.files (fs.addToc (some f)).2)
  | filesShift {fs} (d : Int) (type : Nat) : Built (.files fs) →
      (∀ f ∈ fs.tocs.getD [], FileStays (type.testBit 0) (type.testBit 1) d f) →
      Built (.files (fs.addFrameOffset (uOfInt d) type))
  | filesClone {fs} : Built (.files fs) → Built (.files fs.clone)
  | filesXml {fs n} : Built (.files fs) → CleanDoc n → Built (.files (fs.loadXml n).2)
  | filesOf {r fs} : Built (.reel r) → r.files = some fs → Built (.files fs)
  | filesParents {r fs} (types : Nat) : Built (.reel r) → Reel.parentFiles (some r) types = some fs → Built (.files fs)
  | filesChildren {r fs} (types : Nat) : Built (.reel r) → Reel.childFiles (some r) types = some fs → Built (.files fs)
  | filesAlone {r fs} (types : Nat) : Built (.reel r) → Reel.standaloneFiles (some r) types = some fs → Built (.files fs)
  -- reels
  | reelNew : Built (.reel Reel.create)
  | reelNew2 {id} : CleanArg id → Built (.reel (Reel.create2 id))
  | reelId {r id} : Built (.reel r) → CleanArg id → Built (.reel (r.setId id))
  | reelAdd {r f} : Built (.reel r) → Built (.file f) → Built (.reel (r.addFile (some f)).2)
  | reelShift {r} (d : Int) (mask : Nat) : Built (.reel r) → ReelStays (mask.testBit 0) (mask.testBit 1) d r →
      Built (.reel (r.addFrameOffset (uOfInt d) mask))
  | reelClone {r} : Built (.reel r) → Built (.reel r.clone)
  | reelXml {r n} : Built (.reel r) → CleanDoc n → Built (.reel (r.loadXml n).2)
  | reelOf {rs r} (i : Nat) : Built (.reels rs) → Reels.getReel (some rs) i = some r → Built (.reel r)
  -- lists of reels
  | reelsNew : Built (.reels Reels.create)
  | reelsAdd {rs r} : Built (.reels rs) → Built (.reel r) → Built (.reels (rs.addReel (some r)).2)
  | reelsClone {rs} : Built (.reels rs) → Built (.reels rs.clone)
  | reelsXml {rs n} : Built (.reels rs) → CleanDoc n → Built (.reels (rs.loadXml n).2)
  | reelsOf {t rs} : Built (.toc t) → t.reels = some rs → Built (.reels rs)
  -- metadata of a table of contents
  | tocMetaNew : Built (.tocMeta TocMeta.create)
  | tocMetaAdd {m x} : Built (.tocMeta m) → (∀ y, x = some y → CleanSource y) → Built (.tocMeta (m.addSource x).2)
  | tocMetaClone {m} : Built (.tocMeta m) → Built (.tocMeta m.clone)
  | tocMetaXml {m n} : Built (.tocMeta m) → CleanDoc n → Built (.tocMeta (m.loadXml n).2)
  | tocMetaOf {t m} : Built (.toc t) → t.metadata = some m → Built (.tocMeta m)
  -- tables of contents
  | tocNew : Built (.toc TocData.create)
  | tocNew2 {version jobId reelId} (indexType : Option Bytes) : AttrField version → CleanArg jobId → CleanArg reelId →
      Built (.toc (TocData.create2 version indexType jobId reelId))
  | tocVersion {t s} : Built (.toc t) → AttrField s → Built (.toc (t.setVersion s))
  | tocIndexType {t} (s : Option Bytes) : Built (.toc t) → Built (.toc (t.setIndexType s))
  | tocJobId {t s} : Built (.toc t) → CleanArg s → Built (.toc (t.setJobId s))
  | tocReelId {t s} : Built (.toc t) → CleanArg s → Built (.toc (t.setReelId s))
  | tocReel {t r} : Built (.toc t) → Built (.reel r) → Built (.toc (t.addReel (some r)).2)
  | tocSource {t x} : Built (.toc t) → (∀ y, x = some y → CleanSource y) → Built (.toc (t.addMetadataSource x).2)
  | tocLayout {t d b t'} : Built (.toc t) → Built (.layout d) → t.addLayout (some d) = .ok (b, t') → Built (.toc t')
  | tocLayouts {t ds b t'} : Built (.toc t) → Built (.layouts ds) → t.addLayouts (some ds) = .ok (b, t') → Built (.toc t')
  | tocShift {t} (d : Int) (mask : Nat) : Built (.toc t) → TocStays (mask.testBit 0) (mask.testBit 1) d t →
      Built (.toc (t.addFrameOffset (uOfInt d) mask))
  | tocClone {t} : Built (.toc t) → Built (.toc t.clone)
  | tocXml {t b t' n} : Built (.toc t) → CleanDoc n → t.loadXml n = .ok (b, t') → Built (.toc t')

end Afs.Spec
