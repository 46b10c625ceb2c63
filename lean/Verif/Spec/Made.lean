import Verif.Model.Create
import Verif.Spec.Valid
import Verif.Spec.Shift
/-!
# Specification: objects made through the API, and what they hold

`Made o`: the value `o` can be obtained by a history of successful and failed calls.  Every call is
offered *any* argument the API accepts (any section, page, source, string, document and file text,
well-formed or not); only objects are required to be made themselves.  A call that refuses counts
as well: what it leaves behind is made.  Left out: constructors that are handed a whole vector, and
writing through the fields of the C structures.

An object inside another one is reached through its list (`layoutOf`, `fileOf`, …); the lookups by id
or name answer the same objects.  Frames of a list may be moved by any distance, forwards or backwards, as long as they stay on film
(`C86_shift_off_film` shows that otherwise the files need not stay valid).

Objects are values here, so an object that has been put into a list is not changed through another
reference afterwards.
-/
namespace Afs.Spec
open Afs Xml

/-- The objects of a table of contents that consist of other objects. -/
inductive Obj where
  | sections (s : Sections)
  | layout (d : LayoutDef)
  | layouts (d : LayoutDefs)
  | preview (p : Preview)
  | fileMeta (m : FileMeta)
  | file (f : File)
  | files (f : Files)
  | reel (r : Reel)
  | reels (r : Reels)
  | tocMeta (m : TocMeta)
  | toc (t : TocData)

/-- Objects obtained by calls of the API. -/
inductive Made : Obj → Prop where
  -- lists of sections
  | sectionsNew : Made (.sections Sections.create)
  | sectionsAdd {s} (x : Option Section) : Made (.sections s) → Made (.sections (s.append x).2)
  | sectionsClone {s} : Made (.sections s) → Made (.sections s.clone)
  | sectionsXml {s} (n : Node) : Made (.sections s) → Made (.sections (s.loadXml n).2)
  | sectionsString {s} (b : Bytes) : Made (.sections s) → Made (.sections (s.loadString b).2)
  | sectionsFile {s} (b : Bytes) : Made (.sections s) → Made (.sections (s.loadFile b).2)
  | sectionsOf {d s} : Made (.layout d) → d.sections = some s → Made (.sections s)
  -- layout definitions
  | layoutNew : Made (.layout LayoutDef.create)
  | layoutNew2 (id name : Option Bytes) : Made (.layout (LayoutDef.create2 id name))
  | layoutAdd {d} (x : Option Section) : Made (.layout d) → Made (.layout (d.addSection x).2)
  | layoutClone {d} : Made (.layout d) → Made (.layout d.clone)
  | layoutXml {d} (n : Node) : Made (.layout d) → Made (.layout (d.loadXml n).2)
  | layoutString {d} (b : Bytes) : Made (.layout d) → Made (.layout (d.loadString b).2)
  | layoutFile {d} (b : Bytes) : Made (.layout d) → Made (.layout (d.loadFile b).2)
  | layoutOf {ds d} (i : Nat) : Made (.layouts ds) → LayoutDefs.byIndex (some ds) i = some d → Made (.layout d)
  -- lists of layout definitions
  | layoutsNew : Made (.layouts LayoutDefs.create)
  | layoutsAdd {ds d b ds'} : Made (.layouts ds) → Made (.layout d) →
      LayoutDefs.add ds (some d) = .ok (b, ds') → Made (.layouts ds')
  | layoutsClone {ds} : Made (.layouts ds) → Made (.layouts ds.clone)
  | layoutsXml {ds b ds'} (n : Node) : Made (.layouts ds) → ds.loadXml n = .ok (b, ds') → Made (.layouts ds')
  | layoutsString {ds b ds'} (s : Bytes) : Made (.layouts ds) → ds.loadString s = .ok (b, ds') → Made (.layouts ds')
  | layoutsFile {ds b ds'} (s : Bytes) : Made (.layouts ds) → ds.loadFile s = .ok (b, ds') → Made (.layouts ds')
  | layoutsOf {t ds} : Made (.toc t) → t.layouts = some ds → Made (.layouts ds)
  | layoutsUsed {t ds} : Made (.toc t) → TocData.usedLayouts (some t) = .ok (some ds) → Made (.layouts ds)
  -- previews
  | previewNew : Made (.preview Preview.create)
  | previewAdd {p} (x : Option Page) : Made (.preview p) → Made (.preview (p.addPage x).2)
  | previewDpi {p} (dpi : Int) : Made (.preview p) → Made (.preview (p.setDpi dpi))
  | previewShift {p} (offset : Nat) : Made (.preview p) → Made (.preview (p.addFrameOffset offset))
  | previewClone {p} : Made (.preview p) → Made (.preview p.clone)
  | previewXml {p} (n : Node) : Made (.preview p) → Made (.preview (p.loadXml n).2)
  | previewString {p} (b : Bytes) : Made (.preview p) → Made (.preview (p.loadString b).2)
  | previewFile {p} (b : Bytes) : Made (.preview p) → Made (.preview (p.loadFile b).2)
  | previewOf {f p} : Made (.file f) → f.preview = some p → Made (.preview p)
  -- metadata of a file
  | fileMetaNew : Made (.fileMeta FileMeta.create)
  | fileMetaAdd {m} (x : Option FileMetaSource) : Made (.fileMeta m) → Made (.fileMeta (m.addSource x).2)
  | fileMetaClone {m} : Made (.fileMeta m) → Made (.fileMeta m.clone)
  | fileMetaXml {m} (n : Node) : Made (.fileMeta m) → Made (.fileMeta (m.loadXml n).2)
  | fileMetaString {m} (b : Bytes) : Made (.fileMeta m) → Made (.fileMeta (m.loadString b).2)
  | fileMetaFile {m} (b : Bytes) : Made (.fileMeta m) → Made (.fileMeta (m.loadFile b).2)
  | fileMetaOf {f m} : Made (.file f) → f.metadata = some m → Made (.fileMeta m)
  -- files
  | fileNew : Made (.file File.create)
  | fileNew2 {p m} (name date checksum : Option Bytes) (size id sf sb ef eb : Int) (uniqueId : Option Bytes)
      (parentId : Int) (types : Nat) (format : Option Bytes) :
      (∀ q, p = some q → Made (.preview q)) → (∀ q, m = some q → Made (.fileMeta q)) →
      Made (.file (File.create2 name date checksum size id sf sb ef eb uniqueId parentId types p format m))
  | fileName {f} (s : Option Bytes) : Made (.file f) → Made (.file (f.setName s))
  | fileDate {f} (s : Option Bytes) : Made (.file f) → Made (.file (f.setDate s))
  | fileChecksum {f} (s : Option Bytes) : Made (.file f) → Made (.file (f.setChecksum s))
  | fileUniqueId {f} (s : Option Bytes) : Made (.file f) → Made (.file (f.setUniqueId s))
  | fileFormat {f} (s : Option Bytes) : Made (.file f) → Made (.file (f.setFileFormat s))
  | filePreview {f p} : Made (.file f) → (∀ q, p = some q → Made (.preview q)) → Made (.file (f.setPreview p))
  | fileMetadata {f m} : Made (.file f) → (∀ q, m = some q → Made (.fileMeta q)) → Made (.file (f.setMetadata m))
  | fileType {f} (t : Nat) : Made (.file f) → Made (.file (f.addType t))
  | fileShift {f} (offset : Nat) : Made (.file f) → Made (.file (f.addFrameOffset offset))
  | fileClone {f} : Made (.file f) → Made (.file f.clone)
  | fileXml {f} (n : Node) : Made (.file f) → Made (.file (f.loadXml n).2)
  | fileString {f} (b : Bytes) : Made (.file f) → Made (.file (f.loadString b).2)
  | fileFile {f} (b : Bytes) : Made (.file f) → Made (.file (f.loadFile b).2)
  | fileOf {fs f} (i : Nat) : Made (.files fs) → Files.getToc (some fs) i = some f → Made (.file f)
  -- lists of files
  | filesNew : Made (.files Files.create)
  | filesAdd {fs f} : Made (.files fs) → Made (.file f) → Made (.files (fs.addToc (some f)).2)
  | filesShift {fs} (d : Int) (type : Nat) : Made (.files fs) →
      (∀ f ∈ fs.tocs.getD [], FileStays (type.testBit 0) (type.testBit 1) d f) →
      Made (.files (fs.addFrameOffset (uOfInt d) type))
  | filesClone {fs} : Made (.files fs) → Made (.files fs.clone)
  | filesXml {fs} (n : Node) : Made (.files fs) → Made (.files (fs.loadXml n).2)
  | filesString {fs} (b : Bytes) : Made (.files fs) → Made (.files (fs.loadString b).2)
  | filesFile {fs} (b : Bytes) : Made (.files fs) → Made (.files (fs.loadFile b).2)
  | filesOf {r fs} : Made (.reel r) → r.files = some fs → Made (.files fs)
  | filesParents {r fs} (types : Nat) : Made (.reel r) → Reel.parentFiles (some r) types = some fs → Made (.files fs)
  | filesChildren {r fs} (types : Nat) : Made (.reel r) → Reel.childFiles (some r) types = some fs → Made (.files fs)
  | filesAlone {r fs} (types : Nat) : Made (.reel r) → Reel.standaloneFiles (some r) types = some fs → Made (.files fs)
  -- reels
  | reelNew : Made (.reel Reel.create)
  | reelNew2 (id : Option Bytes) : Made (.reel (Reel.create2 id))
  | reelId {r} (id : Option Bytes) : Made (.reel r) → Made (.reel (r.setId id))
  | reelAdd {r f} : Made (.reel r) → Made (.file f) → Made (.reel (r.addFile (some f)).2)
  | reelShift {r} (d : Int) (mask : Nat) : Made (.reel r) → ReelStays (mask.testBit 0) (mask.testBit 1) d r →
      Made (.reel (r.addFrameOffset (uOfInt d) mask))
  | reelClone {r} : Made (.reel r) → Made (.reel r.clone)
  | reelXml {r} (n : Node) : Made (.reel r) → Made (.reel (r.loadXml n).2)
  | reelString {r} (b : Bytes) : Made (.reel r) → Made (.reel (r.loadString b).2)
  | reelFile {r} (b : Bytes) : Made (.reel r) → Made (.reel (r.loadFile b).2)
  | reelOf {rs r} (i : Nat) : Made (.reels rs) → Reels.getReel (some rs) i = some r → Made (.reel r)
  -- lists of reels
  | reelsNew : Made (.reels Reels.create)
  | reelsAdd {rs r} : Made (.reels rs) → Made (.reel r) → Made (.reels (rs.addReel (some r)).2)
  | reelsClone {rs} : Made (.reels rs) → Made (.reels rs.clone)
  | reelsXml {rs} (n : Node) : Made (.reels rs) → Made (.reels (rs.loadXml n).2)
  | reelsString {rs} (b : Bytes) : Made (.reels rs) → Made (.reels (rs.loadString b).2)
  | reelsFile {rs} (b : Bytes) : Made (.reels rs) → Made (.reels (rs.loadFile b).2)
  | reelsOf {t rs} : Made (.toc t) → t.reels = some rs → Made (.reels rs)
  -- metadata of a table of contents
  | tocMetaNew : Made (.tocMeta TocMeta.create)
  | tocMetaAdd {m} (x : Option MetaSource) : Made (.tocMeta m) → Made (.tocMeta (m.addSource x).2)
  | tocMetaClone {m} : Made (.tocMeta m) → Made (.tocMeta m.clone)
  | tocMetaXml {m} (n : Node) : Made (.tocMeta m) → Made (.tocMeta (m.loadXml n).2)
  | tocMetaString {m} (b : Bytes) : Made (.tocMeta m) → Made (.tocMeta (m.loadString b).2)
  | tocMetaFile {m} (b : Bytes) : Made (.tocMeta m) → Made (.tocMeta (m.loadFile b).2)
  | tocMetaOf {t m} : Made (.toc t) → t.metadata = some m → Made (.tocMeta m)
  -- tables of contents
  | tocNew : Made (.toc TocData.create)
  | tocNew2 (version indexType jobId reelId : Option Bytes) : Made (.toc (TocData.create2 version indexType jobId reelId))
  | tocVersion {t} (s : Option Bytes) : Made (.toc t) → Made (.toc (t.setVersion s))
  | tocIndexType {t} (s : Option Bytes) : Made (.toc t) → Made (.toc (t.setIndexType s))
  | tocJobId {t} (s : Option Bytes) : Made (.toc t) → Made (.toc (t.setJobId s))
  | tocReelId {t} (s : Option Bytes) : Made (.toc t) → Made (.toc (t.setReelId s))
  | tocReel {t r} : Made (.toc t) → Made (.reel r) → Made (.toc (t.addReel (some r)).2)
  | tocSource {t} (x : Option MetaSource) : Made (.toc t) → Made (.toc (t.addMetadataSource x).2)
  | tocLayout {t d b t'} : Made (.toc t) → Made (.layout d) → t.addLayout (some d) = .ok (b, t') → Made (.toc t')
  | tocLayouts {t ds b t'} : Made (.toc t) → Made (.layouts ds) → t.addLayouts (some ds) = .ok (b, t') → Made (.toc t')
  | tocShift {t} (d : Int) (mask : Nat) : Made (.toc t) → TocStays (mask.testBit 0) (mask.testBit 1) d t →
      Made (.toc (t.addFrameOffset (uOfInt d) mask))
  | tocClone {t} : Made (.toc t) → Made (.toc t.clone)
  | tocXml {t b t'} (n : Node) : Made (.toc t) → t.loadXml n = .ok (b, t') → Made (.toc t')
  | tocString {t b t'} (s : Bytes) : Made (.toc t) → t.loadString s = .ok (b, t') → Made (.toc t')
  | tocFile {t b t'} (s : Bytes) : Made (.toc t) → t.loadFile s = .ok (b, t') → Made (.toc t')

/-- Valid sections with distinct ids, no two overlapping (as the code's overlap test sees it; for
    sections inside the 32-bit space: no common pixel). -/
def SoundSections (l : List Section) : Prop :=
  (∀ s ∈ l, ValidSection s) ∧ (l.map Section.id).Nodup ∧ l.Pairwise fun a b => Section.isOverlap a b = false

/-- Every section list inside is sound, the definitions are valid, their ids distinct. -/
def SoundLayouts (l : List LayoutDef) : Prop :=
  (∀ d ∈ l, ValidLayout d ∧ ∀ s, d.sections = some s → SoundSections (s.sections.getD [])) ∧
  (l.map LayoutDef.id).Nodup

/-- Pages and metadata sources inside are valid. -/
def SoundFile (f : File) : Prop :=
  (∀ p, f.preview = some p → ∀ q ∈ p.pages.getD [], ValidPage q) ∧
  (∀ m, f.metadata = some m → ∀ s ∈ m.sources.getD [], ValidFileMetaSource s)

/-- Valid files with sound insides. -/
def SoundFiles (l : List File) : Prop := ∀ f ∈ l, ValidFile f ∧ SoundFile f

/-- Valid reels, and inside them valid files with sound insides. -/
def SoundReels (l : List Reel) : Prop :=
  ∀ r ∈ l, ValidReel r ∧ ∀ f, r.files = some f → SoundFiles (f.tocs.getD [])

/-- What an object holds is sound. -/
def Sound : Obj → Prop
  | .sections s => SoundSections (s.sections.getD [])
  | .layout d => ∀ s, d.sections = some s → SoundSections (s.sections.getD [])
  | .layouts ds => SoundLayouts (ds.defs.getD [])
  | .preview p => ∀ q ∈ p.pages.getD [], ValidPage q
  | .fileMeta m => ∀ s ∈ m.sources.getD [], ValidFileMetaSource s
  | .file f => SoundFile f
  | .files fs => SoundFiles (fs.tocs.getD [])
  | .reel r => ∀ f, r.files = some f → SoundFiles (f.tocs.getD [])
  | .reels rs => SoundReels (rs.reels.getD [])
  | .tocMeta m => ∀ s ∈ m.sources.getD [], ValidMetaSource s
  | .toc t =>
    (∀ r, t.reels = some r → SoundReels (r.reels.getD [])) ∧
    (∀ d, t.layouts = some d → SoundLayouts (d.defs.getD [])) ∧
    (∀ m, t.metadata = some m → ∀ s ∈ m.sources.getD [], ValidMetaSource s)

end Afs.Spec
