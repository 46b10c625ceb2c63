import Verif.Proof.Fail
import Verif.Model.Io.SaveFile
import Verif.Props.C56_Cut
import Verif.Props.C70_Stable
import Verif.Props.C73_Session
/-!
# C74 whatever fails while saving, and wherever reading stops

A save overwrites the file in place and never notices failing writes; a load takes a read error for the end of the file.  Here both
happen: any writes fail, the file then holds `f`, and of `f` only a beginning `f'` is read (all of it, if no read fails).  What is loaded is
the object that was saved, or the load says so - or the file ends at one particular place, behind the name of the outermost element.
-/
namespace Afs
open Spec Spec.Grammar Xml

/-! ## Objects of which something must be in the file -/

/-- A section. -/
theorem C74_section (x : Section) (h : x.isValid = true) (hr : x.inRange) (compact : Bool) (ok : Nat → Bool) (old : Option Bytes) (b : Bool) (f : Bytes)
    (hs : x.saveFileOn compact true ok old = (b, some f)) (f' : Bytes) (hf : f' <+: f) (before : Section) :
    (before.loadFile f').1 = false ∨ before.loadFile f' = (true, x) := by
  unfold Section.saveFileOn at hs
  rw [Section.saveXml_eq h, if_neg (by simp [h])] at hs
  refine content_fail sectionCb_space (by decide) x.node_savable (by rw [newXML_addChild]; rfl) before.loadXml (false, before)
    (true, x) (fun r => r.1 = false) rfl ?_ ?_ ?_ hs hf
  · intro T hT
    unfold Section.loadXml
    rw [selfOrFind_noName hT]
  · intro W hW
    unfold Section.loadXml
    rw [selfOrFind_emptyRoot hW (by decide)]
    rfl
  · intro T hT
    obtain ⟨d, h1, h2⟩ := isRead_doc (nm := b! "section") (by decide) rfl hT
    exact Section.loadXml_of hr h h1 h2

/-- A layout definition. -/
theorem C74_layout (x : LayoutDef) (h : x.storable) (compact : Bool) (ok : Nat → Bool) (old : Option Bytes) (b : Bool) (f : Bytes)
    (hs : x.saveFileOn compact true ok old = (b, some f)) (f' : Bytes) (hf : f' <+: f) (before : LayoutDef) :
    (before.loadFile f').1 = false ∨ before.loadFile f' = (true, x) := by
  unfold LayoutDef.saveFileOn at hs
  rw [LayoutDef.saveXml_eq h.1] at hs
  refine content_fail layoutCb_space (by decide) (LayoutDef.node_savable h) (by rw [newXML_addChild]; rfl) before.loadXml (false, before)
    (true, x) (fun r => r.1 = false) rfl ?_ ?_ ?_ hs hf
  · intro T hT
    unfold LayoutDef.loadXml
    rw [selfOrFind_noName hT]
  · intro W hW
    unfold LayoutDef.loadXml
    rw [selfOrFind_emptyRoot hW (by decide)]
    rfl
  · intro T hT
    obtain ⟨d, h1, h2⟩ := isRead_doc (nm := b! "previewLayout") (by decide) rfl hT
    exact LayoutDef.loadXml_of h h1 h2

/-- A metadata source, loaded into a new one. -/
theorem C74_source (x : MetaSource) (h : x.storable) (compact : Bool) (ok : Nat → Bool) (old : Option Bytes) (b : Bool) (f : Bytes)
    (hs : x.saveFileOn compact true ok old = (b, some f)) (f' : Bytes) (hf : f' <+: f) :
    (MetaSource.create.loadFile f').1 = false ∨ MetaSource.create.loadFile f' = (true, x) := by
  unfold MetaSource.saveFileOn at hs
  rw [if_neg (by simp [h.1]), MetaSource.saveXml_eq h.1] at hs
  refine content_fail metaSourceCb_space (by decide) (MetaSource.node_savable h) (by rw [newXML_addChild]; rfl) MetaSource.create.loadXml (false, MetaSource.create)
    (true, x) (fun r => r.1 = false) rfl ?_ ?_ ?_ hs hf
  · intro T hT
    unfold MetaSource.loadXml
    rw [selfOrFind_noName hT]
  · intro W hW
    unfold MetaSource.loadXml
    rw [selfOrFind_emptyRoot hW (by decide)]
    rfl
  · intro T hT
    obtain ⟨d, h1, h2⟩ := isRead_doc (nm := b! "source") (by decide) rfl hT
    exact MetaSource.loadXml_of h h1 h2

/-- A metadata source of a file, loaded into a new one. -/
theorem C74_file_source (x : FileMetaSource) (h : x.storable) (compact : Bool) (ok : Nat → Bool) (old : Option Bytes) (b : Bool) (f : Bytes)
    (hs : x.saveFileOn compact true ok old = (b, some f)) (f' : Bytes) (hf : f' <+: f) :
    (FileMetaSource.create.loadFile f').1 = false ∨ FileMetaSource.create.loadFile f' = (true, x) := by
  unfold FileMetaSource.saveFileOn at hs
  rw [if_neg (by simp [h.1]), FileMetaSource.saveXml_eq h.1] at hs
  refine content_fail fileMetaSourceCb_space (by decide) (FileMetaSource.node_savable h) (by rw [newXML_addChild]; rfl) FileMetaSource.create.loadXml (false, FileMetaSource.create)
    (true, x) (fun r => r.1 = false) rfl ?_ ?_ ?_ hs hf
  · intro T hT
    unfold FileMetaSource.loadXml
    rw [selfOrFind_noName hT]
  · intro W hW
    unfold FileMetaSource.loadXml
    rw [selfOrFind_emptyRoot hW (by decide)]
    rfl
  · intro T hT
    obtain ⟨d, h1, h2⟩ := isRead_doc (nm := b! "source") (by decide) rfl hT
    exact FileMetaSource.loadXml_of h h1 h2

/-- A reel, loaded into a new one. -/
theorem C74_reel (x : Reel) (h : x.writable) (compact : Bool) (ok : Nat → Bool) (old : Option Bytes) (b : Bool) (f : Bytes)
    (hs : x.saveFileOn compact true ok old = (b, some f)) (f' : Bytes) (hf : f' <+: f) :
    (Reel.create.loadFile f').1 = false ∨ Reel.create.loadFile f' = (true, x.asLoaded) := by
  unfold Reel.saveFileOn at hs
  rw [Reel.saveXml_eq h, if_neg (by simp [h.1])] at hs
  refine content_fail reelCb_space (by decide) (Reel.node_savable h) (by rw [newXML_addChild]; rfl) Reel.create.loadXml (false, Reel.create)
    (true, x.asLoaded) (fun r => r.1 = false) rfl ?_ ?_ ?_ hs hf
  · intro T hT
    unfold Reel.loadXml
    rw [selfOrFind_noName hT]
  · intro W hW
    unfold Reel.loadXml
    rw [selfOrFind_emptyRoot hW (by decide)]
    rfl
  · intro T hT
    obtain ⟨d, h1, h2⟩ := isRead_doc (nm := b! "reel") (by decide) rfl hT
    exact Reel.loadXml_of h h1 h2

variable {L : ConfigLib}

/-- Technical metadata. -/
theorem C74_technical (x : TechMeta L) (h : x.writable) (g : Format L) (hg : x.format = some g) (compact : Bool) (ok : Nat → Bool)
    (old : Option Bytes) (b : Bool) (f : Bytes)
    (hs : x.saveFileOn compact true ok old = (b, some f)) (f' : Bytes) (hf : f' <+: f) (before : TechMeta L) :
    (before.loadFile f').1 = false ∨ before.loadFile f' =
      (true, ⟨some (TechMeta.loadedFormat g), x.tocs.map Files.asLoaded, (x.apps.map Files.asLoaded).or before.apps⟩) := by
  obtain ⟨⟨g', hg', hgs⟩, ⟨y, hy, hyw⟩, ha⟩ := h
  rw [hg] at hg'
  injection hg' with hg'
  subst hg'
  have ht : ∀ y, x.tocs = some y → ∀ z ∈ y.list, z.writable := by
    intro z hz; rw [hy] at hz; injection hz with hz; subst hz; exact hyw
  have e : x.tocs.map Files.asLoaded = (x.tocs.map Files.asLoaded).or before.tocs := by rw [hy]; rfl
  unfold TechMeta.saveFileOn at hs
  have hc : x.complete = true := by simp [TechMeta.complete, hy, hg]
  rw [if_neg (by simp [hc]), TechMeta.saveXml_eq hg ht ha] at hs
  rw [e]
  refine content_fail techCb_space (by decide) (TechMeta.nodeOf_savable hgs ht ha) (by rw [newXML_addChild]; rfl) before.loadXml (false, before)
    _ (fun r => r.1 = false) rfl ?_ ?_ ?_ hs hf
  · intro T hT
    unfold TechMeta.loadXml
    rw [find_noName hT]
  · intro W hW
    unfold TechMeta.loadXml
    rw [find_emptyRoot hW]
    rfl
  · intro T hT
    obtain ⟨d, h1, h2⟩ := isRead_find_some hT (find_doc (nm := b! "TechnicalMetadata") (t := TechMeta.nodeOf g x.tocs x.apps) rfl)
    exact TechMeta.loadXml_of hgs ht ha before h1 h2

/-! ## Objects whose every part may be missing -/

/-- A page of a preview: refused and untouched, or the page that was saved, or the file ends behind `<pages`. -/
theorem C74_page (x : Page) (h : x.writable) (compact : Bool) (ok : Nat → Bool) (old : Option Bytes) (b : Bool) (f : Bytes)
    (hs : x.saveFileOn compact true ok old = (b, some f)) (f' : Bytes) (hf : f' <+: f) (before : Page) :
    before.loadFile f' = (false, before) ∨ before.loadFile f' = (true, x.asLoaded) ∨
    EndsBehindName (b! "pages") f' ∧ before.loadFile f' = (true, { before with layoutId := none, dimX := 0, dimY := 0, ovX := 0, ovY := 0 }) := by
  unfold Page.saveFileOn at hs
  rw [Page.saveXml_eq] at hs
  refine root_fail pageCb_space (by decide) (Page.node_savable h.1) (by rw [newXML_addChild]; rfl) before.loadXml ((false, before)) ((true, x.asLoaded)) ((true, { before with layoutId := none, dimX := 0, dimY := 0, ovX := 0, ovY := 0 })) ?_ ?_ ?_ hs hf
  · intro T hT
    unfold Page.loadXml
    rw [selfOrFind_noName hT]
  · intro W hW
    unfold Page.loadXml
    rw [selfOrFind_emptyRoot hW (by decide)]
    rfl
  · intro T hT
    obtain ⟨d, h1, h2⟩ := isRead_doc (nm := b! "pages") (by decide) rfl hT
    exact Page.loadXml_asLoaded h h1 h2

/-- A preview, loaded into a new one. -/
theorem C74_preview (x : Preview) (h : x.storable) (compact : Bool) (ok : Nat → Bool) (old : Option Bytes) (b : Bool) (f : Bytes)
    (hs : x.saveFileOn compact true ok old = (b, some f)) (f' : Bytes) (hf : f' <+: f) :
    Preview.create.loadFile f' = (false, Preview.create) ∨ Preview.create.loadFile f' = (true, x) ∨
    EndsBehindName (b! "preview") f' ∧ Preview.create.loadFile f' = (true, Preview.create) := by
  unfold Preview.saveFileOn at hs
  rw [Preview.saveXml_eq h.1] at hs
  refine root_fail previewCb_space (by decide) (Preview.node_savable h) (by rw [newXML_addChild]; rfl) Preview.create.loadXml ((false, Preview.create)) ((true, x)) ((true, Preview.create)) ?_ ?_ ?_ hs hf
  · intro T hT
    unfold Preview.loadXml
    rw [selfOrFind_noName hT]
  · intro W hW
    unfold Preview.loadXml
    rw [selfOrFind_emptyRoot hW (by decide)]
    rfl
  · intro T hT
    obtain ⟨d, h1, h2⟩ := isRead_doc (nm := b! "preview") (by decide) rfl hT
    exact Preview.loadXml_of h h1 h2

/-- A list of sections, loaded into a new one. -/
theorem C74_sections (x : Sections) (h : x.storable) (compact : Bool) (ok : Nat → Bool) (old : Option Bytes) (b : Bool) (f : Bytes)
    (hs : x.saveFileOn compact true ok old = (b, some f)) (f' : Bytes) (hf : f' <+: f) :
    Sections.create.loadFile f' = (false, Sections.create) ∨ Sections.create.loadFile f' = (true, x) ∨
    EndsBehindName (b! "sections") f' ∧ Sections.create.loadFile f' = (true, Sections.create) := by
  unfold Sections.saveFileOn at hs
  rw [Sections.saveXml_eq h.1, if_neg (by simp [h.1])] at hs
  refine root_fail sectionsCb_space (by decide) x.node_savable (by rw [newXML_addChild]; rfl) Sections.create.loadXml ((false, Sections.create)) ((true, x)) ((true, Sections.create)) ?_ ?_ ?_ hs hf
  · intro T hT
    unfold Sections.loadXml
    rw [selfOrFind_noName hT]
  · intro W hW
    unfold Sections.loadXml
    rw [selfOrFind_emptyRoot hW (by decide)]
    rfl
  · intro T hT
    obtain ⟨d, h1, h2⟩ := isRead_doc (nm := b! "sections") (by decide) rfl hT
    exact Sections.loadXml_of h h1 h2

/-- A list of layout definitions, loaded into a new one. -/
theorem C74_layouts (x : LayoutDefs) (h : x.storable) (compact : Bool) (ok : Nat → Bool) (old : Option Bytes) (b : Bool) (f : Bytes)
    (hs : x.saveFileOn compact true ok old = (b, some f)) (f' : Bytes) (hf : f' <+: f) :
    LayoutDefs.create.loadFile f' = .ok (false, LayoutDefs.create) ∨ LayoutDefs.create.loadFile f' = .ok (true, x) ∨
    EndsBehindName (b! "layoutDefinitions") f' ∧ LayoutDefs.create.loadFile f' = .ok (true, LayoutDefs.create) := by
  unfold LayoutDefs.saveFileOn at hs
  rw [LayoutDefs.saveXml_eq h, if_neg (by simp [LayoutDefs.storable_valid h])] at hs
  refine root_fail layoutsCb_space (by decide) (LayoutDefs.node_savable h) (by rw [newXML_addChild]; rfl) LayoutDefs.create.loadXml (.ok (false, LayoutDefs.create)) (.ok (true, x)) (.ok (true, LayoutDefs.create)) ?_ ?_ ?_ hs hf
  · intro T hT
    unfold LayoutDefs.loadXml
    rw [selfOrFind_noName hT]
  · intro W hW
    unfold LayoutDefs.loadXml
    rw [selfOrFind_emptyRoot hW (by decide)]
    rfl
  · intro T hT
    obtain ⟨d, h1, h2⟩ := isRead_doc (nm := b! "layoutDefinitions") (by decide) rfl hT
    exact LayoutDefs.loadXml_of h h1 h2

/-- Metadata, loaded into new ones. -/
theorem C74_metadata (x : TocMeta) (h : x.storable) (compact : Bool) (ok : Nat → Bool) (old : Option Bytes) (b : Bool) (f : Bytes)
    (hs : x.saveFileOn compact true ok old = (b, some f)) (f' : Bytes) (hf : f' <+: f) :
    TocMeta.create.loadFile f' = (false, TocMeta.create) ∨ TocMeta.create.loadFile f' = (true, x) ∨
    EndsBehindName (b! "metadata") f' ∧ TocMeta.create.loadFile f' = (true, TocMeta.create) := by
  unfold TocMeta.saveFileOn at hs
  rw [TocMeta.saveXml_eq h.1] at hs
  refine root_fail tocMetaCb_space (by decide) (TocMeta.node_savable h) (by rw [newXML_addChild]; rfl) TocMeta.create.loadXml ((false, TocMeta.create)) ((true, x)) ((true, TocMeta.create)) ?_ ?_ ?_ hs hf
  · intro T hT
    unfold TocMeta.loadXml
    rw [selfOrFind_noName hT]
  · intro W hW
    unfold TocMeta.loadXml
    rw [selfOrFind_emptyRoot hW (by decide)]
    rfl
  · intro T hT
    obtain ⟨d, h1, h2⟩ := isRead_doc (nm := b! "metadata") (by decide) rfl hT
    exact TocMeta.loadXml_of h h1 h2

/-- Metadata of a file, loaded into new ones. -/
theorem C74_file_metadata (x : FileMeta) (h : x.storable) (compact : Bool) (ok : Nat → Bool) (old : Option Bytes) (b : Bool) (f : Bytes)
    (hs : x.saveFileOn compact true ok old = (b, some f)) (f' : Bytes) (hf : f' <+: f) :
    FileMeta.create.loadFile f' = (false, FileMeta.create) ∨ FileMeta.create.loadFile f' = (true, x) ∨
    EndsBehindName (b! "metadata") f' ∧ FileMeta.create.loadFile f' = (true, FileMeta.create) := by
  unfold FileMeta.saveFileOn at hs
  rw [FileMeta.saveXml_eq h] at hs
  refine root_fail fileMetaCb_space (by decide) (FileMeta.node_savable h) (by rw [newXML_addChild]; rfl) FileMeta.create.loadXml ((false, FileMeta.create)) ((true, x)) ((true, FileMeta.create)) ?_ ?_ ?_ hs hf
  · intro T hT
    unfold FileMeta.loadXml
    rw [selfOrFind_noName hT]
  · intro W hW
    unfold FileMeta.loadXml
    rw [selfOrFind_emptyRoot hW (by decide)]
    rfl
  · intro T hT
    obtain ⟨d, h1, h2⟩ := isRead_doc (nm := b! "metadata") (by decide) rfl hT
    exact FileMeta.loadXml_of h h1 h2

/-- A file entry (saved compact), loaded into a new one. -/
theorem C74_file (x : File) (h : x.writable) (v1 : Bool) (ok : Nat → Bool) (old : Option Bytes) (b : Bool) (f : Bytes)
    (hs : x.saveFileOn v1 true ok old = (b, some f)) (f' : Bytes) (hf : f' <+: f) :
    File.create.loadFile f' = (false, File.create) ∨ File.create.loadFile f' = (true, x.asLoaded v1) ∨
    EndsBehindName (b! "file") f' ∧ File.create.loadFile f' = (true, { File.create with fileFormat := some (b! "undefined"), checksum := some [] }) := by
  unfold File.saveFileOn at hs
  rw [File.saveXml_eq h] at hs
  refine root_fail fileCb_space (by decide) (File.node_savable h v1) (by rw [newXML_addChild]; rfl) File.create.loadXml ((false, File.create)) ((true, x.asLoaded v1)) ((true, { File.create with fileFormat := some (b! "undefined"), checksum := some [] })) ?_ ?_ ?_ hs hf
  · intro T hT
    unfold File.loadXml
    rw [selfOrFind_noName hT]
  · intro W hW
    unfold File.loadXml
    rw [selfOrFind_emptyRoot hW (by decide)]
    rfl
  · intro T hT
    obtain ⟨d, h1, h2⟩ := isRead_doc (nm := b! "file") (by decide) rfl hT
    exact File.loadXml_of h v1 h1 h2

/-- A table of contents, loaded into any other. -/
theorem C74_toc (x : TocData) (h : x.writable) (compact : Bool) (ok : Nat → Bool) (old : Option Bytes) (b : Bool) (f : Bytes)
    (hs : x.saveFileOn compact true ok old = (b, some f)) (f' : Bytes) (hf : f' <+: f) (before : TocData) :
    before.loadFile f' = .ok (false, before) ∨ before.loadFile f' = .ok (true, x.asLoaded) ∨
    EndsBehindName (b! "Index") f' ∧ before.loadFile f' = .ok (true, { before with version := none, metadata := none, layouts := none, reels := none }) := by
  unfold TocData.saveFileOn at hs
  rw [TocData.saveXml_eq h, if_neg (by simp [h.1])] at hs
  refine root_fail tocCb_space (by decide) (TocData.node_savable h) (by rw [newXML_addChild]; rfl) before.loadXml (.ok (false, before)) (.ok (true, x.asLoaded)) (.ok (true, { before with version := none, metadata := none, layouts := none, reels := none })) ?_ ?_ ?_ hs hf
  · intro T hT
    unfold TocData.loadXml
    rw [selfOrFind_noName hT]
  · intro W hW
    unfold TocData.loadXml
    rw [selfOrFind_emptyRoot hW (by decide)]
    rfl
  · intro T hT
    obtain ⟨d, h1, h2⟩ := isRead_doc (nm := b! "Index") (by decide) rfl hT
    exact TocData.loadXml_of h h1 h2

/-- Administrative metadata. -/
theorem C74_admin (x : Admin) (h : x.storable) (compact : Bool) (ok : Nat → Bool) (old : Option Bytes) (b : Bool) (f : Bytes)
    (hs : x.saveFileOn compact true ok old = (b, some f)) (f' : Bytes) (hf : f' <+: f) (before : Admin) :
    before.loadFile f' = (false, before) ∨ before.loadFile f' = (true, x) ∨
    EndsBehindName (b! "AdministrativeMetadata") f' ∧ before.loadFile f' = (true, ⟨none, none, none, none, none, none⟩) := by
  unfold Admin.saveFileOn at hs
  rw [Admin.saveXml_eq] at hs
  refine root_fail adminCb_space (by decide) (Admin.node_savable h) (by rw [newXML_addChild]; rfl) before.loadXml ((false, before)) ((true, x)) ((true, ⟨none, none, none, none, none, none⟩)) ?_ ?_ ?_ hs hf
  · intro T hT
    unfold Admin.loadXml
    rw [find_noName hT]
  · intro W hW
    unfold Admin.loadXml
    rw [find_emptyRoot hW]
    rfl
  · intro T hT
    obtain ⟨d, h1, h2⟩ := isRead_find_some hT (find_doc (nm := b! "AdministrativeMetadata") (t := x.node) rfl)
    exact Admin.loadXml_of h before h1 h2

/-- A boxing format with a configuration. -/
theorem C74_format (x : Format L) (h : x.storable) (c : L.Config) (hc : x.config = some c) (compact : Bool) (ok : Nat → Bool) (old : Option Bytes)
    (b : Bool) (f : Bytes) (hs : x.saveFileOn compact true ok old = (b, some f)) (f' : Bytes) (hf : f' <+: f) (before : Format L) :
    before.loadFile f' = (false, before) ∨ before.loadFile f' = (true, TechMeta.loadedFormat x) ∨
    EndsBehindName (b! "work") f' ∧ before.loadFile f' = (true, before.setConfig (some L.create)) := by
  have hst := h.2 c hc
  unfold Format.saveFileOn at hs
  rw [Format.saveXml_some hc] at hs
  have hv := Format.configNode_savable hst.1
  rw [Format.configNode_eq hst.1.1] at hs hv
  refine root_fail formatCb_space (by decide) hv (by rw [newXML_addChild]; rfl) before.loadXml (false, before) (true, TechMeta.loadedFormat x) ((true, before.setConfig (some L.create))) ?_ ?_ ?_ hs hf
  · intro T hT
    unfold Format.loadXml
    rw [find_noName hT]
    have : find T (b! "NULL") = none := by
      cases T with
      | text s => unfold find; rw [descendants]; rfl
      | elem m as cs =>
        rw [find_eq_findL]
        exact findL_none fun hm => by
          obtain ⟨r, hr⟩ := (hT.2 _ hm).1
          simp at hr
    rw [this]
  · intro W hW
    unfold Format.loadXml
    rw [find_emptyRoot hW]
    have : find (.elem xmlDecl [] (W ++ [.elem (b! "work") [] []])) (b! "NULL") = none := by
      rw [find_eq_findL, findL_append, findL_texts hW, Option.none_or]
      decide
    rw [this]
    rfl
  · intro T hT
    rw [← Format.configNode_eq hst.1.1] at hT
    unfold TechMeta.loadedFormat
    rw [hc]
    exact Format.loadXml_some hst.1 before hT

/-! ## Lists: anything that ends not later than behind the name of the outermost element is an empty list -/

/-- A list of files (saved compact), loaded into a new one. -/
theorem C74_files (x : Files) (h : ∀ y ∈ x.list, y.writable) (ok : Nat → Bool) (old : Option Bytes) (b : Bool) (f : Bytes)
    (hs : x.saveFileOn true ok old = (b, some f)) (f' : Bytes) (hf : f' <+: f) :
    Files.create.loadFile f' = (false, Files.create) ∨ Files.create.loadFile f' = (true, x.asLoaded) ∨ StopsByName (b! "files") f' := by
  unfold Files.saveFileOn at hs
  rw [Files.saveXml_eq h] at hs
  refine list_fail filesCb_space (by decide) (Files.node_savable h) (by rw [newXML_addChild]; rfl) Files.create.loadXml (false, Files.create) _ ?_ hs hf
  intro T hT
  have hr := isRead_findAll hT (b! "file")
  exact Files.loadXml_of h (Files.findAll_doc x ▸ hr)

/-- A list of reels, loaded into a new one. -/
theorem C74_reels (x : Reels) (h : ∀ y ∈ x.list, y.writable) (compact : Bool) (ok : Nat → Bool) (old : Option Bytes) (b : Bool) (f : Bytes)
    (hs : x.saveFileOn compact true ok old = (b, some f)) (f' : Bytes) (hf : f' <+: f) :
    Reels.create.loadFile f' = (false, Reels.create) ∨ Reels.create.loadFile f' = (true, x.asLoaded) ∨ StopsByName (b! "reels") f' := by
  unfold Reels.saveFileOn at hs
  rw [Reels.saveXml_eq h] at hs
  exact list_fail reelsCb_space (by decide) (Reels.node_savable h) (by rw [newXML_addChild]; rfl) Reels.create.loadXml (false, Reels.create) _
    (fun T hT => Reels.loadXml_doc h hT) hs hf

/-! ## Control data -/

/-- Control data: the load answers failure, or gives what was saved, or answers success with the administrative metadata that were saved and
    technical metadata in which everything is missing. -/
theorem C74_control (c : ControlData L) (h : c.writable) (a : Admin) (t : TechMeta L) (g : Format L) (hadm : c.admin = some a)
    (htech : c.tech = some t) (hg : t.format = some g) (compact : Bool) (ok : Nat → Bool) (old : Option Bytes)
    (b : Bool) (f : Bytes) (hs : c.saveFileOn compact true ok old = (b, some f)) (f' : Bytes) (hf : f' <+: f) (before : ControlData L) :
    (before.loadFile f').1 = false ∨
    before.loadFile f' = (true, ⟨some a, some ⟨some (TechMeta.loadedFormat g), t.tocs.map Files.asLoaded, t.apps.map Files.asLoaded⟩⟩) ∨
    ((before.loadFile f').1 = true ∧ (before.loadFile f').2.admin = some a ∧ (before.loadFile f').2.tech = some TechMeta.create) := by
  obtain ⟨⟨a', hadm', has⟩, t', htech', ⟨g', hg', hgs⟩, ⟨x, hx, hxw⟩, ha⟩ := h
  rw [hadm] at hadm'
  injection hadm' with hadm'
  subst hadm'
  rw [htech] at htech'
  injection htech' with htech'
  subst htech'
  rw [hg] at hg'
  injection hg' with hg'
  subst hg'
  have ht : ∀ y, t.tocs = some y → ∀ z ∈ y.list, z.writable := by
    intro y hy; rw [hx] at hy; injection hy with hy; subst hy; exact hxw
  have hc : c.complete = true := by simp [ControlData.complete, hadm, htech]
  have hsx : c.saveXml = some [a.node, TechMeta.nodeOf g t.tocs t.apps] := by
    unfold ControlData.saveXml
    rw [hadm, htech]
    simp only [Option.bind_some, Admin.saveXml_eq, TechMeta.saveXml_eq hg ht ha, Option.map_some]
  have hd : ControlData.document [a.node, TechMeta.nodeOf g t.tocs t.apps] =
      .elem xmlDecl [] [a.node, TechMeta.nodeOf g t.tocs t.apps] := rfl
  have hsav : ∀ n ∈ [a.node, TechMeta.nodeOf g t.tocs t.apps], Savable n := by
    intro n hn
    simp only [List.mem_cons, List.not_mem_nil, or_false] at hn
    rcases hn with rfl | rfl
    · exact Admin.node_savable has
    · exact TechMeta.nodeOf_savable hgs ht ha
  have hcb := spaceCb_if controlCb_space compact
  unfold ControlData.saveFileOn at hs
  rw [hc, hsx] at hs
  simp only [Bool.true_eq_false, if_false, if_true] at hs
  rw [hd] at hs
  injection hs with _ hs
  injection hs with hs
  subst hs
  unfold ControlData.loadFile loadFromFile
  rcases docs_cut ok hcb hsav (by cases compact <;> rfl) hf with h | h | h | ⟨kids, hr, pre, hp, h⟩
  · rw [h]; exact .inl rfl
  · rw [h]; exact .inl rfl
  · rw [h]; exact .inl rfl
  · have hgood := ControlData.loadXml_of has hgs ht ha before hr
    have hcut : ∃ T, Xml.loadFile f' = some T ∧ (T = .elem xmlDecl [] pre ∨ ∃ b, T = .elem xmlDecl [] (pre ++ [.elem b [] []])) := by
      rcases h with h | ⟨b, h⟩
      · exact ⟨_, h, .inl rfl⟩
      · exact ⟨_, h, .inr ⟨b, rfl⟩⟩
    obtain ⟨T, e, hT⟩ := hcut
    rw [e]
    have key := control_cut_load before (a := a.node) rfl hr hp hT
    rw [hgood] at key
    exact key

/-! ## In a history -/

open Spec.Session (savedFile loadedFile writesTo)
open Session (Call Result Any Sys calls readable)

theorem readable_prefix (upTo : Option Nat) (f : Bytes) : readable upTo f <+: f := by
  cases upTo with
  | none => exact List.prefix_refl _
  | some k => exact List.take_prefix _ _

/-- After any history a table of contents is saved, whatever writes fail; after any calls that do not write to that file, another table of
    contents is loaded from it, of which only a beginning may be readable.  The load is defined; it says that it failed and nothing changed, or
    the table of contents is the one that was saved, or what was read ends behind `<Index` and the table of contents is empty. -/
theorem C74_session_toc (disk : Bytes → Option Bytes) (before between : List (Call L)) (i j : Nat) (name : Bytes) (v1 compact : Bool)
    (ok : Nat → Bool) (upTo : Option Nat) (r0 r1 : List Result) (o0 o1 : List (Any L)) (s0 s1 : Sys) (t u : TocData) (ht : t.writable)
    (h0 : calls [] before (Sys.init disk) = .ok ((r0, o0), s0)) (hx : o0[i]? = some (.toc t))
    (h1 : calls [] (before ++ .saveFile i name v1 compact true ok :: between) (Sys.init disk) = .ok ((r1, o1), s1))
    (hb : ∀ c ∈ between, ¬ writesTo name c) (hy : o1[j]? = some (.toc u)) :
    ∃ f b z s2, s1.disk name = some f ∧
      calls [] (before ++ .saveFile i name v1 compact true ok :: between ++ [.loadFile j name true upTo]) (Sys.init disk) =
        .ok ((r1 ++ [.flag b], o1.set j (.toc z)), s2) ∧
      (b = false ∧ z = u ∨ b = true ∧ z = t.asLoaded ∨
       EndsBehindName (b! "Index") (readable upTo f) ∧ b = true ∧ z = { u with version := none, metadata := none, layouts := none, reels := none }) := by
  obtain ⟨b0, file, e, _, e2, e3⟩ := Afs.C73_last_save disk before between i j name v1 compact true ok r0 r1 o0 o1 s0 s1 _ _ h0 hx h1 hb hy
  simp only [savedFile] at e
  injection e with e
  obtain ⟨b', f', ef⟩ : ∃ b' f', t.saveFileOn compact true ok (s0.disk name) = (b', some f') := by
    unfold TocData.saveFileOn
    rw [if_neg (by simp [ht.1]), TocData.saveXml_eq ht]
    exact ⟨_, _, rfl⟩
  have hfile : file = some f' := by rw [ef] at e; injection e with _ e; exact e.symm
  subst hfile
  have key := C74_toc t ht compact ok _ b' f' ef (readable upTo f') (readable_prefix _ _) u
  rcases key with k | k | ⟨k1, k⟩
  all_goals
    obtain ⟨s2, h2⟩ := e3 f' rfl upTo _ _ (by simp only [loadedFile, k, Res.bind]; rfl)
    refine ⟨f', _, _, s2, e2, h2, ?_⟩
  · exact .inl ⟨rfl, rfl⟩
  · exact .inr (.inl ⟨rfl, rfl⟩)
  · exact .inr (.inr ⟨k1, rfl, rfl⟩)

/-- The same with administrative metadata. -/
theorem C74_session_admin (disk : Bytes → Option Bytes) (before between : List (Call L)) (i j : Nat) (name : Bytes) (v1 compact : Bool)
    (ok : Nat → Bool) (upTo : Option Nat) (r0 r1 : List Result) (o0 o1 : List (Any L)) (s0 s1 : Sys) (t u : Admin) (ht : t.storable)
    (h0 : calls [] before (Sys.init disk) = .ok ((r0, o0), s0)) (hx : o0[i]? = some (.admin t))
    (h1 : calls [] (before ++ .saveFile i name v1 compact true ok :: between) (Sys.init disk) = .ok ((r1, o1), s1))
    (hb : ∀ c ∈ between, ¬ writesTo name c) (hy : o1[j]? = some (.admin u)) :
    ∃ f b z s2, s1.disk name = some f ∧
      calls [] (before ++ .saveFile i name v1 compact true ok :: between ++ [.loadFile j name true upTo]) (Sys.init disk) =
        .ok ((r1 ++ [.flag b], o1.set j (.admin z)), s2) ∧
      (b = false ∧ z = u ∨ b = true ∧ z = t ∨
       EndsBehindName (b! "AdministrativeMetadata") (readable upTo f) ∧ b = true ∧ z = ⟨none, none, none, none, none, none⟩) := by
  obtain ⟨b0, file, e, _, e2, e3⟩ := Afs.C73_last_save disk before between i j name v1 compact true ok r0 r1 o0 o1 s0 s1 _ _ h0 hx h1 hb hy
  simp only [savedFile] at e
  injection e with e
  obtain ⟨b', f', ef⟩ : ∃ b' f', t.saveFileOn compact true ok (s0.disk name) = (b', some f') := by
    unfold Admin.saveFileOn
    rw [Admin.saveXml_eq]
    exact ⟨_, _, rfl⟩
  have hfile : file = some f' := by rw [ef] at e; injection e with _ e; exact e.symm
  subst hfile
  have key := C74_admin t ht compact ok _ b' f' ef (readable upTo f') (readable_prefix _ _) u
  rcases key with k | k | ⟨k1, k⟩
  all_goals
    obtain ⟨s2, h2⟩ := e3 f' rfl upTo _ _ (by simp only [loadedFile, k]; rfl)
    refine ⟨f', _, _, s2, e2, h2, ?_⟩
  · exact .inl ⟨rfl, rfl⟩
  · exact .inr (.inl ⟨rfl, rfl⟩)
  · exact .inr (.inr ⟨k1, rfl, rfl⟩)

/-- And with control data, which must be complete. -/
theorem C74_session_control (disk : Bytes → Option Bytes) (before between : List (Call L)) (i j : Nat) (name : Bytes) (v1 compact : Bool)
    (ok : Nat → Bool) (upTo : Option Nat) (r0 r1 : List Result) (o0 o1 : List (Any L)) (s0 s1 : Sys) (c u : ControlData L) (hc : c.writable)
    (a : Admin) (t : TechMeta L) (g : Format L) (hadm : c.admin = some a) (htech : c.tech = some t) (hg : t.format = some g)
    (h0 : calls [] before (Sys.init disk) = .ok ((r0, o0), s0)) (hx : o0[i]? = some (.control c))
    (h1 : calls [] (before ++ .saveFile i name v1 compact true ok :: between) (Sys.init disk) = .ok ((r1, o1), s1))
    (hb : ∀ c ∈ between, ¬ writesTo name c) (hy : o1[j]? = some (.control u)) :
    ∃ b z s2,
      calls [] (before ++ .saveFile i name v1 compact true ok :: between ++ [.loadFile j name true upTo]) (Sys.init disk) =
        .ok ((r1 ++ [.flag b], o1.set j (.control z)), s2) ∧
      (b = false ∨
       b = true ∧ z = ⟨some a, some ⟨some (TechMeta.loadedFormat g), t.tocs.map Files.asLoaded, t.apps.map Files.asLoaded⟩⟩ ∨
       b = true ∧ z.admin = some a ∧ z.tech = some TechMeta.create) := by
  obtain ⟨b0, file, e, _, e2, e3⟩ := Afs.C73_last_save disk before between i j name v1 compact true ok r0 r1 o0 o1 s0 s1 _ _ h0 hx h1 hb hy
  simp only [savedFile] at e
  injection e with e
  obtain ⟨b', f', ef⟩ : ∃ b' f', c.saveFileOn compact true ok (s0.disk name) = (b', some f') := by
    have hcm : c.complete = true := by simp [ControlData.complete, hadm, htech]
    obtain ⟨⟨a', hadm', has⟩, t', htech', ⟨g', hg', hgs⟩, ⟨x, hx, hxw⟩, ha⟩ := hc
    rw [htech] at htech'
    injection htech' with htech'
    subst htech'
    have ht : ∀ y, t.tocs = some y → ∀ z ∈ y.list, z.writable := by
      intro y hy; rw [hx] at hy; injection hy with hy; subst hy; exact hxw
    have hsx : c.saveXml = some [a.node, TechMeta.nodeOf g t.tocs t.apps] := by
      unfold ControlData.saveXml
      rw [hadm, htech]
      simp only [Option.bind_some, Admin.saveXml_eq, TechMeta.saveXml_eq hg ht ha, Option.map_some]
    unfold ControlData.saveFileOn
    rw [hcm, hsx]
    exact ⟨_, _, rfl⟩
  have hfile : file = some f' := by rw [ef] at e; injection e with _ e; exact e.symm
  subst hfile
  have key := C74_control c hc a t g hadm htech hg compact ok _ b' f' ef (readable upTo f') (readable_prefix _ _) u
  obtain ⟨s2, h2⟩ := e3 f' rfl upTo _ _ (by simp only [loadedFile]; rfl)
  refine ⟨_, _, s2, h2, ?_⟩
  rcases key with k | k | k
  · exact .inl k
  · rw [k]; exact .inr (.inl ⟨rfl, rfl⟩)
  · exact .inr (.inr k)

/-! ## The hypotheses are met -/

set_option maxRecDepth 100000 in
/-- One write of white space fails, all others succeed: the file is not a beginning of the text, and yet gives back what was saved. -/
theorem C74_gap : ∃ t f, adminExample.saveFile false = (true, some t) ∧
    adminExample.saveFileOn false true (fun n => n != 63) (some (b! "old")) = (true, some f) ∧ ¬ f <+: t ∧
    Admin.create.loadFile f = (true, adminExample) := by
  refine ⟨_, _, rfl, rfl, ?_, ?_⟩
  · rw [← List.isPrefixOf_iff_prefix]
    decide +kernel
  · decide +kernel

set_option maxRecDepth 100000 in
/-- A write inside an element fails: a later load says so. -/
example : ∃ f, adminExample.saveFileOn false true (fun n => n != 70) (some (b! "old")) = (true, some f) ∧
    Admin.create.loadFile f = (false, Admin.create) := by
  refine ⟨_, rfl, ?_⟩
  decide +kernel

/-- The third case occurs with a table of contents, administrative metadata and control data. -/
example : ∃ k f, exToc.saveFileOn false true (fullAfter k) none = (true, some f) ∧ ∃ before : TocData,
    before.loadFile f = .ok (true, { before with version := none, metadata := none, layouts := none, reels := none }) := by
  obtain ⟨k, h⟩ := C56_toc_loss exToc exToc_storable.1 false true _ (by
    unfold TocData.saveFile
    rw [TocData.saveXml_eq exToc_storable.1, if_neg (by simp [exToc_storable.1.1])]
    rfl)
  exact ⟨k, _, (C62_toc exToc false).full _ (by
    unfold TocData.saveFile
    rw [TocData.saveXml_eq exToc_storable.1, if_neg (by simp [exToc_storable.1.1])]
    rfl) k none, TocData.create, h.2 _⟩

/-- A history: administrative metadata are saved while one write fails, something else is saved elsewhere, and they are loaded. -/
example : ∃ b z rs s, calls (L := exLib) [] ([.new (.admin adminExample), .new (.admin Admin.create)] ++
      .saveFile 0 (b! "a.xml") false false true (fun n => n != 63) :: [.saveFile 1 (b! "b.xml") false true true noFailure] ++
      [.loadFile 1 (b! "a.xml") true (some 500)]) (Sys.init fun _ => none) = .ok ((rs ++ [.flag b], [.admin adminExample, .admin z]), s) ∧
    (b = false ∧ z = Admin.create ∨ b = true ∧ (z = adminExample ∨ z = ⟨none, none, none, none, none, none⟩)) := by
  obtain ⟨r0, o0, s0, h0⟩ := C73_defined (L := exLib) (fun _ => none) [.new (.admin adminExample), .new (.admin Admin.create)] ⟨trivial, trivial, trivial⟩
  obtain ⟨r1, o1, s1, h1⟩ := C73_defined (L := exLib) (fun _ => none) ([.new (.admin adminExample), .new (.admin Admin.create)] ++
    .saveFile 0 (b! "a.xml") false false true (fun n => n != 63) :: [.saveFile 1 (b! "b.xml") false true true noFailure])
    (by exact ⟨trivial, trivial, ⟨false, rfl, fun h => nomatch h⟩, ⟨false, rfl, fun h => nomatch h⟩, trivial⟩)
  have ho0 : o0 = [.admin adminExample, .admin Admin.create] := by
    obtain ⟨w, hr, rfl, _⟩ := session_done h0
    simp only [Spec.Session.run, Spec.Session.step, List.nil_append, List.cons_append] at hr
    cases hr
    rfl
  have ho1 : o1 = [.admin adminExample, .admin Admin.create] := by
    obtain ⟨w, hr, rfl, _⟩ := session_done h1
    simp only [Spec.Session.run, Spec.Session.step, List.nil_append, List.cons_append, List.getElem?_cons_zero, List.getElem?_cons_succ,
      savedFile] at hr
    cases hr
    rfl
  obtain ⟨f, b, z, s2, _, h2, h3⟩ := C74_session_admin (fun _ => none) _ _ 0 1 (b! "a.xml") false false (fun n => n != 63) (some 500) r0 r1 o0 o1 s0 s1
    adminExample Admin.create adminExample_storable h0 (by rw [ho0]; rfl) h1 (by
      intro c hc
      rw [List.mem_singleton.mp hc]
      exact (by decide : ¬ (b! "b.xml" = b! "a.xml"))) (by rw [ho1]; rfl)
  rw [ho1] at h2
  refine ⟨b, z, r1, s2, h2, ?_⟩
  rcases h3 with h | ⟨h, h'⟩ | ⟨_, h, h'⟩
  · exact .inl h
  · exact .inr ⟨h, .inl h'⟩
  · exact .inr ⟨h, .inr h'⟩

end Afs
