import Verif.Proof.Schema3
import Verif.Props.C26_Toc
import Verif.Props.C54_C55_Grammar
/-!
# C61: saved objects and the published schema

The project publishes XML schemas for the table of contents (xsd/tocdata.xsd, xsd/tocdatafile.xsd),
and other programs read tapes by them.  For every object kind that has a type there, these
theorems say exactly of which objects the saved text follows the schema.  The schema is
transcribed in Spec/Schema.lean, the conditions on the objects are in Spec/Conforms.lean.

The tree of a text is taken with the library's own reader; by C54 that is the tree the XML grammar gives.
-/
namespace Afs
open Xml Spec Spec.Schema

/-! ### Whole documents -/

theorem clean_parts {n : Bytes} {as cs} (hn : PlainName n) (h : CleanTree (.elem n as cs)) : CleanAttrs as ∧ ∀ c ∈ cs, CleanTree c := by
  generalize e : Node.elem n as cs = t at h
  cases h with
  | elem h1 h2 h3 => cases e; exact ⟨h2, h3⟩
  | text h => cases e
  | cdata h =>
    cases e
    obtain ⟨c, r, e, h1, -⟩ := plain_head hn
    cases e
    exact absurd rfl h1

theorem xmlDecl_not_plain {n : Bytes} (hn : PlainName n) : xmlDecl ≠ n := by
  obtain ⟨c, r, rfl, -, h2⟩ := plain_head hn
  intro e
  exact h2 (by injection e with e _; exact e.symm)

theorem conforms_doc {cb : SaveCb} (hcb : SpaceCb cb) {n : Bytes} {as cs} (hn : PlainName n) (hnd : n ≠ b! "data")
    (hs : Shape (.elem n as cs)) {ty : Ty} (hty : Loose ty) {P : Prop} (hP : Valid ty as cs ↔ P) (A : Bytes) :
    Conforms n ty (.elem xmlDecl [] ((if A = [] then [] else [.text A]) ++ [withWhite cb [xmlDecl] (.elem n as cs)])) ↔ P := by
  obtain ⟨ks, e, hk⟩ := hs.kept hcb [xmlDecl] n as cs rfl
  have hv := hk ty hty fun e => absurd e hnd
  have hel : elements ((if A = [] then [] else [.text A]) ++ [withWhite cb [xmlDecl] (.elem n as cs)]) = [.elem n as ks] := by
    rw [elements_append, pending_elements, e]
    simp [elements, plain_isElement hn]
  rw [← hP, ← hv]
  constructor
  · rintro ⟨as', cs', h, h' | ⟨d, ks', h1, -, h2⟩⟩
    · injection h' with h' _ _
      exact absurd h' (xmlDecl_not_plain hn)
    · injection h1 with _ _ h1
      rw [← h1, hel] at h2
      simp only [List.cons.injEq, Node.elem.injEq, and_true, true_and] at h2
      obtain ⟨rfl, rfl⟩ := h2
      exact h
  · intro h
    exact ⟨as, ks, h, .inr ⟨_, _, rfl, by decide, hel⟩⟩

theorem conforms_elem {cb : SaveCb} (hcb : SpaceCb cb) (anc : List Bytes) {n : Bytes} {as cs} (hn : PlainName n) (hnd : n ≠ b! "data")
    (hs : Shape (.elem n as cs)) {ty : Ty} (hty : Loose ty) {P : Prop} (hP : Valid ty as cs ↔ P) :
    Conforms n ty (withWhite cb anc (.elem n as cs)) ↔ P := by
  obtain ⟨ks, e, hk⟩ := hs.kept hcb anc n as cs rfl
  have hv := hk ty hty fun e => absurd e hnd
  rw [← hP, ← hv, e]
  constructor
  · rintro ⟨as', cs', h, h' | ⟨d, ks', h1, h2, -⟩⟩
    · cases h'; exact h
    · injection h1 with h1 _ _
      subst h1
      obtain ⟨c, r, rfl, -, h3⟩ := plain_head hn
      obtain ⟨t, ht⟩ := h2
      injection ht with ht _
      exact absurd ht.symm h3
  · intro h
    exact ⟨as, ks, h, .inl rfl⟩

theorem doc_conforms {openFirst : Bool} {cb : SaveCb} (hcb : SpaceCb cb) (compact : Bool) {n : Bytes} {as cs} (hn : PlainName n) (hnd : n ≠ b! "data")
    (hsv : Savable (.elem n as cs)) (hs : Shape (.elem n as cs)) {ty : Ty} (hty : Loose ty) {P : Prop} (hP : Valid ty as cs ↔ P) :
    (∃ t T, docString cb compact (some (.elem n as cs)) = some t ∧ Xml.loadString t = some T ∧ (Conforms n ty T ↔ P)) ∧
    (∃ t T, docFile openFirst cb compact (some (.elem n as cs)) = (true, some t) ∧ Xml.loadFile t = some T ∧ (Conforms n ty T ↔ P)) := by
  have hcb' := spaceCb_if hcb compact
  obtain ⟨ha, hc⟩ := clean_parts hn hsv.clean
  constructor
  · obtain ⟨A, -, h⟩ := load_document good_decode hcb'.white hn ha hc
    refine ⟨_, _, saveAlloc_elem _ _ _ _ _, ?_, conforms_doc hcb' hn hnd hs hty hP A⟩
    rw [newXML_addChild] at h
    exact h
  · obtain ⟨A, -, h⟩ := load_document good_decodeFile hcb'.white hn ha hc
    exact ⟨_, _, rfl, h, conforms_doc hcb' hn hnd hs hty hP A⟩

theorem elem_conforms {cb : SaveCb} (hcb : SpaceCb cb) (compact : Bool) {n : Bytes} {as cs} (hn : PlainName n) (hnd : n ≠ b! "data")
    (hsv : Savable (.elem n as cs)) (hs : Shape (.elem n as cs)) {ty : Ty} (hty : Loose ty) {P : Prop} (hP : Valid ty as cs ↔ P) :
    ∃ t T, elemString cb compact (some (.elem n as cs)) = some t ∧ Xml.loadString t = some T ∧ (Conforms n ty T ↔ P) := by
  have hcb' := spaceCb_if hcb compact
  obtain ⟨ha, hc⟩ := clean_parts hn hsv.clean
  exact ⟨_, _, saveAlloc_elem _ _ _ _ _, load_elem good_decode hcb'.white _ hn ha hc, conforms_elem hcb' _ hn hnd hs hty hP⟩

/-! ### The types are indifferent to white space around texts -/

theorem loose_pages (D) : Loose (pagesType D) := by simp [pagesType, Loose]
theorem loose_preview (D) : Loose (previewType D) := by
  simp [previewType, Loose, LooseParts, padded_unsigned, loose_pages]
theorem loose_file_source : Loose fileMetadataSourceType := by
  simp [fileMetadataSourceType, fileMetadataSourceDataType, Loose, LooseParts, padded_string]
theorem loose_file_meta : Loose fileMetadataType := by simp [fileMetadataType, Loose, LooseParts, loose_file_source]
theorem loose_file (D) : Loose (fileType D) := by
  simp [fileType, Loose, LooseParts, padded_string, padded_integer, padded_date, padded_parent, loose_preview, loose_file_meta, dataType, locationType, padded_unsigned]
theorem loose_source : Loose sourceType := by simp [sourceType, Loose, LooseParts, padded_string]
theorem loose_meta : Loose metadataType := by simp [metadataType, Loose, LooseParts, loose_source]
theorem loose_section : Loose sectionType := by simp [sectionType, Loose, padded_string]
theorem loose_sections : Loose sectionsType := by simp [sectionsType, Loose, LooseParts, loose_section]
theorem loose_layout : Loose previewLayoutType := by simp [previewLayoutType, Loose, LooseParts, padded_string, loose_sections]
theorem loose_layouts : Loose layoutDefinitionsType := by simp [layoutDefinitionsType, Loose, LooseParts, loose_layout]
theorem loose_files (D) : Loose (filesType D) := by simp [filesType, Loose, LooseParts, loose_file]
theorem loose_reel (D) : Loose (reelType D) := by simp [reelType, Loose, LooseParts, padded_string, loose_files]
theorem loose_reels (D) : Loose (reelsType D) := by simp [reelsType, Loose, LooseParts, loose_reel]
theorem loose_index (D) : Loose (Schema.indexType D) := by
  simp [Schema.indexType, Loose, LooseParts, padded_string, loose_meta, loose_layouts, loose_reels]

/-! ## C61 -/

section
variable {D : Char → Prop} (hD : HasDigits D)
include hD

/-- The text of a saved page follows the type `pagesType` exactly if the layout id is a number. -/
theorem C61_page (p : Page) (h : p.writable) (compact : Bool) :
    (∃ t T, p.saveString compact = some t ∧ Xml.loadString t = some T ∧ (Conforms (b! "pages") (pagesType D) T ↔ p.conforms)) ∧
    (∃ t T, p.saveFile compact = (true, some t) ∧ Xml.loadFile t = some T ∧ (Conforms (b! "pages") (pagesType D) T ↔ p.conforms)) := by
  unfold Page.saveString Page.saveFile
  rw [Page.saveXml_eq]
  exact doc_conforms pageCb_space compact (by decide) (by decide) (Page.node_savable h.1) (Page.shape p) (loose_pages D) (Page.valid hD h)

/-- A saved preview follows `previewType` exactly if the layout ids are numbers. -/
theorem C61_preview (p : Preview) (h : p.storable) (compact : Bool) :
    (∃ t T, p.saveString compact = some t ∧ Xml.loadString t = some T ∧ (Conforms (b! "preview") (previewType D) T ↔ p.conforms)) ∧
    (∃ t T, p.saveFile compact = (true, some t) ∧ Xml.loadFile t = some T ∧ (Conforms (b! "preview") (previewType D) T ↔ p.conforms)) := by
  unfold Preview.saveString Preview.saveFile
  rw [Preview.saveXml_eq h.1]
  exact doc_conforms previewCb_space compact (by decide) (by decide) (Preview.node_savable h) (Preview.shape p) (loose_preview D) (Preview.valid hD h)

/-- A saved file entry follows `fileType` exactly if it is saved in the newer data format and meets `File.conforms`
    (to a file: saved compact). -/
theorem C61_file (f : File) (h : f.writable) (v1 : Bool) :
    (∀ compact, ∃ t T, f.saveString compact v1 = some t ∧ Xml.loadString t = some T ∧
      (Conforms (b! "file") (fileType D) T ↔ f.conforms D ∧ v1 = false)) ∧
    (∃ t T, f.saveFile true v1 = .ok (true, some t) ∧ Xml.loadFile t = some T ∧
      (Conforms (b! "file") (fileType D) T ↔ f.conforms D ∧ v1 = false)) := by
  unfold File.saveString File.saveFile
  rw [File.saveXml_eq h]
  refine ⟨fun compact => elem_conforms fileCb_space compact (by decide) (by decide) (File.node_savable h v1) (File.shape f v1) (loose_file D) (File.valid hD h v1), ?_⟩
  obtain ⟨t, T, h1, h2, h3⟩ := (doc_conforms (openFirst := true) fileCb_space true (by decide) (by decide) (File.node_savable h v1) (File.shape f v1)
    (loose_file D) (File.valid hD h v1)).2
  exact ⟨t, T, congrArg Res.ok h1, h2, h3⟩

/-- A saved list of files follows `filesType` exactly if it is not empty and its entries conform (saved compact). -/
theorem C61_files (f : Files) (h : ∀ x ∈ f.list, x.writable) :
    (∃ t T, f.saveString true = .ok (some t) ∧ Xml.loadString t = some T ∧ (Conforms (b! "files") (filesType D) T ↔ f.conforms D)) ∧
    (∃ t T, f.saveFile true = .ok (true, some t) ∧ Xml.loadFile t = some T ∧ (Conforms (b! "files") (filesType D) T ↔ f.conforms D)) := by
  unfold Files.saveString Files.saveFile
  rw [Files.saveXml_eq h]
  obtain ⟨⟨t, T, h1, h2, h3⟩, ⟨u, U, h4, h5, h6⟩⟩ := doc_conforms (openFirst := false) filesCb_space true (by decide) (by decide)
    (Files.node_savable h) (Files.shape f) (loose_files D) (Files.valid hD h)
  exact ⟨⟨t, T, congrArg Res.ok h1, h2, h3⟩, ⟨u, U, congrArg Res.ok h4, h5, h6⟩⟩

/-- A saved reel follows `reelType` exactly if it has a file and its files conform. -/
theorem C61_reel (r : Reel) (h : r.writable) (compact : Bool) :
    (∃ t T, r.saveString compact = some t ∧ Xml.loadString t = some T ∧ (Conforms (b! "reel") (reelType D) T ↔ r.conforms D)) ∧
    (∃ t T, r.saveFile compact = (true, some t) ∧ Xml.loadFile t = some T ∧ (Conforms (b! "reel") (reelType D) T ↔ r.conforms D)) := by
  unfold Reel.saveString Reel.saveFile
  rw [Reel.saveXml_eq h, if_neg (by simp [h.1])]
  exact doc_conforms reelCb_space compact (by decide) (by decide) (Reel.node_savable h) (Reel.shape r) (loose_reel D) (Reel.valid hD h)

/-- A saved list of reels follows `reelsType` exactly if it is not empty and its reels conform. -/
theorem C61_reels (r : Reels) (h : ∀ x ∈ r.list, x.writable) (compact : Bool) :
    (∃ t T, r.saveString compact = some t ∧ Xml.loadString t = some T ∧ (Conforms (b! "reels") (reelsType D) T ↔ r.conforms D)) ∧
    (∃ t T, r.saveFile compact = (true, some t) ∧ Xml.loadFile t = some T ∧ (Conforms (b! "reels") (reelsType D) T ↔ r.conforms D)) := by
  unfold Reels.saveString Reels.saveFile
  rw [Reels.saveXml_eq h]
  exact doc_conforms reelsCb_space compact (by decide) (by decide) (Reels.node_savable h) (Reels.shape r) (loose_reels D) (Reels.valid hD h)

/-- A saved table of contents is a document of the schema tocdata.xsd exactly if it meets `TocData.conforms`. -/
theorem C61_toc (t : TocData) (h : t.writable) (compact : Bool) :
    (∃ s T, t.saveString compact = some s ∧ Xml.loadString s = some T ∧ (Conforms (b! "Index") (Schema.indexType D) T ↔ t.conforms D)) ∧
    (∃ s T, t.saveFile compact = (true, some s) ∧ Xml.loadFile s = some T ∧ (Conforms (b! "Index") (Schema.indexType D) T ↔ t.conforms D)) := by
  unfold TocData.saveString TocData.saveFile
  rw [TocData.saveXml_eq h, if_neg (by simp [h.1])]
  exact doc_conforms tocCb_space compact (by decide) (by decide) (TocData.node_savable h) (TocData.shape h) (loose_index D) (TocData.valid hD h)

end

/-- A saved metadata source follows `sourceType` exactly if it has tags and no data. -/
theorem C61_source (s : MetaSource) (h : s.storable) (compact : Bool) :
    (∃ t T, s.saveString compact = some t ∧ Xml.loadString t = some T ∧ (Conforms (b! "source") sourceType T ↔ s.conforms)) ∧
    (∃ t T, s.saveFile compact = (true, some t) ∧ Xml.loadFile t = some T ∧ (Conforms (b! "source") sourceType T ↔ s.conforms)) := by
  unfold MetaSource.saveString MetaSource.saveFile
  rw [if_neg (by simp [h.1]), MetaSource.saveXml_eq h.1]
  exact doc_conforms metaSourceCb_space compact (by decide) (by decide) (MetaSource.node_savable h) (MetaSource.shape s) loose_source (MetaSource.valid h)

/-- Saved metadata follows `metadataType` exactly if its sources conform. -/
theorem C61_metadata (m : TocMeta) (h : m.storable) (compact : Bool) :
    (∃ t T, m.saveString compact = some t ∧ Xml.loadString t = some T ∧ (Conforms (b! "metadata") metadataType T ↔ m.conforms)) ∧
    (∃ t T, m.saveFile compact = (true, some t) ∧ Xml.loadFile t = some T ∧ (Conforms (b! "metadata") metadataType T ↔ m.conforms)) := by
  unfold TocMeta.saveString TocMeta.saveFile
  rw [TocMeta.saveXml_eq h.1]
  exact ⟨elem_conforms tocMetaCb_space compact (by decide) (by decide) (TocMeta.node_savable h) (TocMeta.shape m) loose_meta (TocMeta.valid h),
    (doc_conforms tocMetaCb_space compact (by decide) (by decide) (TocMeta.node_savable h) (TocMeta.shape m) loose_meta (TocMeta.valid h)).2⟩

/-- A saved metadata source of a file follows `fileMetadataSourceType` exactly if it has data and both ids. -/
theorem C61_file_source (s : FileMetaSource) (h : s.storable) (compact : Bool) :
    (∃ t T, s.saveString compact = some t ∧ Xml.loadString t = some T ∧ (Conforms (b! "source") fileMetadataSourceType T ↔ s.conforms)) ∧
    (∃ t T, s.saveFile compact = (true, some t) ∧ Xml.loadFile t = some T ∧ (Conforms (b! "source") fileMetadataSourceType T ↔ s.conforms)) := by
  unfold FileMetaSource.saveString FileMetaSource.saveFile
  rw [if_neg (by simp [h.1]), FileMetaSource.saveXml_eq h.1]
  exact doc_conforms fileMetaSourceCb_space compact (by decide) (by decide) (FileMetaSource.node_savable h) (FileMetaSource.shape s) loose_file_source
    (FileMetaSource.valid h)

/-- Saved metadata of a file follows `fileMetadataType` exactly if its sources conform. -/
theorem C61_file_metadata (m : FileMeta) (h : m.storable) (compact : Bool) :
    (∃ t T, m.saveString compact = some t ∧ Xml.loadString t = some T ∧ (Conforms (b! "metadata") fileMetadataType T ↔ m.conforms)) ∧
    (∃ t T, m.saveFile compact = (true, some t) ∧ Xml.loadFile t = some T ∧ (Conforms (b! "metadata") fileMetadataType T ↔ m.conforms)) := by
  unfold FileMeta.saveString FileMeta.saveFile
  rw [FileMeta.saveXml_eq h]
  exact ⟨elem_conforms fileMetaCb_space compact (by decide) (by decide) (FileMeta.node_savable h) (FileMeta.shape m) loose_file_meta (FileMeta.valid h),
    (doc_conforms fileMetaCb_space compact (by decide) (by decide) (FileMeta.node_savable h) (FileMeta.shape m) loose_file_meta (FileMeta.valid h)).2⟩

/-- Every saved section follows `sectionType`. -/
theorem C61_section (s : Section) (hv : s.isValid = true) (h : s.inRange) (compact : Bool) :
    (∃ t T, s.saveString compact = some t ∧ Xml.loadString t = some T ∧ Conforms (b! "section") sectionType T) ∧
    (∃ t T, s.saveFile compact = (true, some t) ∧ Xml.loadFile t = some T ∧ Conforms (b! "section") sectionType T) := by
  unfold Section.saveString Section.saveFile
  rw [Section.saveXml_eq hv, if_neg (by simp [hv])]
  have := doc_conforms (openFirst := true) sectionCb_space compact (by decide) (by decide) s.node_savable (Section.shape s) loose_section
    (iff_true_intro (Section.valid h))
  simp only [iff_true] at this
  exact this

/-- Every saved list of sections follows `sectionsType`. -/
theorem C61_sections (s : Sections) (h : s.storable) (compact : Bool) :
    (∃ t T, s.saveString compact = some t ∧ Xml.loadString t = some T ∧ Conforms (b! "sections") sectionsType T) ∧
    (∃ t T, s.saveFile compact = (true, some t) ∧ Xml.loadFile t = some T ∧ Conforms (b! "sections") sectionsType T) := by
  unfold Sections.saveString Sections.saveFile
  rw [Sections.saveXml_eq h.1, if_neg (by simp [h.1])]
  have := doc_conforms (openFirst := true) sectionsCb_space compact (by decide) (by decide) s.node_savable (Sections.shape s) loose_sections
    (iff_true_intro (Sections.valid h))
  simp only [iff_true] at this
  exact this

/-- Every saved layout definition follows `previewLayoutType`. -/
theorem C61_layout (d : LayoutDef) (h : d.storable) (compact : Bool) :
    (∃ t T, d.saveString compact = some t ∧ Xml.loadString t = some T ∧ Conforms (b! "previewLayout") previewLayoutType T) ∧
    (∃ t T, d.saveFile compact = (true, some t) ∧ Xml.loadFile t = some T ∧ Conforms (b! "previewLayout") previewLayoutType T) := by
  unfold LayoutDef.saveString LayoutDef.saveFile
  rw [LayoutDef.saveXml_eq h.1]
  have := doc_conforms (openFirst := false) layoutCb_space compact (by decide) (by decide) (LayoutDef.node_savable h) (LayoutDef.shape h) loose_layout
    (iff_true_intro (LayoutDef.valid h))
  simp only [iff_true] at this
  exact this

/-- Every saved list of layout definitions follows `layoutDefinitionsType`. -/
theorem C61_layouts (d : LayoutDefs) (h : d.storable) (compact : Bool) :
    (∃ t T, d.saveString compact = some t ∧ Xml.loadString t = some T ∧ Conforms (b! "layoutDefinitions") layoutDefinitionsType T) ∧
    (∃ t T, d.saveFile compact = (true, some t) ∧ Xml.loadFile t = some T ∧ Conforms (b! "layoutDefinitions") layoutDefinitionsType T) := by
  unfold LayoutDefs.saveString LayoutDefs.saveFile
  rw [if_neg (by simp [LayoutDefs.storable_valid h]), LayoutDefs.saveXml_eq h]
  have h1 := elem_conforms layoutsCb_space compact (by decide) (by decide) (LayoutDefs.node_savable h) (LayoutDefs.shape h) loose_layouts
    (iff_true_intro (LayoutDefs.valid h))
  have h2 := (doc_conforms (openFirst := true) layoutsCb_space compact (by decide) (by decide) (LayoutDefs.node_savable h) (LayoutDefs.shape h)
    loose_layouts (iff_true_intro (LayoutDefs.valid h))).2
  simp only [iff_true] at h1 h2
  exact ⟨h1, h2⟩

/-! ### Examples -/

/-- Just the digits of ASCII. -/
def asciiDigit (c : Char) : Prop := 48 ≤ c.toNat ∧ c.toNat ≤ 57

theorem asciiDigit_has : HasDigits asciiDigit := fun _ h1 h2 => ⟨h1, h2⟩

instance (c : Char) : Decidable (asciiDigit c) := by unfold asciiDigit; infer_instance

/-- A file entry that follows the schema. -/
def exFile61 : File :=
  { exFile with
    size := 5000, date := some (b! "2020-01:01T12:30:00"),
    preview := some ⟨some [{ Page.create with layoutId := some (b! "12"), startFrame := 3, startSection := 1, sectionCount := 2 }], 300⟩ }

theorem exFile61_conforms : exFile61.conforms asciiDigit := by
  refine ⟨by decide, ?_, by decide, by decide, ⟨by decide, by decide⟩, by decide, ?_, ?_⟩
  · intro d hd
    injection hd with hd
    subst hd
    refine ⟨"2020-01:01".toList, "T12:30:00".toList, by decide +kernel, ⟨"2020".toList, "01".toList, "01".toList, '-', ':', ?_⟩,
      .inr ⟨'T', "12".toList, "30".toList, "00".toList, ?_⟩⟩
    · decide +kernel
    · decide +kernel
  · intro _ p hp x hx
    injection hp with hp
    subst hp
    simp only [Option.getD_some, List.mem_singleton] at hx
    subst hx
    intro l hl
    injection hl with hl
    subst hl
    exact ⟨⟨by decide +kernel, by decide +kernel⟩, by decide +kernel⟩
  · intro m hm x hx
    injection hm with hm
    subst hm
    simp only [Option.getD_some, List.mem_singleton] at hx
    subst hx
    exact ⟨by decide, by decide, by decide⟩

/-- A table of contents that follows the schema. -/
def exToc61 : TocData where
  version := some (b! "1.2.0")
  indexType := some (b! "reel")
  jobId := some (b! "job <7>")
  reelId := some (b! "reel & 1")
  reels := some ⟨some [⟨some (b! "r1"), some ⟨some [exFile61]⟩⟩]⟩
  metadata := some ⟨some [⟨some (b! "xml"), 1, 4, none, some (splitOn semicolon (b! "a;b"))⟩]⟩
  layouts := exToc.layouts

theorem exToc61_conforms : exToc61.conforms asciiDigit := by
  refine ⟨?_, ?_, ⟨_, rfl, by decide⟩, ⟨_, rfl, by decide, ?_⟩⟩
  · intro v hv
    injection hv with hv
    subst hv
    refine ⟨['1'], '.', ['2'], '.', ['0'], ?_, ?_, ?_⟩ <;> decide +kernel
  · intro m hm x hx
    injection hm with hm
    subst hm
    simp only [Option.getD_some, List.mem_singleton] at hx
    subst hx
    exact ⟨by decide, rfl⟩
  · intro r hr
    have hr' : r ∈ [_] := hr
    simp only [List.mem_singleton] at hr'
    subst hr'
    refine ⟨_, rfl, by decide, ?_⟩
    intro x hx
    have hx' : x ∈ [exFile61] := hx
    simp only [List.mem_singleton] at hx'
    subst hx'
    exact exFile61_conforms

theorem exFile61_writable : exFile61.writable := by
  refine ⟨by decide, attrField_ascii (by decide), textField_ascii (by decide), textField_ascii (by decide), ?_,
    by decide, by decide, by decide, by decide, by decide, by decide, by decide, fun _ => .inr (textField_ascii (by decide)),
    fun _ p hp => ?_, exFile_storable.1.2.2.2.2.2.2.2.2.2.2.2.2.2.2⟩
  · exact textField_ascii (by decide)
  · injection hp with hp
    subst hp
    refine ⟨by decide, by decide, by decide, ?_⟩
    intro x hx
    simp only [Option.getD_some, List.mem_singleton] at hx
    subst hx
    exact ⟨⟨attrField_ascii (by decide), by decide, by decide, by decide, by decide, by decide, by decide, by decide⟩, by decide, by decide⟩


example : exToc61.writable ∧ exToc61.conforms asciiDigit := by
  refine ⟨⟨by decide, attrField_ascii (by decide), textField_ascii (by decide), textField_ascii (by decide), ?_, exToc_storable.1.2.2.2.2.2.1, ?_⟩,
    exToc61_conforms⟩
  · intro m hm _
    injection hm with hm
    subst hm
    refine ⟨by decide, ?_⟩
    intro x hx
    simp only [Option.getD_some, List.mem_singleton] at hx
    subst hx
    refine ⟨by decide, attrField_ascii (by decide), by decide, by decide, (fun d hd => nomatch hd), ?_⟩
    intro l hl
    injection hl with hl
    exact ⟨b! "a;b", textField_ascii (by decide), hl.symm⟩
  · intro x hx
    have hx' : x ∈ [_] := hx
    simp only [List.mem_singleton] at hx'
    subst hx'
    refine ⟨by decide, textField_ascii (by decide), fun y hy => ?_⟩
    have hy' : y ∈ [exFile61] := hy
    simp only [List.mem_singleton] at hy'
    subst hy'
    exact exFile61_writable

/-! ### What the library writes against its schema -/

/-- The example of C26, valid and storable, does not follow the schema: its second reel has no files. -/
theorem C61_empty_reel (D : Char → Prop) : exToc.writable ∧ ¬ exToc.conforms D := by
  refine ⟨exToc_storable.1, ?_⟩
  rintro ⟨-, -, -, r, hr, -, h⟩
  injection hr with hr
  subst hr
  obtain ⟨f, hf, -⟩ := h ⟨some (b! "r2"), none⟩ (by simp [Reels.list])
  cases hf

/-- A preview layout is known by its id, which is a text; but the pages that refer to it follow the schema only
    if the id is a number. -/
theorem C61_layout_id {D : Char → Prop} (hD : HasDigits D) (compact : Bool) :
    ∃ t T, (Page.create2 (some (b! "A")) 1 0 1 0 0 0 0).saveString compact = some t ∧ Xml.loadString t = some T ∧
      ¬ Conforms (b! "pages") (pagesType D) T := by
  obtain ⟨⟨t, T, h1, h2, h3⟩, -⟩ := C61_page hD (Page.create2 (some (b! "A")) 1 0 1 0 0 0 0)
    ⟨attrField_ascii (by decide), by decide, by decide, by decide, by decide, by decide, by decide, by decide⟩ compact
  refine ⟨t, T, h1, h2, fun h => ?_⟩
  have := (h3.mp h _ rfl).1.2
  revert this
  decide +kernel

/-- No saved entry of a file without unique id (which validity does not ask for), of 4 GiB or more, that is not digital, or in the
    old data format follows the schema. -/
theorem C61_file_exceptions {D : Char → Prop} (hD : HasDigits D) (f : File) (h : f.writable) (v1 compact : Bool)
    (he : f.uniqueId = none ∨ 4294967296 ≤ f.size ∨ f.isDigital = false ∨ v1 = true) :
    ∃ t T, f.saveString compact v1 = some t ∧ Xml.loadString t = some T ∧ ¬ Conforms (b! "file") (fileType D) T := by
  obtain ⟨t, T, h1, h2, h3⟩ := (C61_file hD f h v1).1 compact
  refine ⟨t, T, h1, h2, fun h => ?_⟩
  obtain ⟨⟨a, -, -, b, c, -⟩, d⟩ := h3.mp h
  rcases he with he | he | he | he
  · exact a he
  · omega
  · rw [he] at b; cases b
  · rw [he] at d; cases d

example : exFile.writable ∧ 4294967296 ≤ exFile.size := ⟨exFile_storable.1, by decide⟩

end Afs
