import Verif.Spec.Agree
import Verif.Proof.Canon3
import Verif.Props.C03_C05_CloneEqual
/-!
# C81 — Equal objects are interchangeable

The comparison functions take a NULL string for an empty one, and in a table of contents an absent list for an empty one. Other functions could tell them apart. Here every
query and every edit is shown to give equal answers on equal objects, with the exceptions of `C81_exceptions`.
-/
namespace Afs
open Spec Canon

namespace Canon

theorem congr_of {α β : Type} {c : α → α} {q : α → β} (h : ∀ x, q (c x) = q x) {a b : α} (e : c a = c b) : q a = q b := by
  rw [← h a, e, h b]

theorem agree_of {α β γ : Type} {c : α → α} {q : α → Res β} {g : β → γ} (h : ∀ x v, q x = .ok v → ∃ w, q (c x) = .ok w ∧ g w = g v) {a b : α}
    (e : c a = c b) : Agree (fun v w => g v = g w) (q a) (q b) := by
  intro v w hv hw
  obtain ⟨v', hv', ev⟩ := h a v hv
  obtain ⟨w', hw', ew⟩ := h b w hw
  rw [e, hw'] at hv'
  cases hv'
  rw [← ev, ew]

end Canon

/-- **C81.** Layout definitions. -/
theorem C81_layout (a b : LayoutDef) (h : LayoutDef.equal (some a) (some b) = true) (x : Option Section) (i : Nat) :
    a.isValid = b.isValid ∧ a.sectionCount = b.sectionCount ∧ a.getSection i = b.getSection i ∧
    a.isSectionSizeEqual = b.isSectionSizeEqual ∧ (a.addSection x).1 = (b.addSection x).1 ∧
    LayoutDef.equal (some (a.addSection x).2) (some (b.addSection x).2) = true := by
  rw [C05_layout_definition_equal_iff] at h ⊢
  have e : layoutContent a = layoutContent b := Option.some.inj h
  refine ⟨congr_of layout_valid e, congr_of (c := layoutContent) (q := LayoutDef.sectionCount) (fun _ => rfl) e, congr_of (c := layoutContent) (q := fun d => LayoutDef.getSection d i) (fun _ => rfl) e,
    congr_of (c := layoutContent) (q := LayoutDef.isSectionSizeEqual) (fun _ => rfl) e, congr_of (c := layoutContent) (q := fun d => (LayoutDef.addSection d x).1) (fun d => ?_) e, ?_⟩
  · cases x with
    | none => rfl
    | some x =>
      rw [LayoutDef.addSection, LayoutDef.addSection]
      show (if (!x.isValid) = true then _ else if (!Sections.admissible x d.sectionList) = true then _ else _ : Bool × LayoutDef).1 = _
      split
      · rfl
      · split <;> rfl
  · have k : ∀ d, layoutContent (d.addSection x).2 = ((layoutContent d).addSection x).2 := by
      intro d
      cases x with
      | none => rfl
      | some x =>
        rw [LayoutDef.addSection, LayoutDef.addSection]
        show _ = (if (!x.isValid) = true then _ else if (!Sections.admissible x d.sectionList) = true then _ else _ : Bool × LayoutDef).2
        split
        · rfl
        · split <;> rfl
    rw [Option.map_some, Option.map_some, k, k, e]

/-- **C81.** Lists of layout definitions: the lookups answer alike where both are defined (no definition with a NULL id or name comes before the one found). -/
theorem C81_layouts (a b : Option LayoutDefs) (h : LayoutDefs.equal a b = true) (i : Nat) (k : Option Bytes) :
    LayoutDefs.isValid a = LayoutDefs.isValid b ∧ LayoutDefs.getCount a = LayoutDefs.getCount b ∧
    LayoutDef.equal (LayoutDefs.byIndex a i) (LayoutDefs.byIndex b i) = true ∧
    Agree (fun v w => LayoutDef.equal v w = true) (LayoutDefs.byId a k) (LayoutDefs.byId b k) ∧
    Agree (fun v w => LayoutDef.equal v w = true) (LayoutDefs.byName a k) (LayoutDefs.byName b k) ∧
    Agree Eq (LayoutDefs.has a k) (LayoutDefs.has b k) := by
  rw [C05_layout_definitions_equal_iff] at h
  simp only [C05_layout_definition_equal_iff]
  refine ⟨congr_of layouts_valid h, congr_of (q := LayoutDefs.getCount) ?_ h, ?_, ?_, ?_, ?_⟩
  · intro x
    cases x with
    | none => rfl
    | some x => exact vecSize_map _ _
  · have k : ∀ d : Option LayoutDefs, (LayoutDefs.byIndex d i).map layoutContent = LayoutDefs.byIndex (d.map layoutsContent) i := by
      intro d
      cases d with
      | none => rfl
      | some d => exact (vecGet_map _ _ _).symm
    rw [k, k, h]
  · intro v w hv hw
    have h1 := byId_content a k hv
    rw [h, byId_content b k hw] at h1
    exact (ok_inj h1).symm
  · intro v w hv hw
    have h1 := byName_content a k hv
    rw [h, byName_content b k hw] at h1
    exact (ok_inj h1).symm
  · intro v w hv hw
    have h1 := has_content a k hv
    rw [h, has_content b k hw] at h1
    exact (ok_inj h1).symm

/-- **C81.** Adding equal layout definitions to equal lists. -/
theorem C81_add_layout (a b : LayoutDefs) (h : LayoutDefs.equal (some a) (some b) = true) (x y : Option LayoutDef) (hx : LayoutDef.equal x y = true) :
    Agree (fun v w => v.1 = w.1 ∧ LayoutDefs.equal (some v.2) (some w.2) = true) (a.add x) (b.add y) := by
  rw [C05_layout_definitions_equal_iff] at h
  rw [C05_layout_definition_equal_iff] at hx
  have e : layoutsContent a = layoutsContent b := Option.some.inj h
  intro v w hv hw
  have h1 := layouts_add a x hv
  rw [hx, e, layouts_add b y hw] at h1
  have h2 := ok_inj h1
  rw [C05_layout_definitions_equal_iff]
  exact ⟨(congrArg Prod.fst h2).symm, congrArg some (congrArg Prod.snd h2).symm⟩

/-- **C81.** Pages, with equal layout definitions. -/
theorem C81_page (p q : Option Page) (h : Page.equal p q = true) (a b : Option LayoutDefs) (hd : LayoutDefs.equal a b = true) (frame : Nat) :
    p.map Page.isValid = q.map Page.isValid ∧ Agree Eq (Page.framesCount p a) (Page.framesCount q b) ∧
    Agree Eq (Page.sectionsOnFrame p frame a) (Page.sectionsOnFrame q frame b) := by
  rw [C05_preview_page_equal_iff] at h
  rw [C05_layout_definitions_equal_iff] at hd
  refine ⟨congr_of (q := fun p : Option Page => p.map Page.isValid) (fun p => ?_) h, fun v w hv hw => ?_, fun v w hv hw => ?_⟩
  · cases p with
    | none => rfl
    | some p => exact congrArg some (page_valid p)
  · have h1 := page_frames p a hv
    rw [h, hd, page_frames q b hw] at h1
    exact (ok_inj h1).symm
  · have h1 := page_sections p frame a hv
    rw [h, hd, page_sections q frame b hw] at h1
    exact (ok_inj h1).symm

/-- **C81.** Previews. -/
theorem C81_preview (p q : Option Preview) (h : Preview.equal p q = true) (a b : Option LayoutDefs) (hd : LayoutDefs.equal a b = true) (i : Nat) :
    Preview.isValid p = Preview.isValid q ∧ Preview.pageCount p = Preview.pageCount q ∧ Page.equal (Preview.getPage p i) (Preview.getPage q i) = true ∧
    Preview.startFrame p = Preview.startFrame q ∧ Agree Eq (Preview.framesCount p a) (Preview.framesCount q b) := by
  rw [C05_preview_equal_iff] at h
  rw [C05_layout_definitions_equal_iff] at hd
  rw [C05_preview_page_equal_iff]
  refine ⟨congr_of preview_valid h, congr_of (q := Preview.pageCount) (fun p => ?_) h, ?_, congr_of preview_start h, fun v w hv hw => ?_⟩
  · cases p with
    | none => rfl
    | some p => exact vecSize_map _ _
  · have k : ∀ d : Option Preview, (Preview.getPage d i).map pageContent = Preview.getPage (d.map previewContent) i := by
      intro d
      cases d with
      | none => rfl
      | some d => exact (vecGet_map _ _ _).symm
    rw [k, k, h]
  · have h1 := preview_frames p a hv
    rw [h, hd, preview_frames q b hw] at h1
    exact (ok_inj h1).symm

/-- **C81.** Edits of equal previews. -/
theorem C81_edit_preview (p q : Preview) (h : Preview.equal (some p) (some q) = true) (x y : Option Page) (hx : Page.equal x y = true) (k : Nat) (dpi : Int) :
    (p.addPage x).1 = (q.addPage y).1 ∧ Preview.equal (some (p.addPage x).2) (some (q.addPage y).2) = true ∧
    Preview.equal (some (p.addFrameOffset k)) (some (q.addFrameOffset k)) = true ∧
    Preview.equal (some (p.setDpi dpi)) (some (q.setDpi dpi)) = true := by
  simp only [C05_preview_equal_iff, Option.map_some, Option.some.injEq] at h ⊢
  rw [C05_preview_page_equal_iff] at hx
  have e : ∀ (p : Preview) (x : Option Page), (previewContent p).addPage (x.map pageContent) = ((p.addPage x).1, previewContent (p.addPage x).2) := by
    intro p x
    cases x with
    | none => rfl
    | some x =>
      rw [Option.map_some, Preview.addPage, Preview.addPage, page_valid]
      split
      · rfl
      · exact Prod.ext rfl (congrArg (fun v => (⟨v, p.dpi⟩ : Preview)) (vecAppend_map pageContent p.pages x))
  have e1 := e p x
  rw [h, hx, e q y] at e1
  refine ⟨(congrArg Prod.fst e1).symm, (congrArg Prod.snd e1).symm, ?_, ?_⟩
  · rw [← preview_shift, ← preview_shift, h]
  · have : ∀ p : Preview, previewContent (p.setDpi dpi) = (previewContent p).setDpi dpi := fun _ => rfl
    rw [this, this, h]

/-- **C81.** Metadata of files: sources and lists of sources. -/
theorem C81_file_metadata (s t : FileMetaSource) (hs : FileMetaSource.equal (some s) (some t) = true)
    (a b : Option FileMeta) (h : FileMeta.equal a b = true) (i : Nat) (d : Option Bytes) :
    s.isValid = t.isValid ∧ FileMetaSource.equal (some (s.setData d)) (some (t.setData d)) = true ∧
    FileMetaSource.equal (some (s.setFormatId d)) (some (t.setFormatId d)) = true ∧
    FileMeta.isValid a = FileMeta.isValid b ∧ FileMeta.sourcesCount a = FileMeta.sourcesCount b ∧
    FileMetaSource.equal (FileMeta.getSource a i) (FileMeta.getSource b i) = true := by
  rw [C05_file_metadata_equal_iff] at h
  simp only [C05_file_metadata_source_equal_iff, Option.map_some, Option.some.injEq] at hs ⊢
  refine ⟨congr_of source_valid hs, ?_, ?_, congr_of fileMeta_valid h, congr_of sources_count h, ?_⟩
  · have k : ∀ s : FileMetaSource, fileMetaSourceContent (s.setData d) = fileMetaSourceContent ((fileMetaSourceContent s).setData d) := by
      intro s
      rw [FileMetaSource.setData, FileMetaSource.setData]
      split <;> simp [fileMetaSourceContent, str]
    rw [k, k t, hs]
  · have k : ∀ s : FileMetaSource, fileMetaSourceContent (s.setFormatId d) = fileMetaSourceContent ((fileMetaSourceContent s).setFormatId d) := by
      intro s
      rw [FileMetaSource.setFormatId, FileMetaSource.setFormatId]
      split <;> simp [fileMetaSourceContent, str]
    rw [k, k t, hs]
  · have k : ∀ d : Option FileMeta, (FileMeta.getSource d i).map fileMetaSourceContent = FileMeta.getSource (d.map fileMetaContent) i := by
      intro d
      cases d with
      | none => rfl
      | some d => exact (vecGet_map _ _ _).symm
    rw [k, k, h]

/-- **C81.** Adding equal sources to equal lists. -/
theorem C81_add_source (a b : FileMeta) (h : FileMeta.equal (some a) (some b) = true) (x y : Option FileMetaSource) (hx : FileMetaSource.equal x y = true) :
    (a.addSource x).1 = (b.addSource y).1 ∧ FileMeta.equal (some (a.addSource x).2) (some (b.addSource y).2) = true := by
  simp only [C05_file_metadata_equal_iff, Option.map_some, Option.some.injEq] at h ⊢
  rw [C05_file_metadata_source_equal_iff] at hx
  have e : ∀ (p : FileMeta) (x : Option FileMetaSource), (fileMetaContent p).addSource (x.map fileMetaSourceContent) =
      ((p.addSource x).1, fileMetaContent (p.addSource x).2) := by
    intro p x
    cases x with
    | none => rfl
    | some x =>
      rw [Option.map_some, FileMeta.addSource, FileMeta.addSource, source_valid]
      split
      · rfl
      · exact Prod.ext rfl (congrArg FileMeta.mk (vecAppend_map fileMetaSourceContent p.sources x))
  have e1 := e a x
  rw [h, hx, e b y] at e1
  exact ⟨(congrArg Prod.fst e1).symm, (congrArg Prod.snd e1).symm⟩

/-- **C81.** Files: kinds, frames and sizes are the same; the validity is the same if both or none of the checksums are NULL. -/
theorem C81_file (f g : File) (h : File.equal (some f) (some g) = true) :
    f.isParent = g.isParent ∧ f.hasParent = g.hasParent ∧ f.isStandalone = g.isStandalone ∧ f.isDigital = g.isDigital ∧ f.isPreview = g.isPreview ∧
    f.hasMetadata = g.hasMetadata ∧ File.durationFrames (some f) = File.durationFrames (some g) ∧ File.getSize (some f) = File.getSize (some g) ∧
    (f.checksum.isSome = g.checksum.isSome → f.isValid = g.isValid) := by
  simp only [C05_file_equal_iff, Option.map_some, Option.some.injEq] at h
  refine ⟨congr_of (c := fileContent) (q := File.isParent) (fun _ => rfl) h, congr_of (c := fileContent) (q := File.hasParent) (fun _ => rfl) h, congr_of (c := fileContent) (q := File.isStandalone) (fun _ => rfl) h,
    congr_of (c := fileContent) (q := File.isDigital) (fun _ => rfl) h, congr_of (c := fileContent) (q := File.isPreview) (fun _ => rfl) h,
    congr_of (c := fileContent) (q := File.hasMetadata) (fun f => ?_) h, congr_of (c := fileContent) (q := fun f => File.durationFrames (some f)) (fun _ => rfl) h,
    congr_of (c := fileContent) (q := fun f => File.getSize (some f)) (fun _ => rfl) h, fun hc => congr_of file_valid (keep_eq h hc)⟩
  show (FileMeta.sourcesCount (f.metadata.map fileMetaContent) != 0) = _
  rw [sources_count]
  rfl

/-- **C81.** Edits of equal files. -/
theorem C81_edit_file (f g : File) (h : File.equal (some f) (some g) = true) (k t : Nat) (s : Option Bytes)
    (p q : Option Preview) (hp : Preview.equal p q = true) (m n : Option FileMeta) (hm : FileMeta.equal m n = true) :
    File.equal (some (f.addFrameOffset k)) (some (g.addFrameOffset k)) = true ∧ File.equal (some (f.addType t)) (some (g.addType t)) = true ∧
    File.equal (some (f.setName s)) (some (g.setName s)) = true ∧ File.equal (some (f.setDate s)) (some (g.setDate s)) = true ∧
    File.equal (some (f.setChecksum s)) (some (g.setChecksum s)) = true ∧ File.equal (some (f.setUniqueId s)) (some (g.setUniqueId s)) = true ∧
    File.equal (some (f.setFileFormat s)) (some (g.setFileFormat s)) = true ∧ File.equal (some (f.setPreview p)) (some (g.setPreview q)) = true ∧
    File.equal (some (f.setMetadata m)) (some (g.setMetadata n)) = true := by
  simp only [C05_file_equal_iff, Option.map_some, Option.some.injEq] at h ⊢
  rw [C05_preview_equal_iff] at hp
  rw [C05_file_metadata_equal_iff] at hm
  refine ⟨?_, ?_, ?_, ?_, ?_, ?_, ?_, ?_, ?_⟩
  · rw [← file_offset, ← file_offset, h]
  · exact congrArg (fun x : File => x.addType t) h
  · exact congrArg (fun x : File => { x with name := str s }) h
  · exact congrArg (fun x : File => { x with date := str s }) h
  · exact congrArg (fun x : File => { x with checksum := str s }) h
  · exact congrArg (fun x : File => { x with uniqueId := str s }) h
  · exact congrArg (fun x : File => { x with fileFormat := str s }) h
  · have e : ∀ (f : File) (p : Option Preview), fileContent (f.setPreview p) = { (fileContent f).addType TYPE_PREVIEW with preview := p.map previewContent } := by
      intro f p
      cases p with
      | none => rfl
      | some p => simp [File.setPreview, fileContent, preview_clone, File.addType]
    rw [e, e, h, hp]
  · have e : ∀ (f : File) (p : Option FileMeta), fileContent (f.setMetadata p) = { fileContent f with metadata := p.map fileMetaContent } := by
      intro f p
      cases p with
      | none => rfl
      | some p => simp [File.setMetadata, fileContent, fileMeta_clone]
    rw [e, e, h, hm]

/-- **C81.** Lists of files. -/
theorem C81_files (f g : Option Files) (h : Files.equal f g = true) (a b : Option LayoutDefs) (hd : LayoutDefs.equal a b = true) (i type : Nat) :
    Files.count f = Files.count g ∧ File.equal (Files.getToc f i) (Files.getToc g i) = true ∧
    Files.firstFrame f type = Files.firstFrame g type ∧ Agree Eq (Files.lastFrame f type a) (Files.lastFrame g type b) ∧
    Agree Eq (Files.durationFrames f type a) (Files.durationFrames g type b) ∧ getFrameRanges f = getFrameRanges g ∧
    (f.map (checksums ·.list) = g.map (checksums ·.list) → Files.isValid f = Files.isValid g) := by
  rw [C05_files_equal_iff] at h
  rw [C05_layout_definitions_equal_iff] at hd
  rw [C05_file_equal_iff]
  refine ⟨congr_of (q := Files.count) (fun f => ?_) h, ?_, congr_of (q := fun f => Files.firstFrame f type) (fun f => files_first f type) h,
    fun v w hv hw => ?_, fun v w hv hw => ?_, congr_of files_ranges h, fun hc => ?_⟩
  · cases f with
    | none => rfl
    | some f => exact vecSize_map _ _
  · have k : ∀ d : Option Files, (Files.getToc d i).map fileContent = Files.getToc (d.map filesContent) i := by
      intro d
      cases d with
      | none => rfl
      | some d => exact (vecGet_map _ _ _).symm
    rw [k, k, h]
  · have h1 := files_last f type a hv
    rw [h, hd, files_last g type b hw] at h1
    exact (ok_inj h1).symm
  · have h1 := files_duration f type a hv
    rw [h, hd, files_duration g type b hw] at h1
    exact (ok_inj h1).symm
  · refine congr_of files_valid ?_
    cases f with
    | none =>
      cases g with
      | none => rfl
      | some g => cases h
    | some f =>
      cases g with
      | none => cases h
      | some g =>
        rw [Option.map_some, Option.map_some] at h hc ⊢
        rw [filesKeep_eq (Option.some.inj h) (Option.some.inj hc)]

/-- **C81.** Edits of equal lists of files. An added file must have a checksum in both cases or in none, as it is tested for validity. -/
theorem C81_edit_files (f g : Files) (h : Files.equal (some f) (some g) = true) (k type : Nat) (x y : File) (hx : File.equal (some x) (some y) = true)
    (hc : x.checksum.isSome = y.checksum.isSome) :
    Files.equal (some (f.addFrameOffset k type)) (some (g.addFrameOffset k type)) = true ∧
    (f.addToc (some x)).1 = (g.addToc (some y)).1 ∧ Files.equal (some (f.addToc (some x)).2) (some (g.addToc (some y)).2) = true := by
  have hv := (C81_file x y hx).2.2.2.2.2.2.2.2 hc
  simp only [C05_files_equal_iff, C05_file_equal_iff, Option.map_some, Option.some.injEq] at h hx ⊢
  refine ⟨by rw [← files_shift, ← files_shift, h], ?_⟩
  rw [Files.addToc, Files.addToc, hv]
  split
  · exact ⟨rfl, h⟩
  · refine ⟨rfl, ?_⟩
    have e : ∀ (f : Files) (x : File), filesContent ⟨vecAppend f.tocs x⟩ = ⟨vecAppend (filesContent f).tocs (fileContent x)⟩ := by
      intro f x
      exact congrArg Files.mk (vecAppend_map fileContent f.tocs x).symm
    show filesContent ⟨vecAppend f.tocs x⟩ = filesContent ⟨vecAppend g.tocs y⟩
    rw [e, e, h, hx]

/-- **C81.** Reels. -/
theorem C81_reel (r s : Option Reel) (h : Reel.equal r s = true) (i sec : Nat) (id : Int) (u : Option Bytes) :
    Reel.fileCount r = Reel.fileCount s ∧ File.equal (Reel.fileByIndex r i) (Reel.fileByIndex s i) = true ∧
    File.equal (Reel.fileById r id) (Reel.fileById s id) = true ∧
    Agree (fun v w => File.equal v w = true) (Reel.fileByUniqueId r u) (Reel.fileByUniqueId s u) ∧
    Reel.firstFrame r sec = Reel.firstFrame s sec ∧ Reel.lastFrame r sec = Reel.lastFrame s sec ∧ Reel.frameCount r sec = Reel.frameCount s sec ∧
    Reel.sizeBytes r = Reel.sizeBytes s := by
  rw [C05_reel_equal_iff] at h
  simp only [C05_file_equal_iff]
  refine ⟨congr_of reel_count h, ?_, ?_, fun v w hv hw => ?_, congr_of (q := fun r => Reel.firstFrame r sec) (fun r => reel_first r sec) h,
    congr_of (q := fun r => Reel.lastFrame r sec) (fun r => reel_last r sec) h,
    congr_of (q := fun r => Reel.frameCount r sec) (fun r => reel_frames r sec) h, congr_of reel_size h⟩
  · have k : ∀ d : Option Reel, (Reel.fileByIndex d i).map fileContent = Reel.fileByIndex (d.map reelContent) i := by
      intro d
      rcases d with _ | ⟨_, _ | d⟩
      · rfl
      · rfl
      · exact (vecGet_map _ _ _).symm
    rw [k, k, h]
  · rw [← reel_byId, ← reel_byId, h]
  · have h1 := reel_byUnique r u hv
    rw [h, reel_byUnique s u hw] at h1
    exact (ok_inj h1).symm

/-- **C81.** Validity, selections and edits of equal reels whose files have checksums at the same places. -/
theorem C81_reel_files (r s : Reel) (h : Reel.equal (some r) (some s) = true) (hc : checksums r.list = checksums s.list) (types k sec : Nat)
    (x y : File) (hx : File.equal (some x) (some y) = true) (hxc : x.checksum.isSome = y.checksum.isSome) :
    r.isValid = s.isValid ∧
    Files.equal (Reel.parentFiles (some r) types) (Reel.parentFiles (some s) types) = true ∧
    Files.equal (Reel.childFiles (some r) types) (Reel.childFiles (some s) types) = true ∧
    Files.equal (Reel.standaloneFiles (some r) types) (Reel.standaloneFiles (some s) types) = true ∧
    (r.addFile (some x)).1 = (s.addFile (some y)).1 ∧ Reel.equal (some (r.addFile (some x)).2) (some (s.addFile (some y)).2) = true ∧
    Reel.equal (some (r.addFrameOffset k sec)) (some (s.addFrameOffset k sec)) = true := by
  simp only [C05_files_equal_iff, C05_reel_equal_iff, C05_file_equal_iff, Option.map_some, Option.some.injEq] at h hx ⊢
  have e : reelKeep r = reelKeep s := reelKeep_eq h hc
  have ex : keep x = keep y := keep_eq hx hxc
  have el : r.list.map keep = s.list.map keep := by rw [← reel_list_keep, e, reel_list_keep]
  have sel : ∀ p : File → Bool, (∀ f, p (keep f) = p f) →
      (Reel.selectLoop p (sectionToType types) none r.list).map filesContent = (Reel.selectLoop p (sectionToType types) none s.list).map filesContent := by
    intro p hp
    have c : ∀ o : Option Files, o.map filesContent = (o.map filesKeep).map filesContent := by
      intro o
      cases o with
      | none => rfl
      | some o => rw [Option.map_some, Option.map_some, Option.map_some, content_filesKeep]
    have a := select_keep hp (sectionToType types) r.list none
    have b := select_keep hp (sectionToType types) s.list none
    rw [c, ← a, el, b, ← c]
  refine ⟨congr_of reel_valid e, sel _ (fun _ => rfl), sel _ (fun _ => rfl), sel _ (fun _ => rfl), ?_, ?_, ?_⟩
  · have a := reel_add r (some x)
    have b := reel_add s (some y)
    rw [Option.map_some] at a b
    rw [e, ex, b] at a
    exact (congrArg Prod.fst a).symm
  · have a := reel_add r (some x)
    have b := reel_add s (some y)
    rw [Option.map_some] at a b
    rw [e, ex, b] at a
    rw [← content_reelKeep, ← content_reelKeep (s.addFile _).2]
    exact congrArg reelContent (congrArg Prod.snd a).symm
  · rw [← reel_shift, ← reel_shift, h]

/-! ### Examples: objects that differ and are equal -/

/-- A layout definition without a name, a page without a layout id, a metadata source without a format, a file without a name, and a reel whose second file has no
    name, each against the same object with the empty string in its place. -/
example :
    let sec : Sections := ⟨some [⟨0, 0, 0, 10, 10, 0⟩]⟩
    let d : LayoutDef := ⟨some (b! "l"), none, some sec⟩
    let p : Page := { Page.create with startFrame := 3, sectionCount := 2 }
    let m : FileMetaSource := ⟨some (b! "<x/>"), none, 1, 2⟩
    let f : File := { File.create with date := some (b! "d"), checksum := some (b! "ab"), size := 12, id := 3, startFrame := 1, endFrame := 2, types := 1 }
    let g : File := { f with name := some [] }
    (d ≠ { d with name := some [] } ∧ LayoutDef.equal (some d) (some { d with name := some [] }) = true ∧
      LayoutDefs.equal (some ⟨some [d]⟩) (some ⟨some [{ d with name := some [] }]⟩) = true) ∧
    (p ≠ { p with layoutId := some [] } ∧ Page.equal (some p) (some { p with layoutId := some [] }) = true ∧
      Preview.equal (some ⟨some [p], 72⟩) (some ⟨some [{ p with layoutId := some [] }], 72⟩) = true) ∧
    (m ≠ { m with formatId := some [] } ∧ FileMetaSource.equal (some m) (some { m with formatId := some [] }) = true ∧
      FileMeta.equal (some ⟨some [m]⟩) (some ⟨some [{ m with formatId := some [] }]⟩) = true) ∧
    (f ≠ g ∧ File.equal (some f) (some g) = true ∧ f.checksum.isSome = g.checksum.isSome ∧ Files.equal (some ⟨some [f, g]⟩) (some ⟨some [g, f]⟩) = true) ∧
    (Reel.equal (some ⟨some (b! "r"), some ⟨some [f, f]⟩⟩) (some ⟨some (b! "r"), some ⟨some [f, g]⟩⟩) = true ∧
      checksums (Reel.list ⟨some (b! "r"), some ⟨some [f, f]⟩⟩) = checksums (Reel.list ⟨some (b! "r"), some ⟨some [f, g]⟩⟩)) := by decide +kernel

end Afs
