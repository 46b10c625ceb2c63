import Verif.Props.C81_Toc
import Verif.Props.C87_Built
/-! # C81: equal objects are saved as documents that mean the same

Two objects that the library calls equal, saved and loaded each in some way, come back equal.  One
exception: a file whose format is NULL and one whose format is empty are equal, the first comes back
as `undefined`. -/
namespace Afs
open Spec Xml Canon Keep

/-- Saved and loaded again, each in any way, the two come back equal. -/
def Spec.SavedAlike {ι α : Type} (w : ι → Way α) (eq : Option α → Option α → Bool) (a b : α) : Prop :=
  ∀ i j, ∃ x y, (w i).copy a = some x ∧ (w j).copy b = some y ∧ eq (some x) (some y) = true

/-- Which of the files have a format. -/
def Spec.formats (l : List File) : List Bool := l.map fun f => f.fileFormat.isSome

theorem savedAlike_of {ι α : Type} {w : ι → Way α} {eq : Option α → Option α → Bool} {a a' b b' : α} (ha : Settles w a a')
    (hb : Settles w b b') (h : eq (some a') (some b') = true) : SavedAlike w eq a b := by
  intro i j
  obtain ⟨s, e1, e2⟩ := ha.1 i
  obtain ⟨t, f1, f2⟩ := hb.1 j
  refine ⟨a', b', ?_, ?_, h⟩
  · unfold Way.copy; rw [e1]; exact e2
  · unfold Way.copy; rw [f1]; exact f2

theorem content_asLoaded {f g : File} (h : fileContent f = fileContent g) (hn : f.fileFormat.isSome = g.fileFormat.isSome) (v : Bool) :
    fileContent (f.asLoaded v) = fileContent (g.asLoaded v) := by
  have he : File.equal (some f) (some g) = true := by rw [C05_file_equal_iff]; exact congrArg some h
  obtain ⟨-, -, -, hd, hp, hm, -⟩ := C81_file f g he
  have e1 : str f.name = str g.name := congrArg File.name h
  have e2 : str f.date = str g.date := congrArg File.date h
  have e3 : str f.checksum = str g.checksum := congrArg File.checksum h
  have e4 : f.size = g.size := (congrArg File.size h :)
  have e5 : f.id = g.id := (congrArg File.id h :)
  have e6 : f.startFrame = g.startFrame := (congrArg File.startFrame h :)
  have e7 : f.startByte = g.startByte := (congrArg File.startByte h :)
  have e8 : f.endFrame = g.endFrame := (congrArg File.endFrame h :)
  have e9 : f.endByte = g.endByte := (congrArg File.endByte h :)
  have e10 : str f.uniqueId = str g.uniqueId := congrArg File.uniqueId h
  have e11 : f.parentId = g.parentId := (congrArg File.parentId h :)
  have e12 : f.preview.map previewContent = g.preview.map previewContent := congrArg File.preview h
  have e13 : str f.fileFormat = str g.fileFormat := congrArg File.fileFormat h
  have e14 : f.metadata.map fileMetaContent = g.metadata.map fileMetaContent := congrArg File.metadata h
  have e15 : f.fileFormat = g.fileFormat := by
    revert hn e13
    cases f.fileFormat <;> cases g.fileFormat <;> simp [str]
  unfold fileContent File.asLoaded
  dsimp only
  rw [hd, hp, hm, e1, e2, e4, e5, e6, e7, e8, e9, e10, e11, e15]
  congr 1
  · split
    · exact e3
    · rfl
  · split
    · exact e12
    · rfl
  · split
    · exact e14
    · rfl

theorem contents_asLoaded : ∀ {l m : List File}, l.map fileContent = m.map fileContent → formats l = formats m →
    (l.map fun x => x.asLoaded false).map fileContent = (m.map fun x => x.asLoaded false).map fileContent
  | [], [], _, _ => rfl
  | [], _ :: _, h, _ => nomatch h
  | _ :: _, [], h, _ => nomatch h
  | x :: l, y :: m, h, hf => by
    simp only [List.map_cons, List.cons.injEq, formats] at h hf ⊢
    exact ⟨content_asLoaded h.1 hf.1 false, contents_asLoaded h.2 hf.2⟩

/-- Files. -/
theorem C81_saved_file {f g : File} (h : File.equal (some f) (some g) = true) (hn : f.fileFormat.isSome = g.fileFormat.isSome)
    (hf : f.writable) (hg : g.writable) : SavedAlike fileWay File.equal f g := by
  refine savedAlike_of (settles_file hf) (settles_file hg) ?_
  rw [C05_file_equal_iff] at h ⊢
  exact congrArg some (content_asLoaded (Option.some.inj h) hn false)

theorem filesContent_asLoaded {f g : Files} (h : f.list.map fileContent = g.list.map fileContent) (hn : formats f.list = formats g.list) :
    filesContent f.asLoaded = filesContent g.asLoaded := by
  unfold filesContent Files.asLoaded
  dsimp only
  have hl := congrArg List.length h
  simp only [List.length_map] at hl
  by_cases hf : f.list = []
  · have hg : g.list = [] := by rw [hf] at hl; exact List.length_eq_zero_iff.mp hl.symm
    rw [if_pos hf, if_pos hg]
  · have hg : g.list ≠ [] := by
      intro hg; rw [hg] at hl; exact hf (List.length_eq_zero_iff.mp hl)
    rw [if_neg hf, if_neg hg]
    exact congrArg (fun l => (⟨some l⟩ : Files)) (contents_asLoaded h hn)

/-- Lists of files. -/
theorem C81_saved_files {f g : Files} (h : Files.equal (some f) (some g) = true) (hn : formats f.list = formats g.list)
    (hf : ∀ x ∈ f.list, x.writable) (hg : ∀ x ∈ g.list, x.writable) : SavedAlike filesWay Files.equal f g := by
  refine savedAlike_of (settles_files hf) (settles_files hg) ?_
  rw [C05_files_equal_iff] at h ⊢
  refine congrArg some (filesContent_asLoaded ?_ hn)
  rw [← list_content, ← list_content, Option.some.inj h]

theorem reelContent_asLoaded {r s : Reel} (h : reelContent r = reelContent s) (hn : formats r.list = formats s.list) :
    reelContent r.asLoaded = reelContent s.asLoaded := by
  have e1 : str r.id = str s.id := congrArg Reel.id h
  have e2 : r.files.map filesContent = s.files.map filesContent := congrArg Reel.files h
  unfold reelContent Reel.asLoaded
  dsimp only
  rw [e1]
  congr 1
  revert e2 hn
  cases hr : r.files with
  | none => cases hs : s.files with
    | none => intros; rfl
    | some g => intro _ e; cases e
  | some f => cases hs : s.files with
    | none => intro _ e; cases e
    | some g =>
      intro hn e2
      have er : r.list = f.list := by unfold Reel.list; rw [hr]
      have es : s.list = g.list := by unfold Reel.list; rw [hs]
      rw [er, es] at hn
      simp only [Option.map_some, Option.some.injEq] at e2 ⊢
      refine filesContent_asLoaded ?_ hn
      rw [← list_content, ← list_content, e2]

/-- Reels. -/
theorem C81_saved_reel {r s : Reel} (h : Reel.equal (some r) (some s) = true) (hn : formats r.list = formats s.list)
    (hr : r.writable) (hs : s.writable) : SavedAlike reelWay Reel.equal r s := by
  refine savedAlike_of (settles_reel hr) (settles_reel hs) ?_
  rw [C05_reel_equal_iff] at h ⊢
  exact congrArg some (reelContent_asLoaded (Option.some.inj h) hn)

theorem reelsContent_asLoaded : ∀ {l m : List Reel}, l.map reelContent = m.map reelContent →
    (l.map fun r => formats r.list) = (m.map fun r => formats r.list) →
    (l.map Reel.asLoaded).map reelContent = (m.map Reel.asLoaded).map reelContent
  | [], [], _, _ => rfl
  | [], _ :: _, h, _ => nomatch h
  | _ :: _, [], h, _ => nomatch h
  | x :: l, y :: m, h, hf => by
    simp only [List.map_cons, List.cons.injEq] at h hf ⊢
    exact ⟨reelContent_asLoaded h.1 hf.1, reelsContent_asLoaded h.2 hf.2⟩

theorem reelsField_asLoaded (t : TocData) : reelsField t.asLoaded.reels = (t.reelList.map Reel.asLoaded).map reelContent := by
  have e : t.asLoaded.reels = t.reels.bind fun r => if r.list = [] then none else some r.asLoaded := rfl
  rw [reelList_eq, e]
  unfold reelsField
  cases t.reels with
  | none => rfl
  | some r =>
    dsimp only [Option.bind_some]
    by_cases hr : r.list = []
    · rw [if_pos hr]
      have : r.reels.getD [] = [] := hr
      rw [this]; rfl
    · rw [if_neg hr]
      unfold Reels.asLoaded
      dsimp only [Option.bind_some]
      rw [if_neg hr]; rfl

theorem metaField_asLoaded (t : TocData) : metaField t.asLoaded.metadata = metaField t.metadata := by
  have e : t.asLoaded.metadata = t.metadata.bind fun m => if m.sources.getD [] = [] then none else some m := rfl
  rw [e]
  unfold metaField
  cases t.metadata with
  | none => rfl
  | some m =>
    dsimp only [Option.bind_some]
    by_cases hm : m.sources.getD [] = []
    · rw [if_pos hm, hm]; rfl
    · rw [if_neg hm]; rfl

theorem layoutsField_asLoaded (t : TocData) : layoutsField t.asLoaded.layouts = layoutsField t.layouts := by
  have e : t.asLoaded.layouts = t.layouts.bind fun d => if d.defs.getD [] = [] then none else some d := rfl
  rw [e]
  unfold layoutsField
  cases t.layouts with
  | none => rfl
  | some m =>
    dsimp only [Option.bind_some]
    by_cases hm : m.defs.getD [] = []
    · rw [if_pos hm, hm]; rfl
    · rw [if_neg hm]; rfl

/-- Tables of contents. -/
theorem C81_saved_toc {a b : TocData} (h : TocData.equal (some a) (some b) = true)
    (hn : (a.reelList.map fun r => formats r.list) = (b.reelList.map fun r => formats r.list)) (ha : a.writable) (hb : b.writable) :
    SavedAlike tocWay TocData.equal a b := by
  refine savedAlike_of (settles_toc ha) (settles_toc hb) ?_
  rw [C05_toc_equal_iff] at h ⊢
  have e := Option.some.inj h
  have er : reelsField a.reels = reelsField b.reels := congrArg TocContent.reels e
  have el : a.reelList.map reelContent = b.reelList.map reelContent := by rw [reelList_eq, reelList_eq]; exact er
  refine congrArg some ?_
  unfold tocContent
  rw [reelsField_asLoaded, reelsField_asLoaded, metaField_asLoaded, metaField_asLoaded, layoutsField_asLoaded, layoutsField_asLoaded,
    reelsContent_asLoaded el hn]
  have e1 : str a.version = str b.version := congrArg TocContent.version e
  have e2 : str a.indexType = str b.indexType := congrArg TocContent.indexType e
  have e3 : str a.jobId = str b.jobId := congrArg TocContent.jobId e
  have e4 : str a.reelId = str b.reelId := congrArg TocContent.reelId e
  have e5 : metaField a.metadata = metaField b.metadata := congrArg TocContent.metadata e
  have e6 : layoutsField a.layouts = layoutsField b.layouts := congrArg TocContent.layouts e
  have n1 : a.asLoaded.version = a.version ∧ a.asLoaded.indexType = a.indexType ∧ a.asLoaded.jobId = a.jobId ∧ a.asLoaded.reelId = a.reelId := ⟨rfl, rfl, rfl, rfl⟩
  have n2 : b.asLoaded.version = b.version ∧ b.asLoaded.indexType = b.indexType ∧ b.asLoaded.jobId = b.jobId ∧ b.asLoaded.reelId = b.reelId := ⟨rfl, rfl, rfl, rfl⟩
  rw [n1.1, n1.2.1, n1.2.2.1, n1.2.2.2, n2.1, n2.2.1, n2.2.2.1, n2.2.2.2, e1, e2, e3, e4, e5, e6]

/-- Lists of reels. -/
theorem C81_saved_reels {r s : Reels} (h : Reels.equal (some r) (some s) = true)
    (hn : (r.list.map fun x => formats x.list) = (s.list.map fun x => formats x.list))
    (hr : ∀ x ∈ r.list, x.writable) (hs : ∀ x ∈ s.list, x.writable) : SavedAlike reelsWay Reels.equal r s := by
  refine savedAlike_of (settles_reels hr) (settles_reels hs) ?_
  rw [C05_reels_equal_iff] at h ⊢
  have e : ∀ x : Reels, (reelsContent x).list = x.list.map reelContent := fun x => getD_map _ _
  have el : r.list.map reelContent = s.list.map reelContent := by rw [← e, ← e, Option.some.inj h]
  have hl := congrArg List.length el
  simp only [List.length_map] at hl
  refine congrArg some ?_
  unfold reelsContent Reels.asLoaded
  dsimp only
  by_cases hf : r.list = []
  · have hg : s.list = [] := by rw [hf] at hl; exact List.length_eq_zero_iff.mp hl.symm
    rw [if_pos hf, if_pos hg]
  · have hg : s.list ≠ [] := by
      intro hg; rw [hg] at hl; exact hf (List.length_eq_zero_iff.mp hl)
    rw [if_neg hf, if_neg hg]
    exact congrArg (fun l => (⟨some l⟩ : Reels)) (reelsContent_asLoaded el hn)

/-- Previews, lists of layout definitions, metadata: nothing is lost, so no exception. -/
theorem C81_saved_parts {p q : Preview} {d e : LayoutDefs} {m n : TocMeta} (hp : Preview.equal (some p) (some q) = true)
    (hd : LayoutDefs.equal (some d) (some e) = true) (hm : TocMeta.equal (some m) (some n) = true) :
    (p.storable → q.storable → SavedAlike previewWay Preview.equal p q) ∧
    (d.storable → e.storable → SavedAlike layoutsWay LayoutDefs.equal d e) ∧
    (m.storable → n.storable → SavedAlike tocMetaWay TocMeta.equal m n) :=
  ⟨fun a b => savedAlike_of (settles_preview a) (settles_preview b) hp, fun a b => savedAlike_of (settles_layouts a) (settles_layouts b) hd,
    fun a b => savedAlike_of (settles_metadata a) (settles_metadata b) hm⟩

/-- Tables of contents made by calls with clean arguments, with files whose ids and previews are fit
    for saving, where every file has a format. -/
theorem C81_saved_built {a b : TocData} (h : TocData.equal (some a) (some b) = true) (ha : Built (.toc a)) (hb : Built (.toc b))
    (va : a.isValid = true) (vb : b.isValid = true)
    (ka : ∀ r ∈ a.reelList, ∀ f ∈ r.list, FileKept f ∧ f.fileFormat ≠ none) (kb : ∀ r ∈ b.reelList, ∀ f ∈ r.list, FileKept f ∧ f.fileFormat ≠ none) :
    SavedAlike tocWay TocData.equal a b := by
  have e := h
  rw [C05_toc_equal_iff] at e
  have er : reelsField a.reels = reelsField b.reels := congrArg TocContent.reels (Option.some.inj e)
  have el : a.reelList.map reelContent = b.reelList.map reelContent := by rw [reelList_eq, reelList_eq]; exact er
  have all : ∀ {l : List File}, (∀ f ∈ l, f.fileFormat ≠ none) → formats l = List.replicate l.length true := by
    intro l hl
    refine List.eq_replicate_iff.mpr ⟨List.length_map .., ?_⟩
    intro x hx
    obtain ⟨f, hf, rfl⟩ := List.mem_map.mp hx
    exact Option.isSome_iff_ne_none.mpr (hl f hf)
  have key : ∀ {l m : List Reel}, l.map reelContent = m.map reelContent → (∀ r ∈ l, ∀ f ∈ r.list, f.fileFormat ≠ none) →
      (∀ r ∈ m, ∀ f ∈ r.list, f.fileFormat ≠ none) → (l.map fun r => formats r.list) = m.map fun r => formats r.list := by
    intro l
    induction l with
    | nil => intro m h _ _; cases m with
      | nil => rfl
      | cons => cases h
    | cons x l ih => intro m h hl hm; cases m with
      | nil => cases h
      | cons y m =>
        simp only [List.map_cons, List.cons.injEq] at h ⊢
        refine ⟨?_, ih h.2 (fun r hr => hl r (.tail _ hr)) fun r hr => hm r (.tail _ hr)⟩
        have hlen := congrArg (fun r : Reel => r.list.length) h.1
        simp only [reel_list, List.length_map] at hlen
        rw [all (hl x (.head _)), all (hm y (.head _)), hlen]
  exact C81_saved_toc h (key el (fun r hr f hf => (ka r hr f hf).2) fun r hr f hf => (kb r hr f hf).2)
    ((toc_held (tidy ha) (kept (built_made ha))).writable va fun r hr f hf => (ka r hr f hf).1)
    ((toc_held (tidy hb) (kept (built_made hb))).writable vb fun r hr f hf => (kb r hr f hf).1)

/-! ### The exception -/

/-- A file with the given format. -/
def formatFile (format : Option Bytes) : File :=
  { File.create2 (some (b! "a.txt")) (some (b! "2020-01-01")) (some (b! "abc")) 100 1 0 0 10 5 (some (b! "u 1")) (-1) 1 none
      (some (b! "text")) none with fileFormat := format }

/-- A format that is NULL and one that is empty are equal, but saved and loaded the files are not. -/
theorem C81_saved_format : ∃ f g x y : File, f.writable ∧ g.writable ∧ File.equal (some f) (some g) = true ∧
    (∀ i, (fileWay i).copy f = some x) ∧ (∀ i, (fileWay i).copy g = some y) ∧ File.equal (some x) (some y) = false := by
  have w : ∀ o, AttrField o → (formatFile o).isValid = true → (formatFile o).writable := by
    intro o ho hv
    refine ⟨hv, ho, textField_ascii (by decide), textField_ascii (by decide), textField_ascii (by decide), ?_, ?_, ?_, ?_, ?_, ?_, ?_, ?_, ?_, ?_⟩
    · show IsInt 1; decide
    · show IsInt (-1); decide
    · show IsInt64 100; decide
    · show IsInt 0; decide
    · show IsInt 0; decide
    · show IsInt 10; decide
    · show IsInt 5; decide
    · exact fun _ => .inr (textField_ascii (by decide))
    · intro h
      have : (formatFile o).isPreview = false := (show ((1 : Nat) &&& TYPE_PREVIEW != 0) = false by decide)
      rw [this] at h; cases h
    · intro _ m e; cases e
  have copy : ∀ f : File, f.writable → ∀ i, (fileWay i).copy f = some (f.asLoaded false) := by
    intro f hf i
    obtain ⟨s, e1, e2⟩ := (settles_file hf).1 i
    unfold Way.copy; rw [e1]; exact e2
  have hn := w none (fun _ e => nomatch e) (by decide +kernel)
  have he := w (some []) (attrField_ascii (by decide)) (by decide +kernel)
  refine ⟨formatFile none, formatFile (some []), _, _, hn, he, by decide +kernel, copy _ hn, copy _ he, by decide +kernel⟩

/-! ### Non-vacuity -/

/-- Two tables of contents that differ (no metadata, metadata without sources), are equal, and are saved alike. -/
example : { exToc with metadata := none } ≠ { exToc with metadata := some ⟨none⟩ } ∧
    SavedAlike tocWay TocData.equal { exToc with metadata := none } { exToc with metadata := some ⟨none⟩ } := by
  obtain ⟨h, -⟩ := exToc_storable
  refine ⟨by decide +kernel, C81_saved_toc (by decide +kernel) rfl ?_ ?_⟩
  · exact ⟨by decide +kernel, h.2.1, h.2.2.1, h.2.2.2.1, fun m e => (nomatch e), h.2.2.2.2.2.1, h.2.2.2.2.2.2⟩
  · refine ⟨by decide +kernel, h.2.1, h.2.2.1, h.2.2.2.1, fun m e hm => ?_, h.2.2.2.2.2.1, h.2.2.2.2.2.2⟩
    cases e
    exact absurd rfl hm

end Afs
