import Verif.Proof.Table
/-!
# The metadata tables and the table of layout definitions
-/
namespace Afs
open Spec

namespace Files

theorem sourcesOf_eq (f : File) : sourcesOf f = fileSources f := by
  unfold sourcesOf fileSources
  cases f.metadata <;> rfl

theorem metaList_eq (fs : List File) : metaList fs = allSources fs := by
  unfold metaList allSources
  simp only [sourcesOf_eq]

/-- The column of the index, which the table computes and does not print. -/
def idxWidth : Nat → Nat → Nat → Nat
  | _, b, 0 => b
  | j, b, n + 1 => idxWidth (j + 1) (max (lenInt (intOfU j)) b) n

theorem idxWidth_le (j b n k : Nat) (hb : b ≤ k) (hk : 11 ≤ k) : idxWidth j b n ≤ k := by
  induction n generalizing j b with
  | zero => exact hb
  | succ n ih =>
    apply ih
    have : lenInt (intOfU j) ≤ 11 := by
      have hr : -2147483648 ≤ intOfU j ∧ intOfU j ≤ 2147483647 := by
        unfold intOfU two32; split <;> omega
      rw [lenInt_eq]
      have := lenNat_le 10 (intOfU j).natAbs (by omega) (by omega)
      split <;> omega
    omega

theorem idxWidth_ge (j b n : Nat) : b ≤ idxWidth j b n := by
  induction n generalizing j b with
  | zero => exact Nat.le_refl _
  | succ n ih => have := ih (j + 1) (max (lenInt (intOfU j)) b); rw [idxWidth]; omega

theorem idxWidth_pos (j b n : Nat) (h : 0 < n) : 1 ≤ idxWidth j b n := by
  cases n with
  | zero => omega
  | succ n =>
    have := idxWidth_ge (j + 1) (max (lenInt (intOfU j)) b) n
    have h2 : 1 ≤ lenInt (intOfU j) := by
      rw [lenInt_eq]; have := lenNat_pos (intOfU j).natAbs; omega
    rw [idxWidth]; omega

theorem metaSources_ok (id : Int) (j : Nat) (l : MetaLens) (ss : List FileMetaSource) (h : ∀ s ∈ ss, SourceRowOk s)
    (hc : l.count + ss.length < two32) :
    metaSources id j l ss = .ok ⟨widest l.fileId (ss.map fun _ => lenInt id), idxWidth j l.id ss.length,
      widest l.sourceFileId (ss.map fun s => lenInt s.fileId),
      widest l.sourceId (ss.map fun s => lenInt s.sourceId),
      widest l.formatId (ss.map fun s => (textOf s.formatId).length),
      widest l.data (ss.map fun s => (textOf s.data).length), l.count + ss.length⟩ := by
  induction ss generalizing l j with
  | nil => rfl
  | cons s ss ih =>
    simp only [List.length_cons] at hc
    have hs := h s (List.mem_cons_self ..)
    have e : u32 (l.count + 1) = l.count + 1 := Nat.mod_eq_of_lt (by omega)
    rw [metaSources, strlenR_ok _ hs.format, Res.ok_bind, strlenR_ok _ hs.data, Res.ok_bind,
      ih _ _ (fun x hx => h x (List.mem_cons_of_mem _ hx)) (by simp only [e]; omega)]
    simp only [List.map_cons, widest_cons, digitsCount_eq, List.length_cons, e, idxWidth]
    rw [show l.count + 1 + ss.length = l.count + (ss.length + 1) by omega]

/-- The index column of all files. -/
def idxAll : Nat → List File → Nat
  | b, [] => b
  | b, f :: fs => idxAll (idxWidth 0 b (fileSources f).length) fs

theorem idxAll_le (b : Nat) (fs : List File) (k : Nat) (hb : b ≤ k) (hk : 11 ≤ k) : idxAll b fs ≤ k := by
  induction fs generalizing b with
  | nil => exact hb
  | cons f fs ih => exact ih _ (idxWidth_le _ _ _ _ hb hk)

theorem idxAll_ge (b : Nat) (fs : List File) : b ≤ idxAll b fs := by
  induction fs generalizing b with
  | nil => exact Nat.le_refl _
  | cons f fs ih =>
    exact Nat.le_trans (idxWidth_ge 0 b _) (ih _)

theorem idxAll_pos (b : Nat) (fs : List File) (h : allSources fs ≠ []) : 1 ≤ idxAll b fs := by
  induction fs generalizing b with
  | nil => exact absurd rfl h
  | cons f fs ih =>
    rw [idxAll]
    by_cases e : fileSources f = []
    · apply ih
      intro e'
      apply h
      unfold allSources at *
      rw [List.flatMap_cons, e, e']; rfl
    · have := idxWidth_pos 0 b _ (List.length_pos_iff.mpr e)
      exact Nat.le_trans this (idxAll_ge _ _)

theorem allSources_cons (f : File) (fs : List File) :
    allSources (f :: fs) = (fileSources f).map (fun s => (f, s)) ++ allSources fs := rfl

theorem metaLoop_ok (l : MetaLens) (fs : List File) (h : ∀ x ∈ allSources fs, SourceRowOk x.2)
    (hc : l.count + (allSources fs).length < two32) :
    metaLoop l fs = .ok ⟨widest l.fileId ((allSources fs).map fun x => lenInt x.1.id), idxAll l.id fs,
      widest l.sourceFileId ((allSources fs).map fun x => lenInt x.2.fileId),
      widest l.sourceId ((allSources fs).map fun x => lenInt x.2.sourceId),
      widest l.formatId ((allSources fs).map fun x => (textOf x.2.formatId).length),
      widest l.data ((allSources fs).map fun x => (textOf x.2.data).length), l.count + (allSources fs).length⟩ := by
  induction fs generalizing l with
  | nil => rfl
  | cons f fs ih =>
    rw [allSources_cons] at h hc
    simp only [List.length_append, List.length_map] at hc
    rw [metaLoop, sourcesOf_eq, metaSources_ok _ _ _ _
      (fun s hs => h (f, s) (List.mem_append_left _ (List.mem_map_of_mem hs))) (by omega), Res.ok_bind,
      ih _ (fun x hx => h x (List.mem_append_right _ hx)) (by dsimp only; omega)]
    simp only [allSources_cons, List.map_append, List.map_map, widest_append, List.length_append, List.length_map,
      Function.comp_def, Nat.add_assoc, idxAll]

theorem copyStrip_eq (k : Nat) (d : Bytes) : copyStrip k d = (oneLine d).take k := by
  unfold oneLine
  induction d generalizing k with
  | nil => cases k <;> simp [copyStrip]
  | cons c cs ih =>
    cases k with
    | zero => simp [copyStrip]
    | succ k =>
      rw [copyStrip]
      by_cases h : c = 10 ∨ c = 13 ∨ c = 9
      · rw [if_pos h, ih, List.filter_cons, if_neg (by simp only [decide_eq_true h, Bool.not_true]; decide)]
      · rw [if_neg h, ih, List.filter_cons, if_pos (by simpa using h), List.take_succ_cons]

theorem dataStr_eq (d : Bytes) : dataStr d = dataCell d := by
  unfold dataStr dataCell
  have hle : (oneLine d).length ≤ d.length := List.length_filter_le ..
  by_cases h : d.length ≥ 55
  · rw [if_pos h, if_neg (c := d.length < 55) (by omega)]
    rw [copyStrip_eq]
    dsimp only
    split
    · rfl
    · rw [List.take_take]; rfl
  · rw [if_neg h, if_pos (by omega), copyStrip_eq, List.take_of_length_le hle]

theorem dataCell_length (d : Bytes) : (dataCell d).length ≤ d.length := by
  unfold dataCell
  have hle : (oneLine d).length ≤ d.length := List.length_filter_le ..
  split
  · exact hle
  · split
    · rw [List.length_take]; omega
    · rw [List.length_append, List.length_take]
      have : (b! "...").length = 3 := rfl
      omega

theorem sourceStr_ok (l : MetaLens) (s : FileMetaSource) (hl : l.sourceId ≤ 11) (hw : lenInt s.sourceId ≤ l.sourceId) :
    sourceStr l s = .ok (sourceCell l.sourceId s) ∧ (sourceCell l.sourceId s).length ≤ l.sourceId + 1 := by
  have z : ∀ w : Nat, 0 < w → fmtD0 w 0 = List.replicate w 48 := by
    intro w hw
    obtain ⟨k, rfl⟩ : ∃ k, w = k + 1 := ⟨w - 1, by omega⟩
    rw [fmtD0_eq, zeroInt, if_neg (by omega), zeroNat, List.replicate_succ']
    have : lenNat 0 = 1 := by decide
    simp [this]
    rfl
  unfold sourceStr sourceCell
  by_cases h : s.sourceId ≠ -1
  · rw [if_pos h, if_pos h, fmtD0_eq]
    have := zeroInt_length l.sourceId s.sourceId
    rw [tmpStr_ok _ _ (by omega)]
    exact ⟨rfl, by omega⟩
  · rw [if_neg h, if_neg h]
    by_cases h1 : l.sourceId > 1
    · rw [if_pos h1, if_pos h1, z _ (by omega), tmpStr_ok _ _ (by simp; omega)]
      exact ⟨rfl, by simp⟩
    · rw [if_neg h1, if_neg h1, tmpStr_ok _ _ (by decide)]
      exact ⟨rfl, by simp⟩

/-- The metadata table. -/
theorem saveAsMetadataTable_ok (fs : List File) (h : ∀ x ∈ allSources fs, SourceRowOk x.2)
    (hi : ∀ x ∈ allSources fs, -2147483648 ≤ x.2.sourceId ∧ x.2.sourceId ≤ 2147483647)
    (hs : metaLineWidth fs * (allSources fs).length + 1048700 ≤ 2147483647) :
    saveAsMetadataTable (some ⟨some fs⟩) = .ok (some (metadataTable fs)) := by
  unfold saveAsMetadataTable
  dsimp only
  by_cases hne : allSources fs = []
  · rw [metaLoop_ok _ _ h (by rw [hne]; decide), Res.ok_bind, metaList_eq, hne, if_neg (by simp)]
    simp [putRowsH, metadataTable, part, hne]
  have hcnt : 1 ≤ (allSources fs).length := List.length_pos_iff.mpr hne
  have hwid := Nat.mul_le_mul_left (metaLineWidth fs) hcnt
  have h17 : 17 ≤ metaLineWidth fs := Nat.le_add_left ..
  have hcl := Nat.mul_le_mul_right (allSources fs).length h17
  rw [metaLoop_ok _ _ h (by unfold two32; show 0 + _ < _; omega), Res.ok_bind, metaList_eq]
  have hx11 := idxAll_le 0 fs 11 (by omega) (by omega)
  have hx1 := idxAll_pos 0 fs hne
  generalize hl : MetaLens.mk _ _ _ _ _ _ _ = l
  have e1 : l.fileId = (metaWidths fs).fileId := by rw [← hl]; rfl
  have e2 : l.id = idxAll 0 fs := by rw [← hl]
  have e3 : l.sourceFileId = (metaWidths fs).sourceFileId := by rw [← hl]; rfl
  have e4 : l.sourceId = (metaWidths fs).sourceId := by rw [← hl]; rfl
  have e5 : l.formatId = (metaWidths fs).format := by rw [← hl]; rfl
  have e6 : l.data = widest 0 ((allSources fs).map fun x => (textOf x.2.data).length) := by rw [← hl]
  have e7 : l.count = (allSources fs).length := by rw [← hl]; show 0 + _ = _; omega
  have e4' : widest 0 ((allSources fs).map fun x => lenInt x.2.sourceId) = l.sourceId := by rw [← hl]
  clear hl
  have hs11 : l.sourceId ≤ 11 := by
    rw [← e4']
    apply widest_le _ _ _ (by omega)
    intro y hy
    obtain ⟨x, hx, rfl⟩ := List.mem_map.mp hy
    have := hi x hx
    rw [lenInt_eq]
    have := lenNat_le 10 x.2.sourceId.natAbs (by omega) (by omega)
    split <;> omega
  rw [if_neg (by omega)]
  have hmh : metaHeader.length + metaColumns.length = 104 := by decide
  have hW : l.fileId + l.id + l.sourceFileId + l.sourceId + l.formatId + l.data + 5 + 1 ≤ metaLineWidth fs := by
    unfold metaLineWidth; omega
  have hW1 : (metaWidths fs).fileId + (metaWidths fs).sourceFileId + ((metaWidths fs).sourceId + 1) +
      (metaWidths fs).format + widest 0 ((allSources fs).map fun x => (textOf x.2.data).length) + 5 ≤
      l.fileId + l.id + l.sourceFileId + l.sourceId + l.formatId + l.data + 5 + 1 := by omega
  generalize hWd : l.fileId + l.id + l.sourceFileId + l.sourceId + l.formatId + l.data + 5 + 1 = W at hW hW1
  have hWl := Nat.mul_le_mul_right (allSources fs).length hW
  have hsize : metaSize l = 104 + W * (allSources fs).length + 2 + EPSILON := by
    unfold metaSize u32
    rw [hWd, e7, hmh, Nat.mod_eq_of_lt (a := W) (by unfold two32; omega),
      Nat.mod_eq_of_lt (a := 104 + W * (allSources fs).length + 1) (by unfold two32; omega),
      Nat.mod_eq_of_lt (by unfold two32; omega)]
  rw [hsize]
  have hput := fits_putStrN (104 + W * (allSources fs).length + 2 + EPSILON) (by unfold EPSILON INT_MAX; omega)
  have hfl : [metaHeader, metaColumns].flatten = metaHeader ++ metaColumns := by simp
  rw [putRowsH_ok _ _ hput [metaHeader, metaColumns] (metaRow l) (metaLine (metaWidths fs)) W (allSources fs) []]
  · rw [Res.ok_bind, hfl]
    have hhd : metaHeader ++ metaColumns =
      b! "\nUSER DATA FILES METADATA\n========================\n<fileId> <sourceFileId> <sourceId> <formatId> <data>\n" := by
      decide
    rw [hhd, metadataTable]
    rfl
  · intro x hx
    have hr := h x hx
    have hss := sourceStr_ok l x.2 hs11 (by
      rw [← e4']; exact le_widest_map 0 (fun x : File × FileMetaSource => lenInt x.2.sourceId) _ x hx)
    constructor
    · unfold metaRow
      rw [strR_ok _ hr.data, Res.ok_bind, hss.1, Res.ok_bind, strR_ok _ hr.format, Res.ok_bind, e1, e3, e4, e5, dataStr_eq]
      simp [metaLine, line, fmtD0_eq, fmtSL_eq]
    · refine Nat.le_trans ?_ hW1
      have a1 : lenInt x.1.id ≤ (metaWidths fs).fileId :=
        le_widest_map 0 (fun x : File × FileMetaSource => lenInt x.1.id) _ x hx
      have a2 : lenInt x.2.fileId ≤ (metaWidths fs).sourceFileId :=
        le_widest_map 0 (fun x : File × FileMetaSource => lenInt x.2.fileId) _ x hx
      have a3 : (textOf x.2.formatId).length ≤ (metaWidths fs).format :=
        le_widest_map 0 (fun x : File × FileMetaSource => (textOf x.2.formatId).length) _ x hx
      have a4 := le_widest_map 0 (fun x : File × FileMetaSource => (textOf x.2.data).length) _ x hx
      have a5 := dataCell_length (textOf x.2.data)
      have a6 := hss.2
      rw [e4] at a6
      simp only [metaLine, line, List.length_append, List.length_cons, List.length_nil, zeroInt_length, leftText_length]
      omega
  · rw [hfl, List.length_append, hmh, List.length_nil]; unfold EPSILON; omega

end Files

namespace FileMeta

theorem uOfInt_eq (i : Int) : uOfInt i = asUnsigned i := rfl

theorem lensLoop_ok (i : Nat) (l : Lens) (ss : List FileMetaSource) (h : ∀ s ∈ ss, SourceRowOk s) :
    lensLoop i l ss = .ok ⟨widest l.id ((List.range' i ss.length).map lenNat),
      widest l.fileId (ss.map fun s => lenNat (asUnsigned s.fileId)),
      widest l.sourceId (ss.map fun s => lenNat (asUnsigned s.sourceId)),
      widest l.formatId (ss.map fun s => (textOf s.formatId).length),
      widest l.data (ss.map fun s => (textOf s.data).length)⟩ := by
  induction ss generalizing l i with
  | nil => rfl
  | cons s ss ih =>
    have hs := h s (List.mem_cons_self ..)
    rw [lensLoop, strlenR_ok _ hs.format, Res.ok_bind, strlenR_ok _ hs.data, Res.ok_bind,
      ih _ _ (fun x hx => h x (List.mem_cons_of_mem _ hx))]
    simp only [List.map_cons, widest_cons, uDigits_eq, List.length_cons, uOfInt_eq, List.range'_succ]

theorem saveAsTable_ok (m : FileMeta) (h : ∀ s ∈ m.sources.getD [], SourceRowOk s)
    (hs : sourceLineWidth (m.sources.getD []) * (m.sources.getD []).length + 100 ≤ 4294967296)
    (hw : sourceLineWidth (m.sources.getD []) < 4294967296) :
    saveAsTable (some m) = .ok (some (sourceTable (m.sources.getD []))) := by
  unfold saveAsTable
  dsimp only
  generalize m.sources.getD [] = ss at *
  rw [lensLoop_ok _ _ _ h, Res.ok_bind, ← List.range_eq_range']
  generalize hl : Lens.mk _ _ _ _ _ = l
  have e1 : l.id = (sourceWidths ss).id := by rw [← hl]; rfl
  have e2 : l.fileId = (sourceWidths ss).fileId := by rw [← hl]; rfl
  have e3 : l.sourceId = (sourceWidths ss).sourceId := by rw [← hl]; rfl
  have e4 : l.formatId = (sourceWidths ss).format := by rw [← hl]; rfl
  have e5 : l.data = widest 0 (ss.map fun s => (textOf s.data).length) := by rw [← hl]
  clear hl
  have hh : tableHeader.length = 77 := by decide
  have hsize : tableSize l ss.length = 77 + (sourceLineWidth ss * ss.length + 1) + 1 := by
    unfold tableSize u32
    rw [hh, e1, e2, e3, e4, e5]
    have hw' : (sourceWidths ss).id + (sourceWidths ss).fileId + (sourceWidths ss).sourceId + (sourceWidths ss).format +
        widest 0 (ss.map fun s => (textOf s.data).length) + 4 + 1 = sourceLineWidth ss := rfl
    rw [hw', Nat.mod_eq_of_lt (a := sourceLineWidth ss) (by unfold two32; omega),
      Nat.mod_eq_of_lt (a := sourceLineWidth ss * ss.length + 1) (by unfold two32; omega),
      Nat.mod_eq_of_lt (by unfold two32; omega)]
  rw [hsize]
  have hput := fits_putStr (77 + (sourceLineWidth ss * ss.length + 1) + 1)
  rw [hput _ _ (by rw [hh, List.length_nil]; omega), Res.ok_bind,
    putRows_ok _ _ hput (row l) (sourceLine (sourceWidths ss)) (sourceLineWidth ss) ss.zipIdx]
  · rw [Res.ok_bind, sourceTable, List.nil_append, tableHeader]; rfl
  · intro x hx
    have hm := List.mem_zipIdx' hx
    have hxm : x.1 ∈ ss := hm.2 ▸ List.getElem_mem _
    have hr := h x.1 hxm
    constructor
    · unfold row
      rw [strR_ok _ hr.format, Res.ok_bind, strR_ok _ hr.data, Res.ok_bind, e1, e2, e3, e4]
      simp [sourceLine, line, fmtU0_eq, fmtSL_eq, uOfInt_eq]
    · have a1 : lenNat x.2 ≤ (sourceWidths ss).id :=
        le_widest_map 1 lenNat (List.range ss.length) x.2 (List.mem_range.mpr hm.1)
      have a2 : lenNat (asUnsigned x.1.fileId) ≤ (sourceWidths ss).fileId :=
        le_widest_map 0 (fun s : FileMetaSource => lenNat (asUnsigned s.fileId)) ss x.1 hxm
      have a3 : lenNat (asUnsigned x.1.sourceId) ≤ (sourceWidths ss).sourceId :=
        le_widest_map 0 (fun s : FileMetaSource => lenNat (asUnsigned s.sourceId)) ss x.1 hxm
      have a4 : (textOf x.1.formatId).length ≤ (sourceWidths ss).format :=
        le_widest_map 0 (fun s : FileMetaSource => (textOf s.formatId).length) ss x.1 hxm
      have a5 := le_widest_map 0 (fun s : FileMetaSource => (textOf s.data).length) ss x.1 hxm
      simp only [sourceLine, line, List.length_append, List.length_cons, List.length_nil, zeroNat_length, leftText_length]
      unfold sourceLineWidth
      omega
  · rw [List.nil_append, List.length_zipIdx]; omega

end FileMeta

namespace LayoutDefs

theorem sectionList_eq (d : LayoutDef) : d.sectionList = defSections d := by
  unfold LayoutDef.sectionList defSections
  cases d.sections <;> rfl

theorem foldl_lensSection (l : Lens) (ss : List Section) (hc : l.count + ss.length < two32) :
    ss.foldl lensSection l = { l with
      count := l.count + ss.length
      sectionId := widest l.sectionId (ss.map fun s => lenNat s.id)
      x := widest l.x (ss.map fun s => lenNat s.x)
      y := widest l.y (ss.map fun s => lenNat s.y)
      width := widest l.width (ss.map fun s => lenNat s.width)
      height := widest l.height (ss.map fun s => lenNat s.height)
      rotation := widest l.rotation (ss.map fun s => lenNat s.rotation) } := by
  induction ss generalizing l with
  | nil => rfl
  | cons s ss ih =>
    simp only [List.length_cons] at hc
    have e : u32 (l.count + 1) = l.count + 1 := Nat.mod_eq_of_lt (by omega)
    rw [List.foldl_cons, ih _ (by unfold lensSection; simp only [e]; omega)]
    simp only [lensSection, List.map_cons, widest_cons, uDigits_eq, List.length_cons, e]
    rw [show l.count + 1 + ss.length = l.count + (ss.length + 1) by omega]

theorem allSections_cons (d : LayoutDef) (ds : List LayoutDef) :
    allSections (d :: ds) = (defSections d).map (fun s => (d, s)) ++ allSections ds := rfl

theorem lensLoop_ok (l : Lens) (ds : List LayoutDef) (h : ∀ d ∈ ds, Present d.id ∧ Present d.name)
    (hc : l.count + (allSections ds).length < two32) :
    lensLoop l ds = .ok ⟨widest l.layoutId (ds.map fun d => (textOf d.id).length),
      widest l.sections (ds.map fun d => lenNat (defSections d).length),
      widest l.name (ds.map fun d => (textOf d.name).length),
      widest l.sectionId ((allSections ds).map fun x => lenNat x.2.id),
      widest l.x ((allSections ds).map fun x => lenNat x.2.x),
      widest l.y ((allSections ds).map fun x => lenNat x.2.y),
      widest l.width ((allSections ds).map fun x => lenNat x.2.width),
      widest l.height ((allSections ds).map fun x => lenNat x.2.height),
      widest l.rotation ((allSections ds).map fun x => lenNat x.2.rotation),
      l.count + (allSections ds).length⟩ := by
  induction ds generalizing l with
  | nil => rfl
  | cons d ds ih =>
    have hd := h d (List.mem_cons_self ..)
    rw [allSections_cons, List.length_append, List.length_map] at hc
    rw [lensLoop, strlenR_ok _ hd.1, Res.ok_bind, strlenR_ok _ hd.2, Res.ok_bind, sectionList_eq,
      foldl_lensSection _ _ (by dsimp only; omega),
      ih _ (fun x hx => h x (List.mem_cons_of_mem _ hx)) (by dsimp only; omega)]
    simp only [allSections_cons, List.map_cons, List.map_append, List.map_map, widest_cons, widest_append, uDigits_eq,
      List.length_append, List.length_map, Function.comp_def, Nat.add_assoc]

theorem idCell_length (w : Nat) (s : Bytes) (h : s.length ≤ w) : (idCell w s).length ≤ w := by
  unfold idCell; simp; omega

theorem sectionPairs_eq (ds : List LayoutDef) : sectionPairs ds = allSections ds := by
  unfold sectionPairs allSections; simp only [sectionList_eq]

theorem saveAsTable_ok (d : LayoutDefs) (h : ∀ x ∈ d.defs.getD [], Present x.id ∧ Present x.name)
    (hc : (allSections (d.defs.getD [])).length < 4294967296)
    (hw1 : layoutLineWidth (d.defs.getD []) < 4294967296) (hw2 : sectionLineWidth (d.defs.getD []) < 4294967296)
    (hs : layoutLineWidth (d.defs.getD []) * (d.defs.getD []).length +
      sectionLineWidth (d.defs.getD []) * (allSections (d.defs.getD [])).length + 200 ≤ 4294967296) :
    saveAsTable (some d) = .ok (some (layoutTable (d.defs.getD []))) := by
  unfold saveAsTable
  dsimp only
  generalize d.defs.getD [] = ds at *
  rw [lensLoop_ok _ _ h (by unfold two32; show 0 + _ < _; omega), Res.ok_bind]
  generalize hl : Lens.mk _ _ _ _ _ _ _ _ _ _ = l
  have e1 : l.layoutId = (layoutWidths ds).id := by rw [← hl]; rfl
  have e2 : l.sections = (layoutWidths ds).sections := by rw [← hl]; rfl
  have e3 : l.name = widest 0 (ds.map fun d => (textOf d.name).length) := by rw [← hl]
  have e4 : l.sectionId = (layoutWidths ds).sectionId := by rw [← hl]; rfl
  have e5 : l.x = (layoutWidths ds).x := by rw [← hl]; rfl
  have e6 : l.y = (layoutWidths ds).y := by rw [← hl]; rfl
  have e7 : l.width = (layoutWidths ds).width := by rw [← hl]; rfl
  have e8 : l.height = (layoutWidths ds).height := by rw [← hl]; rfl
  have e9 : l.rotation = (layoutWidths ds).rotation := by rw [← hl]; rfl
  have e10 : l.count = (allSections ds).length := by rw [← hl]; show 0 + _ = _; omega
  clear hl
  have h1 : tableHeader.length = 52 := by decide
  have h2 : defColumns.length = 29 := by decide
  have h3 : sectionColumns.length = 60 := by decide
  have hsize : tableSize l ds.length = 52 + (29 + layoutLineWidth ds * ds.length + 1) +
      (60 + sectionLineWidth ds * (allSections ds).length + 1) + 1 + 1 := by
    have a : l.layoutId + l.sections + l.name + 3 = layoutLineWidth ds := by rw [e1, e2, e3]; rfl
    have b : l.layoutId + l.sectionId + l.x + l.y + l.width + l.height + l.rotation + 7 = sectionLineWidth ds := by
      rw [e1, e4, e5, e6, e7, e8, e9]; rfl
    unfold tableSize u32
    rw [h1, h2, h3, a, b, e10, Nat.mod_eq_of_lt (a := layoutLineWidth ds) (by unfold two32; omega),
      Nat.mod_eq_of_lt (a := sectionLineWidth ds) (by unfold two32; omega),
      Nat.mod_eq_of_lt (a := 29 + layoutLineWidth ds * ds.length + 1) (by unfold two32; omega),
      Nat.mod_eq_of_lt (a := 60 + sectionLineWidth ds * (allSections ds).length + 1) (by unfold two32; omega),
      Nat.mod_eq_of_lt (by unfold two32; omega)]
  rw [hsize, sectionPairs_eq]
  generalize hsz : 52 + (29 + layoutLineWidth ds * ds.length + 1) +
      (60 + sectionLineWidth ds * (allSections ds).length + 1) + 1 + 1 = size
  have hput := fits_putStr size
  have drow : ∀ x ∈ ds, defRow l x = .ok (layoutLine (layoutWidths ds) x) ∧
      (layoutLine (layoutWidths ds) x).length ≤ layoutLineWidth ds := by
    intro x hx
    have hr := h x hx
    constructor
    · unfold defRow padId
      rw [strR_ok _ hr.1, Res.ok_bind, strR_ok _ hr.2, Res.ok_bind, e1, e2, sectionList_eq]
      simp [layoutLine, line, fmtU0_eq, idCell]
    · have a1 := idCell_length (layoutWidths ds).id (textOf x.id)
        (le_widest_map 0 (fun d : LayoutDef => (textOf d.id).length) ds x hx)
      have a2 : lenNat (defSections x).length ≤ (layoutWidths ds).sections :=
        le_widest_map 0 (fun d : LayoutDef => lenNat (defSections d).length) ds x hx
      have a3 := le_widest_map 0 (fun d : LayoutDef => (textOf d.name).length) ds x hx
      simp only [layoutLine, line, List.length_append, List.length_cons, List.length_nil, zeroNat_length]
      unfold layoutLineWidth
      omega
  have srow : ∀ x ∈ allSections ds, sectionRow l x = .ok (sectionLine (layoutWidths ds) x) ∧
      (sectionLine (layoutWidths ds) x).length ≤ sectionLineWidth ds := by
    intro x hx
    have hxd : x.1 ∈ ds := by
      obtain ⟨d, hd, hx'⟩ := List.mem_flatMap.mp hx
      obtain ⟨s, _, rfl⟩ := List.mem_map.mp hx'
      exact hd
    have hr := h x.1 hxd
    constructor
    · unfold sectionRow padId
      rw [strR_ok _ hr.1, Res.ok_bind, e1, e4, e5, e6, e7, e8, e9]
      simp [sectionLine, line, fmtU0_eq, idCell]
    · have a1 := idCell_length (layoutWidths ds).id (textOf x.1.id)
        (le_widest_map 0 (fun d : LayoutDef => (textOf d.id).length) ds x.1 hxd)
      have a2 : lenNat x.2.id ≤ (layoutWidths ds).sectionId :=
        le_widest_map 0 (fun x : LayoutDef × Section => lenNat x.2.id) _ x hx
      have a3 : lenNat x.2.x ≤ (layoutWidths ds).x :=
        le_widest_map 0 (fun x : LayoutDef × Section => lenNat x.2.x) _ x hx
      have a4 : lenNat x.2.y ≤ (layoutWidths ds).y :=
        le_widest_map 0 (fun x : LayoutDef × Section => lenNat x.2.y) _ x hx
      have a5 : lenNat x.2.width ≤ (layoutWidths ds).width :=
        le_widest_map 0 (fun x : LayoutDef × Section => lenNat x.2.width) _ x hx
      have a6 : lenNat x.2.height ≤ (layoutWidths ds).height :=
        le_widest_map 0 (fun x : LayoutDef × Section => lenNat x.2.height) _ x hx
      have a7 : lenNat x.2.rotation ≤ (layoutWidths ds).rotation :=
        le_widest_map 3 (fun x : LayoutDef × Section => lenNat x.2.rotation) _ x hx
      simp only [sectionLine, line, List.length_append, List.length_cons, List.length_nil, zeroNat_length]
      unfold sectionLineWidth
      clear hr hs hw1 hw2 hc hsize hsz
      rw [Nat.max_eq_left a2, Nat.max_eq_left a3, Nat.max_eq_left a4, Nat.max_eq_left a5, Nat.max_eq_left a6,
        Nat.max_eq_left a7]
      omega
  have dl := flatMap_length_le _ _ _ (fun x hx => (drow x hx).2)
  have sl := flatMap_length_le _ _ _ (fun x hx => (srow x hx).2)
  rw [hput _ _ (by rw [List.length_append, h1, h2, List.length_nil]; omega), Res.ok_bind,
    putRows_ok _ _ hput (defRow l) (layoutLine (layoutWidths ds)) (layoutLineWidth ds) ds _ drow
      (by rw [List.nil_append, List.length_append, h1, h2]; omega), Res.ok_bind,
    hput _ _ (by rw [List.nil_append, List.length_append, List.length_append, h1, h2, h3]; omega), Res.ok_bind,
    putRows_ok _ _ hput (sectionRow l) (sectionLine (layoutWidths ds)) (sectionLineWidth ds) (allSections ds) _ srow
      (by simp only [List.nil_append, List.length_append, h1, h2, h3]; omega), Res.ok_bind]
  have hd : tableHeader ++ defColumns =
      b! "VISUAL LAYOUT DEFINITIONS\n=========================\n<layoutId> <sections> <name>\n" := by decide
  have hfin : layoutTable ds = [] ++ (tableHeader ++ defColumns) ++ ds.flatMap (layoutLine (layoutWidths ds)) ++
      sectionColumns ++ (allSections ds).flatMap (sectionLine (layoutWidths ds)) ++ (if ds = [] then [] else [10]) := by
    rw [hd, sectionColumns, layoutTable, List.nil_append]
  rw [hfin]
  by_cases e : ds = []
  · rw [if_neg (by rw [e]; decide), if_pos e, List.append_nil]; rfl
  · rw [if_pos (by simpa using e), if_neg e,
      hput _ _ (by simp only [List.nil_append, List.length_append, List.length_cons, List.length_nil, h1, h2, h3]; omega)]
    rfl

end LayoutDefs
end Afs
