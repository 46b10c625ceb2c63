import Verif.Proof.Table
/-!
# The tables of a list of files
-/
namespace Afs
open Spec

namespace Files

theorem parentLen_eq (f : File) :
    parentLen f = (if f.parentId = -1 ∨ f.parentId = -2 then 1 else lenInt f.parentId) := by
  unfold parentLen FILE_PARENT FILE_NO_PARENT
  rw [digitsCount_eq]
  by_cases h1 : f.parentId = -1
  · simp [h1]
  · by_cases h2 : f.parentId = -2
    · simp [h2]
    · simp [h1, h2]

theorem formatLen_eq (f : File) :
    (if (textOf f.fileFormat).length = 0 then 1 else (textOf f.fileFormat).length) = (formatCell f).length := by
  unfold formatCell
  by_cases h : textOf f.fileFormat = []
  · rw [if_pos h, h]; rfl
  · rw [if_neg h, if_neg (by simpa using h)]

theorem lensLoop_ok (l : Lens) (fs : List File) (h : ∀ f ∈ fs, FileRowOk f) :
    lensLoop l fs = .ok ⟨widest l.id (fs.map fun f => lenInt f.id),
      widest l.uniqueId (fs.map fun f => (textOf f.uniqueId).length),
      widest l.parentId (fs.map fun f => if f.parentId = -1 ∨ f.parentId = -2 then 1 else lenInt f.parentId),
      widest l.formatId (fs.map fun f => (formatCell f).length),
      widest l.fileName (fs.map fun f => (textOf f.name).length)⟩ := by
  induction fs generalizing l with
  | nil => rfl
  | cons f fs ih =>
    have hf := h f (List.mem_cons_self ..)
    rw [lensLoop, strlenR_ok _ hf.uniqueId, Res.ok_bind, strlenR_ok _ hf.format, Res.ok_bind,
      strlenR_ok _ hf.name, Res.ok_bind, ih _ (fun x hx => h x (List.mem_cons_of_mem _ hx))]
    simp only [List.map_cons, widest_cons, digitsCount_eq, parentLen_eq, formatLen_eq]

theorem parentWidth_le (fs : List File) (h : ∀ f ∈ fs, FileRowOk f) : parentWidth fs ≤ 11 := by
  apply widest_le _ _ _ (by omega)
  intro x hx
  obtain ⟨f, hf, rfl⟩ := List.mem_map.mp hx
  split
  · omega
  · have := (h f hf).parent
    rw [lenInt_eq]
    have := lenNat_le 10 f.parentId.natAbs (by omega) (by omega)
    split <;> omega

theorem parentStr_ok (l : Lens) (f : File) (hl : l.parentId ≤ 11) (hp : 1 ≤ l.parentId)
    (hw : ¬ (f.parentId = -1 ∨ f.parentId = -2) → lenInt f.parentId ≤ l.parentId) :
    parentStr l f = .ok (parentCell l.parentId f) ∧ (parentCell l.parentId f).length = l.parentId := by
  have z : ∀ w : Nat, 1 < w → fmtD0 (w - 1) 0 = List.replicate (w - 1) 48 := by
    intro w hw
    have : ∃ k, w - 1 = k + 1 := ⟨w - 2, by omega⟩
    obtain ⟨k, hk⟩ := this
    rw [hk, fmtD0_eq, zeroInt, if_neg (by omega), zeroNat, List.replicate_succ']
    have : lenNat 0 = 1 := by decide
    simp [this]
    rfl
  unfold parentStr parentCell FILE_NO_PARENT FILE_PARENT
  by_cases h2 : f.parentId = -2
  · simp only [h2, if_true]
    by_cases hw : l.parentId > 1
    · rw [if_pos hw, z _ hw, tmpStr_ok _ _ (by simp; omega)]
      exact ⟨rfl, by simp; omega⟩
    · rw [if_neg hw, show l.parentId - 1 = 0 by omega]
      exact ⟨rfl, by simp; omega⟩
  · simp only [h2, if_false]
    by_cases h1 : f.parentId = -1
    · simp only [h1, if_true]
      by_cases hw : l.parentId > 1
      · rw [if_pos hw, z _ hw, tmpStr_ok _ _ (by simp; omega)]
        exact ⟨rfl, by simp; omega⟩
      · rw [if_neg hw, show l.parentId - 1 = 0 by omega]
        exact ⟨rfl, by simp; omega⟩
    · simp only [h1, if_false]
      have := zeroInt_length l.parentId f.parentId
      have := hw (by omega)
      rw [fmtD0_eq, tmpStr_ok _ _ (by omega)]
      exact ⟨rfl, by omega⟩

theorem formatStr_ok (f : File) (h : FileRowOk f) : formatStr f = .ok (formatCell f) := by
  unfold formatStr formatCell
  rw [strR_ok _ h.format, Res.ok_bind]
  by_cases e : textOf f.fileFormat = []
  · rw [if_pos e, if_neg (by simp [e]), tmpStr_ok _ _ (by decide)]
  · rw [if_neg e, if_pos (by simpa using e), tmpStr_ok _ _ h.short]

/-- The table of the files. -/
theorem saveAsTable_ok (f : Files) (hne : f.list ≠ []) (h : ∀ x ∈ f.list, FileRowOk x)
    (hs : fileLineWidth f.list * f.list.length + 1048630 ≤ 2147483647) :
    saveAsTable (some f) = .ok (some (fileTable f.list)) := by
  have hc : Files.count (some f) ≠ 0 := by
    unfold Files.count Files.list at *
    cases ht : f.tocs with
    | none => rw [ht] at hne; exact absurd rfl hne
    | some l => rw [ht] at hne; simpa [vecSize, ht] using hne
  unfold saveAsTable
  rw [if_neg hc]
  dsimp only
  generalize f.list = fs at *
  rw [lensLoop_ok _ _ h, Res.ok_bind]
  dsimp only
  have hlen : 1 ≤ fs.length := List.length_pos_iff.mpr hne
  have hpw := parentWidth_le fs h
  have hp1 : 1 ≤ parentWidth fs := base_le_widest _ _
  have hwid : fileLineWidth fs < two32 := by
    have := Nat.mul_le_mul_left (fileLineWidth fs) hlen
    unfold two32; omega
  generalize hl : (⟨widest 1 (fs.map fun f => lenInt f.id), widest 36 (fs.map fun f => (textOf f.uniqueId).length),
      widest 1 (fs.map fun f => if f.parentId = -1 ∨ f.parentId = -2 then 1 else lenInt f.parentId),
      widest 0 (fs.map fun f => (formatCell f).length), widest 0 (fs.map fun f => (textOf f.name).length)⟩ : Lens) = l
  have e1 : l.id = fileIdWidth fs := by rw [← hl]; rfl
  have e2 : l.uniqueId = widest 36 (fs.map fun f => (textOf f.uniqueId).length) := by rw [← hl]
  have e3 : l.parentId = parentWidth fs := by rw [← hl]; rfl
  have e4 : l.formatId = formatWidth fs := by rw [← hl]; rfl
  have e5 : l.fileName = widest 0 (fs.map fun f => (textOf f.name).length) := by rw [← hl]
  have ew : tableWidth l = fileLineWidth fs := by
    unfold tableWidth fileLineWidth u32
    rw [e1, e2, e3, e4, e5]
    exact Nat.mod_eq_of_lt hwid
  have hh : tableHeader.length = 52 := by decide
  rw [ew, hh]
  have hput := fits_putStrN (52 + fileLineWidth fs * fs.length + 1 + 1 + EPSILON)
    (by unfold EPSILON INT_MAX; omega)
  rw [hput _ _ (by unfold EPSILON; simp only [List.length_append, List.length_cons, List.length_nil, hh]; omega), Res.ok_bind,
    putRows_ok _ _ hput (row l) (fileLine fs) (fileLineWidth fs) fs]
  · have hhd : tableHeader ++ [10] = b! "<fileId> <uniqueId> <parentId> <formatId> <fileName>\n" := by decide
    simp only [Res.ok_bind, Res.pure_eq, List.nil_append, hhd]
    rw [fileTable]
  · intro x hx
    have hr := h x hx
    have hps := parentStr_ok l x (by omega) (by omega) (by
      intro hn
      rw [e3]
      unfold parentWidth
      have := le_widest_map 1 (fun f : File => if f.parentId = -1 ∨ f.parentId = -2 then 1 else lenInt f.parentId) fs x hx
      simpa only [if_neg hn] using this)
    constructor
    · unfold row
      rw [hps.1, Res.ok_bind, formatStr_ok x hr, Res.ok_bind, strR_ok _ hr.uniqueId, Res.ok_bind,
        strR_ok _ hr.name, Res.ok_bind, e1, e3, e4]
      simp [fileLine, line, fmtD0_eq, fmtSL_eq]
    · have a1 : lenInt x.id ≤ fileIdWidth fs := le_widest_map 1 (fun f : File => lenInt f.id) fs x hx
      have a2 := le_widest_map 36 (fun f : File => (textOf f.uniqueId).length) fs x hx
      have a2' := base_le_widest 36 (fs.map fun f => (textOf f.uniqueId).length)
      have a4 : (formatCell x).length ≤ formatWidth fs := le_widest_map 0 (fun f : File => (formatCell f).length) fs x hx
      have a5 := le_widest_map 0 (fun f : File => (textOf f.name).length) fs x hx
      have a3 := hps.2
      rw [e3] at a3
      simp only [fileLine, line, List.length_append, List.length_cons, List.length_nil, zeroInt_length, leftText_length, a3]
      unfold fileLineWidth
      omega
  · unfold EPSILON; simp only [List.nil_append, List.length_append, List.length_cons, List.length_nil, hh]; omega

end Files
end Afs
