import Verif.Proof.Table
/-!
# The location table
-/
namespace Afs
open Spec

namespace Files

theorem pagesOf_eq (f : File) : pagesOf f = previewPages f := by
  unfold pagesOf previewPages
  cases f.preview <;> rfl

theorem locPages_ok (id : Int) (l : LocLens) (ps : List Page) (h : ∀ p ∈ ps, Present p.layoutId)
    (hc : l.pages + ps.length < two32) :
    locPages id l ps = .ok { l with
      pages := l.pages + ps.length
      vId := widest l.vId (ps.map fun _ => lenInt id)
      vLayout := widest l.vLayout (ps.map fun p => (textOf p.layoutId).length)
      vFrame := widest l.vFrame (ps.map fun p => lenNat p.startFrame)
      vSection := widest l.vSection (ps.map fun p => lenNat p.startSection)
      vCount := widest l.vCount (ps.map fun p => lenNat p.sectionCount)
      vDim := widest l.vDim (ps.map fun p => lenNat p.dimX + lenNat p.dimY + 1)
      vOv := widest l.vOv (ps.map fun p => lenNat p.ovX + lenNat p.ovY + 1) } := by
  induction ps generalizing l with
  | nil => rfl
  | cons p ps ih =>
    simp only [List.length_cons] at hc
    have e : u32 (l.pages + 1) = l.pages + 1 := Nat.mod_eq_of_lt (by omega)
    rw [locPages, strlenR_ok _ (h p (List.mem_cons_self ..)), Res.ok_bind,
      ih _ (fun x hx => h x (List.mem_cons_of_mem _ hx)) (by simp only [e]; omega)]
    simp only [List.map_cons, widest_cons, digitsCount_eq, uDigits_eq, List.length_cons, e]
    rw [show l.pages + 1 + ps.length = l.pages + (ps.length + 1) by omega]

theorem allPages_cons (f : File) (fs : List File) :
    allPages (f :: fs) = (previewPages f).map (fun p => (f, p)) ++ allPages fs := rfl

theorem locLoop_ok (l : LocLens) (fs : List File) (h : ∀ f ∈ fs, Present f.checksum)
    (hp : ∀ x ∈ allPages fs, Present x.2.layoutId) (hc : l.pages + (allPages fs).length < two32) :
    locLoop l fs = .ok ⟨widest l.id (fs.map fun f => lenInt f.id),
      widest l.startFrame (fs.map fun f => lenInt f.startFrame),
      widest l.startByte (fs.map fun f => lenInt f.startByte),
      widest l.endFrame (fs.map fun f => lenInt f.endFrame),
      widest l.endByte (fs.map fun f => lenInt f.endByte),
      widest l.size (fs.map fun f => lenSize f.size),
      widest l.checksum (fs.map fun f => (textOf f.checksum).length),
      widest l.vId ((allPages fs).map fun x => lenInt x.1.id),
      widest l.vLayout ((allPages fs).map fun x => (textOf x.2.layoutId).length),
      widest l.vFrame ((allPages fs).map fun x => lenNat x.2.startFrame),
      widest l.vSection ((allPages fs).map fun x => lenNat x.2.startSection),
      widest l.vCount ((allPages fs).map fun x => lenNat x.2.sectionCount),
      widest l.vDim ((allPages fs).map fun x => lenNat x.2.dimX + lenNat x.2.dimY + 1),
      widest l.vOv ((allPages fs).map fun x => lenNat x.2.ovX + lenNat x.2.ovY + 1),
      l.pages + (allPages fs).length⟩ := by
  induction fs generalizing l with
  | nil => rfl
  | cons f fs ih =>
    have hf := h f (List.mem_cons_self ..)
    rw [allPages_cons] at hp hc
    simp only [List.length_append, List.length_map] at hc
    have hpf : ∀ p ∈ pagesOf f, Present p.layoutId := fun p hx => by
      rw [pagesOf_eq] at hx
      exact hp (f, p) (List.mem_append_left _ (List.mem_map_of_mem hx))
    rw [locLoop, strlenR_ok _ hf, Res.ok_bind,
      locPages_ok _ _ _ hpf (by rw [pagesOf_eq]; dsimp only; omega), Res.ok_bind, pagesOf_eq]
    rw [ih _ (fun x hx => h x (List.mem_cons_of_mem _ hx)) (fun x hx => hp x (List.mem_append_right _ hx))
      (by dsimp only; omega)]
    simp only [allPages_cons, List.map_cons, List.map_append, List.map_map, widest_cons, widest_append,
      digitsCount_eq, digits64_eq, List.length_append, List.length_map, Function.comp_def, Nat.add_assoc]

theorem pair_length (k a b : Nat) (h : PairFits k a b) :
    (zeroNat (k + 1) a ++ b! "x" ++ zeroNat (k + 1) b).length ≤ max (2 * (k + 1) + 1) (lenNat a + lenNat b + 1) := by
  simp only [List.length_append, zeroNat_length, List.length_cons, List.length_nil]
  rcases h with ⟨h1, h2⟩ | ⟨h1, h2⟩
  · have := lenNat_le (k + 1) a (by omega) h1
    have := lenNat_le (k + 1) b (by omega) h2
    omega
  · have := le_lenNat k a h1
    have := le_lenNat k b h2
    omega

theorem visualList_eq (fs : List File) : visualList fs = visualPages fs := by
  unfold visualList visualPages
  induction fs with
  | nil => rfl
  | cons f fs ih =>
    rw [List.flatMap_cons, allPages_cons, List.filter_append, ih, pagesOf_eq]
    congr 1
    by_cases h : f.isPreview = true ∧ f.isParent = false
    · rw [if_pos h, List.filter_eq_self.mpr]
      intro x hx
      obtain ⟨p, _, rfl⟩ := List.mem_map.mp hx
      simp [h.1, h.2]
    · rw [if_neg h, eq_comm, List.filter_eq_nil_iff]
      intro x hx
      obtain ⟨p, _, rfl⟩ := List.mem_map.mp hx
      simp only [Bool.and_eq_true, Bool.not_eq_true']
      exact h

theorem digitalRow_ok (l : LocLens) (fs : List File) (f : File) (hf : f ∈ fs) (hc : Present f.checksum)
    (e1 : l.id = (digitalWidths fs).id) (e2 : l.startFrame = (digitalWidths fs).startFrame)
    (e3 : l.startByte = (digitalWidths fs).startByte) (e4 : l.endFrame = (digitalWidths fs).endFrame)
    (e5 : l.endByte = (digitalWidths fs).endByte) (e6 : l.size = (digitalWidths fs).size) :
    digitalRow l f = .ok (digitalLine (digitalWidths fs) f) ∧
    (digitalLine (digitalWidths fs) f).length ≤ digitalLineWidth fs := by
  constructor
  · unfold digitalRow
    rw [strR_ok _ hc, Res.ok_bind, e1, e2, e3, e4, e5, e6]
    simp [digitalLine, line, fmtD0_eq]
  · have a1 : lenInt f.id ≤ (digitalWidths fs).id := le_widest_map 1 (fun f : File => lenInt f.id) fs f hf
    have a2 : lenInt f.startFrame ≤ (digitalWidths fs).startFrame :=
      le_widest_map 3 (fun f : File => lenInt f.startFrame) fs f hf
    have a3 : lenInt f.startByte ≤ (digitalWidths fs).startByte :=
      le_widest_map 7 (fun f : File => lenInt f.startByte) fs f hf
    have a4 : lenInt f.endFrame ≤ (digitalWidths fs).endFrame :=
      le_widest_map 3 (fun f : File => lenInt f.endFrame) fs f hf
    have a5 : lenInt f.endByte ≤ (digitalWidths fs).endByte :=
      le_widest_map 7 (fun f : File => lenInt f.endByte) fs f hf
    have a6 : lenSize f.size ≤ (digitalWidths fs).size := le_widest_map 12 (fun f : File => lenSize f.size) fs f hf
    have a6' := lenInt_le_lenSize f.size
    have a7 := le_widest_map 40 (fun f : File => (textOf f.checksum).length) fs f hf
    simp only [digitalLine, line, List.length_append, List.length_cons, List.length_nil, zeroInt_length]
    unfold digitalLineWidth
    omega

theorem visualRow_ok (l : LocLens) (fs : List File) (x : File × Page) (hx : x ∈ allPages fs) (hr : PageRowOk x.2)
    (hl : (visualWidths fs).layout < 255)
    (e1 : l.vId = (visualWidths fs).id) (e2 : l.vLayout = (visualWidths fs).layout)
    (e3 : l.vFrame = (visualWidths fs).frame) (e4 : l.vSection = (visualWidths fs).sect)
    (e5 : l.vCount = (visualWidths fs).count) :
    visualRow l x = .ok (visualLine (visualWidths fs) x) ∧
    (visualLine (visualWidths fs) x).length ≤ visualLineWidth fs := by
  have a1 : lenInt x.1.id ≤ (visualWidths fs).id := le_widest_map 1 (fun x : File × Page => lenInt x.1.id) _ x hx
  have a2 : (textOf x.2.layoutId).length ≤ (visualWidths fs).layout :=
    le_widest_map 1 (fun x : File × Page => (textOf x.2.layoutId).length) _ x hx
  have a3 : lenNat x.2.startFrame ≤ (visualWidths fs).frame :=
    le_widest_map 3 (fun x : File × Page => lenNat x.2.startFrame) _ x hx
  have a4 : lenNat x.2.startSection ≤ (visualWidths fs).sect :=
    le_widest_map 1 (fun x : File × Page => lenNat x.2.startSection) _ x hx
  have a5 : lenNat x.2.sectionCount ≤ (visualWidths fs).count :=
    le_widest_map 3 (fun x : File × Page => lenNat x.2.sectionCount) _ x hx
  have a6 := le_widest_map 11 (fun x : File × Page => lenNat x.2.dimX + lenNat x.2.dimY + 1) _ x hx
  have a6' := base_le_widest 11 ((allPages fs).map fun x => lenNat x.2.dimX + lenNat x.2.dimY + 1)
  have a7 := le_widest_map 5 (fun x : File × Page => lenNat x.2.ovX + lenNat x.2.ovY + 1) _ x hx
  have a7' := base_le_widest 5 ((allPages fs).map fun x => lenNat x.2.ovX + lenNat x.2.ovY + 1)
  have d := pair_length 4 _ _ hr.dim
  have o := pair_length 1 _ _ hr.ov
  have u1 := lenNat_le 10 x.2.dimX (by omega) (by have := hr.dimU; omega)
  have u2 := lenNat_le 10 x.2.dimY (by omega) (by have := hr.dimU; omega)
  have u3 := lenNat_le 10 x.2.ovX (by omega) (by have := hr.ovU; omega)
  have u4 := lenNat_le 10 x.2.ovY (by omega) (by have := hr.ovU; omega)
  constructor
  · unfold visualRow layoutStr
    have z : ∀ w : Nat, 0 < w → fmtD0 w 0 = List.replicate w 48 := by
      intro w hw
      obtain ⟨k, rfl⟩ : ∃ k, w = k + 1 := ⟨w - 1, by omega⟩
      rw [fmtD0_eq, zeroInt, if_neg (by omega), zeroNat, List.replicate_succ']
      have : lenNat 0 = 1 := by decide
      simp [this]
      rfl
    have hlay : (strR x.2.layoutId >>= fun s => if l.vLayout > s.length then tmpStr 255 (fmtD0 (l.vLayout - s.length) 0 ++ s) else tmpStr 255 s)
        = .ok (List.replicate ((visualWidths fs).layout - (textOf x.2.layoutId).length) 48 ++ textOf x.2.layoutId) := by
      rw [strR_ok _ hr.layout, Res.ok_bind, e2]
      by_cases hh : (visualWidths fs).layout > (textOf x.2.layoutId).length
      · rw [if_pos hh, z _ (by omega), tmpStr_ok _ _ (by simp; omega)]
      · rw [if_neg hh, tmpStr_ok _ _ (by omega), show (visualWidths fs).layout - (textOf x.2.layoutId).length = 0 by omega]
        rfl
    have hdim : tmpStr 255 (fmtU0 5 x.2.dimX ++ b! "x" ++ fmtU0 5 x.2.dimY) =
        .ok (zeroNat 5 x.2.dimX ++ b! "x" ++ zeroNat 5 x.2.dimY) :=
      tmpStr_ok _ _ (Nat.lt_of_le_of_lt d (by omega))
    have hov : tmpStr 255 (fmtU0 2 x.2.ovX ++ b! "x" ++ fmtU0 2 x.2.ovY) =
        .ok (zeroNat 2 x.2.ovX ++ b! "x" ++ zeroNat 2 x.2.ovY) :=
      tmpStr_ok _ _ (Nat.lt_of_le_of_lt o (by omega))
    rw [hlay, Res.ok_bind, hdim, Res.ok_bind, hov, Res.ok_bind, e1, e3, e4, e5]
    simp [visualLine, line, fmtD0_eq, fmtU0_eq]
  · simp only [visualLine, line]
    simp only [List.length_append, List.length_cons, List.length_nil, zeroInt_length, zeroNat_length, List.length_replicate] at d o ⊢
    unfold visualLineWidth
    clear u1 u2 u3 u4 e1 e2 e3 e4 e5 hr
    generalize (visualWidths fs).id = w1 at *
    generalize (visualWidths fs).layout = w2 at *
    generalize (visualWidths fs).frame = w3 at *
    generalize (visualWidths fs).sect = w4 at *
    generalize (visualWidths fs).count = w5 at *
    generalize widest 11 _ = w6 at *
    generalize widest 5 _ = w7 at *
    have g1 : max w1 (lenInt x.1.id) = w1 := by omega
    have g2 : w2 - (textOf x.2.layoutId).length + (textOf x.2.layoutId).length = w2 := by omega
    have g3 : max w3 (lenNat x.2.startFrame) = w3 := by omega
    have g4 : max w4 (lenNat x.2.startSection) = w4 := by omega
    have g5 : max w5 (lenNat x.2.sectionCount) = w5 := by omega
    rw [g1, g2, g3, g4, g5]
    clear g1 g2 g3 g4 g5 a1 a2 a3 a4 a5
    omega

/-- The location table. -/
theorem saveAsLocationTable_ok (fs : List File) (h : ∀ f ∈ fs, Present f.checksum)
    (hp : ∀ x ∈ allPages fs, PageRowOk x.2) (hl : (visualWidths fs).layout < 255)
    (hc : (allPages fs).length < 4294967296) (hd : digitalLineWidth fs ≤ 4294967296)
    (hv : visualLineWidth fs ≤ 4294967296) :
    saveAsLocationTable (some ⟨some fs⟩) = .ok (some (locationTable fs)) := by
  unfold saveAsLocationTable
  dsimp only
  rw [locLoop_ok locInit fs h (fun x hx => (hp x hx).layout) (by unfold two32; show 0 + _ < _; omega), Res.ok_bind]
  generalize hlg : LocLens.mk _ _ _ _ _ _ _ _ _ _ _ _ _ _ _ = l
  have e1 : l.id = (digitalWidths fs).id := by rw [← hlg]; rfl
  have e2 : l.startFrame = (digitalWidths fs).startFrame := by rw [← hlg]; rfl
  have e3 : l.startByte = (digitalWidths fs).startByte := by rw [← hlg]; rfl
  have e4 : l.endFrame = (digitalWidths fs).endFrame := by rw [← hlg]; rfl
  have e5 : l.endByte = (digitalWidths fs).endByte := by rw [← hlg]; rfl
  have e6 : l.size = (digitalWidths fs).size := by rw [← hlg]; rfl
  have e7 : l.checksum = widest 40 (fs.map fun f => (textOf f.checksum).length) := by rw [← hlg]; rfl
  have f1 : l.vId = (visualWidths fs).id := by rw [← hlg]; rfl
  have f2 : l.vLayout = (visualWidths fs).layout := by rw [← hlg]; rfl
  have f3 : l.vFrame = (visualWidths fs).frame := by rw [← hlg]; rfl
  have f4 : l.vSection = (visualWidths fs).sect := by rw [← hlg]; rfl
  have f5 : l.vCount = (visualWidths fs).count := by rw [← hlg]; rfl
  have f6 : l.vDim = widest 11 ((allPages fs).map fun x => lenNat x.2.dimX + lenNat x.2.dimY + 1) := by rw [← hlg]; rfl
  have f7 : l.vOv = widest 5 ((allPages fs).map fun x => lenNat x.2.ovX + lenNat x.2.ovY + 1) := by rw [← hlg]; rfl
  have f8 : l.pages = (allPages fs).length := by rw [← hlg]; show 0 + _ = _; omega
  clear hlg
  have wd : digitalWidth l = digitalLineWidth fs := by
    unfold digitalWidth u32
    unfold digitalLineWidth at hd ⊢
    rw [e1, e2, e3, e4, e5, e6, e7, Nat.mod_eq_of_lt (by unfold two32; omega)]
  have wv : visualWidth l = visualLineWidth fs := by
    unfold visualWidth u32
    unfold visualLineWidth at hv ⊢
    rw [f1, f2, f3, f4, f5, f6, f7, Nat.mod_eq_of_lt (by unfold two32; omega)]
  unfold locSize
  rw [wd, wv, f8, visualList_eq]
  have hput := fits_putStr (digitalHeader.length + digitalLineWidth fs * fs.length + 1 +
    (visualHeader.length + visualLineWidth fs * (allPages fs).length) + 1)
  generalize hsz : digitalHeader.length + digitalLineWidth fs * fs.length + 1 +
    (visualHeader.length + visualLineWidth fs * (allPages fs).length) + 1 = size at hput ⊢
  have dl : (digitalFiles fs).length ≤ fs.length := List.length_filter_le ..
  have vl : (visualPages fs).length ≤ (allPages fs).length := List.length_filter_le ..
  have dl' := Nat.mul_le_mul_left (digitalLineWidth fs) dl
  have vl' := Nat.mul_le_mul_left (visualLineWidth fs) vl
  have drow : ∀ f ∈ digitalFiles fs, digitalRow l f = .ok (digitalLine (digitalWidths fs) f) ∧
      (digitalLine (digitalWidths fs) f).length ≤ digitalLineWidth fs := fun f hf => by
    have hm : f ∈ fs := (List.mem_filter.mp hf).1
    exact digitalRow_ok l fs f hm (h f hm) e1 e2 e3 e4 e5 e6
  have vrow : ∀ x ∈ visualPages fs, visualRow l x = .ok (visualLine (visualWidths fs) x) ∧
      (visualLine (visualWidths fs) x).length ≤ visualLineWidth fs := fun x hx => by
    have hm : x ∈ allPages fs := (List.mem_filter.mp hx).1
    exact visualRow_ok l fs x hm (hp x hm) hl f1 f2 f3 f4 f5
  have dd := flatMap_length_le (digitalLine (digitalWidths fs)) _ _ (fun f hf => (drow f hf).2)
  have hdf : [digitalHeader].flatten = digitalHeader := by simp
  have hvf : [visualHeader].flatten = visualHeader := by simp
  rw [show fs.filter File.isDigital = digitalFiles fs from rfl,
    putRowsH_ok _ _ hput [digitalHeader] (digitalRow l) (digitalLine (digitalWidths fs)) _ _ _ drow
      (by rw [hdf]; simp only [List.length_nil]; omega), Res.ok_bind]
  dsimp only
  have second : ∀ out : Bytes, out.length ≤ digitalHeader.length + digitalLineWidth fs * fs.length + 1 →
      putRowsH (putStr size) [visualHeader] (visualRow l) false out (visualPages fs) =
        .ok (!(visualPages fs).isEmpty, out ++ part visualHeader ((visualPages fs).map (visualLine (visualWidths fs))) []) := by
    intro out ho
    have := putRowsH_ok _ _ hput [visualHeader] (visualRow l) (visualLine (visualWidths fs)) _ _ out vrow
      (by rw [hvf]; omega)
    rw [hvf] at this
    exact this
  rw [hdf]
  have hfinal : locationTable fs =
      part digitalHeader ((digitalFiles fs).map (digitalLine (digitalWidths fs))) [10] ++
      part visualHeader ((visualPages fs).map (visualLine (visualWidths fs))) [] := by
    rw [locationTable, digitalHeader, visualHeader]
  rw [hfinal]
  by_cases he : digitalFiles fs = []
  · simp only [he, List.isEmpty_nil, Bool.not_true, Bool.false_eq_true, if_false, Res.ok_bind, List.map_nil, List.nil_append]
    rw [second _ (by simp [part])]
    simp [part]
  · have hne : (digitalFiles fs).isEmpty = false := by simpa using he
    simp only [hne, Bool.not_false, if_true, List.nil_append]
    have hlen : (part digitalHeader ((digitalFiles fs).map (digitalLine (digitalWidths fs))) []).length ≤
        digitalHeader.length + digitalLineWidth fs * fs.length := by
      unfold part
      split
      · simp
      · rw [← List.flatMap_def, List.length_append, List.length_append, List.length_nil]
        omega
    rw [hput _ _ (by simp only [List.length_cons, List.length_nil]; omega), Res.ok_bind,
      second _ (by rw [List.length_append]; simp only [List.length_cons, List.length_nil]; omega)]
    simp [part, he]

end Files
end Afs
