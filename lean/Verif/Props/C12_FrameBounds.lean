import Verif.Spec.Frames
import Verif.Props.C11_Offsets
/-!
# C12: first frame, last frame and frame count
-/
namespace Afs
open Spec

/-- Digital / previewed file (bits of the `types` mask). -/
def Spec.digital (f : File) : Bool := f.types.testBit 0
def Spec.previewed (f : File) : Bool := f.types.testBit 1

/-- Files stored in frame order. -/
def Spec.InFrameOrder (l : List File) : Prop :=
  l.Pairwise fun f g => f.startFrame ≤ g.startFrame ∧ f.endFrame ≤ g.endFrame

theorem intOfU_lt {n : Nat} (h : n < 2147483648) : intOfU n = n := by
  have e : n % two32 = n := Nat.mod_eq_of_lt (by unfold two32; omega)
  unfold intOfU; rw [e, if_pos h]

theorem isDigital_eq (f : File) : f.isDigital = digital f := by
  unfold File.isDigital digital TYPE_DIGITAL
  rw [Bool.eq_iff_iff]; simp

theorem isPreview_eq (f : File) : f.isPreview = previewed f := by
  unfold File.isPreview previewed TYPE_PREVIEW
  rw [Bool.eq_iff_iff]; simpa using and_two_ne f.types

theorem firstLoop_digital (l : List File) :
    Files.firstLoop TYPE_DIGITAL l = ((l.filter digital).head?.map File.startFrame).getD (-1) := by
  induction l with
  | nil => rfl
  | cons f fs ih =>
    unfold Files.firstLoop
    rw [List.filter_cons, ← isDigital_eq]
    cases h : f.isDigital
    · simp [TYPE_DIGITAL, TYPE_PREVIEW] at ih ⊢; exact ih
    · simp [TYPE_DIGITAL]

theorem firstLoop_preview (l : List File) :
    Files.firstLoop TYPE_PREVIEW l =
      ((l.filter previewed).head?.map fun f => Preview.startFrame f.preview).getD (-1) := by
  induction l with
  | nil => rfl
  | cons f fs ih =>
    unfold Files.firstLoop
    rw [List.filter_cons, ← isPreview_eq]
    cases h : f.isPreview
    · simp [TYPE_DIGITAL, TYPE_PREVIEW] at ih ⊢; exact ih
    · simp [TYPE_DIGITAL, TYPE_PREVIEW]

theorem lastLoop_digital (defs : Option LayoutDefs) (l : List File) :
    Files.lastLoop TYPE_DIGITAL defs l =
      .ok (((l.filter digital).head?.map File.endFrame).getD (-1)) := by
  induction l with
  | nil => rfl
  | cons f fs ih =>
    unfold Files.lastLoop
    rw [List.filter_cons, ← isDigital_eq]
    cases h : f.isDigital
    · simp [TYPE_DIGITAL, TYPE_PREVIEW] at ih ⊢; exact ih
    · simp [TYPE_DIGITAL]

theorem files_first_digital (f : Files) :
    Files.firstFrame (some f) TYPE_DIGITAL =
      (((f.tocs.getD []).filter digital).head?.map File.startFrame).getD (-1) := by
  have : Files.firstFrame (some f) TYPE_DIGITAL =
      if f.list.length = 0 then -1 else Files.firstLoop TYPE_DIGITAL f.list := rfl
  rw [this, firstLoop_digital]
  unfold Files.list
  cases h : f.tocs.getD [] <;> simp

theorem files_last_digital (f : Files) (defs : Option LayoutDefs) :
    Files.lastFrame (some f) TYPE_DIGITAL defs =
      .ok ((((f.tocs.getD []).filter digital).getLast?.map File.endFrame).getD (-1)) := by
  have : Files.lastFrame (some f) TYPE_DIGITAL defs =
      if f.list.length = 0 then .ok (-1) else Files.lastLoop TYPE_DIGITAL defs f.list.reverse := rfl
  rw [this, lastLoop_digital, List.filter_reverse, List.head?_reverse]
  unfold Files.list
  cases h : f.tocs.getD [] <;> simp

/-- Exact answers for the digital section: the first digital file's start, the last digital
    file's end, in storage order; -1 when there is none. -/
theorem C12_digital_exact (r : Reel) :
    Reel.firstFrame (some r) SECTION_DIGITAL =
      (((reelFiles r).filter digital).head?.map File.startFrame).getD (-1) ∧
    Reel.lastFrame (some r) SECTION_DIGITAL =
      .ok ((((reelFiles r).filter digital).getLast?.map File.endFrame).getD (-1)) := by
  have e : sectionToType SECTION_DIGITAL = TYPE_DIGITAL := by decide
  unfold Reel.firstFrame Reel.lastFrame reelFiles
  simp only [e]
  cases hf : r.files with
  | none => exact ⟨rfl, rfl⟩
  | some f =>
    have h1 : TYPE_DIGITAL ≠ 0 := by decide
    simp only [h1, ne_eq, not_false_eq_true, if_true]
    exact ⟨files_first_digital f, files_last_digital f none⟩

theorem inOrder_bounds {l : List File} (ho : InFrameOrder l) {f g : File}
    (hf : l.head? = some f) (hg : l.getLast? = some g) :
    ∀ x ∈ l, f.startFrame ≤ x.startFrame ∧ x.endFrame ≤ g.endFrame := by
  intro x hx
  constructor
  · cases l with
    | nil => simp at hf
    | cons y ys =>
      simp at hf; subst hf
      rcases List.mem_cons.mp hx with rfl | hx
      · omega
      · exact ((List.pairwise_cons.mp ho).1 x hx).1
  · obtain ⟨ys, rfl⟩ := List.getLast?_eq_some_iff.mp hg
    rcases List.mem_append.mp hx with hx | hx
    · exact ((List.pairwise_append.mp ho).2.2 x hx g (by simp)).2
    · simp at hx; subst hx; omega

/-- For a reel of valid files whose digital files are stored in frame order: first and last frame are
    the least and greatest occupied frames, and frame count is last - first + 1. -/
theorem C12_digital_bounds (r : Reel)
    (hv : ∀ f ∈ reelFiles r, f.isValid = true) (hi : ∀ f ∈ reelFiles r, f.endFrame ≤ INT_MAX)
    (ho : InFrameOrder ((reelFiles r).filter digital))
    (hne : (reelFiles r).filter digital ≠ []) :
    ∃ lo hi : Nat, Reel.firstFrame (some r) SECTION_DIGITAL = lo ∧
      Reel.lastFrame (some r) SECTION_DIGITAL = .ok hi ∧ lo ≤ hi ∧
      Occupied ((reelFiles r).filter digital) lo ∧ Occupied ((reelFiles r).filter digital) hi ∧
      (∀ n, Occupied ((reelFiles r).filter digital) n → lo ≤ n ∧ n ≤ hi) ∧
      ((hi : Int) - lo < INT_MAX → Reel.frameCount (some r) SECTION_DIGITAL = .ok (hi - lo + 1)) := by
  obtain ⟨h1, h2⟩ := C12_digital_exact r
  have valid_dig : ∀ f ∈ (reelFiles r).filter digital, 0 ≤ f.startFrame ∧ f.startFrame ≤ f.endFrame ∧
      f.endFrame ≤ INT_MAX := by
    intro f hf
    obtain ⟨hm, hd⟩ := List.mem_filter.mp hf
    have := hv f hm
    rw [← isDigital_eq] at hd
    unfold File.isValid at this
    by_cases hc : f.isDigital = true ∧
      (f.startFrame < 0 ∨ f.startByte < 0 ∨ f.endFrame < f.startFrame ∨ f.checksum = none ∨
       (f.endFrame = f.startFrame ∧ f.endByte < f.startByte))
    · rw [if_pos hc] at this
      simp at this
    · have : ¬ (f.startFrame < 0 ∨ f.startByte < 0 ∨ f.endFrame < f.startFrame ∨ f.checksum = none ∨
       (f.endFrame = f.startFrame ∧ f.endByte < f.startByte)) := fun h => hc ⟨hd, h⟩
      have h0 := hi f hm
      omega
  generalize hl : (reelFiles r).filter digital = l at *
  cases hh : l.head? with
  | none => exact absurd (List.head?_eq_none_iff.mp hh) hne
  | some f =>
    cases hg : l.getLast? with
    | none => exact absurd (List.getLast?_eq_none_iff.mp hg) hne
    | some g =>
      rw [hh] at h1; rw [hg] at h2
      simp only [Option.map_some, Option.getD_some] at h1 h2
      have hfm : f ∈ l := List.mem_of_mem_head? hh
      have hgm : g ∈ l := List.mem_of_getLast? hg
      have vf := valid_dig f hfm
      have vg := valid_dig g hgm
      have hb := inOrder_bounds ho hh hg
      have hfg := hb f hfm
      have hbg := hb g hgm
      refine ⟨f.startFrame.toNat, g.endFrame.toNat, by rw [h1]; omega, ?_, by omega, ?_, ?_, ?_, ?_⟩
      · rw [h2]; congr 1; omega
      · exact ⟨f, hfm, by omega, by omega⟩
      · exact ⟨g, hgm, by omega, by omega⟩
      · rintro n ⟨x, hx, hx1, hx2⟩
        have := hb x hx
        omega
      · intro hlt
        unfold Reel.frameCount
        simp only [h1, h2, Res.ok_bind]
        rw [if_neg (by omega)]
        have hle : g.endFrame - f.startFrame + 1 ≤ INT_MAX := by omega
        have hge : INT_MIN ≤ g.endFrame - f.startFrame + 1 := by unfold INT_MIN; omega
        simp only [ckInt, hle, hge, and_self, if_true, Res.ok_bind, Res.pure_eq]
        congr 1
        unfold uOfInt two32 INT_MAX at *
        omega

/-- No digital file: -1, -1 and 0 frames. -/
theorem C12_digital_none (r : Reel) (h : (reelFiles r).filter digital = []) :
    Reel.firstFrame (some r) SECTION_DIGITAL = -1 ∧ Reel.lastFrame (some r) SECTION_DIGITAL = .ok (-1) ∧
    Reel.frameCount (some r) SECTION_DIGITAL = .ok 0 := by
  obtain ⟨h1, h2⟩ := C12_digital_exact r
  rw [h] at h1 h2
  have h1' : Reel.firstFrame (some r) SECTION_DIGITAL = -1 := h1
  have h2' : Reel.lastFrame (some r) SECTION_DIGITAL = .ok (-1) := h2
  refine ⟨h1', h2', ?_⟩
  unfold Reel.frameCount
  simp [h1', h2']

/-- NULL reel. -/
theorem C12_null (s : Nat) : Reel.firstFrame none s = -1 ∧ Reel.lastFrame none s = .ok (-1) ∧
    Reel.frameCount none s = .ok 0 := ⟨rfl, rfl, rfl⟩

/-- Without frame order the answer is not the bound of the occupied frames. -/
theorem C12_storage_order_matters :
    let r : Reel := ⟨some (b! "r"), some ⟨some [okFile 10 20, okFile 1 2]⟩⟩
    Reel.firstFrame (some r) SECTION_DIGITAL = 10 ∧ Reel.lastFrame (some r) SECTION_DIGITAL = .ok 2 ∧
    Reel.frameCount (some r) SECTION_DIGITAL = .ok 0 := by decide

/-- A reel spanning all 2^31 frames overflows `int` in the frame count. -/
theorem C12_full_film_overflows :
    Reel.frameCount (some ⟨some (b! "r"), some ⟨some [okFile 0 2147483647]⟩⟩) SECTION_DIGITAL = .ub := by
  decide

/-! ### The preview section -/

theorem files_first_preview (f : Files) :
    Files.firstFrame (some f) TYPE_PREVIEW =
      (((f.tocs.getD []).filter previewed).head?.map fun x => Preview.startFrame x.preview).getD (-1) := by
  have : Files.firstFrame (some f) TYPE_PREVIEW =
      if f.list.length = 0 then -1 else Files.firstLoop TYPE_PREVIEW f.list := rfl
  rw [this, firstLoop_preview]
  unfold Files.list
  cases h : f.tocs.getD [] <;> simp

/-- First frame of the preview section: the first page of the first previewed file. -/
theorem C12_preview_first (r : Reel) :
    Reel.firstFrame (some r) SECTION_PREVIEW =
      (((reelFiles r).filter previewed).head?.map fun f => Preview.startFrame f.preview).getD (-1) := by
  have e : sectionToType SECTION_PREVIEW = TYPE_PREVIEW := by decide
  unfold Reel.firstFrame reelFiles
  simp only [e]
  cases hf : r.files with
  | none => rfl
  | some f =>
    have h1 : TYPE_PREVIEW ≠ 0 := by decide
    simp only [h1, ne_eq, not_false_eq_true, if_true]
    exact files_first_preview f

/-- The reel functions pass no layout definitions, so the preview section never has a last frame:
    last frame is -1 and frame count 0 for every reel. -/
theorem C12_preview_last_never_known (r : Reel) :
    Reel.lastFrame (some r) SECTION_PREVIEW = .ok (-1) ∧ Reel.frameCount (some r) SECTION_PREVIEW = .ok 0 := by
  have e : sectionToType SECTION_PREVIEW = TYPE_PREVIEW := by decide
  have h : Reel.lastFrame (some r) SECTION_PREVIEW = .ok (-1) := by
    unfold Reel.lastFrame
    simp only [e]
    cases hf : r.files with
    | none => rfl
    | some f =>
      have h1 : TYPE_PREVIEW ≠ 0 := by decide
      simp only [h1, ne_eq, not_false_eq_true, if_true]
      have : Files.lastFrame (some f) TYPE_PREVIEW none =
        if f.list.length = 0 then .ok (-1) else .ok (-1) := rfl
      rw [this, ite_self]
  refine ⟨h, ?_⟩
  unfold Reel.frameCount
  simp [h]

theorem lastLoop_preview (ds : LayoutDefs) (l : List File) :
    Files.lastLoop TYPE_PREVIEW (some ds) l =
      match (l.filter previewed).head? with
      | none => .ok (-1)
      | some f => match f.preview with
        | none => .ub
        | some p => do
          let r ← Preview.framesCount (some p) (some ds)
          return intOfU (uOfInt (Preview.startFrame (some p)) + r.2 + (two32 - 1)) := by
  induction l with
  | nil => rfl
  | cons f fs ih =>
    unfold Files.lastLoop
    rw [List.filter_cons, ← isPreview_eq]
    cases h : f.isPreview
    · simp [TYPE_DIGITAL, TYPE_PREVIEW] at ih ⊢; exact ih
    · simp [TYPE_DIGITAL, TYPE_PREVIEW]
      cases f.preview <;> rfl

/-- With layout definitions given, the last frame of the preview section of a file list is the last
    previewed file's first page frame plus its frame count minus one. -/
theorem C12_files_preview_last (f : Files) (ds : LayoutDefs) (g : File) (p : Preview) (q : Page)
    (qs : List Page) (b : Bool) (n : Nat)
    (hg : ((f.tocs.getD []).filter previewed).getLast? = some g) (hp : g.preview = some p)
    (hq : p.pages = some (q :: qs)) (hc : Preview.framesCount (some p) (some ds) = .ok (b, n))
    (hr : q.startFrame + n ≤ 2147483648) (hpos : 0 < q.startFrame + n) (hs : q.startFrame < 2147483648) :
    Files.lastFrame (some f) TYPE_PREVIEW (some ds) = .ok ((q.startFrame : Int) + n - 1) := by
  have e : Files.lastFrame (some f) TYPE_PREVIEW (some ds) =
      if f.list.length = 0 then .ok (-1) else Files.lastLoop TYPE_PREVIEW (some ds) f.list.reverse := rfl
  have hne : ¬ f.list.length = 0 := by
    intro h
    have : f.tocs.getD [] = [] := List.length_eq_zero_iff.mp h
    rw [this] at hg; simp at hg
  rw [e, if_neg hne, lastLoop_preview, List.filter_reverse, List.head?_reverse]
  have hg' : (f.list.filter previewed).getLast? = some g := hg
  rw [hg']
  simp only [hp, hc, Res.ok_bind, Res.pure_eq]
  have e1 : Preview.startFrame (some p) = (q.startFrame : Int) := by
    simp only [Preview.startFrame, hq]
    exact intOfU_lt hs
  have e2 : uOfInt (q.startFrame : Int) = q.startFrame := by unfold uOfInt two32; omega
  have e3 : intOfU (q.startFrame + n + (two32 - 1)) = intOfU (q.startFrame + n - 1) := by
    have : (q.startFrame + n + (two32 - 1)) % two32 = (q.startFrame + n - 1) % two32 := by
      unfold two32; omega
    unfold intOfU; rw [this]
  have e4 : ((q.startFrame + n - 1 : Nat) : Int) = (q.startFrame : Int) + n - 1 := by omega
  rw [e1, e2, e3, intOfU_lt (by omega), e4]

/-- Without previewed files: -1. -/
theorem C12_files_preview_none (f : Files) (ds : Option LayoutDefs)
    (h : (f.tocs.getD []).filter previewed = []) :
    Files.firstFrame (some f) TYPE_PREVIEW = -1 ∧ Files.lastFrame (some f) TYPE_PREVIEW ds = .ok (-1) := by
  refine ⟨by rw [files_first_preview, h]; rfl, ?_⟩
  cases ds with
  | none =>
    have : Files.lastFrame (some f) TYPE_PREVIEW none =
      if f.list.length = 0 then .ok (-1) else .ok (-1) := rfl
    rw [this, ite_self]
  | some ds =>
    have e : Files.lastFrame (some f) TYPE_PREVIEW (some ds) =
      if f.list.length = 0 then .ok (-1) else Files.lastLoop TYPE_PREVIEW (some ds) f.list.reverse := rfl
    rw [e, lastLoop_preview, List.filter_reverse, List.head?_reverse]
    have h' : f.list.filter previewed = [] := h
    rw [h']; simp

/-- A previewed file without a preview object makes last_frame read an uninitialised variable. -/
theorem C12_missing_preview_is_undefined :
    Files.lastFrame (some ⟨some [{ okFile 1 2 with types := 2 }]⟩) TYPE_PREVIEW (some LayoutDefs.create) = .ub := by
  decide

/-- All sections: the smaller of the two first frames, ignoring an absent one. -/
theorem C12_all_first (f : Files) :
    let d := Files.firstFrame (some f) TYPE_DIGITAL
    let v := Files.firstFrame (some f) TYPE_PREVIEW
    Files.firstFrame (some f) TYPE_ALL =
      if d = -1 then v else if v = -1 then d else min d v := by
  simp only
  have e1 : Files.firstFrame (some f) TYPE_DIGITAL =
      if f.list.length = 0 then -1 else Files.firstLoop TYPE_DIGITAL f.list := rfl
  have e2 : Files.firstFrame (some f) TYPE_PREVIEW =
      if f.list.length = 0 then -1 else Files.firstLoop TYPE_PREVIEW f.list := rfl
  have e3 : Files.firstFrame (some f) TYPE_ALL =
      if f.list.length = 0 then -1 else
        (let d := Files.firstLoop TYPE_DIGITAL f.list
         let v := Files.firstLoop TYPE_PREVIEW f.list
         if d ≠ -1 ∧ v ≠ -1 then min v d else if d ≠ -1 then d else if v ≠ -1 then v else -1) := rfl
  rw [e1, e2, e3]
  generalize Files.firstLoop TYPE_DIGITAL f.list = d
  generalize Files.firstLoop TYPE_PREVIEW f.list = v
  by_cases h0 : f.list.length = 0
  · simp [h0]
  · simp only [h0, if_false]
    by_cases hd : d = -1 <;> by_cases hv : v = -1 <;> simp [hd, hv]
    omega

/-- All sections: the greater of the two last frames. -/
theorem C12_all_last (f : Files) (ds : Option LayoutDefs) (d v : Int)
    (hd : Files.lastFrame (some f) TYPE_DIGITAL ds = .ok d)
    (hv : Files.lastFrame (some f) TYPE_PREVIEW ds = .ok v) :
    Files.lastFrame (some f) TYPE_ALL ds = .ok (max d v) := by
  have e : Files.lastFrame (some f) TYPE_ALL ds =
      if f.list.length = 0 then .ok (-1) else do
        let d ← Files.lastFrame (some f) TYPE_DIGITAL none
        let v ← Files.lastFrame (some f) TYPE_PREVIEW ds
        return max d v := rfl
  have hd' : Files.lastFrame (some f) TYPE_DIGITAL none = .ok d := by
    rw [files_last_digital] at hd ⊢; exact hd
  rw [e, hd', hv]
  by_cases h0 : f.list.length = 0
  · have hl : f.list = [] := List.length_eq_zero_iff.mp h0
    have h1 : f.tocs.getD [] = [] := hl
    rw [files_last_digital, h1] at hd
    have h2 := (C12_files_preview_none f ds (by rw [h1]; rfl)).2
    rw [h2] at hv
    cases hv
    have : (-1 : Int) = d := by injection hd
    subst this
    simp [h0]
  · simp [h0]

/-! ### Whole TOC -/

/-- First and last frame of a TOC are those of its first and last reel. -/
theorem C12_toc_first_last (t : TocData) (l : List Reel) (r s : Reel)
    (hl : t.reels = some ⟨some l⟩) (hr : l.head? = some r) (hs : l.getLast? = some s) :
    TocData.firstFrame (some t) = Reel.firstFrame (some r) SECTION_DIGITAL ∧
    TocData.lastFrame (some t) = Reel.lastFrame (some s) SECTION_DIGITAL := by
  unfold TocData.firstFrame TocData.lastFrame
  simp only [hl, Reels.list, Option.getD_some, hs]
  cases l with
  | nil => simp at hr
  | cons x xs => simp at hr; subst hr; exact ⟨rfl, trivial⟩

theorem frameLoop_sum (l : List Reel) (cs : List Nat) (n : Nat) (hlen : cs.length = l.length)
    (h : ∀ i (hi : i < l.length), Reel.frameCount (some l[i]) SECTION_DIGITAL = .ok (cs[i]'(by omega)))
    (hsum : n + cs.sum < 4294967296) :
    TocData.frameLoop l n = .ok (n + cs.sum) := by
  induction l generalizing cs n with
  | nil =>
    have : cs = [] := List.length_eq_zero_iff.mp hlen
    subst this; simp [TocData.frameLoop]
  | cons r rs ih =>
    cases cs with
    | nil => simp at hlen
    | cons c cs =>
      have h0 := h 0 (by simp)
      simp only [List.getElem_cons_zero] at h0
      unfold TocData.frameLoop
      rw [h0, Res.ok_bind]
      simp only [List.sum_cons] at hsum ⊢
      have hu : u32 (n + c) = n + c := by unfold u32 two32; omega
      rw [hu, ih cs (n + c) (by simpa using hlen)
        (fun i hi => by
          have := h (i + 1) (by simpa using hi)
          simp only [List.getElem_cons_succ] at this
          exact this) (by omega)]
      congr 1; omega

/-- The frame count of a TOC is the sum of its reels' frame counts (below 2^32). -/
theorem C12_toc_frame_count (t : TocData) (l : List Reel) (hl : t.reels = some ⟨some l⟩) (cs : List Nat)
    (hlen : cs.length = l.length)
    (h : ∀ i (hi : i < l.length), Reel.frameCount (some l[i]) SECTION_DIGITAL = .ok (cs[i]'(by omega)))
    (hsum : cs.sum < 4294967296) :
    TocData.frameCount (some t) = .ok cs.sum := by
  have : TocData.frameCount (some t) = TocData.frameLoop t.reelList 0 := rfl
  rw [this]
  have e : t.reelList = l := by unfold TocData.reelList; rw [hl]; rfl
  rw [e, frameLoop_sum l cs 0 hlen h (by omega)]
  simp

/-- The file count of a TOC is the number of files in all its reels (below 2^32); without reels it
    is 0. -/
theorem C12_toc_file_count (t : TocData) (h : (allFiles t).length < 4294967296) :
    TocData.fileCount (some t) = (allFiles t).length ∧ TocData.fileCount none = 0 := by
  have e : t.reelList = (t.reels.bind Reels.reels).getD [] := by
    unfold TocData.reelList
    cases t.reels <;> rfl
  have e2 : (t.reelList.map fun r => Reel.fileCount (some r)).sum = (allFiles t).length := by
    rw [e, allFiles, List.length_flatMap]
    congr 1
    apply List.map_congr_left
    intro r _
    obtain ⟨_, f⟩ := r
    cases f <;> rfl
  refine ⟨?_, rfl⟩
  show u32 _ = _
  rw [e2]
  unfold u32 two32
  omega

/-! ### Non-vacuity -/

example :
    let r : Reel := ⟨some (b! "r"), some ⟨some [okFile 3 7, okFile 5 9, okFile 20 21]⟩⟩
    Reel.firstFrame (some r) SECTION_DIGITAL = 3 ∧ Reel.lastFrame (some r) SECTION_DIGITAL = .ok 21 ∧
    Reel.frameCount (some r) SECTION_DIGITAL = .ok 19 ∧
    (∀ f ∈ reelFiles r, f.isValid = true) ∧ (reelFiles r).filter digital ≠ [] := by decide

example : InFrameOrder [okFile 3 7, okFile 5 9, okFile 20 21] := by
  unfold InFrameOrder; decide

/-- The sections of a reel: asking for all of them is asking for the digital and the preview files; the section of file format descriptions holds no files, so
    asking for it, alone or with others, adds nothing. -/
theorem C12_sections (r : Option Reel) (x : Reel) (k s : Nat) :
    (Reel.firstFrame r SECTION_ALL = Reel.firstFrame r (SECTION_DIGITAL ||| SECTION_PREVIEW) ∧
      Reel.lastFrame r SECTION_ALL = Reel.lastFrame r (SECTION_DIGITAL ||| SECTION_PREVIEW) ∧
      Reel.frameCount r SECTION_ALL = Reel.frameCount r (SECTION_DIGITAL ||| SECTION_PREVIEW) ∧
      x.addFrameOffset k SECTION_ALL = x.addFrameOffset k (SECTION_DIGITAL ||| SECTION_PREVIEW)) ∧
    (Reel.firstFrame r (s ||| SECTION_FILE_FORMAT_DESCRIPTIONS) = Reel.firstFrame r s ∧
      Reel.lastFrame r (s ||| SECTION_FILE_FORMAT_DESCRIPTIONS) = Reel.lastFrame r s ∧
      Reel.frameCount r (s ||| SECTION_FILE_FORMAT_DESCRIPTIONS) = Reel.frameCount r s ∧
      x.addFrameOffset k (s ||| SECTION_FILE_FORMAT_DESCRIPTIONS) = x.addFrameOffset k s) ∧
    (Reel.firstFrame r SECTION_FILE_FORMAT_DESCRIPTIONS = -1 ∧ Reel.lastFrame r SECTION_FILE_FORMAT_DESCRIPTIONS = .ok (-1) ∧
      Reel.frameCount r SECTION_FILE_FORMAT_DESCRIPTIONS = .ok 0 ∧ x.addFrameOffset k SECTION_FILE_FORMAT_DESCRIPTIONS = x) := by
  have e : sectionToType (s ||| SECTION_FILE_FORMAT_DESCRIPTIONS) = sectionToType s := by
    have h1 : (s ||| SECTION_FILE_FORMAT_DESCRIPTIONS) &&& SECTION_DIGITAL = s &&& SECTION_DIGITAL := by
      rw [Nat.and_or_distrib_right]
      show _ ||| 0 = _
      rw [Nat.or_zero]
    have h2 : (s ||| SECTION_FILE_FORMAT_DESCRIPTIONS) &&& SECTION_PREVIEW = s &&& SECTION_PREVIEW := by
      rw [Nat.and_or_distrib_right]
      show _ ||| 0 = _
      rw [Nat.or_zero]
    rw [sectionToType, sectionToType, h1, h2]
  have a : sectionToType SECTION_ALL = sectionToType (SECTION_DIGITAL ||| SECTION_PREVIEW) := by decide
  have d : sectionToType SECTION_FILE_FORMAT_DESCRIPTIONS = 0 := by decide
  have first : ∀ u v, sectionToType u = sectionToType v → Reel.firstFrame r u = Reel.firstFrame r v := by
    intro u v h; rw [Reel.firstFrame.eq_def, Reel.firstFrame.eq_def, h]
  have last : ∀ u v, sectionToType u = sectionToType v → Reel.lastFrame r u = Reel.lastFrame r v := by
    intro u v h; rw [Reel.lastFrame.eq_def, Reel.lastFrame.eq_def, h]
  have count : ∀ u v, sectionToType u = sectionToType v → Reel.frameCount r u = Reel.frameCount r v := by
    intro u v h
    cases r with
    | none => rfl
    | some r =>
      rw [Reel.frameCount, Reel.frameCount, Reel.firstFrame, Reel.firstFrame, Reel.lastFrame, Reel.lastFrame, h]
  have off : ∀ u v, sectionToType u = sectionToType v → x.addFrameOffset k u = x.addFrameOffset k v := by
    intro u v h; rw [Reel.addFrameOffset, Reel.addFrameOffset, h]
  refine ⟨⟨first _ _ a, last _ _ a, count _ _ a, off _ _ a⟩, ⟨first _ _ e, last _ _ e, count _ _ e, off _ _ e⟩, ?_, ?_, ?_, ?_⟩
  · rcases r with _ | ⟨i, _ | f⟩
    · rfl
    · rfl
    · rfl
  · rcases r with _ | ⟨i, _ | f⟩
    · rfl
    · rfl
    · rfl
  · rcases r with _ | ⟨i, _ | f⟩ <;> rfl
  · rcases x with ⟨i, _ | ⟨_ | l⟩⟩ <;> rfl

end Afs
