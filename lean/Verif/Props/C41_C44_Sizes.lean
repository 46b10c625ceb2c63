import Verif.Props.C13_Pages
import Verif.Props.C03_C05_CloneEqual
import Verif.Props.C07_C08_Layouts
/-!
# C41 content sizes of sections, C42 frames of a preview, C43 durations, C44 file kinds
-/
namespace Afs
open Spec

/-! ### C41 -/

/-- The content of a section turned by a right angle has width and height exchanged; unturned or
    upside down it has the section's own size. -/
theorem C41_content_size (s : Section) (h : s.isValid = true) :
    ((s.rotation = 0 ∨ s.rotation = 180) → s.contentWidth = s.width ∧ s.contentHeight = s.height) ∧
    ((s.rotation = 90 ∨ s.rotation = 270) → s.contentWidth = s.height ∧ s.contentHeight = s.width) ∧
    s.contentWidth * s.contentHeight = s.width * s.height ∧ 0 < s.contentWidth ∧ 0 < s.contentHeight := by
  have hr : s.rotation = 0 ∨ s.rotation = 90 ∨ s.rotation = 180 ∨ s.rotation = 270 := by
    unfold Section.isValid at h
    split at h
    · simp at h
    · omega
  have hwh : 0 < s.width ∧ 0 < s.height := by
    unfold Section.isValid at h
    split at h
    · simp at h
    · split at h
      · simp at h
      · omega
  unfold Section.contentWidth Section.contentHeight
  rcases hr with e | e | e | e <;> rw [e] <;> simp [Nat.mul_comm, hwh]

/-- Angles that are no multiple of a right angle have no content. -/
theorem C41_skew_is_empty (s : Section) (h : ¬ 90 ∣ s.rotation) :
    s.contentWidth = 0 ∧ s.contentHeight = 0 := by
  have : s.rotation % 90 ≠ 0 := fun e => h (Nat.dvd_of_mod_eq_zero e)
  unfold Section.contentWidth Section.contentHeight
  simp [this]

/-- The sections of a layout are reported equally large exactly when any two of them have the
    same width and the same height. -/
theorem C41_section_size_equal (d : LayoutDef) :
    d.isSectionSizeEqual = true ↔
      ∀ s ∈ d.sectionList, ∀ t ∈ d.sectionList, s.width = t.width ∧ s.height = t.height := by
  unfold LayoutDef.isSectionSizeEqual
  generalize d.sectionList = l
  cases l with
  | nil => simp
  | cons f rest =>
    simp only [List.all_eq_true, Bool.and_eq_true, beq_iff_eq]
    constructor
    · intro h
      have hf : ∀ s ∈ f :: rest, f.width = s.width ∧ f.height = s.height := by
        intro s hs
        rcases List.mem_cons.mp hs with rfl | hs
        · exact ⟨rfl, rfl⟩
        · exact h s hs
      intro s hs t ht
      have a := hf s hs
      have b := hf t ht
      omega
    · intro h s hs
      exact h f (by simp) s (by simp [hs])

example : (⟨1, 0, 0, 30, 20, 90⟩ : Section).isValid = true ∧
    (⟨1, 0, 0, 30, 20, 90⟩ : Section).contentWidth = 20 := by decide
example : LayoutDef.isSectionSizeEqual ⟨none, none, some ⟨some [⟨1, 0, 0, 30, 20, 90⟩, ⟨2, 50, 0, 30, 20, 0⟩]⟩⟩ = true ∧
    LayoutDef.isSectionSizeEqual ⟨none, none, some ⟨some [⟨1, 0, 0, 30, 20, 90⟩, ⟨2, 50, 0, 20, 30, 0⟩]⟩⟩ = false := by
  decide

/-! ### C42 -/

/-- Frame `k` is used by one of the pages; `n i` is the number of frames of page `i`. -/
def Spec.PageFrames (ps : List (Page × Nat)) (k : Nat) : Prop :=
  ∃ q ∈ ps, q.1.startFrame ≤ k ∧ k < q.1.startFrame + q.2

/-- State of the page loop: the bounds of the frames seen so far. -/
def FramesInv (ps : List (Page × Nat)) (first last : Nat) : Prop :=
  (first = 2147483647 ∧ last = 0 ∧ ∀ k, ¬ PageFrames ps k) ∨
  (first < 2147483647 ∧ PageFrames ps first ∧ PageFrames ps last ∧
    ∀ k, PageFrames ps k → first ≤ k ∧ k ≤ last)

theorem pageFrames_append (ps : List (Page × Nat)) (q : Page × Nat) (k : Nat) :
    PageFrames (ps ++ [q]) k ↔ PageFrames ps k ∨ (q.1.startFrame ≤ k ∧ k < q.1.startFrame + q.2) := by
  unfold PageFrames
  constructor
  · rintro ⟨x, hx, h⟩
    rcases List.mem_append.mp hx with hx | hx
    · exact .inl ⟨x, hx, h⟩
    · simp at hx; subst hx; exact .inr h
  · rintro (⟨x, hx, h⟩ | h)
    · exact ⟨x, by simp [hx], h⟩
    · exact ⟨q, by simp, h⟩

theorem framesLoop_spec (ds : LayoutDefs) :
    ∀ (qs : List (Page × Nat)) (done : List (Page × Nat)) (first last : Nat),
    (∀ q ∈ qs, Page.framesCount (some q.1) (some ds) = .ok (true, q.2)) →
    (∀ q ∈ qs, q.1.startFrame + q.2 < 2147483648) →
    (∀ q ∈ qs, q.1.startFrame < 2147483647) →
    FramesInv done first last →
    ∃ f l, Preview.framesLoop ds (qs.map Prod.fst) first last = .ok (some (f, l)) ∧
      FramesInv (done ++ qs) f l := by
  intro qs
  induction qs with
  | nil => intro done first last _ _ _ hi; exact ⟨first, last, rfl, by simpa using hi⟩
  | cons q qs ih =>
    intro done first last hc hb hb2 hi
    have h1 := hc q (by simp)
    have h2 := hb q (by simp)
    have h3 := hb2 q (by simp)
    have step : ∀ f l, FramesInv (done ++ [q]) f l →
        ∃ f' l', Preview.framesLoop ds (qs.map Prod.fst) f l = .ok (some (f', l')) ∧
          FramesInv (done ++ q :: qs) f' l' := by
      intro f l hfl
      obtain ⟨f', l', e, hi'⟩ := ih (done ++ [q]) f l (fun x hx => hc x (by simp [hx]))
        (fun x hx => hb x (by simp [hx])) (fun x hx => hb2 x (by simp [hx])) hfl
      exact ⟨f', l', e, by simpa using hi'⟩
    rw [List.map_cons, Preview.framesLoop, h1]
    simp only [Res.ok_bind]
    rw [if_neg (by simp)]
    by_cases hz : q.2 > 0
    · rw [if_pos hz]
      apply step
      have hu : u32 (q.1.startFrame + q.2 + (two32 - 1)) = q.1.startFrame + q.2 - 1 := by
        unfold u32 two32; omega
      rw [hu]
      right
      rcases hi with ⟨rfl, rfl, hnone⟩ | ⟨hlt, hf, hl, hall⟩
      · refine ⟨by omega, ?_, ?_, ?_⟩
        · rw [pageFrames_append]; right; omega
        · rw [pageFrames_append]; right; omega
        · intro k hk
          rw [pageFrames_append] at hk
          rcases hk with hk | hk
          · exact absurd hk (hnone k)
          · omega
      · refine ⟨by omega, ?_, ?_, ?_⟩
        · rw [pageFrames_append]
          by_cases hm : first ≤ q.1.startFrame
          · rw [Nat.min_eq_left hm]; exact .inl hf
          · right; omega
        · rw [pageFrames_append]
          by_cases hm : q.1.startFrame + q.2 - 1 ≤ last
          · rw [Nat.max_eq_left hm]; exact .inl hl
          · right; omega
        · intro k hk
          rw [pageFrames_append] at hk
          rcases hk with hk | hk
          · have := hall k hk; omega
          · omega
    · rw [if_neg hz]
      apply step
      have hq : q.2 = 0 := by omega
      have hiff : ∀ k, PageFrames (done ++ [q]) k ↔ PageFrames done k := by
        intro k; rw [pageFrames_append]
        constructor
        · rintro (h | h)
          · exact h
          · omega
        · exact .inl
      rcases hi with ⟨a, b, hnone⟩ | ⟨hlt, hf, hl, hall⟩
      · exact .inl ⟨a, b, fun k => by rw [hiff]; exact hnone k⟩
      · exact .inr ⟨hlt, (hiff _).mpr hf, (hiff _).mpr hl, fun k hk => hall k ((hiff k).mp hk)⟩

/-- The frames of a preview: the count spans from the first used frame to the last used frame of
    all its pages, whatever order the pages are stored in; it is 0 when no page uses a frame. -/
theorem C42_frames_count (p : Preview) (ds : LayoutDefs) (counts : List Nat)
    (hlen : counts.length = (p.pages.getD []).length)
    (hc : ∀ q ∈ (p.pages.getD []).zip counts, Page.framesCount (some q.1) (some ds) = .ok (true, q.2))
    (hb : ∀ q ∈ (p.pages.getD []).zip counts, q.1.startFrame < 2147483647 ∧ q.1.startFrame + q.2 < 2147483648) :
    ∃ n, Preview.framesCount (some p) (some ds) = .ok (true, n) ∧
      (n = 0 ↔ ∀ k, ¬ PageFrames ((p.pages.getD []).zip counts) k) ∧
      (0 < n → ∃ lo, PageFrames ((p.pages.getD []).zip counts) lo ∧
        PageFrames ((p.pages.getD []).zip counts) (lo + n - 1) ∧
        ∀ k, PageFrames ((p.pages.getD []).zip counts) k → lo ≤ k ∧ k < lo + n) := by
  obtain ⟨f, l, e, hi⟩ := framesLoop_spec ds ((p.pages.getD []).zip counts) [] 2147483647 0 hc
    (fun q hq => (hb q hq).2) (fun q hq => (hb q hq).1) (.inl ⟨rfl, rfl, by rintro k ⟨q, hq, _⟩; simp at hq⟩)
  rw [List.map_fst_zip (by omega)] at e
  simp only [List.nil_append] at hi
  simp only [Preview.framesCount, e, Res.ok_bind]
  rcases hi with ⟨rfl, rfl, hn⟩ | ⟨hlt, hf, hl, hall⟩
  · exact ⟨0, by simp, by simp [hn], by simp⟩
  · have hfl := (hall f hf).2
    have hl2 : l < 2147483648 := by
      obtain ⟨q, hq, h⟩ := hl
      have := (hb q hq).2
      omega
    have hu : u32 (l + (two32 - f) + 1) = l - f + 1 := by unfold u32 two32; omega
    refine ⟨l - f + 1, ?_, ?_, ?_⟩
    · simp [show f ≠ 2147483647 by omega, hu]
    · constructor
      · intro h; omega
      · intro h; exact absurd hf (h f)
    · intro _
      refine ⟨f, hf, ?_, ?_⟩
      · rw [show f + (l - f + 1) - 1 = l by omega]; exact hl
      · intro k hk; have := hall k hk; omega

/-- A page with an unknown layout makes the whole count fail. -/
theorem C42_unknown_layout_fails (p : Preview) (ds : LayoutDefs) (pre : List (Page × Nat)) (q : Page) (post : List Page)
    (hp : p.pages = some (pre.map Prod.fst ++ q :: post))
    (hc : ∀ x ∈ pre, Page.framesCount (some x.1) (some ds) = .ok (true, x.2))
    (hq : Page.framesCount (some q) (some ds) = .ok (false, 0)) :
    Preview.framesCount (some p) (some ds) = .ok (false, 0) := by
  have : ∀ first last, Preview.framesLoop ds (pre.map Prod.fst ++ q :: post) first last = .ok none := by
    clear hp
    induction pre with
    | nil => intro first last; simp [Preview.framesLoop, hq]
    | cons x pre ih =>
      intro first last
      have h1 := hc x (by simp)
      have ih' := ih (fun y hy => hc y (by simp [hy]))
      rw [List.map_cons, List.cons_append, Preview.framesLoop, h1]
      simp only [Res.ok_bind]
      rw [if_neg (by simp)]
      split
      · exact ih' _ _
      · exact ih' _ _
  simp [Preview.framesCount, hp, this]

/-- Non-vacuity: pages on frames 7..9 and 3..4 span 7 frames. -/
example : Preview.framesCount (some ⟨some [{ fivePage with startFrame := 7 },
      { fivePage with startFrame := 3, sectionCount := 2 }], -1⟩) (some twoPerFrame) = .ok (true, 7) ∧
    Page.framesCount (some { fivePage with startFrame := 3, sectionCount := 2 }) (some twoPerFrame) =
      .ok (true, 2) := by decide

/-! ### C43 -/

/-- The duration of a file on film is the number of frames it occupies. -/
theorem C43_file_duration (f : File) (h : OnFilm f) :
    ∃ n : Nat, File.durationFrames (some f) = .ok (n : Int) ∧
      n = ((List.range (f.endFrame.toNat + 1)).filter fun k : Nat => decide (f.startFrame ≤ (k : Int))).length := by
  obtain ⟨h1, h2, h3, h4⟩ := h
  refine ⟨(f.endFrame - f.startFrame + 1).toNat, ?_, ?_⟩
  · simp only [File.durationFrames]
    unfold ckInt
    unfold INT_MAX INT_MIN at *
    rw [if_pos (by omega)]
    simp only [Res.ok_bind]
    rw [if_pos (by omega)]
    congr 1
    omega
  · obtain ⟨a, ha⟩ : ∃ a : Nat, f.startFrame = a := ⟨f.startFrame.toNat, by omega⟩
    have key : ∀ m, ((List.range m).filter fun k : Nat => decide (f.startFrame ≤ (k : Int))).length = m - a := by
      intro m
      induction m with
      | zero => simp
      | succ m ih =>
        rw [List.range_succ, List.filter_append, List.length_append, ih, ha]
        by_cases hm : a ≤ m
        · rw [List.filter_cons_of_pos (by simpa using hm)]; simp; omega
        · rw [List.filter_cons_of_neg (by simpa using hm)]; simp; omega
    rw [key]
    omega

/-- The duration of a list of files kept in frame order: from its first to its last occupied
    frame, both included. -/
theorem C43_files_duration (f : Files) (lo hi : Nat) (defs : Option LayoutDefs) (type : Nat)
    (h1 : Files.firstFrame (some f) type = lo) (h2 : Files.lastFrame (some f) type defs = .ok (hi : Int))
    (h3 : hi < 2147483648) (h4 : lo ≤ hi) (h5 : hi - lo < 2147483647) :
    Files.durationFrames (some f) type defs = .ok ((hi - lo + 1 : Nat) : Int) := by
  unfold Files.durationFrames
  rw [h1, h2]
  simp only [Res.ok_bind]
  rw [if_neg (by omega)]
  unfold ckInt INT_MAX INT_MIN
  rw [if_pos (by omega)]
  simp only [Res.ok_bind]
  rw [if_pos (by omega)]
  congr 1
  omega

/-- For digital files in frame order: the duration spans the occupied frames. -/
theorem C43_digital_duration (f : Files)
    (hv : ∀ x ∈ f.tocs.getD [], x.isValid = true) (hi : ∀ x ∈ f.tocs.getD [], x.endFrame ≤ INT_MAX)
    (ho : InFrameOrder ((f.tocs.getD []).filter digital)) (hne : (f.tocs.getD []).filter digital ≠ []) :
    ∃ lo hi : Nat, Occupied ((f.tocs.getD []).filter digital) lo ∧ Occupied ((f.tocs.getD []).filter digital) hi ∧
      (∀ n, Occupied ((f.tocs.getD []).filter digital) n → lo ≤ n ∧ n ≤ hi) ∧
      (hi - lo < 2147483647 →
        Files.durationFrames (some f) TYPE_DIGITAL none = .ok ((hi - lo + 1 : Nat) : Int)) := by
  obtain ⟨lo, hi, h1, h2, h3, h4, h5, h6, _⟩ := C12_digital_bounds ⟨none, some f⟩ hv hi ho hne
  refine ⟨lo, hi, h4, h5, h6, fun hlt => ?_⟩
  apply C43_files_duration f lo hi none TYPE_DIGITAL h1 h2 ?_ h3 hlt
  obtain ⟨x, hx, _, hx2⟩ := h5
  have hmem : x ∈ f.tocs.getD [] := (List.mem_filter.mp hx).1
  have := ‹∀ x ∈ f.tocs.getD [], x.endFrame ≤ INT_MAX› x hmem
  unfold INT_MAX at this
  omega

/-- Without a first or a last frame the duration is 0. -/
theorem C43_files_duration_none (f : Option Files) (defs : Option LayoutDefs) (type : Nat) (last : Int)
    (h2 : Files.lastFrame f type defs = .ok last) (h : Files.firstFrame f type < 0 ∨ last < 0) :
    Files.durationFrames f type defs = .ok 0 := by
  unfold Files.durationFrames
  rw [h2]
  simp only [Res.ok_bind]
  rw [if_pos h]
  rfl

example : OnFilm (okFile 10 20) ∧ File.durationFrames (some (okFile 10 20)) = .ok 11 ∧
    Files.durationFrames (some ⟨some [okFile 10 20, okFile 30 35]⟩) TYPE_DIGITAL none = .ok 26 := by
  refine ⟨?_, ?_, ?_⟩
  · unfold OnFilm INT_MAX okFile; decide
  · decide
  · decide

/-! ### C44 -/

/-- Every file is exactly one of: parent (parent id -1), standalone (parent id -2), child of a
    parent (any other parent id). -/
theorem C44_parent_kinds (f : File) :
    (f.isParent = true ↔ f.parentId = -1) ∧ (f.isStandalone = true ↔ f.parentId = -2) ∧
    (f.hasParent = true ↔ f.parentId ≠ -1 ∧ f.parentId ≠ -2) := by
  unfold File.isStandalone File.hasParent File.isParent FILE_NO_PARENT FILE_PARENT
  refine ⟨by simp, ?_, ?_⟩
  · by_cases h1 : f.parentId = -1
    · simp [h1]
    · by_cases h2 : f.parentId = -2
      · simp [h2]
      · simp [h1, h2]
  · by_cases h1 : f.parentId = -1
    · simp [h1]
    · simp [h1]

/-- Attaching a preview makes the file a preview file, keeps its digital kind and stores a preview
    that equals the given one; every other field keeps its value. -/
theorem C44_set_preview (f : File) (p : Preview) :
    (f.setPreview (some p)).isPreview = true ∧ (f.setPreview (some p)).isDigital = f.isDigital ∧
    Preview.equal (f.setPreview (some p)).preview (some p) = true ∧
    { f.setPreview (some p) with types := f.types, preview := f.preview } = f := by
  refine ⟨?_, ?_, ?_, rfl⟩
  · rw [isPreview_eq]
    simp only [previewed, File.setPreview, File.addType, TYPE_PREVIEW, Nat.testBit_or]
    rw [show Nat.testBit 2 1 = true from by decide, Bool.or_true]
  · rw [isDigital_eq, isDigital_eq]
    simp [digital, File.setPreview, File.addType, TYPE_PREVIEW]
  · have : (f.setPreview (some p)).preview = some p.clone := rfl
    rw [this]
    exact (C03_preview_clone p).2.1

/-- Adding a kind adds exactly the kinds of the given mask. -/
theorem C44_add_type (f : File) (t i : Nat) :
    (f.addType t).types.testBit i = (f.types.testBit i || t.testBit i) := by
  simp [File.addType, Nat.testBit_or]

example : (File.create.setPreview (some Preview.create)).isPreview = true ∧ File.create.isPreview = false ∧
    File.create.isStandalone = true := by decide

/-! ### C08, lookup by name -/

/-- Lookup by name returns the first definition of that name, NULL when there is none (names are not
    unique); an empty name finds nothing. -/
theorem C08_lookup_by_name (ds : LayoutDefs) (h : ∀ d ∈ ds.defs.getD [], d.name ≠ none) (k : Bytes) (hk : k ≠ []) :
    ∃ found, LayoutDefs.byName (some ds) (some k) = .ok found ∧
      FirstMatch (fun d => d.name = some k) (ds.defs.getD []) found := by
  have hl : ¬ k.length = 0 := by simpa using hk
  simp only [LayoutDefs.byName, hl, if_false]
  generalize ds.defs.getD [] = l at *
  induction l with
  | nil => exact ⟨none, rfl, by simp [FirstMatch]⟩
  | cons d l ih =>
    obtain ⟨n, hn⟩ : ∃ n, d.name = some n := by
      have := h d (by simp)
      cases hd : d.name with
      | none => exact absurd hd this
      | some n => exact ⟨n, rfl⟩
    rw [LayoutDefs.findKey]
    simp only [strcmpEq, hn, Res.ok_bind]
    by_cases e : n = k
    · subst e
      exact ⟨some d, by simp, hn, [], l, rfl, by simp⟩
    · obtain ⟨found, hf, hm⟩ := ih (fun x hx => h x (by simp [hx]))
      refine ⟨found, by simp [e, hf], ?_⟩
      cases found with
      | none =>
        intro x hx
        rcases List.mem_cons.mp hx with rfl | hx
        · simp [hn, e]
        · exact hm x hx
      | some x =>
        obtain ⟨hx, pre, post, rfl, hpre⟩ := hm
        refine ⟨hx, d :: pre, post, rfl, ?_⟩
        intro y hy
        rcases List.mem_cons.mp hy with rfl | hy
        · simp [hn, e]
        · exact hpre y hy

example : LayoutDefs.byName (some ⟨some [⟨some (b! "a"), some (b! "n"), none⟩, ⟨some (b! "n"), some (b! "m"), none⟩,
    ⟨some (b! "c"), some (b! "n"), none⟩]⟩) (some (b! "n")) =
    .ok (some ⟨some (b! "a"), some (b! "n"), none⟩) := by decide

end Afs
