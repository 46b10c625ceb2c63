import Verif.Spec.Container
import Mathlib.Tactic.Tauto
/-! # Helper lemmas for containers -/
namespace Afs
open Spec

theorem run_items {S A : Type} {add : S → Option A → Bool × S} {items : S → List A}
    {count : S → Nat} {get : S → Nat → Option A} {ok : List A → A → Bool}
    (h : AppendOnlyList add items count get ok) (s : S) (ops : List (Option A)) :
    items (run add s ops) = accepted ok (items s) ops := by
  induction ops generalizing s with
  | nil => rfl
  | cons x ops ih =>
    have e : run add s (x :: ops) = run add (add s x).2 ops := rfl
    rw [e, ih]
    cases x with
    | none => rw [h.null_refused]; rfl
    | some x =>
      show _ = accepted ok (if ok (items s) x then items s ++ [x] else items s) ops
      cases hok : ok (items s) x with
      | true => rw [h.admitted s x hok]; rfl
      | false => rw [h.refused s x hok]; rfl

theorem accepted_filter {A : Type} (p : A → Bool) (items : List A) (ops : List (Option A)) :
    accepted (fun _ x => p x) items ops = items ++ (ops.filterMap id).filter p := by
  induction ops generalizing items with
  | nil => simp [accepted]
  | cons x ops ih =>
    cases x with
    | none => simp [accepted, ih]
    | some x =>
      simp only [accepted, ih]
      by_cases hp : p x = true
      · simp [hp]
      · simp [hp]

theorem vecGet_eq {A : Type} (v : Option (List A)) (i : Nat) : vecGet v i = (v.getD [])[i]? := by
  cases v with
  | none => simp [vecGet]
  | some l =>
    unfold vecGet
    simp only [Option.getD_some]
    split
    · rename_i h; rw [List.getElem?_eq_none h]
    · rfl

theorem vecAppend_getD {A : Type} (v : Option (List A)) (x : A) :
    (vecAppend v x).getD [] = v.getD [] ++ [x] := by
  cases v <;> rfl

theorem accepted_forall {A : Type} {P : List A → Prop} {ok : List A → A → Bool}
    (step : ∀ l x, P l → ok l x = true → P (l ++ [x])) (l : List A) (h : P l)
    (ops : List (Option A)) : P (accepted ok l ops) := by
  induction ops generalizing l with
  | nil => exact h
  | cons x ops ih =>
    cases x with
    | none => exact ih l h
    | some x =>
      unfold accepted
      split
      · rename_i hok; exact ih _ (step l x h hok)
      · exact ih l h

/-! ### Simple containers -/

theorem files_container :
    AppendOnlyList Files.addToc Files.list (fun s => Files.count (some s))
      (fun s => Files.getToc (some s)) (fun _ x => x.isValid) where
  null_refused s := rfl
  result s x := by unfold Files.addToc; cases h : x.isValid <;> simp [h]
  admitted s x h := by simp [Files.addToc, h, Files.list, vecAppend_getD]
  refused s x h := by simp [Files.addToc, h]
  count_eq s := rfl
  get_eq s i := vecGet_eq _ _

theorem reels_container :
    AppendOnlyList Reels.addReel Reels.list (fun s => Reels.count (some s))
      (fun s => Reels.getReel (some s)) (fun _ x => x.isValid) where
  null_refused s := rfl
  result s x := by unfold Reels.addReel; cases h : x.isValid <;> simp [h]
  admitted s x h := by simp [Reels.addReel, h, Reels.list, vecAppend_getD]
  refused s x h := by simp [Reels.addReel, h]
  count_eq s := rfl
  get_eq s i := vecGet_eq _ _

theorem reel_container :
    AppendOnlyList Reel.addFile Reel.list (fun s => Reel.fileCount (some s))
      (fun s => Reel.fileByIndex (some s)) (fun _ x => x.isValid) where
  null_refused s := rfl
  result s x := by unfold Reel.addFile; cases h : x.isValid <;> simp [h]
  admitted s x h := by
    simp only [Reel.addFile, h, Bool.not_true, Bool.false_eq_true, if_false, Reel.list]
    cases s.files <;> simp [Files.list, vecAppend_getD, Files.create]
  refused s x h := by simp [Reel.addFile, h]
  count_eq s := rfl
  get_eq s i := by
    unfold Reel.fileByIndex Reel.list
    cases h : s.files with
    | none => simp [h]
    | some f => simp [h, vecGet_eq, Files.list]

theorem preview_container :
    AppendOnlyList Preview.addPage (fun s => s.pages.getD []) (fun s => Preview.pageCount (some s))
      (fun s => Preview.getPage (some s)) (fun _ x => x.isValid) where
  null_refused s := rfl
  result s x := by unfold Preview.addPage; cases h : x.isValid <;> simp [h]
  admitted s x h := by simp [Preview.addPage, h, vecAppend_getD]
  refused s x h := by simp [Preview.addPage, h]
  count_eq s := rfl
  get_eq s i := vecGet_eq _ _

theorem fileMeta_container :
    AppendOnlyList FileMeta.addSource (fun s => s.sources.getD [])
      (fun s => FileMeta.sourcesCount (some s)) (fun s => FileMeta.getSource (some s))
      (fun _ x => x.isValid) where
  null_refused s := rfl
  result s x := by unfold FileMeta.addSource; cases h : x.isValid <;> simp [h]
  admitted s x h := by simp [FileMeta.addSource, h, vecAppend_getD]
  refused s x h := by simp [FileMeta.addSource, h]
  count_eq s := rfl
  get_eq s i := vecGet_eq _ _

theorem tocMeta_container :
    AppendOnlyList TocMeta.addSource (fun s => s.sources.getD [])
      (fun s => TocMeta.sourcesCount (some s)) (fun s => TocMeta.getSource (some s))
      (fun _ x => x.isValid) where
  null_refused s := rfl
  result s x := by unfold TocMeta.addSource; cases h : x.isValid <;> simp [h]
  admitted s x h := by simp [TocMeta.addSource, h, vecAppend_getD]
  refused s x h := by simp [TocMeta.addSource, h]
  count_eq s := rfl
  get_eq s i := vecGet_eq _ _

theorem frameRanges_container :
    AppendOnlyList FrameRanges.add (fun s => s.ranges.getD [])
      (fun s => FrameRanges.getCount (some s)) (fun s => FrameRanges.get (some s))
      (fun _ _ => true) where
  null_refused s := rfl
  result s x := rfl
  admitted s x h := by simp [FrameRanges.add, vecAppend_getD]
  refused s x h := by simp at h
  count_eq s := rfl
  get_eq s i := vecGet_eq _ _

/-- Admission rule of layouts: valid, new id, no overlap with a section already there. -/
def sectionOk (l : List Section) (x : Section) : Bool := x.isValid && Sections.admissible x l

theorem sections_container :
    AppendOnlyList Sections.append (fun s => s.sections.getD [])
      (fun s => Sections.size (some s)) (fun s => Sections.get (some s)) sectionOk where
  null_refused s := rfl
  result s x := by
    unfold Sections.append sectionOk
    cases h : x.isValid <;> cases h2 : Sections.admissible x (s.sections.getD []) <;> simp [h, h2]
  admitted s x h := by
    simp only [sectionOk, Bool.and_eq_true] at h
    simp [Sections.append, h.1, h.2, vecAppend_getD]
  refused s x h := by
    unfold sectionOk at h
    unfold Sections.append
    cases h1 : x.isValid
    · simp [h1]
    · rw [h1, Bool.true_and] at h; simp [h1, h]
  count_eq s := rfl
  get_eq s i := vecGet_eq _ _

theorem layoutDef_container :
    AppendOnlyList LayoutDef.addSection LayoutDef.sectionList LayoutDef.sectionCount
      LayoutDef.getSection sectionOk where
  null_refused s := rfl
  result s x := by
    unfold LayoutDef.addSection sectionOk
    cases h : x.isValid
    · simp [h]
    · cases h2 : Sections.admissible x s.sectionList
      · simp [h, h2]
      · unfold LayoutDef.sectionList at h2
        cases hs : s.sections with
        | none => simp [h, Sections.append, Sections.create, Sections.admissible, hs, LayoutDef.sectionList]
        | some t => rw [hs] at h2; simp [h, Sections.append, hs, LayoutDef.sectionList] at h2 ⊢; simp [h2]
  admitted s x h := by
    simp only [sectionOk, Bool.and_eq_true] at h
    obtain ⟨h1, h2⟩ := h
    unfold LayoutDef.addSection
    simp only [h1, h2, Bool.not_true, Bool.false_eq_true, if_false]
    unfold LayoutDef.sectionList at h2 ⊢
    cases hs : s.sections with
    | none => simp [Sections.append, Sections.create, h1, Sections.admissible, vecAppend]
    | some t =>
      rw [hs] at h2
      simp only [Sections.append, h1, h2, Bool.not_true, Bool.false_eq_true, if_false]
      simp [vecAppend_getD]
  refused s x h := by
    unfold sectionOk at h
    unfold LayoutDef.addSection
    cases h1 : x.isValid
    · simp [h1]
    · rw [h1, Bool.true_and] at h; simp [h1, h]
  count_eq s := by
    unfold LayoutDef.sectionCount LayoutDef.sectionList
    cases s.sections <;> rfl
  get_eq s i := by
    unfold LayoutDef.getSection LayoutDef.sectionList
    cases s.sections with
    | none => simp
    | some t => simp [Sections.get, vecGet_eq]

/-! ### TOC-level adds (the container object may be created by a refused add) -/

theorem toc_reels_container :
    AppendOnlyList TocData.addReel TocData.reelList TocData.reelCount
      (fun t => TocData.reelByIndex (some t)) (fun _ x => x.isValid) where
  null_refused s := rfl
  result s x := by
    unfold TocData.addReel Reels.addReel
    cases h : x.isValid <;> cases s.reels <;> simp [h]
  admitted s x h := by
    unfold TocData.addReel Reels.addReel TocData.reelList
    cases hs : s.reels <;> simp [h, Reels.list, vecAppend_getD, Reels.create]
  refused s x h := by
    unfold TocData.addReel Reels.addReel TocData.reelList
    cases hs : s.reels <;> simp [h, Reels.list, Reels.create]
  count_eq s := by
    unfold TocData.reelCount TocData.reelList Reels.count
    cases s.reels <;> rfl
  get_eq s i := by
    unfold TocData.reelByIndex TocData.reelList Reels.getReel
    cases h : s.reels with
    | none => simp [h]
    | some r => simp [h, vecGet_eq, Reels.list]

/-- Metadata sources of a TOC, NULL read as empty. -/
def tocSources (t : TocData) : List MetaSource :=
  match t.metadata with
  | none => []
  | some m => m.sources.getD []

theorem toc_metadata_container :
    AppendOnlyList TocData.addMetadataSource tocSources TocData.metadataSourceCount
      (fun t => TocData.metadataSource (some t)) (fun _ x => x.isValid) where
  null_refused s := rfl
  result s x := by
    unfold TocData.addMetadataSource TocMeta.addSource
    cases h : x.isValid <;> cases s.metadata <;> simp [h]
  admitted s x h := by
    unfold TocData.addMetadataSource TocMeta.addSource tocSources
    cases hs : s.metadata <;> simp [h, vecAppend_getD, TocMeta.create]
  refused s x h := by
    unfold TocData.addMetadataSource TocMeta.addSource tocSources
    cases hs : s.metadata <;> simp [h, TocMeta.create]
  count_eq s := by
    unfold TocData.metadataSourceCount tocSources TocMeta.sourcesCount
    cases s.metadata <;> rfl
  get_eq s i := by
    unfold TocData.metadataSource tocSources TocMeta.getSource
    cases h : s.metadata with
    | none => simp [h]
    | some r => simp [h, vecGet_eq]

/-! ### Geometry of sections -/

theorem section_valid_pos {s : Section} (h : s.isValid = true) : 0 < s.width ∧ 0 < s.height := by
  unfold Section.isValid at h
  split at h
  · simp at h
  · split at h
    · simp at h
    · omega

theorem lastOf_fits {p n : Nat} (h : p + n ≤ 4294967296) (hn : 0 < n) :
    Section.lastOf p n = p + n - 1 := by
  unfold Section.lastOf u32 two32; omega

theorem isOverlap_iff {a b : Section} (ha : a.isValid = true) (hb : b.isValid = true)
    (fa : Fits a) (fb : Fits b) :
    Section.isOverlap a b = true ↔ ∃ px py, HasPixel a px py ∧ HasPixel b px py := by
  have pa := section_valid_pos ha
  have pb := section_valid_pos hb
  unfold Section.isOverlap
  simp only [ha, hb, Bool.not_true, Bool.or_self, Bool.false_eq_true, if_false]
  rw [lastOf_fits fa.1 pa.1, lastOf_fits fb.1 pb.1, lastOf_fits fa.2 pa.2, lastOf_fits fb.2 pb.2]
  simp only [Bool.and_eq_true, decide_eq_true_eq]
  unfold HasPixel
  constructor
  · rintro ⟨⟨⟨h1, h2⟩, h3⟩, h4⟩
    exact ⟨max a.x b.x, max a.y b.y, by omega, by omega⟩
  · rintro ⟨px, py, h1, h2⟩
    omega

theorem admissible_iff (x : Section) (l : List Section) :
    Sections.admissible x l = true ↔ ∀ c ∈ l, c.id ≠ x.id ∧ Section.isOverlap c x = false := by
  induction l with
  | nil => simp [Sections.admissible]
  | cons c cs ih =>
    unfold Sections.admissible
    by_cases h1 : c.id = x.id
    · simp [h1]
    · rw [if_neg h1]
      cases h2 : Section.isOverlap c x
      · simp [h1, h2, ih]
      · simp [h2]

/-- Invariant of accepted section lists. -/
def SectionsInv (l : List Section) : Prop :=
  (∀ s ∈ l, s.isValid = true) ∧
  l.Pairwise (fun a b => a.id ≠ b.id ∧ Section.isOverlap a b = false)

theorem sectionsInv_step (l : List Section) (x : Section) (h : SectionsInv l)
    (hok : sectionOk l x = true) : SectionsInv (l ++ [x]) := by
  unfold sectionOk at hok
  rw [Bool.and_eq_true, admissible_iff] at hok
  refine ⟨?_, ?_⟩
  · intro s hs
    rcases List.mem_append.mp hs with hs | hs
    · exact h.1 s hs
    · rw [List.mem_singleton] at hs; subst hs; exact hok.1
  · rw [List.pairwise_append]
    refine ⟨h.2, by simp, ?_⟩
    intro a ha b hb
    rw [List.mem_singleton] at hb; subst hb
    exact hok.2 a ha

theorem validLoop_iff (l : List Section) :
    Sections.validLoop l = true ↔
      (∀ s ∈ l, s.isValid = true) ∧ l.Pairwise (fun a b => Section.isOverlap a b = false) := by
  induction l with
  | nil => simp [Sections.validLoop]
  | cons s rest ih =>
    unfold Sections.validLoop
    simp only [Bool.and_eq_true, ih, List.all_eq_true, Bool.not_eq_true', List.mem_cons,
      List.pairwise_cons, forall_eq_or_imp]
    tauto

/-! ### Layout definitions -/

theorem findKey_ok (key : LayoutDef → Option Bytes) (k : Bytes) (l : List LayoutDef)
    (h : ∀ d ∈ l, key d ≠ none) :
    LayoutDefs.findKey key k l = .ok (l.find? fun d => decide (key d = some k)) := by
  induction l with
  | nil => rfl
  | cons d ds ih =>
    have hd := h d (by simp)
    unfold LayoutDefs.findKey
    cases hk : key d with
    | none => exact absurd hk hd
    | some b =>
      simp only [strcmpEq, Res.ok_bind, List.find?_cons, hk, Option.some.injEq]
      by_cases hb : b = k
      · simp [hb]
      · simp [hb, ih (fun e he => h e (by simp [he]))]

theorem layout_valid_id {d : LayoutDef} (h : d.isValid = true) :
    ∃ k : Bytes, d.id = some k ∧ k ≠ [] := by
  unfold LayoutDef.isValid at h
  split at h
  · simp at h
  · rename_i hn
    simp only [Bool.or_eq_true, not_or] at hn
    have := hn.1.1
    unfold nullOrEmpty at this
    cases hid : d.id with
    | none => simp [hid] at this
    | some k => exact ⟨k, rfl, by rintro rfl; simp [hid] at this⟩

/-- Admission rule of layout definition lists: valid, and the id is new. -/
def layoutOk (l : List LayoutDef) (x : LayoutDef) : Bool :=
  x.isValid && !l.any (fun d => decide (d.id = x.id))

theorem layouts_has_ok {ds : LayoutDefs} (h : ∀ d ∈ ds.defs.getD [], d.id ≠ none) {x : LayoutDef}
    (hx : x.isValid = true) :
    LayoutDefs.has (some ds) x.id = .ok ((ds.defs.getD []).any fun d => decide (d.id = x.id)) := by
  obtain ⟨k, hk, hne⟩ := layout_valid_id hx
  unfold LayoutDefs.has
  rw [hk]
  have : ¬ k.length = 0 := by simpa using hne
  simp only [this, if_false, findKey_ok _ _ _ h, Res.ok_bind, Res.pure_eq]
  congr 1
  rw [Bool.eq_iff_iff]
  simp [List.find?_isSome]

theorem layouts_add_ok {ds : LayoutDefs} (h : ∀ d ∈ ds.defs.getD [], d.id ≠ none) (x : LayoutDef) :
    LayoutDefs.add ds (some x) =
      .ok (if layoutOk (ds.defs.getD []) x then (true, ⟨vecAppend ds.defs x⟩) else (false, ds)) := by
  unfold LayoutDefs.add layoutOk
  cases hx : x.isValid
  · simp [hx]
  · simp only [hx, Bool.not_true, Bool.false_eq_true, if_false, layouts_has_ok h hx, Res.ok_bind,
      Bool.true_and]
    cases (ds.defs.getD []).any fun d => decide (d.id = x.id) <;> simp

end Afs
