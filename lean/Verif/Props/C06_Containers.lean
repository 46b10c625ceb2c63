import Verif.Proof.Container
import Verif.Proof.Equal
/-!
# C06: containers are append-only lists of valid items

`items ops` (below) is "the offered items that are valid, in call order"; NULL offers are
`none`.  For layouts the admission rule also looks at what is already stored; it is stated in
`C06_sections_add_result` and C07/C08.
-/
namespace Afs
open Spec

/-- The offered items (NULL offers dropped) that pass `valid`, in call order. -/
def Spec.items {A : Type} (valid : A → Bool) (ops : List (Option A)) : List A :=
  (ops.filterMap id).filter valid

theorem run_count_get {S A : Type} {add : S → Option A → Bool × S} {its : S → List A}
    {count : S → Nat} {get : S → Nat → Option A} {v : A → Bool}
    (h : AppendOnlyList add its count get (fun _ x => v x)) (s0 : S) (h0 : its s0 = [])
    (ops : List (Option A)) :
    its (run add s0 ops) = items v ops ∧
    count (run add s0 ops) = (items v ops).length ∧
    ∀ i, get (run add s0 ops) i = (items v ops)[i]? := by
  have e : its (run add s0 ops) = items v ops := by
    rw [run_items h, h0, accepted_filter, List.nil_append]; rfl
  exact ⟨e, by rw [h.count_eq, e], fun i => by rw [h.get_eq, e]⟩

theorem all_items {A : Type} (v : A → Bool) (ops : List (Option A)) : (items v ops).all v = true := by
  rw [List.all_eq_true]
  intro x hx
  exact (List.mem_filter.mp hx).2

/-! ### File lists -/

theorem C06_files_add (s : Files) (x : Option File) :
    ((Files.addToc s x).1 = true ↔ ∃ f, x = some f ∧ f.isValid = true) ∧
    ((Files.addToc s x).1 = false → (Files.addToc s x).2 = s) := by
  cases x with
  | none => simp [Files.addToc]
  | some f => cases h : f.isValid <;> simp [Files.addToc, h]

theorem C06_files (ops : List (Option File)) :
    let s := run Files.addToc Files.create ops
    Files.count (some s) = (items File.isValid ops).length ∧
    (∀ i, Files.getToc (some s) i = (items File.isValid ops)[i]?) ∧
    Files.isValid (some s) = true := by
  have h := run_count_get files_container Files.create rfl ops
  refine ⟨h.2.1, h.2.2, ?_⟩
  have e := h.1
  unfold Files.isValid Files.list at *
  cases hs : (run Files.addToc Files.create ops).tocs with
  | none => simp [hs]
  | some l => rw [hs] at e; simp only [hs]; simp only [Option.getD_some] at e; rw [e, all_items]

/-! ### Reels of files -/

theorem C06_reel_add (s : Reel) (x : Option File) :
    ((Reel.addFile s x).1 = true ↔ ∃ f, x = some f ∧ f.isValid = true) ∧
    ((Reel.addFile s x).1 = false → (Reel.addFile s x).2 = s) := by
  cases x with
  | none => simp [Reel.addFile]
  | some f => cases h : f.isValid <;> simp [Reel.addFile, h]

theorem reel_run_id (s : Reel) (ops : List (Option File)) : (run Reel.addFile s ops).id = s.id := by
  induction ops generalizing s with
  | nil => rfl
  | cons x ops ih =>
    have : run Reel.addFile s (x :: ops) = run Reel.addFile (Reel.addFile s x).2 ops := rfl
    rw [this, ih]
    cases x with
    | none => rfl
    | some f => cases h : f.isValid <;> simp [Reel.addFile, h]

theorem C06_reel (id : Option Bytes) (ops : List (Option File)) :
    let s := run Reel.addFile (Reel.create2 id) ops
    Reel.fileCount (some s) = (items File.isValid ops).length ∧
    (∀ i, Reel.fileByIndex (some s) i = (items File.isValid ops)[i]?) ∧
    s.id = id ∧
    (s.isValid = true ↔ ∃ b, id = some b ∧ b ≠ []) := by
  have h := run_count_get reel_container (Reel.create2 id) rfl ops
  have hid : (run Reel.addFile (Reel.create2 id) ops).id = id := by rw [reel_run_id]; rfl
  refine ⟨h.2.1, h.2.2, hid, ?_⟩
  have e := h.1
  have hv : ¬ (Reel.fileCount (some (run Reel.addFile (Reel.create2 id) ops)) ≠ 0 ∧
      Files.isValid (run Reel.addFile (Reel.create2 id) ops).files = false) := by
    rintro ⟨h1, h2⟩
    have h1' : (run Reel.addFile (Reel.create2 id) ops).list.length ≠ 0 := h1
    unfold Reel.list at e h1'
    cases hf : (run Reel.addFile (Reel.create2 id) ops).files with
    | none => rw [hf] at h1'; exact h1' rfl
    | some f =>
      rw [hf] at e h2
      simp only [Files.isValid, Files.list] at e h2
      cases ht : f.tocs with
      | none => simp [ht] at h2
      | some l =>
        simp only [ht] at h2
        rw [ht] at e; simp only [Option.getD_some] at e
        rw [e, all_items] at h2; cases h2
  unfold Reel.isValid
  rw [if_neg hv, hid]
  cases id with
  | none => simp [nullOrEmpty]
  | some b => cases b <;> simp [nullOrEmpty]

/-! ### Reel lists -/

theorem C06_reels_add (s : Reels) (x : Option Reel) :
    ((Reels.addReel s x).1 = true ↔ ∃ f, x = some f ∧ f.isValid = true) ∧
    ((Reels.addReel s x).1 = false → (Reels.addReel s x).2 = s) := by
  cases x with
  | none => simp [Reels.addReel]
  | some f => cases h : f.isValid <;> simp [Reels.addReel, h]

theorem C06_reels (ops : List (Option Reel)) :
    let s := run Reels.addReel Reels.create ops
    Reels.count (some s) = (items Reel.isValid ops).length ∧
    (∀ i, Reels.getReel (some s) i = (items Reel.isValid ops)[i]?) ∧
    Reels.isValid (some s) = true := by
  have h := run_count_get reels_container Reels.create rfl ops
  refine ⟨h.2.1, h.2.2, ?_⟩
  have e := h.1
  unfold Reels.isValid
  simp only
  rw [e, all_items]

/-! ### Previews -/

theorem C06_preview_add (s : Preview) (x : Option Page) :
    ((Preview.addPage s x).1 = true ↔ ∃ f, x = some f ∧ f.isValid = true) ∧
    ((Preview.addPage s x).1 = false → (Preview.addPage s x).2 = s) := by
  cases x with
  | none => simp [Preview.addPage]
  | some f => cases h : f.isValid <;> simp [Preview.addPage, h]

theorem C06_preview (ops : List (Option Page)) :
    let s := run Preview.addPage Preview.create ops
    Preview.pageCount (some s) = (items Page.isValid ops).length ∧
    (∀ i, Preview.getPage (some s) i = (items Page.isValid ops)[i]?) ∧
    (Preview.isValid (some s) = true ↔ items Page.isValid ops ≠ []) := by
  have h := run_count_get preview_container Preview.create rfl ops
  refine ⟨h.2.1, h.2.2, ?_⟩
  have e := h.1
  unfold Preview.isValid
  simp only
  cases hs : (run Preview.addPage Preview.create ops).pages with
  | none => simp only [hs] at e ⊢; simp at e; simp [← e]
  | some l =>
    simp only [hs, Option.getD_some] at e ⊢
    subst e
    simp only [all_items]
    cases items Page.isValid ops <;> simp

/-! ### File metadata -/

theorem C06_file_metadata_add (s : FileMeta) (x : Option FileMetaSource) :
    ((FileMeta.addSource s x).1 = true ↔ ∃ f, x = some f ∧ f.isValid = true) ∧
    ((FileMeta.addSource s x).1 = false → (FileMeta.addSource s x).2 = s) := by
  cases x with
  | none => simp [FileMeta.addSource]
  | some f => cases h : f.isValid <;> simp [FileMeta.addSource, h]

theorem C06_file_metadata (ops : List (Option FileMetaSource)) :
    let s := run FileMeta.addSource FileMeta.create ops
    FileMeta.sourcesCount (some s) = (items FileMetaSource.isValid ops).length ∧
    (∀ i, FileMeta.getSource (some s) i = (items FileMetaSource.isValid ops)[i]?) ∧
    FileMeta.isValid (some s) = true := by
  have h := run_count_get fileMeta_container FileMeta.create rfl ops
  refine ⟨h.2.1, h.2.2, ?_⟩
  have e := h.1
  unfold FileMeta.isValid
  simp only
  cases hs : (run FileMeta.addSource FileMeta.create ops).sources with
  | none => simp
  | some l =>
    simp only [hs, Option.getD_some] at e ⊢
    rw [e, all_items]

/-! ### TOC metadata -/

theorem C06_metadata_add (s : TocMeta) (x : Option MetaSource) :
    ((TocMeta.addSource s x).1 = true ↔ ∃ f, x = some f ∧ f.isValid = true) ∧
    ((TocMeta.addSource s x).1 = false → (TocMeta.addSource s x).2 = s) := by
  cases x with
  | none => simp [TocMeta.addSource]
  | some f => cases h : f.isValid <;> simp [TocMeta.addSource, h]

theorem C06_metadata (ops : List (Option MetaSource)) :
    let s := run TocMeta.addSource TocMeta.create ops
    TocMeta.sourcesCount (some s) = (items MetaSource.isValid ops).length ∧
    (∀ i, TocMeta.getSource (some s) i = (items MetaSource.isValid ops)[i]?) ∧
    (TocMeta.isValid (some s) = true ↔ items MetaSource.isValid ops ≠ []) := by
  have h := run_count_get tocMeta_container TocMeta.create rfl ops
  refine ⟨h.2.1, h.2.2, ?_⟩
  have e := h.1
  unfold TocMeta.isValid
  simp only
  cases hs : (run TocMeta.addSource TocMeta.create ops).sources with
  | none => simp only [hs] at e ⊢; simp at e; simp [← e]
  | some l =>
    simp only [hs, Option.getD_some] at e ⊢
    subst e
    simp only [all_items]
    cases items MetaSource.isValid ops <;> simp

/-! ### Frame ranges: every non-NULL range is accepted -/

theorem C06_frame_ranges (ops : List (Option FrameRange)) :
    let s := run FrameRanges.add FrameRanges.create ops
    FrameRanges.getCount (some s) = (ops.filterMap id).length ∧
    (∀ i, FrameRanges.get (some s) i = (ops.filterMap id)[i]?) ∧
    (∀ (t : FrameRanges) x, (FrameRanges.add t x).1 = x.isSome) := by
  have h := run_count_get frameRanges_container FrameRanges.create rfl ops
  have e : items (fun _ : FrameRange => true) ops = ops.filterMap id := by simp [items]
  rw [e] at h
  refine ⟨h.2.1, h.2.2, ?_⟩
  intro t x
  cases x <;> rfl

/-! ### Whole TOC: reels and metadata sources -/

theorem C06_toc_reels (t : TocData) (h0 : t.reels = none) (ops : List (Option Reel)) :
    let s := run TocData.addReel t ops
    s.reelCount = (items Reel.isValid ops).length ∧
    (∀ i, TocData.reelByIndex (some s) i = (items Reel.isValid ops)[i]?) ∧
    (∀ (t : TocData) x, (TocData.addReel t x).1 = true ↔ ∃ f, x = some f ∧ f.isValid = true) ∧
    (∀ (t : TocData) x, (TocData.addReel t x).1 = false →
        TocData.reelCount (TocData.addReel t x).2 = TocData.reelCount t ∧
        TocData.equal (some (TocData.addReel t x).2) (some t) = true) := by
  have h := run_count_get toc_reels_container t (by simp [TocData.reelList, h0]) ops
  refine ⟨h.2.1, h.2.2, ?_, ?_⟩
  · intro t x
    cases x with
    | none => simp [TocData.addReel]
    | some f => simp only [TocData.addReel, Reels.addReel]; cases h : f.isValid <;> simp [h]
  · intro t x hx
    cases x with
    | none => exact ⟨rfl, (toc_eq_iff _ _).mpr rfl⟩
    | some f =>
      have hv : f.isValid = false := by
        simp only [TocData.addReel, Reels.addReel] at hx
        cases h : f.isValid
        · rfl
        · simp [h] at hx
      have e : TocData.equal (some t) (some t) = true := (toc_eq_iff _ _).mpr rfl
      cases hr : t.reels with
      | none =>
        refine ⟨by simp [TocData.addReel, Reels.addReel, hv, hr, TocData.reelCount, Reels.count,
          vecSize, Reels.create], ?_⟩
        simp [TocData.addReel, Reels.addReel, hv, hr, TocData.reelCount, Reels.count, vecSize,
          Reels.create, TocData.equal, ptrEqual, TocData.eqFields, TocData.metadataSourceCount,
          TocData.layoutCount] at e ⊢
        tauto
      | some r =>
        have ht : (TocData.addReel t (some f)).2 = t := by
          simp only [TocData.addReel, Reels.addReel, hv, hr]
          cases t; cases hr; rfl
        rw [ht]
        exact ⟨rfl, e⟩

theorem C06_toc_metadata (t : TocData) (h0 : t.metadata = none) (ops : List (Option MetaSource)) :
    let s := run TocData.addMetadataSource t ops
    s.metadataSourceCount = (items MetaSource.isValid ops).length ∧
    (∀ i, TocData.metadataSource (some s) i = (items MetaSource.isValid ops)[i]?) ∧
    (∀ (t : TocData) x,
      (TocData.addMetadataSource t x).1 = true ↔ ∃ f, x = some f ∧ f.isValid = true) := by
  have h := run_count_get toc_metadata_container t (by simp [tocSources, h0]) ops
  refine ⟨h.2.1, h.2.2, ?_⟩
  intro t x
  cases x with
  | none => simp [TocData.addMetadataSource]
  | some f => simp only [TocData.addMetadataSource, TocMeta.addSource]; cases h : f.isValid <;> simp [h]

/-! ### Non-vacuity -/

/-- A valid digital file at the given frames. -/
def okFile (a b : Int) : File :=
  { File.create with
    name := some (b! "f"), date := some (b! "d"), checksum := some [], types := TYPE_DIGITAL
    startFrame := a, startByte := 0, endFrame := b, endByte := 0 }

/-- Offers: valid, NULL, invalid (no name), valid.  Two survive, in order. -/
example : items File.isValid [some (okFile 1 2), none, some File.create, some (okFile 3 4)] =
    [okFile 1 2, okFile 3 4] := by decide

example : (Files.getToc (some (run Files.addToc Files.create
    [some (okFile 1 2), none, some File.create, some (okFile 3 4)])) 1) = some (okFile 3 4) := by
  decide

example : items Page.isValid
    [some (Page.create2 (some (b! "l")) 0 0 1 0 0 0 0), some Page.create] ≠ [] := by decide

end Afs
