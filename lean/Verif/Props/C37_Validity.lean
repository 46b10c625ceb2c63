import Verif.Spec.Valid
import Verif.Props.C12_FrameBounds
import Verif.Props.C14_UsedLayouts
/-!
# C37: validity is compositional — each `is_valid` is exactly the field conditions of `Spec.Valid…`
-/
namespace Afs
open Spec

theorem nullOrEmpty_iff (s : Option Bytes) : nullOrEmpty s = false ↔ NonEmpty s := by
  unfold nullOrEmpty NonEmpty
  cases s with
  | none => simp
  | some b => cases b <;> simp

theorem C37_section (s : Section) : s.isValid = true ↔ ValidSection s := by
  unfold Section.isValid ValidSection
  split
  · simp; omega
  · split
    · simp; omega
    · simp; omega

theorem C37_sections (s : Option Sections) :
    Sections.isValid s = true ↔ ∃ x, s = some x ∧ ValidSections x := by
  unfold ValidSections
  cases s with
  | none => simp [Sections.isValid]
  | some x =>
    cases x with
    | mk v => cases v with
      | none => simp [Sections.isValid]
      | some l =>
        cases l with
        | nil => simp [Sections.isValid]
        | cons a l =>
          simp only [Sections.isValid, List.length_cons, Nat.succ_ne_zero, if_false, validLoop_iff, C37_section]
          constructor
          · intro h; exact ⟨_, rfl, _, rfl, by simp, h.1, h.2⟩
          · rintro ⟨x, hx, l', hl, -, h1, h2⟩
            cases hx; cases hl; exact ⟨h1, h2⟩

theorem C37_layout (d : LayoutDef) : d.isValid = true ↔ ValidLayout d := by
  unfold LayoutDef.isValid ValidLayout
  rw [← C37_sections]
  cases h1 : nullOrEmpty d.id <;> cases h2 : nullOrEmpty d.name <;> cases h3 : Sections.isValid d.sections <;>
    simp [← nullOrEmpty_iff, h1, h2]

theorem C37_layouts (d : Option LayoutDefs) :
    LayoutDefs.isValid d = true ↔ ∃ x, d = some x ∧ ValidLayouts x := by
  unfold ValidLayouts
  cases d with
  | none => simp [LayoutDefs.isValid]
  | some x =>
    cases x with
    | mk v => cases v with
      | none => simp [LayoutDefs.isValid]
      | some l => simp [LayoutDefs.isValid, C37_layout]

theorem C37_page (p : Page) : p.isValid = true ↔ ValidPage p := by
  unfold Page.isValid ValidPage
  cases h : nullOrEmpty p.layoutId <;> simp [← nullOrEmpty_iff, h, and_assoc]

theorem C37_preview (p : Option Preview) :
    Preview.isValid p = true ↔ ∃ x, p = some x ∧ ValidPreview x := by
  unfold ValidPreview
  cases p with
  | none => simp [Preview.isValid]
  | some x =>
    unfold Preview.isValid
    cases hp : x.pages with
    | none => simp [hp]
    | some l =>
      simp only [hp]
      cases l with
      | nil => simp [hp]
      | cons a l =>
        simp only [List.length_cons, Nat.succ_ne_zero, if_false, List.all_eq_true, C37_page]
        constructor
        · intro h; exact ⟨x, rfl, _, hp, by simp, h⟩
        · rintro ⟨y, hy, l', hl, -, h⟩
          cases hy; rw [hp] at hl; cases hl; exact h

theorem C37_file_metadata_source (s : FileMetaSource) : s.isValid = true ↔ ValidFileMetaSource s := by
  unfold FileMetaSource.isValid ValidFileMetaSource
  cases h : nullOrEmpty s.data <;> simp [← nullOrEmpty_iff, h]

theorem C37_file_metadata (m : Option FileMeta) :
    FileMeta.isValid m = true ↔ ∃ x, m = some x ∧ ValidFileMeta x := by
  unfold ValidFileMeta
  cases m with
  | none => simp [FileMeta.isValid]
  | some x =>
    unfold FileMeta.isValid
    cases hp : x.sources with
    | none => simp [hp]
    | some l => simp [hp, C37_file_metadata_source]

theorem fileMeta_count_zero (m : FileMeta) (h : FileMeta.sourcesCount (some m) = 0) : ValidFileMeta m := by
  have : m.sources.getD [] = [] := List.length_eq_zero_iff.mp h
  intro s hs; rw [this] at hs; simp at hs

theorem C37_file (f : File) : f.isValid = true ↔ ValidFile f := by
  unfold File.isValid ValidFile
  rw [isDigital_eq, isPreview_eq]
  unfold digital previewed
  have hn := nullOrEmpty_iff f.name
  have hd := nullOrEmpty_iff f.date
  have hmeta : (f.hasMetadata = true ∧ FileMeta.isValid f.metadata = false) ↔
      ¬ ∀ m, f.metadata = some m → ValidFileMeta m := by
    unfold File.hasMetadata
    constructor
    · rintro ⟨h1, h2⟩ hall
      cases hm : f.metadata with
      | none => rw [hm] at h1; simp [FileMeta.sourcesCount] at h1
      | some m =>
        have := (C37_file_metadata f.metadata).mpr ⟨m, hm, hall m hm⟩
        rw [h2] at this; cases this
    · intro h
      cases hm : f.metadata with
      | none => exact absurd (fun m h' => by rw [hm] at h'; cases h') h
      | some m =>
        refine ⟨?_, ?_⟩
        · by_cases h0 : FileMeta.sourcesCount (some m) = 0
          · exact absurd (fun m' h' => by rw [hm] at h'; cases h'; exact fileMeta_count_zero m h0) h
          · simpa using h0
        · cases hv : FileMeta.isValid (some m)
          · rfl
          · obtain ⟨x, hx, hx'⟩ := (C37_file_metadata (some m)).mp hv
            cases hx
            exact absurd (fun m' h' => by rw [hm] at h'; cases h'; exact hx') h
  have hprev : (f.preview = none ∨ Preview.isValid f.preview = false) ↔
      ¬ ∃ p, f.preview = some p ∧ ValidPreview p := by
    rw [← C37_preview]
    cases f.preview <;> simp [Preview.isValid]
  have hname : (nullOrEmpty f.name || nullOrEmpty f.date) = true ↔ ¬ (NonEmpty f.name ∧ NonEmpty f.date) := by
    rw [← hn, ← hd]
    cases nullOrEmpty f.name <;> cases nullOrEmpty f.date <;> simp
  split
  · rename_i h; constructor
    · intro h'; cases h'
    · rintro ⟨h1, _⟩; omega
  · rename_i h1
    split
    · rename_i h; rw [hname] at h
      constructor
      · intro h'; cases h'
      · rintro ⟨_, a, b, _⟩; exact absurd ⟨a, b⟩ h
    · rename_i h2; rw [hname, not_not] at h2
      split
      · rename_i h; constructor
        · intro h'; cases h'
        · rintro ⟨_, _, _, hdig, _⟩
          obtain ⟨a, b, c, d, e⟩ := hdig h.1
          rcases h.2 with h | h | h | h | ⟨h, h'⟩
          · omega
          · omega
          · omega
          · exact absurd h d
          · have := e h; omega
      · rename_i h3
        split
        · rename_i h; constructor
          · intro h'; cases h'
          · rintro ⟨_, _, _, _, hp, _⟩
            exact absurd (hp h.1) (hprev.mp h.2)
        · rename_i h4
          split
          · rename_i h; constructor
            · intro h'; cases h'
            · rintro ⟨_, _, _, _, _, hm⟩
              exact absurd hm (hmeta.mp h)
          · rename_i h5
            simp only [true_iff]
            refine ⟨by omega, h2.1, h2.2, ?_, ?_, ?_⟩
            · intro hd
              have h3' : ¬ (f.startFrame < 0 ∨ f.startByte < 0 ∨ f.endFrame < f.startFrame ∨ f.checksum = none ∨
                (f.endFrame = f.startFrame ∧ f.endByte < f.startByte)) := fun h => h3 ⟨hd, h⟩
              have hck : f.checksum ≠ none := fun hc => h3' (Or.inr (Or.inr (Or.inr (Or.inl hc))))
              refine ⟨by omega, by omega, by omega, hck, ?_⟩
              intro he
              by_cases hlt : f.endByte < f.startByte
              · exact absurd (Or.inr (Or.inr (Or.inr (Or.inr ⟨he, hlt⟩)))) h3'
              · omega
            · intro hp
              by_cases hx : ∃ p, f.preview = some p ∧ ValidPreview p
              · exact hx
              · exact absurd ⟨hp, hprev.mpr hx⟩ h4
            · by_cases hx : ∀ m, f.metadata = some m → ValidFileMeta m
              · exact hx
              · exact absurd (hmeta.mpr hx) h5

theorem C37_files (f : Option Files) :
    Files.isValid f = true ↔ ∃ x, f = some x ∧ ValidFiles x := by
  unfold ValidFiles
  cases f with
  | none => simp [Files.isValid]
  | some x =>
    unfold Files.isValid
    cases hp : x.tocs with
    | none => simp [hp]
    | some l => simp [hp, C37_file]

theorem C37_reel (r : Reel) : r.isValid = true ↔ ValidReel r := by
  have hn := nullOrEmpty_iff r.id
  have hf : (Reel.fileCount (some r) ≠ 0 ∧ Files.isValid r.files = false) ↔
      ¬ ∀ f, r.files = some f → ValidFiles f := by
    have hc : Reel.fileCount (some r) = (reelFiles r).length := by rw [← reelFiles_eq]; rfl
    rw [hc]
    unfold reelFiles
    cases hfs : r.files with
    | none => simp
    | some f =>
      constructor
      · rintro ⟨_, h2⟩ hall
        have := (C37_files (some f)).mpr ⟨f, rfl, hall f rfl⟩
        rw [h2] at this; cases this
      · intro h
        refine ⟨?_, ?_⟩
        · intro h0
          apply h
          intro f' hf' x hx
          cases hf'
          have : f.tocs.getD [] = [] := List.length_eq_zero_iff.mp h0
          rw [this] at hx; simp at hx
        · cases hv : Files.isValid (some f)
          · rfl
          · obtain ⟨x, hx, hx'⟩ := (C37_files (some f)).mp hv
            cases hx
            exact absurd (fun f' h' => by cases h'; exact hx') h
  unfold Reel.isValid ValidReel
  by_cases h1 : Reel.fileCount (some r) ≠ 0 ∧ Files.isValid r.files = false
  · rw [if_pos h1]
    simp only [Bool.false_eq_true, false_iff, not_and]
    intro _; exact hf.mp h1
  · rw [if_neg h1]
    have h1' : ∀ f, r.files = some f → ValidFiles f := by
      by_cases hx : ∀ f, r.files = some f → ValidFiles f
      · exact hx
      · exact absurd (hf.mpr hx) h1
    rw [← hn]
    cases h2 : nullOrEmpty r.id
    · simp; exact h1'
    · simp

theorem C37_reels (r : Option Reels) :
    Reels.isValid r = true ↔ ∃ x, r = some x ∧ ValidReels x := by
  unfold ValidReels
  cases r with
  | none => simp [Reels.isValid]
  | some x => simp [Reels.isValid, Reels.list, C37_reel]

theorem C37_metadata_source (s : MetaSource) : s.isValid = true ↔ ValidMetaSource s := by
  unfold MetaSource.isValid ValidMetaSource MetaSource.FILE_ID_UNDEF
  have h1 := nullOrEmpty_iff s.format
  have h2 := nullOrEmpty_iff s.data
  rw [← h1, ← h2]
  cases nullOrEmpty s.format <;> cases nullOrEmpty s.data <;> simp <;> omega

theorem C37_metadata (m : Option TocMeta) :
    TocMeta.isValid m = true ↔ ∃ x, m = some x ∧ ValidTocMeta x := by
  unfold ValidTocMeta
  cases m with
  | none => simp [TocMeta.isValid]
  | some x =>
    unfold TocMeta.isValid
    cases hp : x.sources with
    | none => simp [hp]
    | some l =>
      simp only [hp]
      cases l with
      | nil => simp [hp]
      | cons a l =>
        simp only [List.length_cons, Nat.succ_ne_zero, if_false, List.all_eq_true, C37_metadata_source]
        constructor
        · intro h; exact ⟨x, rfl, _, hp, by simp, h⟩
        · rintro ⟨y, hy, l', hl, -, h⟩
          cases hy; rw [hp] at hl; cases hl; exact h

theorem C37_toc (t : TocData) : t.isValid = true ↔ ValidToc t := by
  have hv := nullOrEmpty_iff t.version
  have hj := nullOrEmpty_iff t.jobId
  have hr := nullOrEmpty_iff t.reelId
  have hidx : (orEmpty t.indexType ≠ TocData.INDEX_JOB ∧ orEmpty t.indexType ≠ TocData.INDEX_REEL) ↔
      ¬ (t.indexType = some (b! "job") ∨ t.indexType = some (b! "reel")) := by
    cases t.indexType with
    | none => simp [orEmpty, TocData.INDEX_JOB, TocData.INDEX_REEL]
    | some s => simp [orEmpty, TocData.INDEX_JOB, TocData.INDEX_REEL]
  have hreels : (Reels.isValid t.reels = false ∧ t.reels ≠ none) ↔ ¬ ∀ r, t.reels = some r → ValidReels r := by
    cases h : t.reels with
    | none => simp
    | some r =>
      have := C37_reels (some r)
      simp only [Option.some.injEq, exists_eq_left'] at this
      simp only [ne_eq, reduceCtorEq, not_false_eq_true, and_true, Option.some.injEq, forall_eq']
      rw [← this]; simp
  have hlay : (LayoutDefs.isValid t.layouts = false ∧ t.layouts ≠ none) ↔
      ¬ ∀ d, t.layouts = some d → ValidLayouts d := by
    cases h : t.layouts with
    | none => simp
    | some r =>
      have := C37_layouts (some r)
      simp only [Option.some.injEq, exists_eq_left'] at this
      simp only [ne_eq, reduceCtorEq, not_false_eq_true, and_true, Option.some.injEq, forall_eq']
      rw [← this]; simp
  have hmeta : (TocMeta.sourcesCount t.metadata ≠ 0 ∧ TocMeta.isValid t.metadata = false) ↔
      ¬ ∀ m, t.metadata = some m → ∀ s ∈ m.sources.getD [], ValidMetaSource s := by
    cases h : t.metadata with
    | none => simp [TocMeta.sourcesCount]
    | some m =>
      simp only [Option.some.injEq, forall_eq']
      unfold TocMeta.sourcesCount vecSize TocMeta.isValid
      cases hs : m.sources with
      | none => simp [hs]
      | some l =>
        simp only [hs, Option.getD_some, ← C37_metadata_source]
        cases l with
        | nil => simp
        | cons a l =>
          have hall := List.all_eq_true (l := a :: l) (p := MetaSource.isValid)
          rw [← hall]
          simp only [List.length_cons, Nat.succ_ne_zero, ne_eq, not_false_eq_true, if_false, true_and]
          cases (a :: l).all MetaSource.isValid <;> simp
  have e : t.isValid = true ↔
      (nullOrEmpty t.version = false ∧ nullOrEmpty t.jobId = false ∧ nullOrEmpty t.reelId = false ∧
      ¬ (orEmpty t.indexType ≠ TocData.INDEX_JOB ∧ orEmpty t.indexType ≠ TocData.INDEX_REEL) ∧
      ¬ (Reels.isValid t.reels = false ∧ t.reels ≠ none) ∧
      ¬ (LayoutDefs.isValid t.layouts = false ∧ t.layouts ≠ none) ∧
      ¬ (TocMeta.sourcesCount t.metadata ≠ 0 ∧ TocMeta.isValid t.metadata = false)) := by
    unfold TocData.isValid
    cases h1 : nullOrEmpty t.version
    · cases h2 : nullOrEmpty t.jobId
      · cases h3 : nullOrEmpty t.reelId
        · simp only [Bool.false_eq_true, if_false, true_and]
          by_cases a : (orEmpty t.indexType ≠ TocData.INDEX_JOB ∧ orEmpty t.indexType ≠ TocData.INDEX_REEL)
          · rw [if_pos a]; simp only [Bool.false_eq_true, false_iff]; exact fun h => h.1 a
          · rw [if_neg a]
            by_cases b : (Reels.isValid t.reels = false ∧ t.reels ≠ none)
            · rw [if_pos b]; simp only [Bool.false_eq_true, false_iff]; exact fun h => h.2.1 b
            · rw [if_neg b]
              by_cases c : (LayoutDefs.isValid t.layouts = false ∧ t.layouts ≠ none)
              · rw [if_pos c]; simp only [Bool.false_eq_true, false_iff]; exact fun h => h.2.2.1 c
              · rw [if_neg c]
                by_cases d : (TocMeta.sourcesCount t.metadata ≠ 0 ∧ TocMeta.isValid t.metadata = false)
                · rw [if_pos d]; simp only [Bool.false_eq_true, false_iff]; exact fun h => h.2.2.2 d
                · rw [if_neg d]; simp only [true_iff]; exact ⟨a, b, c, d⟩
        · simp
      · simp
    · simp
  rw [e, hv, hj, hr, hidx, hreels, hlay, hmeta]
  simp only [not_not]
  rfl

/-- Every part of a valid TOC is valid. -/
theorem C37_toc_parts (t : TocData) (h : t.isValid = true) :
    (∀ r ∈ (t.reels.bind Reels.reels).getD [], r.isValid = true) ∧
    (∀ f ∈ allFiles t, f.isValid = true) ∧
    (∀ f ∈ allFiles t, previewed f = true → ∃ p, f.preview = some p ∧ Preview.isValid (some p) = true ∧
      ∀ q ∈ p.pages.getD [], q.isValid = true) ∧
    (∀ d ∈ (t.layouts.bind LayoutDefs.defs).getD [], d.isValid = true ∧
      ∀ s ∈ (d.sections.bind Sections.sections).getD [], s.isValid = true) ∧
    (∀ s ∈ (t.metadata.bind TocMeta.sources).getD [], s.isValid = true) := by
  rw [C37_toc] at h
  obtain ⟨-, -, -, -, hr, hl, hm⟩ := h
  have hreel : ∀ r ∈ (t.reels.bind Reels.reels).getD [], ValidReel r := by
    intro r hmem
    cases hrs : t.reels with
    | none => rw [hrs] at hmem; simp at hmem
    | some x => rw [hrs] at hmem; exact hr x hrs r hmem
  have hfile : ∀ f ∈ allFiles t, ValidFile f := by
    intro f hf
    obtain ⟨r, h1, h2⟩ := List.mem_flatMap.mp hf
    cases hfs : r.files with
    | none => rw [hfs] at h2; simp at h2
    | some x => rw [hfs] at h2; exact (hreel r h1).2 x hfs f h2
  refine ⟨fun r h => (C37_reel r).mpr (hreel r h), fun f h => (C37_file f).mpr (hfile f h), ?_, ?_, ?_⟩
  · intro f hf hp
    obtain ⟨p, h1, h2⟩ := (hfile f hf).2.2.2.2.1 hp
    refine ⟨p, h1, (C37_preview (some p)).mpr ⟨p, rfl, h2⟩, ?_⟩
    obtain ⟨l, h3, _, h4⟩ := h2
    intro q hq
    rw [h3] at hq
    exact (C37_page q).mpr (h4 q hq)
  · intro d hd
    cases hls : t.layouts with
    | none => rw [hls] at hd; simp at hd
    | some x =>
      rw [hls] at hd
      have hvl := hl x hls d hd
      refine ⟨(C37_layout d).mpr hvl, ?_⟩
      obtain ⟨s, h1, l, h2, _, h3, _⟩ := hvl.2.2
      intro y hy
      rw [h1] at hy
      have hy' : y ∈ s.sections.getD [] := hy
      rw [h2] at hy'
      exact (C37_section y).mpr (h3 y hy')
  · intro s hs
    cases hms : t.metadata with
    | none => rw [hms] at hs; simp at hs
    | some m => rw [hms] at hs; exact (C37_metadata_source s).mpr (hm m hms s hs)

/-- Non-vacuity: a valid TOC with a file, a preview and a layout; and an invalid one. -/
def validToc : TocData :=
  { usedToc with
    version := some (b! "1"), jobId := some (b! "j"), reelId := some (b! "r"), indexType := some (b! "reel") }

example : validToc.isValid = true := by decide
example : { validToc with indexType := some (b! "roll") }.isValid = false := by decide

end Afs
