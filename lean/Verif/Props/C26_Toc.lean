import Verif.Proof.IoToc
import Verif.Props.C25_Files
/-! # C26: reels, reel lists and whole tables of contents survive being saved and loaded -/
namespace Afs
open Spec Xml

theorem indent_white (k : Nat) : (indent k).all isTrimByte = true := by
  unfold indent
  rw [List.all_eq_true]
  intro c hc
  rcases List.mem_cons.mp hc with rfl | hc
  · decide
  · rw [List.mem_replicate] at hc; rw [hc.2]; decide

theorem reelCb_space : SpaceCb Reel.cb :=
  cb_white (by intro a n w; unfold Reel.cb; dsimp only; (repeat' refine all_ite ?_ ?_) <;> first | exact indent_white _ | rfl)
theorem reelsCb_space : SpaceCb Reels.cb :=
  cb_white (by intro a n w; unfold Reels.cb; dsimp only; (repeat' refine all_ite ?_ ?_) <;> first | exact indent_white _ | rfl)
theorem tocCb_space : SpaceCb TocData.cb :=
  cb_white (by intro a n w; unfold TocData.cb; dsimp only; (repeat' refine all_ite ?_ ?_) <;> first | exact indent_white _ | rfl)

/-- Every writable reel, compact or indented, through a string or a file, loads as its id and its
    files in order (each as `File.asLoaded` says). -/
theorem C26_reel_general (r : Reel) (h : r.writable) (compact : Bool) :
    (∃ t, r.saveString compact = some t ∧ Reel.create.loadString t = (true, r.asLoaded)) ∧
    (∃ t, r.saveFile compact = (true, some t) ∧ Reel.create.loadFile t = (true, r.asLoaded)) := by
  unfold Reel.saveString Reel.saveFile Reel.loadString Reel.loadFile
  rw [Reel.saveXml_eq h, if_neg (by simp [h.1])]
  exact doc_roundtrip reelCb_space compact (by decide) (Reel.node_savable h) _ _ _ fun T hT => by
    obtain ⟨d, h1, h2⟩ := isRead_doc (nm := b! "reel") (by decide) rfl hT
    exact Reel.loadXml_of h h1 h2

/-- A storable reel loads as itself. -/
theorem C26_reel (r : Reel) (h : r.storable) (compact : Bool) :
    (∃ t, r.saveString compact = some t ∧ Reel.create.loadString t = (true, r)) ∧
    (∃ t, r.saveFile compact = (true, some t) ∧ Reel.create.loadFile t = (true, r)) := by
  have := C26_reel_general r h.1 compact
  rwa [Reel.asLoaded_of h] at this

/-- The same for lists of reels. -/
theorem C26_reels_general (r : Reels) (h : ∀ x ∈ r.list, x.writable) (compact : Bool) :
    (∃ t, r.saveString compact = some t ∧ Reels.create.loadString t = (true, r.asLoaded)) ∧
    (∃ t, r.saveFile compact = (true, some t) ∧ Reels.create.loadFile t = (true, r.asLoaded)) := by
  unfold Reels.saveString Reels.saveFile Reels.loadString Reels.loadFile
  rw [Reels.saveXml_eq h]
  exact doc_roundtrip reelsCb_space compact (by decide) (Reels.node_savable h) _ _ _ fun T hT => Reels.loadXml_doc h hT

theorem C26_reels (r : Reels) (h : r.storable) (compact : Bool) :
    (∃ t, r.saveString compact = some t ∧ Reels.create.loadString t = (true, r)) ∧
    (∃ t, r.saveFile compact = (true, some t) ∧ Reels.create.loadFile t = (true, r)) := by
  have := C26_reels_general r (fun x hx => (h.2 x hx).1) compact
  rwa [Reels.asLoaded_of h] at this

/-- Every writable table of contents, compact or indented, through a string or a file, loads as
    `asLoaded`: all reels, files, previews, metadata sources and layout definitions in order;
    containers without entries become NULL.  Nothing is left of what the object held before. -/
theorem C26_toc_general (t : TocData) (h : t.writable) (before : TocData) (compact : Bool) :
    (∃ s, t.saveString compact = some s ∧ before.loadString s = .ok (true, t.asLoaded)) ∧
    (∃ s, t.saveFile compact = (true, some s) ∧ before.loadFile s = .ok (true, t.asLoaded)) := by
  unfold TocData.saveString TocData.saveFile TocData.loadString TocData.loadFile
  rw [TocData.saveXml_eq h, if_neg (by simp [h.1])]
  exact doc_roundtrip tocCb_space compact (by decide) (TocData.node_savable h) _ _ _ fun T hT => by
    obtain ⟨d, h1, h2⟩ := isRead_doc (nm := b! "Index") (by decide) rfl hT
    exact TocData.loadXml_of h h1 h2

/-- A storable table of contents without empty container objects loads as itself. -/
theorem C26_toc (t : TocData) (h : t.storable)
    (h1 : t.metadata ≠ some ⟨none⟩ ∧ t.metadata ≠ some ⟨some []⟩)
    (h2 : t.layouts ≠ some ⟨none⟩ ∧ t.layouts ≠ some ⟨some []⟩)
    (h3 : t.reels ≠ some ⟨none⟩ ∧ t.reels ≠ some ⟨some []⟩) (before : TocData) (compact : Bool) :
    (∃ s, t.saveString compact = some s ∧ before.loadString s = .ok (true, t)) ∧
    (∃ s, t.saveFile compact = (true, some s) ∧ before.loadFile s = .ok (true, t)) := by
  have := C26_toc_general t h.1 before compact
  rwa [TocData.asLoaded_of h h1 h2 h3] at this

/-- With or without empty container objects, a storable table of contents loads as one that
    `afs_toc_data_equal` calls equal. -/
theorem C26_toc_equal (t : TocData) (h : t.storable) (before : TocData) (compact : Bool) :
    ∃ s u, t.saveString compact = some s ∧ before.loadString s = .ok (true, u) ∧
      TocData.equal (some t) (some u) = true := by
  obtain ⟨⟨s, h1, h2⟩, _⟩ := C26_toc_general t h.1 before compact
  refine ⟨s, _, h1, h2, ?_⟩
  rw [C05_toc_equal_iff]
  simp only [Option.map_some, Option.some.injEq]
  have e1 : reelsField t.reels = reelsField t.asLoaded.reels := by
    unfold reelsField TocData.asLoaded
    have hs := h.2
    unfold TocData.reelList at hs
    cases hr : t.reels with
    | none => rfl
    | some r =>
      rw [hr] at hs
      simp only [Option.bind_some]
      split
      · rename_i he
        have he' : r.reels.getD [] = [] := he
        simp [he']
      · rename_i he
        simp only [Option.bind_some]
        rw [Reels.asLoaded_of ⟨fun e => he (by unfold Reels.list; rw [e]; rfl), hs⟩]
  have e2 : metaField t.metadata = metaField t.asLoaded.metadata := by
    unfold metaField TocData.asLoaded
    cases t.metadata with
    | none => rfl
    | some m =>
      simp only [Option.bind_some]
      split
      · rename_i he; simp [he]
      · rfl
  have e3 : layoutsField t.layouts = layoutsField t.asLoaded.layouts := by
    unfold layoutsField TocData.asLoaded
    cases t.layouts with
    | none => rfl
    | some m =>
      simp only [Option.bind_some]
      split
      · rename_i he; simp [he]
      · rfl
  unfold tocContent
  rw [e1, e2, e3]
  rfl

/-! ### Example -/

def exToc : TocData where
  version := some (b! "1.2")
  indexType := some (b! "reel")
  jobId := some (b! "job <7>")
  reelId := some (b! "reel & 1")
  reels := some ⟨some [⟨some (b! "r1"), some ⟨some [exFile, { exFile with id := 5, types := 1, preview := none, metadata := none }]⟩⟩,
    ⟨some (b! "r2"), none⟩]⟩
  metadata := some ⟨some [⟨some (b! "xml"), 1, -1, some (b! "<m>1</m>"), some (splitOn semicolon (b! "a;b"))⟩]⟩
  layouts := some ⟨some [⟨some (b! "L1"), some (b! "full page"), some ⟨some [⟨0, 0, 0, 100, 200, 0⟩, ⟨1, 100, 0, 50, 50, 90⟩]⟩⟩]⟩

theorem exFile2_storable : { exFile with id := 5, types := 1, preview := none, metadata := none : File }.storable := by
  refine ⟨⟨by decide, attrField_ascii (by decide), textField_ascii (by decide), textField_ascii (by decide), textField_ascii (by decide),
    by decide, by decide, by decide, by decide, by decide, by decide, by decide, fun _ => .inr (textField_ascii (by decide)),
    fun h => absurd h (by decide), fun h => absurd h (by decide)⟩, by decide, by decide, by decide, fun _ => rfl, fun _ => rfl⟩

theorem exToc_storable : exToc.storable := by
  have hf : ∀ x ∈ [exFile, { exFile with id := 5, types := 1, preview := none, metadata := none }], File.storable x := by
    intro x hx
    simp only [List.mem_cons, List.not_mem_nil, or_false] at hx
    rcases hx with rfl | rfl
    · exact exFile_storable
    · exact exFile2_storable
  have hr : ∀ x ∈ exToc.reelList, x.storable := by
    intro x hx
    have hx' : x ∈ ([_, _] : List Reel) := hx
    simp only [List.mem_cons, List.not_mem_nil, or_false] at hx'
    rcases hx' with rfl | rfl
    · refine ⟨⟨by decide, textField_ascii (by decide), fun y hy => (hf y hy).1⟩, ?_⟩
      intro f hq
      injection hq with hq
      subst hq
      exact ⟨by simp, hf⟩
    · refine ⟨⟨by decide, textField_ascii (by decide), fun y hy => by cases hy⟩, ?_⟩
      intro f hq; cases hq
  refine ⟨⟨by decide, attrField_ascii (by decide), textField_ascii (by decide), textField_ascii (by decide), ?_, ?_,
    fun x hx => (hr x hx).1⟩, hr⟩
  · intro m hm _
    injection hm with hm
    subst hm
    refine ⟨by decide, ?_⟩
    intro x hx
    simp only [Option.getD_some, List.mem_singleton] at hx
    subst hx
    refine ⟨by decide, attrField_ascii (by decide), by decide, by decide, ?_, ?_⟩
    · intro d hd
      injection hd with hd
      subst hd
      exact ⟨clean_ascii (by decide), by decide⟩
    · intro l hl
      injection hl with hl
      exact ⟨b! "a;b", textField_ascii (by decide), hl.symm⟩
  · intro d hd _
    injection hd with hd
    subst hd
    refine ⟨by simp, by simp, ?_⟩
    intro x hx
    simp only [Option.getD_some, List.mem_singleton] at hx
    subst hx
    refine ⟨by decide, textField_ascii (by decide), textField_ascii (by decide), ?_⟩
    intro s hs
    injection hs with hs
    subst hs
    refine ⟨by decide, by decide, ?_⟩
    intro y hy
    simp only [Option.getD_some, List.mem_cons, List.not_mem_nil, or_false] at hy
    rcases hy with rfl | rfl <;> exact ⟨by decide, by decide, by decide, by decide, by decide, by decide⟩

/-- The example document comes back identically. -/
theorem exToc_roundtrip (compact : Bool) :
    ∃ s, exToc.saveString compact = some s ∧ TocData.create.loadString s = .ok (true, exToc) :=
  (C26_toc exToc exToc_storable (by decide) (by decide) (by decide) TocData.create compact).1

end Afs
