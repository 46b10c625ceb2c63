import Verif.Proof.IoLayout
import Verif.Proof.IoPreview
/-!
# C22 preview pages survive save and load; C23 layouts survive save and load

Every theorem covers both output forms (indented with the object's own white-space callback, and
compact) and both the string and the file functions.
-/
namespace Afs
open Spec Xml

/-! ### The white-space callbacks only produce blanks -/

theorem pageCb_space : SpaceCb Page.cb := cb_white (by intro a n w; unfold Page.cb cbOf; dsimp only; (repeat' split) <;> decide)
theorem previewCb_space : SpaceCb Preview.cb :=
  cb_white (by intro a n w; unfold Preview.cb cbOf; dsimp only; (repeat' split) <;> decide)
theorem sectionCb_space : SpaceCb Section.cb :=
  cb_white (by intro a n w; unfold Section.cb cbOf; dsimp only; (repeat' split) <;> decide)
theorem sectionsCb_space : SpaceCb Sections.cb :=
  cb_white (by intro a n w; unfold Sections.cb cbOf; dsimp only; (repeat' split) <;> decide)
theorem layoutCb_space : SpaceCb LayoutDef.cb :=
  cb_white (by intro a n w; unfold LayoutDef.cb cbOf; dsimp only; (repeat' split) <;> decide)
theorem layoutsCb_space : SpaceCb LayoutDefs.cb :=
  cb_white (by intro a n w; unfold LayoutDefs.cb cbOf; dsimp only; (repeat' split) <;> decide)

/-! ### C22 -/

/-- What a saved page loads as, for every page whose layout id can be written: the same page,
    except that a dimension or overlap with exactly one zero becomes 0×0. -/
theorem C22_page_general (p : Page) (h : p.writable) (compact : Bool) (q : Page) :
    (∃ t, p.saveString compact = some t ∧ q.loadString t = (true, p.asLoaded)) ∧
    (∃ t, p.saveFile compact = (true, some t) ∧ q.loadFile t = (true, p.asLoaded)) := by
  unfold Page.saveString Page.saveFile Page.loadString Page.loadFile
  rw [Page.saveXml_eq]
  refine doc_roundtrip pageCb_space compact (by decide) (Page.node_savable h.1) _ _ _ fun T hT => ?_
  obtain ⟨d, h1, h2⟩ := isRead_doc (nm := b! "pages") (by decide) rfl hT
  exact Page.loadXml_asLoaded h h1 h2

/-- A saved page loads as the same page, into whatever page object it is loaded. -/
theorem C22_page (p : Page) (h : p.storable) (compact : Bool) (q : Page) :
    (∃ t, p.saveString compact = some t ∧ q.loadString t = (true, p)) ∧
    (∃ t, p.saveFile compact = (true, some t) ∧ q.loadFile t = (true, p)) := by
  have := C22_page_general p h.1 compact q
  rwa [Page.asLoaded_of h] at this

/-- The exception is real: a page of dimension 5×0 comes back with dimension 0×0. -/
theorem C22_one_zero_lost (compact : Bool) (q : Page) :
    ∃ t, (Page.mk (some (b! "a")) 1 0 1 5 0 0 0).saveString compact = some t ∧
      q.loadString t = (true, Page.mk (some (b! "a")) 1 0 1 0 0 0 0) :=
  (C22_page_general ⟨some (b! "a"), 1, 0, 1, 5, 0, 0, 0⟩
    ⟨by rintro t h; cases h; exact clean_ascii (by decide), by decide, by decide, by decide, by decide, by decide, by decide, by decide⟩
    compact q).1

/-- A saved preview loads as the same preview: all pages in order and the dpi value. -/
theorem C22_preview (p : Preview) (h : p.storable) (compact : Bool) :
    (∃ t, p.saveString compact = some t ∧ Preview.create.loadString t = (true, p)) ∧
    (∃ t, p.saveFile compact = (true, some t) ∧ Preview.create.loadFile t = (true, p)) := by
  unfold Preview.saveString Preview.saveFile Preview.loadString Preview.loadFile
  rw [Preview.saveXml_eq h.1]
  refine doc_roundtrip previewCb_space compact (by decide) (Preview.node_savable h) _ _ _ fun T hT => ?_
  obtain ⟨d, h1, h2⟩ := isRead_doc (nm := b! "preview") (by decide) rfl hT
  exact Preview.loadXml_of h h1 h2

/-- Non-trivial instance: two pages, markup characters in a layout id, an overlap. -/
example : (Preview.mk (some [⟨some (b! "a<&>\"b"), 7, 1, 3, 640, 480, 10, 20⟩, ⟨some (b! "x"), 8, 0, 1, 0, 0, 0, 0⟩]) 300).storable := by
  refine ⟨by decide, by decide, by decide, ?_⟩
  intro x hx
  simp only [Option.getD_some, List.mem_cons, List.not_mem_nil, or_false] at hx
  rcases hx with rfl | rfl
  · exact ⟨⟨by rintro t h; cases h; exact clean_ascii (by decide), by decide, by decide, by decide, by decide, by decide,
      by decide, by decide⟩, by decide, by decide⟩
  · exact ⟨⟨by rintro t h; cases h; exact clean_ascii (by decide), by decide, by decide, by decide, by decide, by decide,
      by decide, by decide⟩, by decide, by decide⟩

/-! ### C23 -/

/-- A valid section loads as itself. -/
theorem C23_section (s : Section) (hv : s.isValid = true) (hr : s.inRange) (compact : Bool) (q : Section) :
    (∃ t, s.saveString compact = some t ∧ q.loadString t = (true, s)) ∧
    (∃ t, s.saveFile compact = (true, some t) ∧ q.loadFile t = (true, s)) := by
  unfold Section.saveString Section.saveFile Section.loadString Section.loadFile
  rw [if_neg (by simp [hv])]
  rw [Section.saveXml_eq hv]
  refine doc_roundtrip sectionCb_space compact (by decide) s.node_savable _ _ _ fun T hT => ?_
  obtain ⟨d, h1, h2⟩ := isRead_doc (nm := b! "section") (by decide) rfl hT
  exact Section.loadXml_of hr hv h1 h2

/-- A list of sections loads as itself, in the same order. -/
theorem C23_sections (s : Sections) (h : s.storable) (compact : Bool) :
    (∃ t, s.saveString compact = some t ∧ Sections.create.loadString t = (true, s)) ∧
    (∃ t, s.saveFile compact = (true, some t) ∧ Sections.create.loadFile t = (true, s)) := by
  unfold Sections.saveString Sections.saveFile Sections.loadString Sections.loadFile
  rw [if_neg (by simp [h.1])]
  rw [Sections.saveXml_eq h.1]
  refine doc_roundtrip sectionsCb_space compact (by decide) s.node_savable _ _ _ fun T hT => ?_
  obtain ⟨d, h1, h2⟩ := isRead_doc (nm := b! "sections") (by decide) rfl hT
  exact Sections.loadXml_of h h1 h2

/-- A layout definition loads as itself. -/
theorem C23_layout (d q : LayoutDef) (h : d.storable) (compact : Bool) :
    (∃ t, d.saveString compact = some t ∧ q.loadString t = (true, d)) ∧
    (∃ t, d.saveFile compact = (true, some t) ∧ q.loadFile t = (true, d)) := by
  unfold LayoutDef.saveString LayoutDef.saveFile LayoutDef.loadString LayoutDef.loadFile
  rw [LayoutDef.saveXml_eq h.1]
  refine doc_roundtrip layoutCb_space compact (by decide) (LayoutDef.node_savable h) _ _ _ fun T hT => ?_
  obtain ⟨x, h1, h2⟩ := isRead_doc (nm := b! "previewLayout") (by decide) rfl hT
  exact LayoutDef.loadXml_of h h1 h2

/-- A list of layout definitions loads as itself, in the same order, without undefined
    behaviour.  (`save_string` writes the element alone, `save_file` a document.) -/
theorem C23_layouts (d : LayoutDefs) (h : d.storable) (compact : Bool) :
    (∃ t, d.saveString compact = some t ∧ LayoutDefs.create.loadString t = .ok (true, d)) ∧
    (∃ t, d.saveFile compact = (true, some t) ∧ LayoutDefs.create.loadFile t = .ok (true, d)) := by
  unfold LayoutDefs.saveString LayoutDefs.saveFile LayoutDefs.loadString LayoutDefs.loadFile
  rw [if_neg (by simp [LayoutDefs.storable_valid h])]
  rw [LayoutDefs.saveXml_eq h]
  constructor
  · refine elem_roundtrip layoutsCb_space compact (by decide) (LayoutDefs.node_savable h) _ _ _ fun T hT => ?_
    exact LayoutDefs.loadXml_of h (isRead_self hT rfl) hT
  · refine (doc_roundtrip layoutsCb_space compact (by decide) (LayoutDefs.node_savable h) _ _ _ fun T hT => ?_).2
    obtain ⟨x, h1, h2⟩ := isRead_doc (nm := b! "layoutDefinitions") (by decide) rfl hT
    exact LayoutDefs.loadXml_of h h1 h2

/-! ### Section lists built by the API are storable -/

/-- The lists the API builds from a fresh object by appending sections that fit C. -/
inductive BuiltSections : Sections → Prop
  | create : BuiltSections Sections.create
  | append {s x} : BuiltSections s → x.inRange → BuiltSections (s.append (some x)).2

theorem admissible_parts {x : Section} {l : List Section} (h : Sections.admissible x l = true) :
    (∀ c ∈ l, c.id ≠ x.id) ∧ (∀ c ∈ l, Section.isOverlap c x = false) := by
  induction l with
  | nil => simp
  | cons c l ih =>
    rw [Sections.admissible] at h
    split at h
    · cases h
    · split at h
      · cases h
      · rename_i h1 h2
        obtain ⟨a, b⟩ := ih h
        refine ⟨?_, ?_⟩
        · intro y hy; rcases List.mem_cons.mp hy with rfl | hy
          · exact h1
          · exact a y hy
        · intro y hy; rcases List.mem_cons.mp hy with rfl | hy
          · simpa using h2
          · exact b y hy

theorem validLoop_snoc {l : List Section} {x : Section} (hl : Sections.validLoop l = true) (hx : x.isValid = true)
    (ho : ∀ c ∈ l, Section.isOverlap c x = false) : Sections.validLoop (l ++ [x]) = true := by
  induction l with
  | nil => rw [List.nil_append, Sections.validLoop, Sections.validLoop]; simp [hx]
  | cons c l ih =>
    rw [Sections.validLoop] at hl
    simp only [Bool.and_eq_true, List.all_eq_true, Bool.not_eq_true'] at hl
    rw [List.cons_append, Sections.validLoop, ih hl.2 (fun c hc => ho c (by simp [hc]))]
    simp only [Bool.and_true, Bool.and_eq_true, List.all_eq_true, Bool.not_eq_true', List.mem_append, List.mem_singleton]
    refine ⟨hl.1.1, ?_⟩
    rintro y (hy | rfl)
    · exact hl.1.2 y hy
    · exact ho c (by simp)

/-- Every section list built through the API, other than an empty one, is storable, so it
    survives save and load by `C23_sections`. -/
theorem C23_built_sections_storable (s : Sections) (h : BuiltSections s) (hne : s.sections ≠ none) : s.storable := by
  have key : (s.sections = none ∨ ∃ l, s.sections = some l ∧ l ≠ []) ∧ ((s.sections.getD []).map Section.id).Nodup ∧
      (∀ x ∈ s.sections.getD [], x.inRange) ∧ Sections.validLoop (s.sections.getD []) = true := by
    clear hne
    induction h with
    | create => exact ⟨.inl rfl, by simp [Sections.create], by simp [Sections.create], by simp [Sections.create, Sections.validLoop]⟩
    | @append s x hs hx ih =>
      obtain ⟨i1, i2, i3, i4⟩ := ih
      unfold Sections.append
      simp only
      split
      · exact ⟨i1, i2, i3, i4⟩
      · split
        · exact ⟨i1, i2, i3, i4⟩
        · rename_i hv ha
          have ha' : Sections.admissible x (s.sections.getD []) = true := by simpa using ha
          have hv' : x.isValid = true := by simpa using hv
          obtain ⟨a1, a2⟩ := admissible_parts ha'
          have e : vecAppend s.sections x = some (s.sections.getD [] ++ [x]) := by
            cases s.sections <;> rfl
          simp only [e, Option.getD_some]
          refine ⟨.inr ⟨_, rfl, by simp⟩, ?_, ?_, validLoop_snoc i4 hv' a2⟩
          · rw [List.map_append, List.nodup_append]
            refine ⟨i2, by simp, ?_⟩
            intro a ha b hb
            obtain ⟨c, hc, rfl⟩ := List.mem_map.mp ha
            simp at hb
            subst hb
            exact a1 c hc
          · intro y hy
            rcases List.mem_append.mp hy with hy | hy
            · exact i3 y hy
            · simp at hy; subst hy; exact hx
  obtain ⟨k1, k2, k3, k4⟩ := key
  rcases k1 with k1 | ⟨l, k1, k5⟩
  · exact absurd k1 hne
  · refine ⟨?_, k2, k3⟩
    obtain ⟨o⟩ := s
    simp only at k1
    subst k1
    show (if l.length = 0 then false else Sections.validLoop l) = true
    rw [if_neg (by simpa using k5)]
    exact k4

/-! ### The excluded cases are really lost -/

set_option maxRecDepth 100000 in
/-- Two sections with the same id that do not overlap form a valid list which is saved, but what
    is saved cannot be loaded. -/
theorem C23_duplicate_ids_not_loadable :
    let s : Sections := ⟨some [⟨1, 0, 0, 5, 5, 0⟩, ⟨1, 10, 0, 5, 5, 0⟩]⟩
    Sections.isValid (some s) = true ∧
      ∃ t, s.saveString true = some t ∧ (Sections.create.loadString t).1 = false := by
  refine ⟨by decide, _, rfl, ?_⟩
  decide +kernel

set_option maxRecDepth 100000 in
/-- An empty list of layout definitions loads as an object without a list. -/
theorem C23_empty_list_becomes_null :
    ∃ t, (LayoutDefs.mk (some [])).saveString true = some t ∧
      LayoutDefs.create.loadString t = .ok (true, ⟨none⟩) := ⟨_, rfl, rfl⟩

set_option maxRecDepth 100000 in
/-- Blanks around a name are lost. -/
theorem C23_name_trimmed :
    let d : LayoutDef := ⟨some (b! "a"), some (b! " b "), some ⟨some [⟨1, 0, 0, 5, 5, 0⟩]⟩⟩
    ∃ t, d.saveString true = some t ∧ LayoutDef.create.loadString t = (true, { d with name := some (b! "b") }) :=
  ⟨_, rfl, by decide +kernel⟩

/-- Non-trivial instance of the hypotheses of `C23_layouts`. -/
example : (LayoutDefs.mk (some [⟨some (b! "l1"), some (b! "a <b> & c"), some ⟨some [⟨1, 0, 0, 4000000000, 5, 0⟩, ⟨2, 0, 5, 5, 5, 90⟩]⟩⟩,
    ⟨some (b! "l2"), some (b! "z"), some ⟨some [⟨1, 0, 0, 5, 5, 0⟩]⟩⟩])).storable := by
  refine ⟨by simp, by decide, ?_⟩
  intro x hx
  simp only [Option.getD_some, List.mem_cons, List.not_mem_nil, or_false] at hx
  rcases hx with rfl | rfl
  · refine ⟨by decide, textField_ascii (by decide), textField_ascii (by decide), ?_⟩
    intro s hs
    cases hs
    exact ⟨by decide, by decide, by simp [Section.inRange, IsUInt]⟩
  · refine ⟨by decide, textField_ascii (by decide), textField_ascii (by decide), ?_⟩
    intro s hs
    cases hs
    exact ⟨by decide, by decide, by simp [Section.inRange, IsUInt]⟩

end Afs
