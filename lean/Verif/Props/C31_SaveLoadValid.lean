import Verif.Proof.LoadValid
/-! # C31: only valid objects are saved; what loading guarantees for every document -/
namespace Afs
open Spec Xml

/-! ### Saving -/

/-- Saving succeeds exactly for valid objects; a failing save leaves the file untouched. -/
def SavesOnlyValid (valid : Bool) (str : Option Bytes) (file : Bool × Option Bytes) : Prop :=
  (valid = true → (∃ t, str = some t) ∧ ∃ t, file = (true, some t)) ∧
  (valid = false → str = none ∧ file = (false, none))

theorem doc_some (cb : SaveCb) (compact : Bool) (n : Node) : ∃ t, docString cb compact (some n) = some t :=
  ⟨_, saveAlloc_elem _ _ _ _ _⟩

theorem elem_some (cb : SaveCb) (compact : Bool) (n as cs) : ∃ t, elemString cb compact (some (.elem n as cs)) = some t :=
  ⟨_, saveAlloc_elem _ _ _ _ _⟩

theorem file_some (f : Bool) (cb : SaveCb) (compact : Bool) (n : Node) : ∃ t, docFile f cb compact (some n) = (true, some t) := ⟨_, rfl⟩

/-- Objects written as whole documents whose validity is tested before the file is opened. -/
theorem savesOnlyValid_guard {v : Bool} {x : Option Node} (cb : SaveCb) (compact : Bool)
    (h1 : v = true → ∃ n, x = some n) (h2 : v = false → x = none) :
    SavesOnlyValid v (docString cb compact x) (if v = false then (false, none) else docFile true cb compact x) := by
  constructor
  · intro hv
    obtain ⟨n, rfl⟩ := h1 hv
    subst hv
    exact ⟨doc_some cb compact n, file_some true cb compact n⟩
  · intro hv
    rw [h2 hv]
    subst hv
    exact ⟨rfl, rfl⟩

/-- Objects whose document is built before the file is opened. -/
theorem savesOnlyValid_doc {v : Bool} {x : Option Node} (cb : SaveCb) (compact : Bool)
    (h1 : v = true → ∃ n, x = some n) (h2 : v = false → x = none) :
    SavesOnlyValid v (docString cb compact x) (docFile false cb compact x) := by
  constructor
  · intro hv
    obtain ⟨n, rfl⟩ := h1 hv
    exact ⟨doc_some cb compact n, file_some false cb compact n⟩
  · intro hv
    rw [h2 hv]
    exact ⟨rfl, rfl⟩

theorem section_saves {s : Section} (h : s.isValid = true) : ∃ n, s.saveXml = some n := ⟨_, Section.saveXml_eq h⟩

theorem C31_section_save (s : Section) (compact : Bool) : SavesOnlyValid s.isValid (s.saveString compact) (s.saveFile compact) :=
  savesOnlyValid_guard _ _ section_saves (fun h => by unfold Section.saveXml; simp [h])

theorem C31_sections_save (s : Sections) (compact : Bool) :
    SavesOnlyValid (Sections.isValid (some s)) (s.saveString compact) (s.saveFile compact) :=
  savesOnlyValid_guard _ _ (fun h => ⟨_, Sections.saveXml_eq h⟩) (fun h => by unfold Sections.saveXml; simp [h])

theorem C31_layout_definition_save (s : LayoutDef) (compact : Bool) :
    SavesOnlyValid s.isValid (s.saveString compact) (s.saveFile compact) :=
  savesOnlyValid_doc _ _ (fun h => ⟨_, LayoutDef.saveXml_eq h⟩) (fun h => by unfold LayoutDef.saveXml; simp [h])

theorem defs_list_valid {d : LayoutDefs} (h : LayoutDefs.isValid (some d) = true) : ∀ x ∈ d.defs.getD [], x.isValid = true := by
  obtain ⟨o⟩ := d
  cases o with
  | none => intro x hx; cases hx
  | some l => exact List.all_eq_true.mp h

theorem layouts_saves {d : LayoutDefs} (h : LayoutDefs.isValid (some d) = true) :
    ∃ as cs, LayoutDefs.saveXml (some d) = some (.elem (b! "layoutDefinitions") as cs) := by
  unfold LayoutDefs.saveXml
  obtain ⟨r, hr⟩ := mapM_isSome (f := LayoutDef.saveXml) (l := d.defs.getD [])
    (fun x hx => by rw [LayoutDef.saveXml_eq (defs_list_valid h x hx)]; rfl)
  simp only [h, Bool.true_eq_false, if_false, hr]
  exact ⟨_, _, rfl⟩

theorem C31_layout_definitions_save (d : LayoutDefs) (compact : Bool) :
    SavesOnlyValid (LayoutDefs.isValid (some d)) (d.saveString compact) (d.saveFile compact) := by
  unfold LayoutDefs.saveString LayoutDefs.saveFile
  constructor
  · intro h
    obtain ⟨as, cs, hx⟩ := layouts_saves h
    rw [hx, if_neg (by simp [h])]
    exact ⟨elem_some _ _ _ _ _, file_some _ _ _ _⟩
  · intro h
    rw [if_pos h]
    unfold LayoutDefs.saveXml
    simp [h, elemString]

theorem C31_preview_save (p : Preview) (compact : Bool) :
    SavesOnlyValid (Preview.isValid (some p)) (p.saveString compact) (p.saveFile compact) :=
  savesOnlyValid_doc _ _ (fun h => ⟨_, Preview.saveXml_eq h⟩) (fun h => by unfold Preview.saveXml; simp [h])

theorem C31_metadata_source_save (s : MetaSource) (compact : Bool) :
    SavesOnlyValid s.isValid (s.saveString compact) (s.saveFile compact) :=
  savesOnlyValid_guard _ _ (fun h => ⟨_, MetaSource.saveXml_eq h⟩) (fun h => by unfold MetaSource.saveXml; simp [h])

theorem C31_metadata_save (m : TocMeta) (compact : Bool) :
    SavesOnlyValid (TocMeta.isValid (some m)) (m.saveString compact) (m.saveFile compact) := by
  unfold TocMeta.saveString TocMeta.saveFile
  constructor
  · intro h
    rw [TocMeta.saveXml_eq h]
    exact ⟨elem_some _ _ _ _ _, file_some _ _ _ _⟩
  · intro h
    unfold TocMeta.saveXml
    simp [h, elemString, docFile]

theorem C31_file_metadata_source_save (s : FileMetaSource) (compact : Bool) :
    SavesOnlyValid s.isValid (s.saveString compact) (s.saveFile compact) :=
  savesOnlyValid_guard _ _ (fun h => ⟨_, FileMetaSource.saveXml_eq h⟩) (fun h => by unfold FileMetaSource.saveXml; simp [h])

theorem C31_file_metadata_save (m : FileMeta) (compact : Bool) :
    SavesOnlyValid (FileMeta.isValid (some m)) (m.saveString compact) (m.saveFile compact) := by
  unfold FileMeta.saveString FileMeta.saveFile
  constructor
  · intro h
    have hv : ∀ x ∈ m.sources.getD [], x.isValid = true := by
      obtain ⟨o⟩ := m
      cases o with
      | none => intro x hx; cases hx
      | some l => exact List.all_eq_true.mp h
    obtain ⟨r, hr⟩ := mapM_isSome (f := FileMetaSource.saveXml) (l := m.sources.getD [])
      (fun x hx => by rw [FileMetaSource.saveXml_eq (hv x hx)]; rfl)
    unfold FileMeta.saveXml
    simp only [h, Bool.true_eq_false, if_false, hr]
    exact ⟨elem_some _ _ _ _ _, file_some _ _ _ _⟩
  · intro h
    unfold FileMeta.saveXml
    simp [h, elemString, docFile]

theorem addChild_isElem {n : Node} (h : isElem n = true) (c : Node) : isElem (n.addChild c) = true := by
  cases n with
  | text => cases h
  | elem => rfl

theorem foldl_isElem (l : List Node) {n : Node} (h : isElem n = true) : isElem (l.foldl Node.addChild n) = true := by
  induction l generalizing n with
  | nil => exact h
  | cons c l ih => exact ih (addChild_isElem h c)

theorem addOpt_isElem {n : Node} (h : isElem n = true) (c : Option Node) : isElem (addOpt n c) = true := by
  cases c with
  | none => exact h
  | some c => exact addChild_isElem h c

/-- A valid file entry can always be saved. -/
theorem file_saves {f : File} (h : f.isValid = true) (v1 : Bool) : ∃ n as cs, f.saveXml v1 = some (.elem n as cs) := by
  have : ∃ x, f.saveXml v1 = some x ∧ isElem x = true := by
    unfold File.saveXml
    rw [if_neg (by simp [h])]
    refine ⟨_, rfl, ?_⟩
    have h0 : isElem (setAttrOpt (Node.new (b! "file")) (b! "formatId") f.fileFormat) = true := by
      cases f.fileFormat <;> rfl
    have h4 := foldl_isElem (textNode (b! "date") f.date) (foldl_isElem (textNode (b! "name") f.name)
      (foldl_isElem (textNode (b! "uniqueId") f.uniqueId) (addChild_isElem h0 (intNode (b! "id") f.id))))
    have h5 : ∀ {n : Node} {p : Prop} [Decidable p] {c : Node}, isElem n = true → isElem (if p then n.addChild c else n) = true := by
      intro n p _ c hn
      split
      · exact addChild_isElem hn c
      · exact hn
    have h6 : ∀ {n : Node} {p : Prop} [Decidable p] {c : Option Node}, isElem n = true → isElem (if p then addOpt n c else n) = true := by
      intro n p _ c hn
      split
      · exact addOpt_isElem hn c
      · exact hn
    refine h6 (h6 ?_)
    split
    · split
      · exact foldl_isElem _ (h5 h4)
      · exact addChild_isElem (h5 h4) _
    · exact h5 h4
  obtain ⟨x, hx, he⟩ := this
  cases x with
  | text => cases he
  | elem n as cs => exact ⟨n, as, cs, hx⟩

/-- File entries: as above for strings; but the file is emptied before the entry is looked at, so
    saving an invalid entry destroys the old contents. -/
theorem C31_file_save (f : File) (compact v1 : Bool) :
    (f.isValid = true → (∃ t, f.saveString compact v1 = some t) ∧ ∃ t, f.saveFile true v1 = .ok (true, some t)) ∧
    (f.isValid = false → f.saveString compact v1 = none ∧ f.saveFile compact v1 = .ok (false, some [])) := by
  unfold File.saveString File.saveFile
  constructor
  · intro h
    obtain ⟨n, as, cs, hx⟩ := file_saves h v1
    rw [hx]
    exact ⟨elem_some _ _ _ _ _, ⟨_, rfl⟩⟩
  · intro h
    have : f.saveXml v1 = none := by unfold File.saveXml; simp [h]
    rw [this]
    exact ⟨rfl, by simp [unguarded, docFile]⟩

theorem files_list_valid {f : Files} (h : Files.isValid (some f) = true) : ∀ x ∈ f.list, x.isValid = true := by
  obtain ⟨o⟩ := f
  cases o with
  | none => intro x hx; cases hx
  | some l => exact List.all_eq_true.mp h

theorem files_saves {f : Files} (h : Files.isValid (some f) = true) : ∃ n, f.saveXml = some n := by
  obtain ⟨r, hr⟩ := mapM_isSome (f := fun x => File.saveXml x false) (l := f.list) (fun x hx => by
    obtain ⟨n, as, cs, hx⟩ := file_saves (files_list_valid h x hx) false
    rw [hx]; rfl)
  unfold Files.saveXml
  simp only [h, Bool.true_eq_false, if_false, hr]
  exact ⟨_, rfl⟩

/-- File lists (compact; the indented form of valid lists is undefined, see C25). -/
theorem C31_files_save (f : Files) (compact : Bool) :
    (Files.isValid (some f) = true → (∃ t, f.saveString true = .ok (some t)) ∧ ∃ t, f.saveFile true = .ok (true, some t)) ∧
    (Files.isValid (some f) = false → f.saveString compact = .ok none ∧ f.saveFile compact = .ok (false, none)) := by
  unfold Files.saveString Files.saveFile
  constructor
  · intro h
    obtain ⟨n, hn⟩ := files_saves h
    rw [hn]
    obtain ⟨t, ht⟩ := doc_some Files.cb true n
    exact ⟨⟨t, congrArg Res.ok ht⟩, ⟨_, rfl⟩⟩
  · intro h
    have : f.saveXml = none := by unfold Files.saveXml; simp [h]
    rw [this]
    simp [unguarded, docFile, docString]

theorem reel_saves {r : Reel} (h : r.isValid = true) : ∃ n, r.saveXml = some n := by
  unfold Reel.saveXml
  rw [if_neg (by simp [h])]
  cases hf : r.files with
  | none => exact ⟨_, rfl⟩
  | some f =>
    have hv : Files.isValid (some f) = true := by
      cases hv : Files.isValid (some f) with
      | true => rfl
      | false =>
        exfalso
        unfold Reel.isValid at h
        rw [hf] at h
        have hc : Reel.fileCount (some r) ≠ 0 := by
          intro hc
          have hc' : r.list = [] := List.length_eq_zero_iff.mp hc
          rw [Reel.list_files hf] at hc'
          rw [Files.valid_of (by rw [hc']; intro x hx; cases hx)] at hv
          cases hv
        simp [hv, hc] at h
    obtain ⟨n, hn⟩ := files_saves hv
    simp only [hn]
    exact ⟨_, rfl⟩

theorem C31_reel_save (r : Reel) (compact : Bool) : SavesOnlyValid r.isValid (r.saveString compact) (r.saveFile compact) :=
  savesOnlyValid_guard _ _ reel_saves (fun h => by unfold Reel.saveXml; simp [h])

theorem reels_saves {r : Reels} (h : Reels.isValid (some r) = true) : ∃ n, r.saveXml = some n := by
  have hv : ∀ x ∈ r.list, x.isValid = true := List.all_eq_true.mp h
  obtain ⟨l, hl⟩ := mapM_isSome (f := Reel.saveXml) (l := r.list) (fun x hx => by
    obtain ⟨n, hn⟩ := reel_saves (hv x hx)
    rw [hn]; rfl)
  unfold Reels.saveXml
  simp only [h, Bool.true_eq_false, if_false, hl]
  exact ⟨_, rfl⟩

theorem C31_reels_save (r : Reels) (compact : Bool) :
    SavesOnlyValid (Reels.isValid (some r)) (r.saveString compact) (r.saveFile compact) :=
  savesOnlyValid_doc _ _ reels_saves (fun h => by unfold Reels.saveXml; simp [h])

theorem savePart_saves (n : Node) {c : Nat} {x : Option Node} (h : c ≠ 0 → ∃ k, x = some k) : ∃ r, TocData.savePart n c x = some r := by
  unfold TocData.savePart
  split
  · exact ⟨_, rfl⟩
  · rename_i hc
    obtain ⟨k, rfl⟩ := h hc
    exact ⟨_, rfl⟩

theorem toc_valid_parts {t : TocData} (h : t.isValid = true) :
    (∀ r, t.reels = some r → Reels.isValid (some r) = true) ∧ (∀ d, t.layouts = some d → LayoutDefs.isValid (some d) = true) ∧
    (TocMeta.sourcesCount t.metadata ≠ 0 → TocMeta.isValid t.metadata = true) := by
  unfold TocData.isValid at h
  split at h
  · cases h
  split at h
  · cases h
  split at h
  · cases h
  split at h
  · cases h
  split at h
  · cases h
  · rename_i h1
    split at h
    · cases h
    · rename_i h2
      split at h
      · cases h
      · rename_i h3
        refine ⟨?_, ?_, ?_⟩
        · intro r hr
          cases hv : Reels.isValid (some r) with
          | true => rfl
          | false => exact absurd ⟨by rw [hr]; exact hv, by rw [hr]; simp⟩ h1
        · intro d hd
          cases hv : LayoutDefs.isValid (some d) with
          | true => rfl
          | false => exact absurd ⟨by rw [hd]; exact hv, by rw [hd]; simp⟩ h2
        · intro hc
          cases hv : TocMeta.isValid t.metadata with
          | true => rfl
          | false => exact absurd ⟨hc, hv⟩ h3

theorem toc_saves {t : TocData} (h : t.isValid = true) : ∃ n, t.saveXml = some n := by
  obtain ⟨h1, h2, h3⟩ := toc_valid_parts h
  unfold TocData.saveXml
  rw [if_neg (by simp [h])]
  dsimp only
  obtain ⟨a, ha⟩ := savePart_saves ((textNode (b! "reelId") t.reelId).foldl Node.addChild ((textNode (b! "jobId") t.jobId).foldl Node.addChild
      ((textNode (b! "indexType") t.indexType).foldl Node.addChild (setAttrOpt (Node.new (b! "Index")) (b! "version") t.version))))
    (c := TocMeta.sourcesCount t.metadata) (x := TocMeta.saveXml t.metadata) (by
      intro hc
      have hv := h3 hc
      cases hm : t.metadata with
      | none => rw [hm] at hc; exact absurd rfl hc
      | some m => rw [hm] at hv; exact ⟨_, TocMeta.saveXml_eq hv⟩)
  rw [ha, Option.bind_some]
  obtain ⟨b, hb⟩ := savePart_saves a (c := LayoutDefs.getCount t.layouts) (x := LayoutDefs.saveXml t.layouts) (by
      intro hc
      cases hm : t.layouts with
      | none => rw [hm] at hc; exact absurd rfl hc
      | some m =>
        obtain ⟨as, cs, hx⟩ := layouts_saves (h2 m hm)
        exact ⟨_, hx⟩)
  rw [hb, Option.bind_some]
  exact savePart_saves b (by
      intro hc
      cases hm : t.reels with
      | none => rw [hm] at hc; exact absurd rfl hc
      | some m => exact reels_saves (h1 m hm))

/-- A table of contents is saved exactly when it is valid. -/
theorem C31_toc_save (t : TocData) (compact : Bool) : SavesOnlyValid t.isValid (t.saveString compact) (t.saveFile compact) :=
  savesOnlyValid_guard _ _ toc_saves (fun h => by unfold TocData.saveXml; simp [h])

/-! ### Loading: every document -/

theorem section_load {s : Section} (d : Node) : (s.loadXml d).1 = true → (s.loadXml d).2.isValid = true := by
  unfold Section.loadXml
  intro h
  repeat' split at h
  all_goals first | cases h | (simp_all)

/-- A successful load of a section gives a valid section. -/
theorem C31_section_load (x : Section) (s : Bytes) :
    ((x.loadString s).1 = true → (x.loadString s).2.isValid = true) ∧
    ((x.loadFile s).1 = true → (x.loadFile s).2.isValid = true) :=
  ⟨loadFromString_inv (fun r : Bool × Section => r.1 = true → r.2.isValid = true) (by intro h; cases h) section_load s,
   loadFromFile_inv (fun r : Bool × Section => r.1 = true → r.2.isValid = true) (by intro h; cases h) section_load s⟩

theorem metaSource_load {s : MetaSource} (d : Node) : (s.loadXml d).1 = true → (s.loadXml d).2.isValid = true := by
  unfold MetaSource.loadXml
  intro h
  split at h
  · cases h
  · split at h
    · cases h
    · split at h
      · cases h
      · exact h

/-- A successful load of a metadata source gives a valid source. -/
theorem C31_metadata_source_load (x : MetaSource) (s : Bytes) :
    ((x.loadString s).1 = true → (x.loadString s).2.isValid = true) ∧
    ((x.loadFile s).1 = true → (x.loadFile s).2.isValid = true) :=
  ⟨loadFromString_inv (fun r : Bool × MetaSource => r.1 = true → r.2.isValid = true) (by intro h; cases h) metaSource_load s,
   loadFromFile_inv (fun r : Bool × MetaSource => r.1 = true → r.2.isValid = true) (by intro h; cases h) metaSource_load s⟩

theorem fileMetaSource_load {s : FileMetaSource} (d : Node) : (s.loadXml d).1 = true → (s.loadXml d).2.isValid = true := by
  unfold FileMetaSource.loadXml
  intro h
  split at h
  · cases h
  · split at h
    · cases h
    · exact h

theorem C31_file_metadata_source_load (x : FileMetaSource) (s : Bytes) :
    ((x.loadString s).1 = true → (x.loadString s).2.isValid = true) ∧
    ((x.loadFile s).1 = true → (x.loadFile s).2.isValid = true) :=
  ⟨loadFromString_inv (fun r : Bool × FileMetaSource => r.1 = true → r.2.isValid = true) (by intro h; cases h) fileMetaSource_load s,
   loadFromFile_inv (fun r : Bool × FileMetaSource => r.1 = true → r.2.isValid = true) (by intro h; cases h) fileMetaSource_load s⟩

/-- Sections loaded from any document: valid, with different ids, and disjoint (as far as their
    coordinates do not wrap around) — also when loading fails half-way. -/
theorem C31_sections_load (s : Bytes) (r : Bool × Sections)
    (hr : r = Sections.create.loadString s ∨ r = Sections.create.loadFile s) :
    (∀ x ∈ r.2.sections.getD [], x.isValid = true) ∧ ((r.2.sections.getD []).map Section.id).Nodup ∧
    ((∀ x ∈ r.2.sections.getD [], Fits x) → (r.2.sections.getD []).Pairwise PixelDisjoint) := by
  have h0 : SectionsInv (Sections.create.sections.getD []) := ⟨by simp [Sections.create], by simp [Sections.create]⟩
  have h : SectionsInv (r.2.sections.getD []) := by
    rcases hr with rfl | rfl
    · exact loadFromString_inv (fun r : Bool × Sections => SectionsInv (r.2.sections.getD [])) h0 (Sections.loadXml_inv _ h0) s
    · exact loadFromFile_inv (fun r : Bool × Sections => SectionsInv (r.2.sections.getD [])) h0 (Sections.loadXml_inv _ h0) s
  refine ⟨h.1, ?_, fun hf => (sectionsInv_spec h hf).2⟩
  rw [List.Nodup, List.pairwise_map]
  exact h.2.imp fun hab => hab.1

/-- Layout definitions loaded from any document: no undefined behaviour, all valid, with different
    ids. -/
theorem C31_layout_definitions_load (s : Bytes) (r : Res (Bool × LayoutDefs))
    (hr : r = LayoutDefs.create.loadString s ∨ r = LayoutDefs.create.loadFile s) :
    ∃ b d, r = .ok (b, d) ∧ (∀ x ∈ d.defs.getD [], x.isValid = true) ∧ ((d.defs.getD []).map LayoutDef.id).Nodup := by
  have h0 : DefsInv (LayoutDefs.create.defs.getD []) := ⟨by simp [LayoutDefs.create], by simp [LayoutDefs.create]⟩
  rcases hr with rfl | rfl
  · exact loadFromString_inv (fun r : Res (Bool × LayoutDefs) => ∃ b d, r = .ok (b, d) ∧ DefsInv (d.defs.getD [])) ⟨false, _, rfl, h0⟩
      (LayoutDefs.loadXml_inv _ h0) s
  · exact loadFromFile_inv (fun r : Res (Bool × LayoutDefs) => ∃ b d, r = .ok (b, d) ∧ DefsInv (d.defs.getD [])) ⟨false, _, rfl, h0⟩
      (LayoutDefs.loadXml_inv _ h0) s

/-- Pages of a preview loaded from any document are valid. -/
theorem C31_preview_load (s : Bytes) (r : Bool × Preview)
    (hr : r = Preview.create.loadString s ∨ r = Preview.create.loadFile s) : ∀ x ∈ r.2.pages.getD [], x.isValid = true := by
  have h0 : ∀ x ∈ Preview.create.pages.getD [], x.isValid = true := by intro x hx; cases hx
  rcases hr with rfl | rfl
  · exact loadFromString_inv (fun r : Bool × Preview => ∀ x ∈ r.2.pages.getD [], x.isValid = true) h0 (Preview.loadXml_inv _ h0) s
  · exact loadFromFile_inv (fun r : Bool × Preview => ∀ x ∈ r.2.pages.getD [], x.isValid = true) h0 (Preview.loadXml_inv _ h0) s

/-- Sources of metadata loaded from any document are valid. -/
theorem C31_metadata_load (s : Bytes) (r : Bool × TocMeta)
    (hr : r = TocMeta.create.loadString s ∨ r = TocMeta.create.loadFile s) : ∀ x ∈ r.2.sources.getD [], x.isValid = true := by
  have h0 : ∀ x ∈ TocMeta.create.sources.getD [], x.isValid = true := by intro x hx; cases hx
  rcases hr with rfl | rfl
  · exact loadFromString_inv (fun r : Bool × TocMeta => ∀ x ∈ r.2.sources.getD [], x.isValid = true) h0 (TocMeta.loadXml_inv _ h0) s
  · exact loadFromFile_inv (fun r : Bool × TocMeta => ∀ x ∈ r.2.sources.getD [], x.isValid = true) h0 (TocMeta.loadXml_inv _ h0) s

/-- Sources of file metadata loaded from any document are valid. -/
theorem C31_file_metadata_load (s : Bytes) (r : Bool × FileMeta)
    (hr : r = FileMeta.create.loadString s ∨ r = FileMeta.create.loadFile s) : ∀ x ∈ r.2.sources.getD [], x.isValid = true := by
  have h0 : ∀ x ∈ FileMeta.create.sources.getD [], x.isValid = true := by intro x hx; cases hx
  rcases hr with rfl | rfl
  · exact loadFromString_inv (fun r : Bool × FileMeta => ∀ x ∈ r.2.sources.getD [], x.isValid = true) h0 (FileMeta.loadXml_inv _ h0) s
  · exact loadFromFile_inv (fun r : Bool × FileMeta => ∀ x ∈ r.2.sources.getD [], x.isValid = true) h0 (FileMeta.loadXml_inv _ h0) s

/-- File lists loaded from any document are valid, entry by entry. -/
theorem C31_files_load (s : Bytes) (r : Bool × Files)
    (hr : r = Files.create.loadString s ∨ r = Files.create.loadFile s) :
    (∀ x ∈ r.2.list, x.isValid = true) ∧ Files.isValid (some r.2) = true := by
  have h0 : ∀ x ∈ Files.create.list, x.isValid = true := by intro x hx; cases hx
  have : ∀ x ∈ r.2.list, x.isValid = true := by
    rcases hr with rfl | rfl
    · exact loadFromString_inv (fun r : Bool × Files => ∀ x ∈ r.2.list, x.isValid = true) h0 (fun d => Files.loadLoop_inv _ _ h0) s
    · exact loadFromFile_inv (fun r : Bool × Files => ∀ x ∈ r.2.list, x.isValid = true) h0 (fun d => Files.loadLoop_inv _ _ h0) s
  exact ⟨this, Files.valid_of this⟩

/-- Reel lists loaded from any document are valid, reel by reel. -/
theorem C31_reels_load (s : Bytes) (r : Bool × Reels)
    (hr : r = Reels.create.loadString s ∨ r = Reels.create.loadFile s) :
    (∀ x ∈ r.2.list, x.isValid = true) ∧ Reels.isValid (some r.2) = true := by
  have h0 : ∀ x ∈ Reels.create.list, x.isValid = true := by intro x hx; cases hx
  have : ∀ x ∈ r.2.list, x.isValid = true := by
    rcases hr with rfl | rfl
    · exact loadFromString_inv (fun r : Bool × Reels => ∀ x ∈ r.2.list, x.isValid = true) h0 (fun d => Reels.loadLoop_inv _ _ h0) s
    · exact loadFromFile_inv (fun r : Bool × Reels => ∀ x ∈ r.2.list, x.isValid = true) h0 (fun d => Reels.loadLoop_inv _ _ h0) s
  exact ⟨this, List.all_eq_true.mpr this⟩

/-- Everything a loaded table of contents contains. -/
def LoadedToc (t : TocData) : Prop :=
  (∀ r, t.reels = some r → Reels.isValid (some r) = true) ∧
  (∀ d, t.layouts = some d → LayoutDefs.isValid (some d) = true ∧ ((d.defs.getD []).map LayoutDef.id).Nodup) ∧
  (∀ m, t.metadata = some m → ∀ x ∈ m.sources.getD [], x.isValid = true)

theorem toc_load (t : TocData) (n : Node) : ∃ b r, t.loadXml n = .ok (b, r) ∧ (b = true → LoadedToc r) := by
  unfold TocData.loadXml
  split
  · exact ⟨false, t, rfl, by intro h; cases h⟩
  · rename_i i _
    have hm : ∀ m, (TocData.loadMeta i).2 = some m → ∀ x ∈ m.sources.getD [], x.isValid = true := by
      intro m
      unfold TocData.loadMeta
      split
      · intro h; cases h
      · intro h
        injection h with h
        subst h
        exact TocMeta.loadXml_inv _ (by intro x hx; cases hx) _
    have hr : ∀ m, (TocData.loadReels i).2 = some m → Reels.isValid (some m) = true := by
      intro m
      unfold TocData.loadReels
      split
      · intro h; cases h
      · intro h
        injection h with h
        subst h
        exact List.all_eq_true.mpr (Reels.loadLoop_inv _ _ (by intro x hx; cases hx))
    have hl : ∃ b o, TocData.loadLayouts i = .ok (b, o) ∧
        ∀ d, o = some d → LayoutDefs.isValid (some d) = true ∧ ((d.defs.getD []).map LayoutDef.id).Nodup := by
      unfold TocData.loadLayouts
      split
      · exact ⟨true, none, rfl, by intro d h; cases h⟩
      · rename_i q _
        obtain ⟨b, r, h1, h2⟩ := LayoutDefs.loadXml_inv LayoutDefs.create ⟨by simp [LayoutDefs.create], by simp [LayoutDefs.create]⟩ q
        rw [h1]
        refine ⟨b, some r, rfl, ?_⟩
        intro d hd
        injection hd with hd
        subst hd
        refine ⟨?_, h2.2⟩
        obtain ⟨o⟩ := r
        cases o with
        | none => rfl
        | some l => exact List.all_eq_true.mpr h2.1
    obtain ⟨b, o, hl1, hl2⟩ := hl
    dsimp only
    rw [hl1]
    split
    · exact ⟨false, _, rfl, by intro h; cases h⟩
    · simp only [Res.ok_bind]
      split
      · exact ⟨false, _, rfl, by intro h; cases h⟩
      · split
        · exact ⟨false, _, rfl, by intro h; cases h⟩
        · refine ⟨true, _, rfl, fun _ => ⟨?_, ?_, ?_⟩⟩
          · exact fun r h => hr r h
          · exact fun d h => hl2 d h
          · exact fun m h => hm m h

/-- Loading a table of contents from any document is free of undefined behaviour, and when it
    succeeds all its reels (with their files), layout definitions and metadata sources are valid. -/
theorem C31_toc_load (before : TocData) (s : Bytes) (r : Res (Bool × TocData))
    (hr : r = before.loadString s ∨ r = before.loadFile s) :
    ∃ b t, r = .ok (b, t) ∧ (b = true → LoadedToc t) ∧ (b = true →
      ∀ x ∈ t.reelList, x.isValid = true ∧ ∀ f ∈ x.list, f.isValid = true) := by
  have h : ∃ b t, r = .ok (b, t) ∧ (b = true → LoadedToc t) := by
    rcases hr with rfl | rfl
    · exact loadFromString_inv (fun r : Res (Bool × TocData) => ∃ b t, r = .ok (b, t) ∧ (b = true → LoadedToc t))
        ⟨false, before, rfl, by intro h; cases h⟩ (toc_load _) s
    · exact loadFromFile_inv (fun r : Res (Bool × TocData) => ∃ b t, r = .ok (b, t) ∧ (b = true → LoadedToc t))
        ⟨false, before, rfl, by intro h; cases h⟩ (toc_load _) s
  obtain ⟨b, t, h1, h2⟩ := h
  refine ⟨b, t, h1, h2, fun hb x hx => ?_⟩
  have hv := (h2 hb).1
  unfold TocData.reelList at hx
  cases hrs : t.reels with
  | none => rw [hrs] at hx; cases hx
  | some rs =>
    rw [hrs] at hx
    have hxv : x.isValid = true := List.all_eq_true.mp (hv rs hrs) x hx
    refine ⟨hxv, fun f hf => ?_⟩
    unfold Reel.isValid at hxv
    split at hxv
    · cases hxv
    · rename_i hn
      cases hfs : x.files with
      | none => unfold Reel.list at hf; rw [hfs] at hf; cases hf
      | some fs =>
        have hc : Reel.fileCount (some x) ≠ 0 := by
          intro hc
          have : x.list = [] := List.length_eq_zero_iff.mp hc
          rw [this] at hf; cases hf
        have hfv : Files.isValid (some fs) = true := by
          cases hq : Files.isValid (some fs) with
          | true => rfl
          | false => exact absurd ⟨hc, by rw [hfs]; exact hq⟩ hn
        rw [Reel.list_files hfs] at hf
        exact files_list_valid hfv f hf

/-! ### Loads that succeed with invalid objects -/

set_option maxRecDepth 100000 in
/-- The loaders of layout definitions, previews, metadata, file entries, reels and tables of contents report success
    for documents that leave the object invalid. -/
theorem C31_invalid_objects_loaded :
    (∃ s, (LayoutDef.create.loadString s).1 = true ∧ (LayoutDef.create.loadString s).2.isValid = false) ∧
    (∃ s, (Preview.create.loadString s).1 = true ∧ Preview.isValid (some (Preview.create.loadString s).2) = false) ∧
    (∃ s, (TocMeta.create.loadString s).1 = true ∧ TocMeta.isValid (some (TocMeta.create.loadString s).2) = false) ∧
    (∃ s, (File.create.loadString s).1 = true ∧ (File.create.loadString s).2.isValid = false) ∧
    (∃ s, (Reel.create.loadString s).1 = true ∧ (Reel.create.loadString s).2.isValid = false) ∧
    (∃ s t, TocData.create.loadString s = .ok (true, t) ∧ t.isValid = false) := by
  refine ⟨⟨b! "<previewLayout><sections/></previewLayout>", by decide +kernel⟩, ⟨b! "<preview/>", by decide +kernel⟩,
    ⟨b! "<metadata/>", by decide +kernel⟩, ⟨b! "<file/>", by decide +kernel⟩, ⟨b! "<reel><id/></reel>", by decide +kernel⟩,
    ⟨b! "<Index/>", TocData.create, by decide +kernel⟩⟩

set_option maxRecDepth 100000 in
/-- Valid and invalid objects of every kind exist, so both halves of the `_save` theorems apply; documents that load and documents that do not exist,
    so the `_load` theorems are about both. -/
example :
    (Section.isValid ⟨0, 0, 0, 10, 10, 0⟩ = true ∧ Section.isValid ⟨0, 0, 0, 0, 10, 0⟩ = false) ∧
    (Sections.isValid (some ⟨some [⟨0, 0, 0, 10, 10, 0⟩, ⟨1, 10, 0, 5, 5, 90⟩]⟩) = true ∧ Sections.isValid (some ⟨none⟩) = false) ∧
    (Preview.isValid (some ⟨some [{ Page.create with layoutId := some (b! "l"), startFrame := 1, sectionCount := 1 }], 300⟩) = true ∧
      Preview.isValid (some Preview.create) = false) ∧
    (File.isValid { File.create with
        name := some (b! "n"), date := some (b! "d"), checksum := some (b! "ab"), size := 12, id := 3, startFrame := 1, startByte := 0, endFrame := 2, endByte := 1,
        uniqueId := some (b! "u"), fileFormat := some (b! "x"), types := 1 } = true ∧ File.isValid File.create = false) ∧
    ((Section.create.loadString (b! "<section id=\"1\" x=\"2\" y=\"3\" w=\"4\" h=\"5\" rotation=\"0\"/>")).1 = true ∧
      (Section.create.loadString (b! "<section/>")).1 = false) ∧
    ((Sections.create.loadString (b! "<sections><section id=\"1\" x=\"2\" y=\"3\" w=\"4\" h=\"5\" rotation=\"0\"/></sections>")).1 = true ∧
      ((Sections.create.loadString (b! "<sections><section id=\"1\" x=\"2\" y=\"3\" w=\"4\" h=\"5\" rotation=\"0\"/></sections>")).2.sections.getD []).length = 1) := by
  decide +kernel

end Afs
