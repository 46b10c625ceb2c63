import Verif.Proof.Schema2
import Verif.Proof.Grammar4
/-! # Which saved trees follow the schema -/
namespace Afs
open Spec Spec.Schema Xml

theorem digits_chars {D : Char → Prop} (hD : HasDigits D) {s : Bytes} (h : ∀ c ∈ s, isDigitByte c = true) :
    ∃ cs, s = utf8File cs ∧ ∀ c ∈ cs, D c := by
  have hlt : ∀ b ∈ s, b.toNat < 128 := by
    intro b hb
    have := UInt8.le_iff_toNat_le.mp (digit_range (h b hb)).2
    simp at this
    omega
  refine ⟨s.map chr, (utf8_chr hlt).symm, ?_⟩
  intro c hc
  obtain ⟨b, hb, rfl⟩ := List.mem_map.mp hc
  obtain ⟨h1, h2⟩ := digit_range (h b hb)
  have h1' := UInt8.le_iff_toNat_le.mp h1
  have h2' := UInt8.le_iff_toNat_le.mp h2
  simp at h1' h2'
  have e : (chr b).toNat = b.toNat := (encode_ascii (hlt b hb)).2
  exact hD _ (by rw [e]; exact h1') (by rw [e]; exact h2')

theorem dimension_print {D : Char → Prop} (hD : HasDigits D) (x y : Nat) : dimensionType D (printNat x ++ [120] ++ printNat y) := by
  obtain ⟨a, ha, ha'⟩ := digits_chars hD (printNat_digits x)
  obtain ⟨b, hb, hb'⟩ := digits_chars hD (printNat_digits y)
  refine ⟨a, 'x', b, ?_, .inl rfl, ?_⟩
  · rw [utf8_append, utf8_append, ← ha, ← hb]; rfl
  · intro c hc
    exact (List.mem_append.mp hc).elim (ha' c) (hb' c)

/-! ## Attributes -/

theorem attrsOk_append {ds : List Attr} (hr : ∀ d ∈ ds, d.required = false) (a b : List (Bytes × Option Bytes)) :
    AttrsOk ds (a ++ b) ↔ AttrsOk ds a ∧ AttrsOk ds b := by
  have h : ∀ c, AttrsOk ds c ↔ ∀ a ∈ c, ∃ d ∈ ds, d.name = a.1 ∧ ∃ v, a.2 = some v ∧ d.type v := by
    intro c
    refine ⟨fun h => h.1, fun h => ⟨h, fun d hd e => ?_⟩⟩
    rw [hr d hd] at e; cases e
  rw [h, h, h]
  simp only [List.mem_append]
  exact ⟨fun h => ⟨fun x hx => h x (.inl hx), fun x hx => h x (.inr hx)⟩, fun h x hx => hx.elim (h.1 x) (h.2 x)⟩

theorem attrsOk_none {ds : List Attr} (hr : ∀ d ∈ ds, d.required = false) : AttrsOk ds [] :=
  ⟨(fun _ h => nomatch h), fun d hd e => by rw [hr d hd] at e; cases e⟩

theorem attrsOk_one {ds : List Attr} (hr : ∀ d ∈ ds, d.required = false) (hn : (ds.map Attr.name).Nodup) {d : Attr} (hd : d ∈ ds) (v : Bytes) :
    AttrsOk ds [(d.name, some v)] ↔ d.type v := by
  constructor
  · rintro ⟨h, -⟩
    obtain ⟨d', hd', e, v', e', h'⟩ := h (d.name, some v) (by simp)
    cases e'
    have : d' = d := by
      clear h hr
      induction ds with
      | nil => cases hd
      | cons x ds ih =>
        rw [List.map_cons, List.nodup_cons] at hn
        rcases List.mem_cons.mp hd with rfl | hd
        · rcases List.mem_cons.mp hd' with rfl | hd'
          · rfl
          · exact absurd (List.mem_map.mpr ⟨d', hd', e⟩) hn.1
        · rcases List.mem_cons.mp hd' with h0 | hd'
          · rw [← h0] at hn
            exact absurd (List.mem_map.mpr ⟨d, hd, e.symm⟩) hn.1
          · exact ih hn.2 hd hd'
    exact this ▸ h'
  · intro h
    refine ⟨?_, fun d hd e => by rw [hr d hd] at e; cases e⟩
    simp only [List.mem_singleton, forall_eq]
    exact ⟨d, hd, rfl, v, rfl, h⟩

theorem Page.valid {D : Char → Prop} (hD : HasDigits D) {p : Page} (h : p.writable) : Valid (pagesType D) p.attrs [] ↔ p.conforms := by
  obtain ⟨-, h2, h3, h4, -⟩ := h
  unfold pagesType
  rw [Valid]
  simp only [elements, List.filter_nil, chars_nil, and_self, and_true]
  have hr : ∀ d ∈ [(⟨b! "layoutId", unsignedInt, false⟩ : Attr), ⟨b! "frame", unsignedInt, false⟩, ⟨b! "section", unsignedInt, false⟩,
      ⟨b! "count", unsignedInt, false⟩, ⟨b! "dimension", dimensionType D, false⟩, ⟨b! "overlap", Schema.string, false⟩], d.required = false := by simp
  have hn : ([(⟨b! "layoutId", unsignedInt, false⟩ : Attr), ⟨b! "frame", unsignedInt, false⟩, ⟨b! "section", unsignedInt, false⟩,
      ⟨b! "count", unsignedInt, false⟩, ⟨b! "dimension", dimensionType D, false⟩, ⟨b! "overlap", Schema.string, false⟩].map Attr.name).Nodup := by
    simp only [List.map_cons, List.map_nil]; decide
  unfold Page.attrs
  rw [attrsOk_append hr, attrsOk_append hr, attrsOk_append hr]
  have e1 : ∀ a b c : Bytes × Option Bytes, [a, b, c] = [a] ++ ([b] ++ [c]) := fun _ _ _ => rfl
  rw [e1, attrsOk_append hr, attrsOk_append hr]
  have a1 := (attrsOk_one hr hn (d := ⟨b! "frame", unsignedInt, false⟩) (by simp) (printNat p.startFrame)).mpr (unsigned_printNat h2)
  have a2 := (attrsOk_one hr hn (d := ⟨b! "section", unsignedInt, false⟩) (by simp) (printNat p.startSection)).mpr (unsigned_printNat h3)
  have a3 := (attrsOk_one hr hn (d := ⟨b! "count", unsignedInt, false⟩) (by simp) (printNat p.sectionCount)).mpr (unsigned_printNat h4)
  have a4 : AttrsOk [(⟨b! "layoutId", unsignedInt, false⟩ : Attr), ⟨b! "frame", unsignedInt, false⟩, ⟨b! "section", unsignedInt, false⟩,
      ⟨b! "count", unsignedInt, false⟩, ⟨b! "dimension", dimensionType D, false⟩, ⟨b! "overlap", Schema.string, false⟩] (pairAttr (b! "dimension") p.dimX p.dimY) := by
    unfold pairAttr
    split
    · exact (attrsOk_one hr hn (d := ⟨b! "dimension", dimensionType D, false⟩) (by simp) _).mpr (dimension_print hD _ _)
    · exact attrsOk_none hr
  have a5 : AttrsOk [(⟨b! "layoutId", unsignedInt, false⟩ : Attr), ⟨b! "frame", unsignedInt, false⟩, ⟨b! "section", unsignedInt, false⟩,
      ⟨b! "count", unsignedInt, false⟩, ⟨b! "dimension", dimensionType D, false⟩, ⟨b! "overlap", Schema.string, false⟩] (pairAttr (b! "overlap") p.ovX p.ovY) := by
    unfold pairAttr
    split
    · exact (attrsOk_one hr hn (d := ⟨b! "overlap", Schema.string, false⟩) (by simp) _).mpr trivial
    · exact attrsOk_none hr
  unfold Page.conforms
  cases hl : p.layoutId with
  | none =>
    simp only [reduceCtorEq, false_implies, implies_true, iff_true]
    exact ⟨⟨⟨attrsOk_none hr, a1, a2, a3⟩, a4⟩, a5⟩
  | some l =>
    have a0 := attrsOk_one hr hn (d := ⟨b! "layoutId", unsignedInt, false⟩) (by simp) l
    constructor
    · intro h l' e; cases e; exact a0.mp h.1.1.1
    · intro h; exact ⟨⟨⟨a0.mpr (h l rfl), a1, a2, a3⟩, a4⟩, a5⟩

theorem named_map {α : Type} {f : α → Node} {n : Bytes} (l : List α) (h : ∀ x, Named n (f x)) : ∀ x ∈ l.map f, Named n x := by
  intro x hx
  obtain ⟨y, -, rfl⟩ := List.mem_map.mp hx
  exact h y

theorem dpi_part (d : Int) : ∀ x ∈ dpiNodes d, Named (b! "dpi") x := by
  unfold dpiNodes
  split
  · simp only [List.mem_singleton, forall_eq]; rw [intNode_eq]; rfl
  · simp

theorem Preview.valid {D : Char → Prop} (hD : HasDigits D) {p : Preview} (h : p.storable) :
    Valid (previewType D) p.node.attrs p.node.children ↔ p.conforms := by
  obtain ⟨-, hi, hm, hp⟩ := h
  unfold previewType Preview.node Node.attrs Node.children
  dsimp only
  refine (valid_segs [dpiNodes p.dpi, (p.pages.getD []).map Page.node] (by simp) (by simp only [partNames]; decide)
    (by exact ⟨dpi_part _, named_map _ (fun _ => rfl), trivial⟩) (shape_append (dpi_shape _) (shape_map _ fun x _ => x.shape))).trans ?_
  simp only [SegsOk, and_true, attrsOk_nil, true_and]
  rw [opt_seg (by unfold dpiNodes; split <;> simp), many_seg]
  have h1 : ∀ x ∈ dpiNodes p.dpi, Valid (.text [] unsignedInt) x.attrs x.children := by
    unfold dpiNodes
    split
    · simp only [List.mem_singleton, forall_eq]
      rw [intNode_eq]
      have := hi.2
      exact (valid_text _).mpr ((unsigned_printInt _).mpr ⟨by omega, by omega⟩)
    · simp
  unfold Preview.conforms
  simp only [List.forall_mem_map, Nat.zero_le, true_and]
  constructor
  · intro h x hx; exact (Page.valid hD (hp x hx).1).mp (h.2 x hx)
  · intro h; exact ⟨h1, fun x hx => (Page.valid hD (hp x hx).1).mpr (h x hx)⟩

theorem dataNodes_named (as : List (Bytes × Option Bytes)) (d : Option Bytes) : ∀ x ∈ dataNodes as d, Named (b! "data") x := by
  cases d with
  | none => simp [dataNodes]
  | some d => simp only [dataNodes, List.mem_singleton, forall_eq]; rfl

theorem FileMetaSource.valid {s : FileMetaSource} (h : s.storable) :
    Valid fileMetadataSourceType s.node.attrs s.node.children ↔ s.conforms := by
  obtain ⟨-, hf, hi, hs, -⟩ := h
  unfold fileMetadataSourceType FileMetaSource.node Node.attrs Node.children
  dsimp only
  refine (valid_segs [dataNodes (optAttr (b! "formatId") s.formatId) s.data] (by simp) (by decide)
    (by exact ⟨dataNodes_named _ _, trivial⟩) (dataNodes_shape _ _)).trans ?_
  · simp only [SegsOk, and_true]
    have hr : ∀ d ∈ [(⟨b! "fileId", unsignedInt, false⟩ : Attr), ⟨b! "sourceId", unsignedInt, false⟩], d.required = false := by simp
    have hn : ([(⟨b! "fileId", unsignedInt, false⟩ : Attr), ⟨b! "sourceId", unsignedInt, false⟩].map Attr.name).Nodup := by
      simp only [List.map_cons, List.map_nil]; decide
    have e1 : ∀ a b : Bytes × Option Bytes, [a, b] = [a] ++ [b] := fun _ _ => rfl
    rw [e1, attrsOk_append hr, attrsOk_one hr hn (d := ⟨b! "fileId", unsignedInt, false⟩) (by simp),
      attrsOk_one hr hn (d := ⟨b! "sourceId", unsignedInt, false⟩) (by simp)]
    dsimp only
    rw [unsigned_printInt, unsigned_printInt]
    have hd : (1 ≤ (dataNodes (optAttr (b! "formatId") s.formatId) s.data).length ∧
        (∀ h, some 1 = some h → (dataNodes (optAttr (b! "formatId") s.formatId) s.data).length ≤ h) ∧
        ∀ x ∈ dataNodes (optAttr (b! "formatId") s.formatId) s.data, Valid fileMetadataSourceDataType x.attrs x.children) ↔ s.data ≠ none := by
      cases s.data with
      | none => simp [dataNodes]
      | some d =>
        rw [dataNodes, one_seg]
        simp only [ne_eq, reduceCtorEq, not_false_eq_true, iff_true]
        unfold fileMetadataSourceDataType
        rw [Valid]
        refine ⟨?_, ?_, trivial⟩
        · have hr : ∀ d ∈ [(⟨b! "formatId", Schema.string, false⟩ : Attr)], d.required = false := by simp
          have hn : ([(⟨b! "formatId", Schema.string, false⟩ : Attr)].map Attr.name).Nodup := by simp
          cases s.formatId with
          | none => exact attrsOk_none hr
          | some v => exact (attrsOk_one hr hn (d := ⟨b! "formatId", Schema.string, false⟩) (by simp) v).mpr trivial
        · unfold elements; rfl
    rw [hd]
    unfold FileMetaSource.conforms
    have := hi.2
    have := hs.2
    constructor
    · rintro ⟨⟨h1, h2⟩, h3⟩; exact ⟨h3, h1.1, h2.1⟩
    · rintro ⟨h3, h1, h2⟩; exact ⟨⟨⟨h1, by omega⟩, ⟨h2, by omega⟩⟩, h3⟩

theorem FileMeta.valid {m : FileMeta} (h : m.storable) : Valid fileMetadataType m.node.attrs m.node.children ↔ m.conforms := by
  unfold fileMetadataType FileMeta.node Node.attrs Node.children
  dsimp only
  refine (valid_segs [(m.sources.getD []).map FileMetaSource.node] (by simp) (by decide)
    (by exact ⟨named_map _ (fun _ => rfl), trivial⟩) (shape_map _ fun x _ => x.shape)).trans ?_
  simp only [SegsOk, and_true, attrsOk_nil, true_and]
  rw [many_seg]
  simp only [List.forall_mem_map, Nat.zero_le, true_and]
  exact ⟨fun h' x hx => (FileMetaSource.valid (h.2 x hx)).mp (h' x hx), fun h' x hx => (FileMetaSource.valid (h.2 x hx)).mpr (h' x hx)⟩

theorem MetaSource.valid {s : MetaSource} (h : s.storable) : Valid sourceType s.node.attrs s.node.children ↔ s.conforms := by
  obtain ⟨hv, hf, hi, hs, hda, ht⟩ := h
  unfold MetaSource.conforms
  unfold sourceType MetaSource.node Node.attrs Node.children
  dsimp only
  cases hd : s.data with
  | some d =>
    simp only [reduceCtorEq, and_false, iff_false]
    intro hV
    rw [Valid] at hV
    have hio := hV.2.2
    rw [shapes_elements (shape_append (dataNodes_shape _ _) (textNode_shape (by decide) _))] at hio
    obtain ⟨n, hn, hn'⟩ := inOrder_names hio (.elem (b! "data") [] [Node.newCDATA d]) (by simp [dataNodes])
    simp only [partNames, List.mem_singleton] at hn
    subst hn
    revert hn'
    unfold Named
    simp [Node.element]
  | none =>
    simp only [and_true]
    rw [show dataNodes [] none = [] from rfl, List.nil_append]
    refine (valid_segs [textNode (b! "tags") s.getTags] (by simp) (by decide) (by exact ⟨textNode_named _ _, trivial⟩)
      (textNode_shape (by decide) _)).trans ?_
    simp only [SegsOk, and_true]
    have hr : ∀ d ∈ [(⟨b! "id", Schema.string, false⟩ : Attr), ⟨b! "formatId", Schema.string, false⟩, ⟨b! "fileId", unsignedInt, false⟩], d.required = false := by simp
    have hn : ([(⟨b! "id", Schema.string, false⟩ : Attr), ⟨b! "formatId", Schema.string, false⟩, ⟨b! "fileId", unsignedInt, false⟩].map Attr.name).Nodup := by
      simp only [List.map_cons, List.map_nil]; decide
    have e1 : ∀ a b c : Bytes × Option Bytes, [a, b, c] = [a] ++ ([b] ++ [c]) := fun _ _ _ => rfl
    unfold MetaSource.isValid at hv
    split at hv
    · cases hv
    rename_i hv'
    rw [hd] at hv'
    simp only [not_or, not_and, Bool.not_eq_true] at hv'
    obtain ⟨hv1, hv2, hv3⟩ := hv'
    obtain ⟨fm, hfm⟩ : ∃ fm, s.format = some fm := by
      cases hq : s.format with
      | none => rw [hq] at hv1; cases hv1
      | some fm => exact ⟨fm, rfl⟩
    have hne : s.fileId ≠ FILE_ID_UNDEF := fun e => by have := hv3 e; revert this; decide
    have hge := hv2 hne
    have h2 := hs.2
    rw [hfm, e1, attrsOk_append hr, attrsOk_append hr, attrsOk_one hr hn (d := ⟨b! "formatId", Schema.string, false⟩) (by simp),
      attrsOk_one hr hn (d := ⟨b! "id", Schema.string, false⟩) (by simp),
      attrsOk_one hr hn (d := ⟨b! "fileId", unsignedInt, false⟩) (by simp)]
    dsimp only
    rw [unsigned_printInt]
    have htf : TextField s.getTags := by
      unfold MetaSource.getTags
      intro t htt
      cases hq : s.tags with
      | none => rw [hq] at htt; cases htt
      | some l =>
        obtain ⟨u, hu, e⟩ := ht l hq
        subst e
        rw [hq, Option.map_some, join_split] at htt
        have := Option.some.inj htt
        subst this
        exact hu u rfl
    rw [textNode_one htf]
    unfold MetaSource.getTags
    constructor
    · rintro ⟨-, t, ht, -⟩ e
      rw [e] at ht; cases ht
    · intro h
      cases hq : s.tags with
      | none => exact absurd hq h
      | some l => exact ⟨⟨trivial, trivial, by omega, by omega⟩, _, rfl, trivial⟩

theorem TocMeta.valid {m : TocMeta} (h : m.storable) : Valid metadataType m.node.attrs m.node.children ↔ m.conforms := by
  unfold metadataType TocMeta.node Node.attrs Node.children
  dsimp only
  refine (valid_segs [(m.sources.getD []).map MetaSource.node] (by simp) (by decide)
    (by exact ⟨named_map _ (fun _ => rfl), trivial⟩) (shape_map _ fun x _ => x.shape)).trans ?_
  simp only [SegsOk, and_true, attrsOk_nil, true_and]
  rw [many_seg]
  simp only [List.forall_mem_map, Nat.zero_le, true_and]
  exact ⟨fun h' x hx => (MetaSource.valid (h.2 x hx)).mp (h' x hx), fun h' x hx => (MetaSource.valid (h.2 x hx)).mpr (h' x hx)⟩

/-! ## Layouts -/

theorem Section.valid {s : Section} (h : s.inRange) : Valid sectionType s.node.attrs s.node.children := by
  obtain ⟨h1, h2, h3, h4, h5, h6⟩ := h
  unfold sectionType Section.node Node.attrs Node.children
  dsimp only
  rw [Valid]
  refine ⟨⟨?_, ?_⟩, rfl, trivial⟩
  · intro a ha
    simp only [List.mem_cons, List.not_mem_nil, or_false] at ha
    rcases ha with rfl | rfl | rfl | rfl | rfl | rfl
    · exact ⟨_, List.mem_of_getElem? (i := 0) rfl, rfl, _, rfl, unsigned_printNat h1⟩
    · exact ⟨_, List.mem_of_getElem? (i := 1) rfl, rfl, _, rfl, unsigned_printNat h2⟩
    · exact ⟨_, List.mem_of_getElem? (i := 2) rfl, rfl, _, rfl, unsigned_printNat h3⟩
    · exact ⟨_, List.mem_of_getElem? (i := 3) rfl, rfl, _, rfl, unsigned_printNat h4⟩
    · exact ⟨_, List.mem_of_getElem? (i := 4) rfl, rfl, _, rfl, unsigned_printNat h5⟩
    · exact ⟨_, List.mem_of_getElem? (i := 5) rfl, rfl, _, rfl, unsigned_printNat h6⟩
  · intro d hd _
    simp only [List.mem_cons, List.not_mem_nil, or_false] at hd
    rcases hd with rfl | rfl | rfl | rfl | rfl | rfl
    · exact ⟨_, List.mem_of_getElem? (i := 0) rfl, rfl⟩
    · exact ⟨_, List.mem_of_getElem? (i := 1) rfl, rfl⟩
    · exact ⟨_, List.mem_of_getElem? (i := 2) rfl, rfl⟩
    · exact ⟨_, List.mem_of_getElem? (i := 3) rfl, rfl⟩
    · exact ⟨_, List.mem_of_getElem? (i := 4) rfl, rfl⟩
    · exact ⟨_, List.mem_of_getElem? (i := 5) rfl, rfl⟩

theorem Sections.valid {s : Sections} (h : s.storable) : Valid sectionsType s.node.attrs s.node.children := by
  obtain ⟨hv, -, hr⟩ := h
  unfold sectionsType Sections.node Node.attrs Node.children
  dsimp only
  refine (valid_segs [(s.sections.getD []).map Section.node] (by simp) (by decide)
    (by exact ⟨named_map _ (fun _ => rfl), trivial⟩) (shape_map _ fun x _ => x.shape)).mpr ⟨attrsOk_nil, ?_⟩
  simp only [SegsOk, and_true]
  rw [many_seg]
  simp only [List.forall_mem_map, List.length_map]
  refine ⟨?_, fun x hx => Section.valid (hr x hx)⟩
  obtain ⟨o⟩ := s
  cases o with
  | none => simp [Sections.isValid] at hv
  | some l =>
    cases l with
    | nil => simp [Sections.isValid] at hv
    | cons => simp

theorem LayoutDef.children_eq {d : LayoutDef} (h : d.storable) : ∃ i n s, d.id = some i ∧ d.name = some n ∧ d.sections = some s ∧ s.storable ∧
    d.node.children = textNode (b! "id") d.id ++ textNode (b! "name") d.name ++ [s.node] := by
  obtain ⟨hv, -, -, hs⟩ := h
  obtain ⟨i, n, s, rfl, -⟩ := LayoutDef.valid_parts hv
  exact ⟨i, n, s, rfl, rfl, rfl, hs s rfl, rfl⟩

theorem LayoutDef.shape {d : LayoutDef} (h : d.storable) : Shape d.node := by
  obtain ⟨i, n, s, -, -, -, -, e⟩ := LayoutDef.children_eq h
  have : d.node = .elem (b! "previewLayout") [] d.node.children := rfl
  rw [this, e]
  refine .branch (by decide) (shape_append (shape_append (textNode_shape (by decide) _) (textNode_shape (by decide) _)) ?_)
  simp only [List.mem_singleton, forall_eq]
  exact s.shape

theorem LayoutDef.valid {d : LayoutDef} (h : d.storable) : Valid previewLayoutType d.node.attrs d.node.children := by
  obtain ⟨i, n, s, hi, hn, -, hs, e⟩ := LayoutDef.children_eq h
  unfold previewLayoutType
  rw [e]
  refine (valid_segs [textNode (b! "id") d.id, textNode (b! "name") d.name, [s.node]] (by simp) (by decide)
    (by exact ⟨textNode_named _ _, textNode_named _ _, (by simp only [List.mem_singleton, forall_eq]; rfl), trivial⟩)
    (shape_append (shape_append (textNode_shape (by decide) _) (textNode_shape (by decide) _))
      (by simp only [List.mem_singleton, forall_eq]; exact s.shape))).mpr ⟨attrsOk_nil, ?_⟩
  simp only [SegsOk, and_true]
  rw [textNode_one h.2.1, textNode_one h.2.2.1, one_seg]
  exact ⟨⟨i, hi, trivial⟩, ⟨n, hn, trivial⟩, Sections.valid hs⟩

theorem LayoutDefs.shape {d : LayoutDefs} (h : d.storable) : Shape d.node :=
  .branch (by decide) (shape_map _ fun x hx => LayoutDef.shape (h.2.2 x hx))

theorem LayoutDefs.valid {d : LayoutDefs} (h : d.storable) : Valid layoutDefinitionsType d.node.attrs d.node.children := by
  unfold layoutDefinitionsType LayoutDefs.node Node.attrs Node.children
  dsimp only
  refine (valid_segs [(d.defs.getD []).map LayoutDef.node] (by simp) (by decide)
    (by exact ⟨named_map _ (fun _ => rfl), trivial⟩) (shape_map _ fun x hx => LayoutDef.shape (h.2.2 x hx))).mpr ⟨attrsOk_nil, ?_⟩
  simp only [SegsOk, and_true]
  rw [many_seg]
  simp only [List.forall_mem_map, Nat.zero_le, true_and]
  exact fun x hx => LayoutDef.valid (h.2.2 x hx)

/-! ## Files -/

namespace File

theorem parent_shape (f : File) : ∀ x ∈ f.parentPart, Shape x := by
  unfold parentPart
  split
  · simp only [List.mem_singleton, forall_eq]; exact intNode_shape (by decide) _
  · simp

theorem pos_shape {nm : Bytes} (h : PlainName nm) (a b : Int) : Shape (posNode nm a b) := .branch h (by simp)

theorem dataNode_shape (f : File) : Shape f.dataNode := by
  refine .branch (by decide) (shape_append (textNode_shape (by decide) _) ?_)
  simp only [List.mem_cons, List.not_mem_nil, or_false, forall_eq_or_imp, forall_eq]
  exact ⟨intNode_shape (by decide) _, pos_shape (by decide) _ _, pos_shape (by decide) _ _⟩

theorem data_shape (f : File) (v1 : Bool) : ∀ x ∈ f.dataPart v1, Shape x := by
  unfold dataPart
  split
  · split
    · unfold data1Nodes
      simp only [List.mem_cons, List.not_mem_nil, or_false, forall_eq_or_imp, forall_eq]
      refine ⟨intNode_shape (by decide) _, .branch (by decide) ?_, .branch (by decide) ?_⟩
      · simp only [List.mem_cons, List.not_mem_nil, or_false, forall_eq_or_imp, forall_eq]
        exact ⟨intNode_shape (by decide) _, intNode_shape (by decide) _⟩
      · simp only [List.mem_cons, List.not_mem_nil, or_false, forall_eq_or_imp, forall_eq]
        exact ⟨intNode_shape (by decide) _, intNode_shape (by decide) _⟩
    · simp only [List.mem_singleton, forall_eq]; exact f.dataNode_shape
  · simp

theorem preview_shape (f : File) : ∀ x ∈ f.previewPart, Shape x := by
  unfold previewPart
  split
  · split
    · simp
    · simp only [List.mem_singleton, forall_eq]; exact Preview.shape _
  · simp

theorem meta_shape (f : File) : ∀ x ∈ f.metaPart, Shape x := by
  unfold metaPart
  split
  · split
    · simp
    · simp only [List.mem_singleton, forall_eq]; exact FileMeta.shape _
  · simp

theorem parts_shape (f : File) (v1 : Bool) : ∀ x ∈ f.parts v1, Shape x := by
  unfold parts
  refine shape_append (shape_append (shape_append (shape_append (shape_append (shape_append (shape_append ?_ (textNode_shape (by decide) _))
    (textNode_shape (by decide) _)) (textNode_shape (by decide) _)) f.parent_shape) (f.data_shape v1)) f.preview_shape) f.meta_shape
  simp only [List.mem_singleton, forall_eq]; exact intNode_shape (by decide) _

theorem shape (f : File) (v1 : Bool) : Shape (f.node v1) := .branch (by decide) (f.parts_shape v1)

theorem pos_valid (nm : Bytes) (a b : Int) : Valid locationType (posNode nm a b).attrs (posNode nm a b).children ↔
    (0 ≤ a ∧ a < 4294967296) ∧ 0 ≤ b ∧ b < 4294967296 := by
  unfold locationType posNode Node.attrs Node.children
  dsimp only
  rw [Valid]
  have hr : ∀ d ∈ [(⟨b! "frame", unsignedInt, false⟩ : Attr), ⟨b! "byte", unsignedInt, false⟩], d.required = false := by simp
  have hn : ([(⟨b! "frame", unsignedInt, false⟩ : Attr), ⟨b! "byte", unsignedInt, false⟩].map Attr.name).Nodup := by
    simp only [List.map_cons, List.map_nil]; decide
  have e1 : ∀ a b : Bytes × Option Bytes, [a, b] = [a] ++ [b] := fun _ _ => rfl
  rw [e1, attrsOk_append hr, attrsOk_one hr hn (d := ⟨b! "frame", unsignedInt, false⟩) (by simp),
    attrsOk_one hr hn (d := ⟨b! "byte", unsignedInt, false⟩) (by simp)]
  dsimp only
  rw [unsigned_printInt06, unsigned_printInt]
  simp [elements, chars_nil]

theorem dataNode_valid {f : File} (h : f.writable) (hd : f.isDigital = true) : Valid dataType f.dataNode.attrs f.dataNode.children ↔
    (0 ≤ f.size ∧ f.size < 4294967296) ∧ 0 ≤ f.endByte := by
  obtain ⟨hv, -, -, -, -, -, -, -, hsf, hsb, hef, heb, hc, -⟩ := h
  have hv' : 0 ≤ f.startFrame ∧ 0 ≤ f.startByte ∧ f.startFrame ≤ f.endFrame ∧ f.checksum ≠ none := by
    unfold isValid at hv
    split at hv
    · cases hv
    · split at hv
      · cases hv
      · split at hv
        · cases hv
        · rename_i hh
          simp only [hd, true_and, not_or, not_and] at hh
          exact ⟨by omega, by omega, by omega, hh.2.2.2.1⟩
  obtain ⟨v1, v2, v3, v4⟩ := hv'
  unfold dataType dataNode
  rw [Node.attrs, Node.children]
  refine (valid_segs [textNode (b! "checksum") f.checksum, [int64Node (b! "size") f.size], [posNode (b! "start") f.startFrame f.startByte],
    [posNode (b! "end") f.endFrame f.endByte]] (by simp) (by decide)
    (by refine ⟨textNode_named _ _, ?_, ?_, ?_, trivial⟩ <;> simp only [List.mem_singleton, forall_eq] <;> first | (rw [int64Node_eq]; rfl) | rfl)
    (by have := f.dataNode_shape
        refine shape_append (textNode_shape (by decide) _) ?_
        simp only [List.mem_cons, List.not_mem_nil, or_false, forall_eq_or_imp, forall_eq]
        exact ⟨intNode_shape (by decide) _, pos_shape (by decide) _ _, pos_shape (by decide) _ _⟩)).trans ?_
  simp only [SegsOk, and_true, attrsOk_nil, true_and]
  rw [one_seg, one_seg, one_seg, pos_valid, pos_valid, int64Node_eq, Node.attrs, Node.children, valid_text, unsigned_printInt]
  have hck : 1 ≤ (textNode (b! "checksum") f.checksum).length ∧ (∀ h, some 1 = some h → (textNode (b! "checksum") f.checksum).length ≤ h) ∧
      ∀ x ∈ textNode (b! "checksum") f.checksum, Valid (.text [] Schema.string) x.attrs x.children := by
    rcases hc hd with e | e
    · rw [e]
      rw [show textNode (b! "checksum") (some []) = [.elem (b! "checksum") [] []] from rfl, one_seg, Node.attrs, Node.children, Valid]
      exact ⟨attrsOk_nil, rfl, trivial⟩
    · rw [textNode_one e]
      cases hq : f.checksum with
      | none => exact absurd hq v4
      | some c => exact ⟨c, rfl, trivial⟩
  have := hsf.2
  have := hsb.2
  have := hef.2
  have := heb.2
  constructor
  · rintro ⟨-, h1, -, h2⟩; exact ⟨h1, h2.2.1⟩
  · rintro ⟨h1, h2⟩; exact ⟨hck, h1, ⟨⟨v1, by omega⟩, v2, by omega⟩, ⟨by omega, by omega⟩, h2, by omega⟩

theorem parent_valid {f : File} : (∀ x ∈ f.parentPart, Valid (.text [] parentIdType) x.attrs x.children) ↔ -2 ≤ f.parentId := by
  unfold parentPart
  split
  · simp only [List.mem_singleton, forall_eq]
    rw [intNode_eq, Node.attrs, Node.children, valid_text, parent_printInt]
  · rename_i h
    simp only [List.not_mem_nil, false_implies, implies_true, true_iff]
    have : f.parentId = -2 := by
      simp only [hasParent, isParent, FILE_NO_PARENT, FILE_PARENT, Bool.or_eq_true, Bool.and_eq_true, bne_iff_ne, ne_eq, Bool.not_eq_true',
        beq_eq_false_iff_ne, beq_iff_eq, not_or, not_and] at h
      rcases Decidable.em (f.parentId = -2) with e | e
      · exact e
      · exact absurd h.2 (h.1 e)
    omega

theorem valid_name {f : File} (h : f.isValid = true) : f.name ≠ none ∧ f.date ≠ none := by
  unfold isValid at h
  split at h
  · cases h
  · split at h
    · cases h
    · rename_i hh
      refine ⟨fun e => hh ?_, fun e => hh ?_⟩ <;> rw [e] <;> simp [nullOrEmpty]

theorem meta_conforms (f : File) : (∀ m, f.metadata = some m → m.conforms) ↔ (f.hasMetadata = true → ∀ m, f.metadata = some m → m.conforms) := by
  refine ⟨fun h _ => h, fun h m hm => ?_⟩
  cases hh : f.hasMetadata with
  | true => exact h hh m hm
  | false =>
    unfold hasMetadata at hh
    rw [hm] at hh
    intro x hx
    obtain ⟨o⟩ := m
    cases o with
    | none => simp at hx
    | some l =>
      cases l with
      | nil => simp at hx
      | cons y l => simp [FileMeta.sourcesCount, vecSize] at hh

theorem parent_named (f : File) : ∀ x ∈ f.parentPart, Named (b! "parentId") x := by
  unfold parentPart
  split
  · simp only [List.mem_singleton, forall_eq]; rw [intNode_eq]; rfl
  · simp

theorem preview_named (f : File) : ∀ x ∈ f.previewPart, Named (b! "preview") x := by
  unfold previewPart
  split
  · split
    · simp
    · simp only [List.mem_singleton, forall_eq]; rfl
  · simp

theorem meta_named (f : File) : ∀ x ∈ f.metaPart, Named (b! "metadata") x := by
  unfold metaPart
  split
  · split
    · simp
    · simp only [List.mem_singleton, forall_eq]; rfl
  · simp

theorem data_named (f : File) : ∀ x ∈ f.dataPart false, Named (b! "data") x := by
  unfold dataPart
  split
  · simp only [Bool.false_eq_true, if_false, List.mem_singleton, forall_eq]; rfl
  · simp

theorem valid {D : Char → Prop} (hD : HasDigits D) {f : File} (h : f.writable) (v1 : Bool) :
    Valid (fileType D) (f.node v1).attrs (f.node v1).children ↔ f.conforms D ∧ v1 = false := by
  have hw := h
  obtain ⟨hv, hff, hu, hn, hd, hid, hpid, hsz, hsf, hsb, hef, heb, hc, hp, hm⟩ := h
  unfold fileType node
  rw [Node.attrs, Node.children]
  by_cases hvd : v1 = true ∧ f.isDigital = true
  · obtain ⟨rfl, hdig⟩ := hvd
    simp only [reduceCtorEq, and_false, iff_false]
    intro hV
    rw [Valid] at hV
    have hio := hV.2.2
    rw [shapes_elements (f.parts_shape true)] at hio
    obtain ⟨n, hn, hn'⟩ := inOrder_names hio (int64Node (b! "size") f.size) (by simp [parts, dataPart, hdig, data1Nodes])
    rw [int64Node_eq] at hn'
    cases hn'
    revert hn
    simp only [partNames]
    decide
  have hpt : f.parts v1 = f.parts false := by
    unfold parts dataPart
    cases hdig : f.isDigital with
    | false => rfl
    | true =>
      cases v1 with
      | false => rfl
      | true => exact absurd ⟨rfl, hdig⟩ hvd
  have hvd' : (f.conforms D ∧ v1 = false) ↔ f.conforms D := by
    refine ⟨fun h => h.1, fun h => ⟨h, ?_⟩⟩
    cases v1 with
    | false => rfl
    | true => exact absurd ⟨rfl, h.2.2.2.1⟩ hvd
  rw [hpt, hvd']
  refine (valid_segs [[intNode (b! "id") f.id], textNode (b! "uniqueId") f.uniqueId, textNode (b! "name") f.name, textNode (b! "date") f.date,
    f.parentPart, f.dataPart false, f.previewPart, f.metaPart] (by simp [parts]) (by simp only [partNames]; decide)
    (by refine ⟨?_, textNode_named _ _, textNode_named _ _, textNode_named _ _, f.parent_named, f.data_named, f.preview_named, f.meta_named, trivial⟩
        simp only [List.mem_singleton, forall_eq]; rw [intNode_eq]; rfl) (f.parts_shape false)).trans ?_
  simp only [SegsOk, and_true]
  have hr : ∀ d ∈ [(⟨b! "formatId", Schema.string, false⟩ : Attr)], d.required = false := by simp
  have hnn : ([(⟨b! "formatId", Schema.string, false⟩ : Attr)].map Attr.name).Nodup := by simp
  have hat : AttrsOk [⟨b! "formatId", Schema.string, false⟩] (optAttr (b! "formatId") f.fileFormat) := by
    cases f.fileFormat with
    | none => exact attrsOk_none hr
    | some v => exact (attrsOk_one hr hnn (d := ⟨b! "formatId", Schema.string, false⟩) (by simp) v).mpr trivial
  have hidv : Valid (.text [] integer) (intNode (b! "id") f.id).attrs (intNode (b! "id") f.id).children := by
    rw [intNode_eq, Node.attrs, Node.children, valid_text]
    exact integer_printInt _
  rw [one_seg, textNode_one hu, textNode_one hn, textNode_one hd, opt_seg (by unfold parentPart; split <;> simp), parent_valid,
    opt_seg (by unfold previewPart; (repeat' split) <;> simp), opt_seg (by unfold metaPart; (repeat' split) <;> simp)]
  have hdata : (1 ≤ (f.dataPart false).length ∧ (∀ h, some 1 = some h → (f.dataPart false).length ≤ h) ∧
      ∀ x ∈ f.dataPart false, Valid dataType x.attrs x.children) ↔ f.isDigital = true ∧ (0 ≤ f.size ∧ f.size < 4294967296) ∧ 0 ≤ f.endByte := by
    unfold dataPart
    cases hdig : f.isDigital with
    | false => simp
    | true =>
      simp only [if_true, Bool.false_eq_true, if_false, true_and]
      rw [one_seg, dataNode_valid hw hdig]
  have hprev : (∀ x ∈ f.previewPart, Valid (previewType D) x.attrs x.children) ↔ (f.isPreview = true → ∀ p, f.preview = some p → p.conforms) := by
    unfold previewPart
    cases hip : f.isPreview with
    | false => simp
    | true =>
      cases hq : f.preview with
      | none => simp
      | some p =>
        simp only [if_true, List.mem_singleton, forall_eq, forall_const, Option.some.injEq, forall_eq']
        exact Preview.valid hD (hp hip p hq)
  have hmeta : (∀ x ∈ f.metaPart, Valid fileMetadataType x.attrs x.children) ↔ (∀ m, f.metadata = some m → m.conforms) := by
    rw [meta_conforms]
    unfold metaPart
    cases hip : f.hasMetadata with
    | false => simp
    | true =>
      cases hq : f.metadata with
      | none => simp
      | some p =>
        simp only [if_true, List.mem_singleton, forall_eq, forall_const, Option.some.injEq, forall_eq']
        exact FileMeta.valid (hm hip p hq)
  rw [hdata, hprev, hmeta]
  obtain ⟨hnm, hdt⟩ := valid_name hv
  unfold conforms
  cases hun : f.uniqueId with
  | none => simp
  | some u =>
    cases hnn : f.name with
    | none => exact absurd hnn hnm
    | some n =>
      cases hdd : f.date with
      | none => exact absurd hdd hdt
      | some d =>
        simp only [Option.some.injEq, exists_eq_left', forall_eq', ne_eq, reduceCtorEq, not_false_eq_true, true_and]
        constructor
        · rintro ⟨-, -, -, -, h3, h4, ⟨h5, h6, h7⟩, h8, h9⟩; exact ⟨h3, h4, h5, h6, h7, h8, h9⟩
        · rintro ⟨h3, h4, h5, h6, h7, h8, h9⟩; exact ⟨hat, hidv, trivial, trivial, h3, h4, ⟨h5, h6, h7⟩, h8, h9⟩

end File

theorem Files.shape (f : Files) : Shape f.node := .branch (by decide) (shape_map _ fun x _ => x.shape false)

theorem Files.valid {D : Char → Prop} (hD : HasDigits D) {f : Files} (h : ∀ x ∈ f.list, x.writable) :
    Valid (filesType D) f.node.attrs f.node.children ↔ f.conforms D := by
  unfold filesType Files.node
  rw [Node.attrs, Node.children]
  refine (valid_segs [f.list.map fun x => x.node false] (by simp) (by simp only [partNames]; decide)
    (by exact ⟨named_map _ (fun _ => rfl), trivial⟩) (shape_map _ fun x _ => x.shape false)).trans ?_
  simp only [SegsOk, and_true, attrsOk_nil, true_and]
  rw [many_seg]
  simp only [List.forall_mem_map, List.length_map]
  unfold Files.conforms
  have h1 : 1 ≤ f.list.length ↔ f.list ≠ [] := by cases f.list <;> simp
  rw [h1]
  constructor
  · rintro ⟨h1, h2⟩; exact ⟨h1, fun x hx => ((File.valid hD (h x hx) false).mp (h2 x hx)).1⟩
  · rintro ⟨h1, h2⟩; exact ⟨h1, fun x hx => (File.valid hD (h x hx) false).mpr ⟨h2 x hx, rfl⟩⟩

/-! ## Reels -/

theorem Reel.files_shape (r : Reel) : ∀ x ∈ r.filesPart, Shape x := by
  unfold Reel.filesPart
  split
  · simp
  · simp only [List.mem_singleton, forall_eq]; exact Files.shape _

theorem Reel.shape (r : Reel) : Shape r.node := .branch (by decide) (shape_append (textNode_shape (by decide) _) r.files_shape)

theorem Reel.valid {D : Char → Prop} (hD : HasDigits D) {r : Reel} (h : r.writable) :
    Valid (reelType D) r.node.attrs r.node.children ↔ r.conforms D := by
  obtain ⟨hv, hi, hl⟩ := h
  unfold reelType Reel.node
  rw [Node.attrs, Node.children]
  refine (valid_segs [textNode (b! "id") r.id, r.filesPart] (by simp) (by simp only [partNames]; decide)
    (by refine ⟨textNode_named _ _, ?_, trivial⟩
        unfold Reel.filesPart
        split
        · simp
        · simp only [List.mem_singleton, forall_eq]; rfl) (shape_append (textNode_shape (by decide) _) r.files_shape)).trans ?_
  simp only [SegsOk, and_true, attrsOk_nil, true_and]
  rw [textNode_one hi]
  have hid : ∃ t, r.id = some t ∧ Schema.string t := by
    unfold Reel.isValid at hv
    split at hv
    · cases hv
    · split at hv
      · cases hv
      · rename_i hh
        cases hq : r.id with
        | none => rw [hq] at hh; exact absurd rfl hh
        | some t => exact ⟨t, rfl, trivial⟩
  unfold Reel.filesPart Reel.conforms
  cases hq : r.files with
  | none => simp
  | some f =>
    simp only
    rw [one_seg, Files.valid hD (Reel.list_files hq ▸ hl)]
    simp only [hid, true_and, Option.some.injEq, exists_eq_left']

theorem Reels.shape (r : Reels) : Shape r.node := .branch (by decide) (shape_map _ fun x _ => x.shape)

theorem Reels.valid {D : Char → Prop} (hD : HasDigits D) {r : Reels} (h : ∀ x ∈ r.list, x.writable) :
    Valid (reelsType D) r.node.attrs r.node.children ↔ r.conforms D := by
  unfold reelsType Reels.node
  rw [Node.attrs, Node.children]
  refine (valid_segs [r.list.map Reel.node] (by simp) (by simp only [partNames]; decide)
    (by exact ⟨named_map _ (fun _ => rfl), trivial⟩) (shape_map _ fun x _ => x.shape)).trans ?_
  simp only [SegsOk, and_true, attrsOk_nil, true_and]
  rw [many_seg]
  simp only [List.forall_mem_map, List.length_map]
  unfold Reels.conforms
  have h1 : 1 ≤ r.list.length ↔ r.list ≠ [] := by cases r.list <;> simp
  rw [h1]
  constructor
  · rintro ⟨h1, h2⟩; exact ⟨h1, fun x hx => (Reel.valid hD (h x hx)).mp (h2 x hx)⟩
  · rintro ⟨h1, h2⟩; exact ⟨h1, fun x hx => (Reel.valid hD (h x hx)).mpr (h2 x hx)⟩

/-! ## The table of contents -/

namespace TocData

theorem meta_part (t : TocData) : ∀ x ∈ t.metaPart, Shape x ∧ Named (b! "metadata") x := by
  unfold metaPart
  split
  · simp
  · split
    · simp
    · simp only [List.mem_singleton, forall_eq]; exact ⟨TocMeta.shape _, rfl⟩

theorem layout_part {t : TocData} (h : t.writable) : ∀ x ∈ t.layoutPart, Shape x ∧ Named (b! "layoutDefinitions") x := by
  unfold layoutPart
  split
  · simp
  · rename_i d hd
    split
    · simp
    · rename_i hne
      simp only [List.mem_singleton, forall_eq]; exact ⟨LayoutDefs.shape (h.2.2.2.2.2.1 d hd hne), rfl⟩

theorem reels_part (t : TocData) : ∀ x ∈ t.reelsPart, Shape x ∧ Named (b! "reels") x := by
  unfold reelsPart
  split
  · simp
  · split
    · simp
    · simp only [List.mem_singleton, forall_eq]; exact ⟨Reels.shape _, rfl⟩

theorem parts_shape {t : TocData} (h : t.writable) : ∀ x ∈ t.parts, Shape x :=
  shape_append (textNode_shape (by decide) _) (shape_append (textNode_shape (by decide) _) (shape_append (textNode_shape (by decide) _)
    (shape_append (fun x hx => (t.meta_part x hx).1) (shape_append (fun x hx => (layout_part h x hx).1) fun x hx => (t.reels_part x hx).1))))

theorem shape {t : TocData} (h : t.writable) : Shape t.node := .branch (by decide) (parts_shape h)

theorem valid_texts {t : TocData} (h : t.isValid = true) : t.jobId ≠ none ∧ t.reelId ≠ none ∧ (t.indexType = some INDEX_JOB ∨ t.indexType = some INDEX_REEL) := by
  unfold isValid at h
  split at h
  · cases h
  · split at h
    · cases h
    · rename_i h1
      split at h
      · cases h
      · rename_i h2
        split at h
        · cases h
        · rename_i h3
          refine ⟨fun e => ?_, fun e => ?_, ?_⟩
          · rw [e] at h1; exact absurd rfl h1
          · rw [e] at h2; exact absurd rfl h2
          · cases hq : t.indexType with
            | none => rw [hq] at h3; exact absurd (by decide) h3
            | some i =>
              rw [hq] at h3
              simp only [orEmpty, ne_eq, not_and, Classical.not_not] at h3
              by_cases hj : i = INDEX_JOB
              · exact .inl (by rw [hj])
              · exact .inr (by rw [h3 hj])

theorem valid {D : Char → Prop} (hD : HasDigits D) {t : TocData} (h : t.writable) :
    Valid (Schema.indexType D) t.node.attrs t.node.children ↔ t.conforms D := by
  have hw := h
  obtain ⟨hv, hver, hj, hri, hm, hl, hr⟩ := h
  unfold Schema.indexType node
  rw [Node.attrs, Node.children]
  refine (valid_segs [textNode (b! "indexType") t.indexType, textNode (b! "jobId") t.jobId, textNode (b! "reelId") t.reelId, t.metaPart, t.layoutPart,
    t.reelsPart] (by simp [parts]) (by simp only [partNames]; decide)
    (by exact ⟨textNode_named _ _, textNode_named _ _, textNode_named _ _, fun x hx => (t.meta_part x hx).2, fun x hx => (layout_part hw x hx).2,
      fun x hx => (t.reels_part x hx).2, trivial⟩) (parts_shape hw)).trans ?_
  simp only [SegsOk, and_true]
  obtain ⟨v1, v2, v3⟩ := valid_texts hv
  have hix : TextField t.indexType := by
    rcases v3 with e | e <;> rw [e] <;> exact textField_ascii (by decide)
  rw [textNode_one hix, textNode_one hj, textNode_one hri, opt_seg (by unfold metaPart; (repeat' split) <;> simp)]
  have t1 : ∃ x, t.indexType = some x ∧ Schema.string x := by rcases v3 with e | e <;> exact ⟨_, e, trivial⟩
  have t2 : ∃ x, t.jobId = some x ∧ Schema.string x := by
    cases hq : t.jobId with
    | none => exact absurd hq v1
    | some x => exact ⟨x, rfl, trivial⟩
  have t3 : ∃ x, t.reelId = some x ∧ Schema.string x := by
    cases hq : t.reelId with
    | none => exact absurd hq v2
    | some x => exact ⟨x, rfl, trivial⟩
  have hrq : ∀ d ∈ [(⟨b! "version", versionType D, false⟩ : Attr)], d.required = false := by simp
  have hnn : ([(⟨b! "version", versionType D, false⟩ : Attr)].map Attr.name).Nodup := by simp
  have hat : AttrsOk [⟨b! "version", versionType D, false⟩] (optAttr (b! "version") t.version) ↔ ∀ v, t.version = some v → versionType D v := by
    cases t.version with
    | none => simp [optAttr, attrsOk_none hrq]
    | some v =>
      rw [optAttr]
      refine (attrsOk_one hrq hnn (d := ⟨b! "version", versionType D, false⟩) (by simp) v).trans ?_
      simp
  have hmeta : (∀ x ∈ t.metaPart, Valid metadataType x.attrs x.children) ↔ (∀ m, t.metadata = some m → m.conforms) := by
    unfold metaPart
    cases hq : t.metadata with
    | none => simp
    | some m =>
      simp only [Option.some.injEq, forall_eq']
      split
      · rename_i he
        simp only [List.not_mem_nil, false_implies, implies_true, true_iff]
        unfold TocMeta.conforms
        rw [he]; simp
      · rename_i he
        simp only [List.mem_singleton, forall_eq]
        exact TocMeta.valid (hm m hq he)
  have hlay : (1 ≤ t.layoutPart.length ∧ (∀ h, some 1 = some h → t.layoutPart.length ≤ h) ∧
      ∀ x ∈ t.layoutPart, Valid layoutDefinitionsType x.attrs x.children) ↔ ∃ d, t.layouts = some d ∧ d.defs.getD [] ≠ [] := by
    unfold layoutPart
    cases hq : t.layouts with
    | none => simp
    | some d =>
      have e : (∃ d', some d = some d' ∧ d'.defs.getD [] ≠ []) ↔ d.defs.getD [] ≠ [] := by simp
      rw [e]
      dsimp only
      split
      · rename_i he; simp [he]
      · rename_i he
        rw [one_seg]
        exact ⟨fun _ => he, fun _ => LayoutDefs.valid (hl d hq he)⟩
  have hreel : (1 ≤ t.reelsPart.length ∧ (∀ h, some 1 = some h → t.reelsPart.length ≤ h) ∧
      ∀ x ∈ t.reelsPart, Valid (reelsType D) x.attrs x.children) ↔ ∃ r, t.reels = some r ∧ r.conforms D := by
    unfold reelsPart
    cases hq : t.reels with
    | none => simp
    | some r =>
      have e : (∃ r', some r = some r' ∧ r'.conforms D) ↔ r.conforms D := by simp
      rw [e]
      dsimp only
      split
      · rename_i he; simp [Reels.conforms, he]
      · rename_i he
        rw [one_seg, Reels.valid hD (by rw [← reelList_reels hq]; exact hr)]
  rw [hat, hmeta, hlay, hreel]
  unfold conforms
  simp only [t1, t2, t3, true_and]

end TocData

end Afs
