import Verif.Proof.Document3
/-! # Loading documents that follow the schema: layouts -/
namespace Afs
open Spec Xml Spec.Schema Spec.Document

/-- Distinct ids and no overlap. -/
def Apart (a b : Section) : Prop := a.id ≠ b.id ∧ Section.isOverlap a b = false

theorem admits_sections (xs : List Section) : ∀ l, Admits sectionOk l xs ↔
    (∀ x ∈ xs, x.isValid = true) ∧ (∀ c ∈ l, ∀ x ∈ xs, Apart c x) ∧ xs.Pairwise Apart := by
  induction xs with
  | nil => intro l; simp [Admits]
  | cons x xs ih =>
    intro l
    rw [Admits, ih, sectionOk, Bool.and_eq_true, admissible_iff, List.pairwise_cons]
    constructor
    · rintro ⟨⟨h1, h2⟩, h3, h4, h5⟩
      refine ⟨?_, ?_, fun y hy => h4 x (by simp) y hy, h5⟩
      · intro y hy; rcases List.mem_cons.mp hy with rfl | hy
        · exact h1
        · exact h3 y hy
      · intro c hc y hy; rcases List.mem_cons.mp hy with rfl | hy
        · exact h2 c hc
        · exact h4 c (by simp [hc]) y hy
    · rintro ⟨h1, h2, h3, h4⟩
      refine ⟨⟨h1 x (by simp), fun c hc => h2 c hc x (by simp)⟩, fun y hy => h1 y (by simp [hy]), ?_, h4⟩
      intro c hc y hy
      rcases List.mem_append.mp hc with hc | hc
      · exact h2 c hc y (by simp [hy])
      · rw [List.mem_singleton.mp hc]; exact h3 y hy

theorem sections_loop (ns : List Node) : ∀ s : Sections, s.loadLoop ns = loopG Section.create.loadXml Sections.append s ns := by
  induction ns with
  | nil => intro f; rfl
  | cons n ns ih => intro f; rw [Sections.loadLoop, loopG]; dsimp only; rw [ih]

/-- The condition for sections to load. -/
def SectionsFit (s : Sections) : Prop :=
  (∀ x ∈ s.sections.getD [], ValidSection x) ∧ (s.sections.getD []).Pairwise Apart

theorem listOf_getD {A : Type} (l : List A) : (listOf l).getD [] = l := by
  unfold listOf; cases l <;> rfl

theorem sections_loads {as cs} (h : Valid sectionsType as cs) (hpl : PlainList cs) :
    LoadsAs (Sections.create.loadLoop (findAll (.elem (b! "sections") as cs) (b! "section"))) (SectionsFit (sectionsOf (.elem (b! "sections") as cs)))
      (sectionsOf (.elem (b! "sections") as cs)) := by
  rw [findAll_children h hpl (by decide) rfl, sections_loop]
  have hl : ∀ n ∈ childrenOf (.elem (b! "sections") as cs) (b! "section"),
      LoadsAs (Section.create.loadXml n) (ValidSection (sectionOf n)) (sectionOf n) := by
    intro n hn
    obtain ⟨as', cs', rfl, hv, _⟩ := valid_childrenOf h hpl (ty := sectionType) rfl rfl hn
    exact section_loads hv
  have := loop_loads (mk := Sections.mk) (ok := sectionOk) (add := Sections.append) (by
    intro v x
    unfold Sections.append sectionOk
    cases h1 : x.isValid <;> cases h2 : Sections.admissible x (v.getD []) <;> simp [h1, h2]) _ hl none
  rw [listOf_eq, admits_sections] at this
  refine LoadsAs.congr this ?_
  unfold SectionsFit sectionsOf
  rw [listOf_getD]
  simp only [Option.getD_none, List.not_mem_nil, false_implies, implies_true, true_and, C37_section, List.mem_map, forall_exists_index,
    and_imp, forall_apply_eq_imp_iff₂]
  constructor
  · rintro ⟨_, h1, h2⟩; exact ⟨h1, h2⟩
  · rintro ⟨h1, h2⟩; exact ⟨h1, h1, h2⟩

theorem layout_loads {as cs} (h : Valid previewLayoutType as cs) (hpl : Plain (.elem (b! "previewLayout") as cs)) :
    ∃ s, child (.elem (b! "previewLayout") as cs) (b! "sections") = some s ∧
    LoadsAs (LayoutDef.create.loadXml (.elem (b! "previewLayout") as cs)) (SectionsFit (sectionsOf s)) (layoutOf (.elem (b! "previewLayout") as cs)) := by
  have hk : PlainList cs := plain_children hpl
  obtain ⟨s, hs⟩ := child_needed (n := b! "previewLayout") h (nm := b! "sections") rfl
  refine ⟨s, hs, ?_⟩
  obtain ⟨as', cs', rfl, hv, hk', _⟩ := valid_child h hk (ty := sectionsType) rfl rfl hs
  have hsec := sections_loads hv hk'
  unfold LayoutDef.loadXml
  rw [selfOrFind_self]
  dsimp only
  have e1 : find (.elem (b! "previewLayout") as cs) (b! "sections") = some (.elem (b! "sections") as' cs') := by
    rw [find_child h hk (by decide) rfl, hs]
  have e2 : Sections.create.loadXml (.elem (b! "previewLayout") as cs) =
      Sections.create.loadLoop (findAll (.elem (b! "sections") as' cs') (b! "section")) := by
    have e0 : named (b! "sections") (.elem (b! "previewLayout") as cs) = false := rfl
    unfold Sections.loadXml selfOrFind
    rw [e0, e1]
    rfl
  rw [e2, find_child h hk (nm := b! "id") (by decide) rfl, find_child h hk (nm := b! "name") (by decide) rfl,
    nodeText_child hpl (by decide), nodeText_child hpl (by decide)]
  refine ⟨hsec.1, fun hc => ?_⟩
  dsimp only
  rw [hsec.2 hc]
  unfold layoutOf
  rw [hs]
  rfl

/-! ### Lists of layouts -/

theorem layouts_loop (ns : List Node) (C : Node → Prop) (val : Node → LayoutDef) (hl : ∀ n ∈ ns, LoadsAs (LayoutDef.create.loadXml n) (C n) (val n)) :
    ∀ v : Option (List LayoutDef), DefsInv (v.getD []) → ∃ r, LayoutDefs.loadLoop ⟨v⟩ ns = .ok r ∧
      LoadsAs r ((∀ n ∈ ns, C n) ∧ Admits layoutOk (v.getD []) (ns.map val)) (⟨if ns.isEmpty then v else some (v.getD [] ++ ns.map val)⟩ : LayoutDefs) := by
  induction ns with
  | nil => intro v _; exact ⟨_, rfl, by simp [Admits], fun _ => rfl⟩
  | cons n ns ih =>
    intro v hinv
    obtain ⟨h1, h2⟩ := hl n (by simp)
    rw [LayoutDefs.loadLoop]
    by_cases hc : C n
    · rw [if_neg (by rw [h1.mpr hc]; simp), h2 hc, layouts_add_ok (ds := ⟨v⟩) (defsInv_ids hinv) (val n), Res.ok_bind]
      cases ho : layoutOk (v.getD []) (val n) with
      | false =>
        refine ⟨_, rfl, ⟨by simp, ?_⟩, ?_⟩
        · rintro ⟨_, h⟩; rw [List.map_cons, Admits, ho] at h; cases h.1
        · rintro ⟨_, h⟩; rw [List.map_cons, Admits, ho] at h; cases h.1
      | true =>
        have e : (vecAppend v (val n)).getD [] = v.getD [] ++ [val n] := by cases v <;> rfl
        obtain ⟨r, er, i1, i2⟩ := ih (fun m hm => hl m (by simp [hm])) (vecAppend v (val n)) (by rw [e]; exact defsInv_step _ _ hinv ho)
        rw [e] at i1 i2
        have hcond : ((∀ m ∈ n :: ns, C m) ∧ Admits layoutOk (v.getD []) ((n :: ns).map val)) ↔
            ((∀ m ∈ ns, C m) ∧ Admits layoutOk (v.getD [] ++ [val n]) (ns.map val)) := by
          rw [List.map_cons, Admits]
          simp [hc, ho]
        refine ⟨r, er, i1.trans hcond.symm, ?_⟩
        intro h
        rw [i2 (hcond.mp h)]
        cases ns with
        | nil => cases v <;> rfl
        | cons m ns => simp
    · have hf : (LayoutDef.create.loadXml n).1 = false := by
        cases hh : (LayoutDef.create.loadXml n).1 with
        | false => rfl
        | true => exact absurd (h1.mp hh) hc
      rw [if_pos hf]
      refine ⟨_, rfl, ⟨by simp, ?_⟩, ?_⟩
      · rintro ⟨h, _⟩; exact absurd (h n (by simp)) hc
      · rintro ⟨h, _⟩; exact absurd (h n (by simp)) hc

theorem admits_layouts (xs : List LayoutDef) : ∀ l, Admits layoutOk l xs ↔
    (∀ x ∈ xs, x.isValid = true) ∧ (∀ c ∈ l, ∀ x ∈ xs, c.id ≠ x.id) ∧ (xs.map LayoutDef.id).Nodup := by
  induction xs with
  | nil => intro l; simp [Admits]
  | cons x xs ih =>
    intro l
    rw [Admits, ih, layoutOk, Bool.and_eq_true, List.map_cons, List.nodup_cons]
    constructor
    · rintro ⟨⟨h1, h2⟩, h3, h4, h5⟩
      refine ⟨?_, ?_, ?_, h5⟩
      · intro y hy; rcases List.mem_cons.mp hy with rfl | hy
        · exact h1
        · exact h3 y hy
      · intro c hc y hy; rcases List.mem_cons.mp hy with rfl | hy
        · simp at h2; exact h2 c hc
        · exact h4 c (by simp [hc]) y hy
      · intro hm
        obtain ⟨y, hy, e⟩ := List.mem_map.mp hm
        exact h4 x (by simp) y hy e.symm
    · rintro ⟨h1, h2, h3, h4⟩
      refine ⟨⟨h1 x (by simp), ?_⟩, fun y hy => h1 y (by simp [hy]), ?_, h4⟩
      · simp; exact fun c hc => h2 c hc x (by simp)
      · intro c hc y hy
        rcases List.mem_append.mp hc with hc | hc
        · exact h2 c hc y (by simp [hy])
        · rw [List.mem_singleton.mp hc]; exact fun e => h3 (by rw [e]; exact List.mem_map_of_mem hy)

/-- The condition for layouts to load. -/
def LayoutsFit (d : LayoutDefs) : Prop :=
  (∀ x ∈ d.defs.getD [], ValidLayout x ∧ ∀ s, x.sections = some s → ((s.sections.getD []).map Section.id).Nodup) ∧
    ((d.defs.getD []).map LayoutDef.id).Nodup

theorem layouts_loads {as cs} (h : Valid layoutDefinitionsType as cs) (hpl : PlainList cs) :
    ∃ r, LayoutDefs.create.loadXml (.elem (b! "layoutDefinitions") as cs) = .ok r ∧
      LoadsAs r (LayoutsFit (layoutsOf (.elem (b! "layoutDefinitions") as cs))) (layoutsOf (.elem (b! "layoutDefinitions") as cs)) := by
  unfold LayoutDefs.loadXml
  rw [selfOrFind_self]
  dsimp only
  rw [findAll_children h hpl (by decide) rfl]
  generalize hns : childrenOf (.elem (b! "layoutDefinitions") as cs) (b! "previewLayout") = ns
  have hl : ∀ n ∈ ns, LoadsAs (LayoutDef.create.loadXml n) (∀ s, (layoutOf n).sections = some s → SectionsFit s) (layoutOf n) := by
    intro n hn
    rw [← hns] at hn
    obtain ⟨as', cs', rfl, hv, _, hpx⟩ := valid_childrenOf h hpl (ty := previewLayoutType) rfl rfl hn
    obtain ⟨s, hs, hld⟩ := layout_loads hv hpx
    refine LoadsAs.congr hld ?_
    unfold layoutOf
    rw [hs]
    simp
  obtain ⟨r, er, hr⟩ := layouts_loop ns _ _ hl none ⟨by simp, by simp⟩
  refine ⟨r, er, ?_⟩
  rw [listOf_eq, admits_layouts] at hr
  have hv : layoutsOf (.elem (b! "layoutDefinitions") as cs) = ⟨listOf (ns.map layoutOf)⟩ := by unfold layoutsOf; rw [hns]
  rw [hv]
  refine LoadsAs.congr hr ?_
  unfold LayoutsFit
  rw [listOf_getD]
  simp only [Option.getD_none, List.not_mem_nil, false_implies, implies_true, true_and, C37_layout, List.mem_map, forall_exists_index,
    and_imp, forall_apply_eq_imp_iff₂]
  constructor
  · rintro ⟨h1, h2, h3⟩
    refine ⟨fun n hn => ⟨h2 n hn, fun s hs => ?_⟩, h3⟩
    have := (h1 n hn s hs).2
    rw [List.Nodup, List.pairwise_map]
    exact this.imp fun a => a.1
  · rintro ⟨h1, h3⟩
    refine ⟨fun n hn s hs => ?_, fun n hn => (h1 n hn).1, h3⟩
    obtain ⟨hv, hids⟩ := h1 n hn
    obtain ⟨_, _, s', hs', l, hl', _, hval, hov⟩ := hv
    rw [hs] at hs'
    injection hs' with hs'
    subst hs'
    have hi := hids s hs
    unfold SectionsFit
    rw [hl'] at hi ⊢
    refine ⟨hval, ?_⟩
    rw [List.Nodup, List.pairwise_map] at hi
    exact List.Pairwise.and hi hov

end Afs
