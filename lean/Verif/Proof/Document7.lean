import Verif.Proof.Document6
/-! # Loading documents that follow the schema: the index -/
namespace Afs
open Spec Xml Spec.Schema Spec.Document

theorem root_find {name : Bytes} (hp : Proper name) (hx : (b! "?xml").isPrefixOf name = false) {ty : Ty}
    {doc : Node} (hc : Conforms name ty doc) (hpl : PlainDoc doc) :
    ∃ as cs, root doc = some (.elem name as cs) ∧ selfOrFind doc name = some (.elem name as cs) ∧ Valid ty as cs ∧ Plain (.elem name as cs) := by
  obtain ⟨as, cs, hv, rfl | ⟨d, ks, rfl, hd, he⟩⟩ := hc
  · refine ⟨as, cs, ?_, selfOrFind_self name as cs, hv, ?_⟩
    · unfold root
      rw [roots, if_neg (by rw [hx]; simp), elements, List.filter_cons_of_pos]
      · rfl
      · rcases hi : isElement (.elem name as cs) with _ | _
        · have := proper_named hp hi; simp [named, Node.element] at this
        · rfl
    · unfold PlainDoc at hpl
      rw [roots, if_neg (by rw [hx]; simp), PlainList] at hpl
      exact hpl.1
  · have hd' : (b! "?xml").isPrefixOf d = true := List.isPrefixOf_iff_prefix.mpr hd
    unfold PlainDoc at hpl
    rw [roots, if_pos hd'] at hpl
    have hm : Node.elem name as cs ∈ ks := (List.mem_filter.mp (by rw [← show elements ks = ks.filter isElement from rfl, he]; simp)).1
    have hpn := plain_mem hpl hm
    refine ⟨as, cs, ?_, ?_, hv, hpn⟩
    · unfold root
      rw [roots, if_pos hd', he]
      rfl
    · unfold selfOrFind
      have hn : named name (.elem d [] ks) = false := by
        cases hb : named name (.elem d [] ks) with
        | false => rfl
        | true =>
          simp [named, Node.element] at hb
          rw [hb, hx] at hd'
          cases hd'
      rw [if_neg (by rw [hn]; simp), find_allL, Node.children, allL_elements hpl hp, he, allL_one, if_pos (by simp [named, Node.element])]
      rfl

theorem loadFields_index {D as cs} (h : Valid (indexType D) as cs) (hpl : Plain (.elem (b! "Index") as cs)) (t : TocData) :
    t.loadFields (.elem (b! "Index") as cs) =
      { t with
        version := attr (.elem (b! "Index") as cs) (b! "version")
        indexType := text (.elem (b! "Index") as cs) (b! "indexType")
        jobId := text (.elem (b! "Index") as cs) (b! "jobId")
        reelId := text (.elem (b! "Index") as cs) (b! "reelId") } := by
  have hk : PlainList cs := plain_children hpl
  unfold TocData.loadFields
  rw [find_child h hk (nm := b! "indexType") (by decide) rfl, find_child h hk (nm := b! "jobId") (by decide) rfl,
    find_child h hk (nm := b! "reelId") (by decide) rfl, getAttr_attr, strClone_eq]
  obtain ⟨x1, h1⟩ := child_needed (n := b! "Index") h (nm := b! "indexType") rfl
  obtain ⟨x2, h2⟩ := child_needed (n := b! "Index") h (nm := b! "jobId") rfl
  obtain ⟨x3, h3⟩ := child_needed (n := b! "Index") h (nm := b! "reelId") rfl
  rw [← nodeText_child hpl (nm := b! "indexType") (by decide), ← nodeText_child hpl (nm := b! "jobId") (by decide),
    ← nodeText_child hpl (nm := b! "reelId") (by decide), h1, h2, h3]

theorem index_loads {D as cs} (h : Valid (indexType D) as cs) (hpl : Plain (.elem (b! "Index") as cs)) (t : TocData) (doc : Node)
    (hs : selfOrFind doc (b! "Index") = some (.elem (b! "Index") as cs)) :
    ∃ r, t.loadXml doc = .ok r ∧
      LoadsAs r (HasIds (.elem (b! "Index") as cs) ∧ Acceptable (indexOf (.elem (b! "Index") as cs))) (indexOf (.elem (b! "Index") as cs)) := by
  have hk : PlainList cs := plain_children hpl
  unfold HasIds
  rw [child_single h (nm := b! "metadata") rfl, child_single h (nm := b! "reels") rfl]
  obtain ⟨xl, hl⟩ := child_needed (n := b! "Index") h (nm := b! "layoutDefinitions") rfl
  obtain ⟨asl, csl, rfl, hvl, hkl, _⟩ := valid_child h hk (ty := layoutDefinitionsType) rfl rfl hl
  obtain ⟨rl, el, l1, l2⟩ := layouts_loads hvl hkl
  obtain ⟨xr, hr⟩ := child_needed (n := b! "Index") h (nm := b! "reels") rfl
  obtain ⟨asr, csr, rfl, hvr, _, hpr⟩ := valid_child h hk (ty := reelsType D) rfl rfl hr
  obtain ⟨r1, r2⟩ := reels_loads hvr hpr
  have eM : ∃ mb mv, TocData.loadMeta (.elem (b! "Index") as cs) = (mb, mv) ∧
      (mb = true ↔ (∀ m, child (.elem (b! "Index") as cs) (b! "metadata") = some m → MetaIds m) ∧
        ∀ m, (child (.elem (b! "Index") as cs) (b! "metadata")).map metadataOf = some m → ∀ s ∈ m.sources.getD [], ValidMetaSource s) ∧
      (mb = true → mv = (child (.elem (b! "Index") as cs) (b! "metadata")).map metadataOf) := by
    unfold TocData.loadMeta
    rw [findUnder_child h hk (by decide) (by decide) rfl]
    cases hm : child (.elem (b! "Index") as cs) (b! "metadata") with
    | none => exact ⟨_, _, rfl, by simp, fun _ => rfl⟩
    | some m =>
      obtain ⟨asm, csm, rfl, hvm, _, hpm⟩ := valid_child h hk (ty := metadataType) rfl rfl hm
      obtain ⟨m1, m2⟩ := meta_loads hvm hpm
      have hiff : (MetaIds (.elem (b! "metadata") asm csm) ∧ ∀ s ∈ (metadataOf (.elem (b! "metadata") asm csm)).sources.getD [], ValidMetaSource s) ↔
          ((∀ m, some (Node.elem (b! "metadata") asm csm) = some m → MetaIds m) ∧
            ∀ m, (some (Node.elem (b! "metadata") asm csm)).map metadataOf = some m → ∀ s ∈ m.sources.getD [], ValidMetaSource s) := by
        simp
      refine ⟨_, _, rfl, m1.trans hiff, fun hb => ?_⟩
      rw [m2 (m1.mp hb)]
      rfl
  obtain ⟨mb, mv, em, m1, m2⟩ := eM
  have eL : TocData.loadLayouts (.elem (b! "Index") as cs) = .ok (rl.1, some rl.2) := by
    unfold TocData.loadLayouts
    rw [find_child h hk (nm := b! "layoutDefinitions") (by decide) rfl, hl]
    dsimp only
    rw [el]
    rfl
  have eR : TocData.loadReels (.elem (b! "Index") as cs) =
      ((Reels.create.loadXml (.elem (b! "reels") asr csr)).1, some (Reels.create.loadXml (.elem (b! "reels") asr csr)).2) := by
    unfold TocData.loadReels
    rw [find_child h hk (nm := b! "reels") (by decide) rfl, hr]
  have hcond : ((((∀ m, child (.elem (b! "Index") as cs) (b! "metadata") = some m → MetaIds m) ∧
      ∀ m, child (.elem (b! "Index") as cs) (b! "reels") = some m → ReelsIds m)) ∧ Acceptable (indexOf (.elem (b! "Index") as cs))) ↔
      mb = true ∧ rl.1 = true ∧ (Reels.create.loadXml (.elem (b! "reels") asr csr)).1 = true := by
    rw [m1, l1, r1]
    unfold Acceptable indexOf LayoutsFit ValidReels
    rw [hl, hr]
    simp only [Option.map_some, Option.some.injEq, forall_eq']
    constructor
    · rintro ⟨⟨a, b⟩, c, d, e⟩; exact ⟨⟨a, c⟩, d, b, e⟩
    · rintro ⟨⟨a, c⟩, d, b, e⟩; exact ⟨⟨a, b⟩, c, d, e⟩
  have hval : mb = true → rl.1 = true → (Reels.create.loadXml (.elem (b! "reels") asr csr)).1 = true →
      ({ t.loadFields (.elem (b! "Index") as cs) with
        metadata := mv, layouts := some rl.2, reels := some (Reels.create.loadXml (.elem (b! "reels") asr csr)).2 } : TocData) =
        indexOf (.elem (b! "Index") as cs) := by
    intro h1 h2 h3
    rw [loadFields_index h hpl, m2 h1, l2 (l1.mp h2), r2 (r1.mp h3)]
    unfold indexOf
    rw [hl, hr]
    rfl
  rw [TocData.loadXml, hs]
  dsimp only
  rw [em]
  dsimp only
  cases mb with
  | false =>
    refine ⟨_, rfl, ⟨by simp, fun hh => ?_⟩, fun hh => ?_⟩
    · exact absurd (hcond.mp hh).1 (by simp)
    · exact absurd (hcond.mp hh).1 (by simp)
  | true =>
    rw [if_neg (by simp), eL, Res.ok_bind]
    dsimp only
    cases hb : rl.1 with
    | false =>
      refine ⟨_, rfl, ⟨by simp, fun hh => ?_⟩, fun hh => ?_⟩
      · exact absurd (hcond.mp hh).2.1 (by rw [hb]; simp)
      · exact absurd (hcond.mp hh).2.1 (by rw [hb]; simp)
    | true =>
      rw [if_neg (by simp), eR]
      dsimp only
      rcases Bool.eq_false_or_eq_true (Reels.create.loadXml (.elem (b! "reels") asr csr)).1 with hrl | hrl
      · rw [if_neg (by rw [hrl]; simp)]
        refine ⟨_, rfl, ⟨fun _ => hcond.mpr ⟨rfl, hb, hrl⟩, fun _ => rfl⟩, fun _ => hval rfl hb hrl⟩
      · rw [if_pos hrl]
        refine ⟨_, rfl, ⟨by simp, fun hh => ?_⟩, fun hh => ?_⟩
        · exact absurd (hcond.mp hh).2.2 (by rw [hrl]; simp)
        · exact absurd (hcond.mp hh).2.2 (by rw [hrl]; simp)

end Afs
