import Verif.Props.C81_Equal
/-!
# C81: equal tables of contents give the same answers
-/
namespace Afs
open Spec Canon

/-- **C81.** Lists of reels. -/
theorem C81_reels (r s : Option Reels) (h : Reels.equal r s = true) (i : Nat) :
    Reels.count r = Reels.count s ∧ Reel.equal (Reels.getReel r i) (Reels.getReel s i) = true ∧
    (r.map (fun r => r.list.map fun x => checksums x.list) = s.map (fun r => r.list.map fun x => checksums x.list) →
      Reels.isValid r = Reels.isValid s) := by
  rw [C05_reels_equal_iff] at h
  rw [C05_reel_equal_iff]
  refine ⟨congr_of (c := fun r => r.map reelsContent) (q := Reels.count) (fun r => ?_) h, ?_, fun hc => ?_⟩
  · cases r with
    | none => rfl
    | some r => exact vecSize_map _ _
  · have k : ∀ d : Option Reels, (Reels.getReel d i).map reelContent = Reels.getReel (d.map reelsContent) i := by
      intro d
      cases d with
      | none => rfl
      | some d => exact (vecGet_map _ _ _).symm
    rw [k, k, h]
  · cases r with
    | none =>
      cases s with
      | none => rfl
      | some g => cases h
    | some r =>
      cases s with
      | none => cases h
      | some s =>
        rw [Option.map_some, Option.map_some, Option.some.injEq] at h hc
        have el : ∀ x : Reels, (reelsContent x).list = x.list.map reelContent := by
          intro x
          rcases x with ⟨_ | l⟩ <;> rfl
        have e := reelsKeep_eq r.list s.list (by rw [← el, h, el]) hc
        show r.list.all Reel.isValid = s.list.all Reel.isValid
        rw [← all_map reelKeep Reel.isValid reel_valid r.list, e, all_map reelKeep Reel.isValid reel_valid]

/-- **C81.** Adding equal reels, whose files have checksums at the same places, to equal lists. -/
theorem C81_add_reel (r s : Reels) (h : Reels.equal (some r) (some s) = true) (x y : Reel) (hx : Reel.equal (some x) (some y) = true)
    (hc : checksums x.list = checksums y.list) :
    (r.addReel (some x)).1 = (s.addReel (some y)).1 ∧ Reels.equal (some (r.addReel (some x)).2) (some (s.addReel (some y)).2) = true := by
  simp only [C05_reels_equal_iff, C05_reel_equal_iff, Option.map_some, Option.some.injEq] at h hx ⊢
  have hv : x.isValid = y.isValid := congr_of reel_valid (reelKeep_eq hx hc)
  rw [Reels.addReel, Reels.addReel, hv]
  split
  · exact ⟨rfl, h⟩
  · refine ⟨rfl, ?_⟩
    have e : ∀ (f : Reels) (x : Reel), reelsContent ⟨vecAppend f.reels x⟩ = ⟨vecAppend (reelsContent f).reels (reelContent x)⟩ := by
      intro f x
      exact congrArg Reels.mk (vecAppend_map reelContent f.reels x).symm
    show reelsContent ⟨vecAppend r.reels x⟩ = reelsContent ⟨vecAppend s.reels y⟩
    rw [e, e, h, hx]

/-- **C81.** Metadata sources of an index and lists of them: the tags shown too are the same. -/
theorem C81_metadata (s t : MetaSource) (hs : MetaSource.equal (some s) (some t) = true)
    (a b : Option TocMeta) (h : TocMeta.equal a b = true) (i : Nat) (d : Option Bytes) :
    s.isValid = t.isValid ∧ s.getTags = t.getTags ∧ MetaSource.equal (some (s.setTags d)) (some (t.setTags d)) = true ∧
    TocMeta.isValid a = TocMeta.isValid b ∧ TocMeta.sourcesCount a = TocMeta.sourcesCount b ∧
    MetaSource.equal (TocMeta.getSource a i) (TocMeta.getSource b i) = true := by
  rw [C05_metadata_equal_iff] at h
  simp only [C05_metadata_source_equal_iff, Option.map_some, Option.some.injEq] at hs ⊢
  refine ⟨congr_of meta_valid hs, congr_of (c := metaSourceContent) (q := MetaSource.getTags) (fun _ => rfl) hs, ?_, congr_of tocMeta_valid h,
    congr_of (c := fun m => m.map tocMetaContent) (q := TocMeta.sourcesCount) (fun m => ?_) h, ?_⟩
  · have k : ∀ s : MetaSource, metaSourceContent (s.setTags d) = (metaSourceContent s).setTags d := by
      intro s
      cases d with
      | none => rfl
      | some d => rw [MetaSource.setTags, MetaSource.setTags]; split <;> rfl
    rw [k, k, hs]
  · cases m with
    | none => rfl
    | some r => exact vecSize_map _ _
  · have k : ∀ d : Option TocMeta, (TocMeta.getSource d i).map metaSourceContent = TocMeta.getSource (d.map tocMetaContent) i := by
      intro d
      cases d with
      | none => rfl
      | some d => exact (vecGet_map _ _ _).symm
    rw [k, k, h]

/-- **C81.** Adding equal sources to equal lists. -/
theorem C81_add_metadata (a b : TocMeta) (h : TocMeta.equal (some a) (some b) = true) (x y : Option MetaSource) (hx : MetaSource.equal x y = true) :
    (a.addSource x).1 = (b.addSource y).1 ∧ TocMeta.equal (some (a.addSource x).2) (some (b.addSource y).2) = true := by
  simp only [C05_metadata_equal_iff, Option.map_some, Option.some.injEq] at h ⊢
  rw [C05_metadata_source_equal_iff] at hx
  have e : ∀ (p : TocMeta) (x : Option MetaSource), (tocMetaContent p).addSource (x.map metaSourceContent) =
      ((p.addSource x).1, tocMetaContent (p.addSource x).2) := by
    intro p x
    cases x with
    | none => rfl
    | some x =>
      rw [Option.map_some, TocMeta.addSource, TocMeta.addSource, meta_valid]
      split
      · rfl
      · exact Prod.ext rfl (congrArg TocMeta.mk (vecAppend_map metaSourceContent p.sources x))
  have e1 := e a x
  rw [h, hx, e b y] at e1
  exact ⟨(congrArg Prod.fst e1).symm, (congrArg Prod.snd e1).symm⟩

theorem toc_content_eq (t : TocData) : tocContent t = ⟨str t.version, str t.indexType, str t.jobId, str t.reelId,
    t.reelList.map reelContent, (metaList t).map metaSourceContent, (layoutList t).map layoutContent⟩ := by
  rw [reelList_eq]; rfl

/-- **C81.** Tables of contents: every query. -/
theorem C81_toc (a b : TocData) (h : TocData.equal (some a) (some b) = true) (i : Nat) (k : Int) (u v : Option Bytes)
    (hu : str u = str v) :
    a.reelCount = b.reelCount ∧ a.metadataSourceCount = b.metadataSourceCount ∧ a.layoutCount = b.layoutCount ∧
    TocData.fileCount (some a) = TocData.fileCount (some b) ∧ TocData.frameCount (some a) = TocData.frameCount (some b) ∧
    Reel.equal (TocData.reelByIndex (some a) i) (TocData.reelByIndex (some b) i) = true ∧
    Reel.equal (TocData.reelById (some a) u) (TocData.reelById (some b) v) = true ∧
    MetaSource.equal (TocData.metadataSource (some a) i) (TocData.metadataSource (some b) i) = true ∧
    LayoutDef.equal (TocData.layout (some a) i) (TocData.layout (some b) i) = true ∧
    File.equal (TocData.fileById (some a) k) (TocData.fileById (some b) k) = true ∧
    Agree (fun x y => File.equal x y = true) (TocData.fileByUniqueId (some a) u) (TocData.fileByUniqueId (some b) u) ∧
    Agree (fun x y => LayoutDefs.equal x y = true) (TocData.usedLayouts (some a)) (TocData.usedLayouts (some b)) ∧
    (a.reels.isSome = b.reels.isSome →
      TocData.firstFrame (some a) = TocData.firstFrame (some b) ∧ TocData.lastFrame (some a) = TocData.lastFrame (some b)) ∧
    (a.reelList.map (checksums ·.list) = b.reelList.map (checksums ·.list) → a.isValid = b.isValid) := by
  simp only [C05_toc_equal_iff, C05_reel_equal_iff, C05_metadata_source_equal_iff, C05_layout_definition_equal_iff, C05_file_equal_iff,
    C05_layout_definitions_equal_iff, Option.map_some, Option.some.injEq] at h ⊢
  rw [toc_content_eq, toc_content_eq, TocContent.mk.injEq] at h
  obtain ⟨hver, hty, hjob, hreel, hr, hm, hl⟩ := h
  have len : ∀ {α β : Type} {f : α → β} {x y : List α}, x.map f = y.map f → x.length = y.length := by
    intro α β f x y e
    have := congrArg List.length e
    rwa [List.length_map, List.length_map] at this
  refine ⟨?_, ?_, ?_, ?_, ?_, ?_, ?_, ?_, ?_, ?_, ?_, ?_, fun hs => ?_, fun hc => ?_⟩
  · rw [(counts_eq a).1, (counts_eq b).1, len hr]
  · rw [(counts_eq a).2.1, (counts_eq b).2.1, len hm]
  · rw [(counts_eq a).2.2, (counts_eq b).2.2, len hl]
  · show u32 _ = u32 _
    rw [← fileCounts_content, hr, fileCounts_content]
  · show TocData.frameLoop _ 0 = TocData.frameLoop _ 0
    rw [← frameLoop_content, hr, frameLoop_content]
  · rw [reelByIndex_eq, reelByIndex_eq, ← List.getElem?_map, hr, List.getElem?_map]
  · show (TocData.findReel u a.reelList).map reelContent = (TocData.findReel v b.reelList).map reelContent
    rw [← findReel_content, hr, findReel_content, findReel_str u v hu]
  · rw [metadataSource_eq, metadataSource_eq, ← List.getElem?_map, hm, List.getElem?_map]
  · rw [layout_eq, layout_eq, ← List.getElem?_map, hl, List.getElem?_map]
  · show (TocData.findFile k a.reelList).map fileContent = (TocData.findFile k b.reelList).map fileContent
    rw [← findFile_content, hr, findFile_content]
  · intro x y hx hy
    rw [TocData.fileByUniqueId] at hx hy
    split at hx
    · rename_i e
      rw [if_pos e] at hy
      cases hx; cases hy; rfl
    · rename_i e
      rw [if_neg e] at hy
      have h1 := findFileUnique_content u _ hx
      rw [hr, findFileUnique_content u _ hy] at h1
      exact (ok_inj h1).symm
  · intro x y hx hy
    rw [used_eq] at hx hy
    have h1 := usedFrom_content _ _ hx
    rw [hr, hl, usedFrom_content _ _ hy] at h1
    exact (ok_inj h1).symm
  · have hfst : a.reelList.head?.map reelContent = b.reelList.head?.map reelContent := by
      rw [← List.head?_map, hr, List.head?_map]
    have hlst : a.reelList.getLast?.map reelContent = b.reelList.getLast?.map reelContent := by
      rw [← List.getLast?_map, hr, List.getLast?_map]
    rw [TocData.firstFrame, TocData.firstFrame, TocData.lastFrame, TocData.lastFrame]
    rw [TocData.reelList, TocData.reelList] at hfst hlst
    cases ha : a.reels with
    | none =>
      rw [ha] at hs
      cases hb : b.reels with
      | none => exact ⟨rfl, rfl⟩
      | some r => rw [hb] at hs; cases hs
    | some r =>
      rw [ha] at hs hfst hlst
      cases hb : b.reels with
      | none => rw [hb] at hs; cases hs
      | some s =>
        rw [hb] at hfst hlst
        dsimp only at hfst hlst ⊢
        constructor
        · cases hr1 : r.list with
          | nil =>
            rw [hr1] at hfst
            cases hs1 : s.list with
            | nil => rfl
            | cons y l => rw [hs1] at hfst; cases hfst
          | cons x l =>
            rw [hr1] at hfst
            cases hs1 : s.list with
            | nil => rw [hs1] at hfst; cases hfst
            | cons y l' =>
              rw [hs1] at hfst
              exact congr_of (c := fun r => r.map reelContent) (q := fun r => Reel.firstFrame r SECTION_DIGITAL)
                (fun r => reel_first r SECTION_DIGITAL) (a := some x) (b := some y) hfst
        · cases hr1 : r.list.getLast? with
          | none =>
            rw [hr1] at hlst
            cases hs1 : s.list.getLast? with
            | none => rfl
            | some y => rw [hs1] at hlst; cases hlst
          | some x =>
            rw [hr1] at hlst
            cases hs1 : s.list.getLast? with
            | none => rw [hs1] at hlst; cases hlst
            | some y =>
              rw [hs1] at hlst
              exact congr_of (c := fun r => r.map reelContent) (q := fun r => Reel.lastFrame r SECTION_DIGITAL)
                (fun r => reel_last r SECTION_DIGITAL) (a := some x) (b := some y) hlst
  · have e := reelsKeep_eq a.reelList b.reelList hr hc
    have n : ∀ {x y : Option Bytes}, str x = str y → nullOrEmpty x = nullOrEmpty y := by
      intro x y e
      rw [← nullOrEmpty_str x, e, nullOrEmpty_str]
    have o : orEmpty a.indexType = orEmpty b.indexType := by rw [← orEmpty_str a.indexType, hty, orEmpty_str]
    have er : a.reelList.all Reel.isValid = b.reelList.all Reel.isValid := by
      rw [← all_map reelKeep Reel.isValid reel_valid a.reelList, e, all_map reelKeep Reel.isValid reel_valid]
    have el : (layoutList a).all LayoutDef.isValid = (layoutList b).all LayoutDef.isValid := by
      rw [← all_map layoutContent LayoutDef.isValid layout_valid (layoutList a), hl, all_map layoutContent LayoutDef.isValid layout_valid]
    have em : (metaList a).all MetaSource.isValid = (metaList b).all MetaSource.isValid := by
      rw [← all_map metaSourceContent MetaSource.isValid meta_valid (metaList a), hm, all_map metaSourceContent MetaSource.isValid meta_valid]
    rw [toc_valid_eq, toc_valid_eq, n hver, n hjob, n hreel, o, er, el, em]

namespace Canon

theorem has_list (d : LayoutDefs) (k : Option Bytes) : LayoutDefs.has (some ⟨some (d.defs.getD [])⟩) k = LayoutDefs.has (some d) k := by
  rcases d with ⟨_ | l⟩
  · cases k with
    | none => rfl
    | some k => cases k <;> rfl
  · rfl

theorem add_list (d : LayoutDefs) (x : LayoutDef) {v : Bool × LayoutDefs} (h : d.add (some x) = .ok v) :
    LayoutDefs.add ⟨some (d.defs.getD [])⟩ (some x) = .ok (v.1, ⟨some (v.2.defs.getD [])⟩) := by
  rw [LayoutDefs.add] at h ⊢
  split at h
  · rename_i hx
    rw [if_pos hx]
    cases h
    rfl
  · rename_i hx
    rw [if_neg hx, has_list]
    obtain ⟨c, hc, h⟩ := bind_ok h
    rw [hc, ok_bind]
    cases c with
    | true => cases h; rfl
    | false =>
      cases h
      rcases d with ⟨_ | l⟩ <;> rfl

/-- Adding a definition to a table of contents is adding it to the list of its definitions. -/
theorem addLayout_list (t : TocData) (x : Option LayoutDef) {v : Bool × TocData} (h : t.addLayout x = .ok v) :
    LayoutDefs.add ⟨some (layoutList t)⟩ x = .ok (v.1, ⟨some (layoutList v.2)⟩) ∧ { v.2 with layouts := t.layouts } = t := by
  cases x with
  | none => cases h; exact ⟨rfl, rfl⟩
  | some x =>
    rw [TocData.addLayout] at h
    obtain ⟨r, hr, h⟩ := bind_ok h
    have e := add_list _ x hr
    cases h
    refine ⟨?_, rfl⟩
    have el : layoutList t = (match t.layouts with | none => LayoutDefs.create | some d => d).defs.getD [] := by
      rw [layoutList]
      cases t.layouts <;> rfl
    rw [el]
    exact e

theorem addReel_list (t : TocData) (x : Reel) :
    (t.addReel (some x)).1 = x.isValid ∧ (t.addReel (some x)).2.reelList = (if x.isValid then t.reelList ++ [x] else t.reelList) ∧
    { (t.addReel (some x)).2 with reels := t.reels } = t := by
  rw [TocData.addReel]
  rcases hr : t.reels with _ | ⟨_ | l⟩ <;> cases hx : x.isValid <;>
    simp [Reels.addReel, hx, TocData.reelList, hr, Reels.create, Reels.list, vecAppend] <;> (rw [← hr])

theorem addMeta_list (t : TocData) (x : MetaSource) :
    (t.addMetadataSource (some x)).1 = x.isValid ∧ metaList (t.addMetadataSource (some x)).2 = (if x.isValid then metaList t ++ [x] else metaList t) ∧
    { (t.addMetadataSource (some x)).2 with metadata := t.metadata } = t := by
  rw [TocData.addMetadataSource]
  rcases hr : t.metadata with _ | ⟨_ | l⟩ <;> cases hx : x.isValid <;>
    simp [TocMeta.addSource, hx, metaList, hr, TocMeta.create, vecAppend] <;> (rw [← hr])

theorem offset_list (t : TocData) (k sec : Nat) :
    (t.addFrameOffset k sec).reelList = t.reelList.map (fun r => r.addFrameOffset k sec) ∧ { t.addFrameOffset k sec with reels := t.reels } = t := by
  rw [TocData.addFrameOffset]
  rcases hr : t.reels with _ | ⟨_ | l⟩ <;> simp [TocData.reelList, hr, Reels.list] <;> (try rw [← hr])

/-- The parts of a table of contents other than the reels, the metadata or the layouts. -/
theorem parts_reels {t u : TocData} (h : { u with reels := t.reels } = t) :
    tocContent u = { tocContent t with reels := u.reelList.map reelContent } := by
  rw [toc_content_eq, toc_content_eq, ← h]; rfl

theorem parts_meta {t u : TocData} (h : { u with metadata := t.metadata } = t) :
    tocContent u = { tocContent t with metadata := (metaList u).map metaSourceContent } := by
  rw [toc_content_eq, toc_content_eq, ← h]; rfl

theorem parts_layouts {t u : TocData} (h : { u with layouts := t.layouts } = t) :
    tocContent u = { tocContent t with layouts := (layoutList u).map layoutContent } := by
  rw [toc_content_eq, toc_content_eq, ← h]; rfl

end Canon

/-- **C81.** Edits of equal tables of contents. -/
theorem C81_edit_toc (a b : TocData) (h : TocData.equal (some a) (some b) = true) (k sec : Nat) (s : Option Bytes)
    (x y : Reel) (hx : Reel.equal (some x) (some y) = true) (hc : checksums x.list = checksums y.list)
    (m n : Option MetaSource) (hm : MetaSource.equal m n = true)
    (d e : Option LayoutDef) (hd : LayoutDef.equal d e = true) :
    TocData.equal (some (a.addFrameOffset k sec)) (some (b.addFrameOffset k sec)) = true ∧
    TocData.equal (some (a.setVersion s)) (some (b.setVersion s)) = true ∧ TocData.equal (some (a.setIndexType s)) (some (b.setIndexType s)) = true ∧
    TocData.equal (some (a.setJobId s)) (some (b.setJobId s)) = true ∧ TocData.equal (some (a.setReelId s)) (some (b.setReelId s)) = true ∧
    (a.addReel (some x)).1 = (b.addReel (some y)).1 ∧ TocData.equal (some (a.addReel (some x)).2) (some (b.addReel (some y)).2) = true ∧
    (a.addMetadataSource m).1 = (b.addMetadataSource n).1 ∧
    TocData.equal (some (a.addMetadataSource m).2) (some (b.addMetadataSource n).2) = true ∧
    Agree (fun v w => v.1 = w.1 ∧ TocData.equal (some v.2) (some w.2) = true) (a.addLayout d) (b.addLayout e) := by
  have hxv : x.isValid = y.isValid := by
    rw [C05_reel_equal_iff] at hx
    exact congr_of reel_valid (reelKeep_eq (Option.some.inj hx) hc)
  simp only [C05_toc_equal_iff, C05_reel_equal_iff, C05_metadata_source_equal_iff, C05_layout_definition_equal_iff,
    Option.map_some, Option.some.injEq] at h hx hm hd ⊢
  have hc' := h
  rw [toc_content_eq, toc_content_eq, TocContent.mk.injEq] at hc'
  obtain ⟨-, -, -, -, hr, hmm, hl⟩ := hc'
  refine ⟨?_, ?_, ?_, ?_, ?_, ?_, ?_, ?_, ?_, ?_⟩
  · rw [parts_reels (offset_list a k sec).2, parts_reels (offset_list b k sec).2, (offset_list a k sec).1, (offset_list b k sec).1, h]
    have e : ∀ l : List Reel, (l.map fun r => r.addFrameOffset k sec).map reelContent = (l.map reelContent).map fun r => r.addFrameOffset k sec := by
      intro l
      rw [List.map_map, List.map_map]
      exact List.map_congr_left fun r _ => (reel_shift r k sec).symm
    rw [e, e, hr]
  · exact congrArg (fun c : TocContent => { c with version := str s }) h
  · exact congrArg (fun c : TocContent => { c with indexType := str s }) h
  · exact congrArg (fun c : TocContent => { c with jobId := str s }) h
  · exact congrArg (fun c : TocContent => { c with reelId := str s }) h
  · rw [(addReel_list a x).1, (addReel_list b y).1, hxv]
  · rw [parts_reels (addReel_list a x).2.2, parts_reels (addReel_list b y).2.2, (addReel_list a x).2.1, (addReel_list b y).2.1, h, hxv]
    split
    · rw [List.map_append, List.map_append, hr, List.map_cons, List.map_cons, hx]
    · rw [hr]
  · cases m with
    | none =>
      cases n with
      | none => rfl
      | some n => cases hm
    | some m =>
      cases n with
      | none => cases hm
      | some n =>
        rw [Option.map_some, Option.map_some, Option.some.injEq] at hm
        rw [(addMeta_list a m).1, (addMeta_list b n).1]
        exact congr_of meta_valid hm
  · cases m with
    | none =>
      cases n with
      | none => exact h
      | some n => cases hm
    | some m =>
      cases n with
      | none => cases hm
      | some n =>
        rw [Option.map_some, Option.map_some, Option.some.injEq] at hm
        have hv : m.isValid = n.isValid := congr_of meta_valid hm
        rw [parts_meta (addMeta_list a m).2.2, parts_meta (addMeta_list b n).2.2, (addMeta_list a m).2.1, (addMeta_list b n).2.1, h, hv]
        split
        · rw [List.map_append, List.map_append, hmm, List.map_cons, List.map_cons, hm]
        · rw [hmm]
  · intro v w hv hw
    obtain ⟨h1, h2⟩ := addLayout_list a d hv
    obtain ⟨h3, h4⟩ := addLayout_list b e hw
    have g1 := layouts_add _ d h1
    have g2 := layouts_add _ e h3
    have ee : layoutsContent ⟨some (layoutList a)⟩ = layoutsContent ⟨some (layoutList b)⟩ := congrArg (fun l => LayoutDefs.mk (some l)) hl
    rw [hd, ee, g2] at g1
    have g3 := ok_inj g1
    refine ⟨(congrArg Prod.fst g3).symm, ?_⟩
    have g4 : (layoutList w.2).map layoutContent = (layoutList v.2).map layoutContent :=
      Option.some.inj (LayoutDefs.mk.inj (congrArg Prod.snd g3))
    rw [parts_layouts h2, parts_layouts h4, h, g4]

/-- **C81.** Adding equal lists of layout definitions to equal tables of contents. -/
theorem C81_add_layouts (a b : TocData) (h : TocData.equal (some a) (some b) = true) (d e : Option LayoutDefs) (hd : LayoutDefs.equal d e = true) :
    Agree (fun v w => v.1 = w.1 ∧ TocData.equal (some v.2) (some w.2) = true) (a.addLayouts d) (b.addLayouts e) := by
  have loop : ∀ (l m : List LayoutDef), l.map layoutContent = m.map layoutContent → ∀ a b : TocData, TocData.equal (some a) (some b) = true →
      Agree (fun v w => v.1 = w.1 ∧ TocData.equal (some v.2) (some w.2) = true) (a.addLayoutsLoop l) (b.addLayoutsLoop m) := by
    intro l
    induction l with
    | nil =>
      intro m e a b h v w hv hw
      cases m with
      | cons y m => cases e
      | nil => cases hv; cases hw; exact ⟨rfl, h⟩
    | cons x l ih =>
      intro m e a b h v w hv hw
      cases m with
      | nil => cases e
      | cons y m =>
        rw [List.map_cons, List.map_cons, List.cons.injEq] at e
        rw [TocData.addLayoutsLoop] at hv hw
        obtain ⟨r, hr, hv⟩ := bind_ok hv
        obtain ⟨q, hq, hw⟩ := bind_ok hw
        rw [layout_clone] at hr hq
        have hx : LayoutDef.equal (some x) (some y) = true := by
          rw [C05_layout_definition_equal_iff, Option.map_some, Option.map_some, e.1]
        obtain ⟨g1, g2⟩ := (C81_edit_toc a b h 0 0 none Reel.create Reel.create (by decide) rfl none none (by decide) (some x) (some y) hx).2.2.2.2.2.2.2.2.2 r q hr hq
        rw [← g1] at hw
        split at hv
        · rename_i c
          rw [if_pos c] at hw
          cases hv; cases hw
          exact ⟨rfl, g2⟩
        · rename_i c
          rw [if_neg c] at hw
          exact ih m e.2 _ _ g2 v w hv hw
  cases d with
  | none =>
    cases e with
    | none => intro v w hv hw; cases hv; cases hw; exact ⟨rfl, h⟩
    | some e => cases hd
  | some d =>
    cases e with
    | none => cases hd
    | some e =>
      have hs := C81_layouts (some d) (some e) hd 0 none
      intro v w hv hw
      rw [TocData.addLayouts] at hv hw
      rw [← hs.1, ← hs.2.1] at hw
      split at hv
      · rename_i c
        rw [if_pos c] at hw
        cases hv; cases hw
        exact ⟨rfl, h⟩
      · rename_i c
        rw [if_neg c] at hw
        split at hv
        · rename_i c
          rw [if_pos c] at hw
          cases hv; cases hw
          exact ⟨rfl, h⟩
        · rename_i c
          rw [if_neg c] at hw
          rw [C05_layout_definitions_equal_iff] at hd
          have hl : (d.defs.getD []).map layoutContent = (e.defs.getD []).map layoutContent := by
            have := congrArg (fun x : LayoutDefs => x.defs.getD []) (Option.some.inj hd)
            rcases d with ⟨_ | d⟩ <;> rcases e with ⟨_ | e⟩ <;> exact this
          have mk : ∀ t : TocData, tocContent (match t.layouts with | none => { t with layouts := some LayoutDefs.create } | some _ => t) = tocContent t := by
            intro t
            rw [toc_content_eq, toc_content_eq]
            cases hl : t.layouts with
            | none => simp [layoutList, hl, LayoutDefs.create, metaList, TocData.reelList]
            | some x => rfl
          refine loop _ _ hl _ _ ?_ v w hv hw
          rw [C05_toc_equal_iff] at h ⊢
          rw [Option.map_some, Option.map_some] at h ⊢
          have m1 := mk a
          have m2 := mk b
          exact congrArg some (m1.trans ((Option.some.inj h).trans m2.symm))

/-! ### What equality does not see -/

/-- **C81.** The exceptions.  The comparison takes NULL and the empty text for the same, and so it takes a table of contents without a list of
    reels and one with an empty list for the same, but: a file without checksum is not valid and one with an empty checksum is; the first and last
    frames of the two tables of contents differ (−1 and 0); and looking up a file by its unique id reads through a NULL id where an empty one is
    passed over. -/
theorem C81_exceptions :
    (∃ f g : File, File.equal (some f) (some g) = true ∧ f.isValid = true ∧ g.isValid = false) ∧
    (∃ a b : TocData, TocData.equal (some a) (some b) = true ∧ TocData.firstFrame (some a) = -1 ∧ TocData.firstFrame (some b) = 0 ∧
      TocData.lastFrame (some a) = .ok (-1) ∧ TocData.lastFrame (some b) = .ok 0) ∧
    (∃ r s : Reel, Reel.equal (some r) (some s) = true ∧ Reel.fileByUniqueId (some r) (some (b! "x")) = .ub ∧
      Reel.fileByUniqueId (some s) (some (b! "x")) = .ok none) := by
  refine ⟨⟨{ File.create with
      name := some (b! "n"), checksum := some [], size := 1, id := 1, startFrame := 1, startByte := 0, endFrame := 1, endByte := 0,
      types := 1, fileFormat := some (b! "f"), date := some (b! "d"), uniqueId := some (b! "u") },
    { File.create with
      name := some (b! "n"), size := 1, id := 1, startFrame := 1, startByte := 0, endFrame := 1, endByte := 0,
      types := 1, fileFormat := some (b! "f"), date := some (b! "d"), uniqueId := some (b! "u") }, by decide +kernel⟩,
    ⟨TocData.create, { TocData.create with reels := some ⟨some []⟩ }, by decide +kernel⟩,
    ⟨⟨none, some ⟨some [File.create]⟩⟩, ⟨none, some ⟨some [{ File.create with uniqueId := some [] }]⟩⟩, by decide +kernel⟩⟩

/-- Non-vacuity: two tables of contents that differ in memory but are equal; both hold a reel. -/
example : let a : TocData := { TocData.create with version := some (b! "1"), reels := some ⟨some [⟨some (b! "r"), some ⟨some [File.create]⟩⟩]⟩ }
    let b : TocData := { TocData.create with
      version := some (b! "1"), jobId := some [], reels := some ⟨some [⟨some (b! "r"), some ⟨some [{ File.create with name := some [] }]⟩⟩]⟩,
      layouts := some ⟨some []⟩ }
    a ≠ b ∧ TocData.equal (some a) (some b) = true ∧ a.reelList.map (checksums ·.list) = b.reelList.map (checksums ·.list) := by decide +kernel

end Afs
