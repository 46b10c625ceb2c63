import Verif.Proof.Shape
/-!
# Loading makes the objects of the loaded value: the loaders
-/
namespace Afs.Objects
open Afs Afs.Refs Afs.Spec Afs.Xml

/-! ### Generic steps -/

theorem leaf_makes (k : Kind) (ok : Bool) : Makes k loadLeaf ok ok [] := by
  intro h p rc r hn e
  unfold loadLeaf at e
  simp only [hn.cell] at e
  cases e
  exact ⟨rfl, hn.mid⟩

/-- The value side of the loop. -/
def valLoop {σ β : Type} (load : Node → Bool × β) (add : σ → β → Bool × σ) : σ → List Node → Bool × σ
  | s, [] => (true, s)
  | s, n :: ns =>
    if (load n).1 = false then (false, s)
    else if (add s (load n).2).1 = false then (false, s)
    else valLoop load add (add s (load n).2).2 ns

theorem bind_ok_inv {α β : Type} {x : Res α} {f : α → Res β} {b : β} (e : (x >>= f) = .ok b) : ∃ a, x = .ok a ∧ f a = .ok b := by
  cases x with
  | ub => cases e
  | ok a => exact ⟨a, rfl, e⟩

theorem list_makes {σ β α : Type} {k k' : Kind} {frees : Bool} {loadH : Heap → Nat → α → Res Loaded} {load : Node → Bool × β} {sub : Node → α}
    {add : σ → β → Bool × σ} {parts : β → List ObjShape} {shapes : σ → List ObjShape}
    (hsub : ∀ n, Makes k' loadH (sub n) (load n).1 (parts (load n).2))
    (hadd : ∀ s b, (add s b).1 = true → shapes (add s b).2 = shapes s ++ [.node k' (parts b)]) {h0 : Heap} {p : Nat} {rc : Int} :
    ∀ (ns : List Node) (s : σ) (h : Heap) (r : Loaded), Mid h0 h p k rc (shapes s) → loadList k' frees loadH p h (planLoop load sub add s ns) = .ok r →
      r.ok = (valLoop load add s ns).1 ∧ Mid h0 r.heap p k rc (shapes (valLoop load add s ns).2)
  | [], s, h, r, hm, e => by
    cases e
    exact ⟨rfl, hm⟩
  | n :: ns, s, h, r, hm, e => by
    rw [planLoop] at e
    rw [valLoop]
    have hnew := alloc_new (h := h) hm.above k'
    cases h1 : (load n).1 with
    | false =>
      rw [h1] at e
      rw [if_pos rfl] at e ⊢
      rw [loadList] at e
      obtain ⟨q, hq, e⟩ := bind_ok_inv e
      obtain ⟨ho, hmq⟩ := hsub n _ _ _ _ hnew hq
      rw [h1] at ho
      rw [if_pos ho] at e
      cases hf : frees with
      | true =>
        rw [hf, if_pos rfl] at e
        obtain ⟨h2, hh, e⟩ := bind_ok_inv e
        cases e
        exact ⟨rfl, hm.given_back hmq hh⟩
      | false =>
        rw [hf] at e
        cases e
        exact ⟨rfl, hm.given_up hmq⟩
    | true =>
      rw [h1] at e
      rw [if_neg (by decide)] at e ⊢
      cases h2 : (add s (load n).2).1 with
      | false =>
        rw [h2, if_pos rfl] at e
        rw [if_pos rfl]
        rw [loadList] at e
        obtain ⟨q, hq, e⟩ := bind_ok_inv e
        obtain ⟨ho, hmq⟩ := hsub n _ _ _ _ hnew hq
        rw [h1] at ho
        rw [if_neg (by rw [ho]; decide)] at e
        rw [if_neg (by decide)] at e
        obtain ⟨h2, hh, e⟩ := bind_ok_inv e
        cases e
        exact ⟨rfl, hm.given_back hmq hh⟩
      | true =>
        rw [h2, if_neg (by decide)] at e
        rw [if_neg (by decide)]
        rw [loadList] at e
        obtain ⟨q, hq, e⟩ := bind_ok_inv e
        obtain ⟨ho, hmq⟩ := hsub n _ _ _ _ hnew hq
        rw [h1] at ho
        rw [if_neg (by rw [ho]; decide)] at e
        rw [if_pos rfl] at e
        obtain ⟨h3, hh, e⟩ := bind_ok_inv e
        obtain ⟨r', hr', e⟩ := bind_ok_inv e
        cases e
        have hm3 := hm.appended hmq hh
        rw [← hadd s (load n).2 h2] at hm3
        exact list_makes hsub hadd ns _ h3 r' hm3 hr'

theorem container_makes {σ β α : Type} {k k' : Kind} {frees : Bool} {loadH : Heap → Nat → α → Res Loaded} {load : Node → Bool × β} {sub : Node → α}
    {add : σ → β → Bool × σ} {parts : β → List ObjShape} {shapes : σ → List ObjShape}
    (hsub : ∀ n, Makes k' loadH (sub n) (load n).1 (parts (load n).2))
    (hadd : ∀ s b, (add s b).1 = true → shapes (add s b).2 = shapes s ++ [.node k' (parts b)]) (s : σ) (hs : shapes s = []) (ns : List Node) :
    Makes k (loadContainer k' frees loadH) (some (planLoop load sub add s ns)) (valLoop load add s ns).1 (shapes (valLoop load add s ns).2) := by
  intro h p rc r hn e
  unfold loadContainer at e
  simp only [hn.cell] at e
  exact list_makes hsub hadd ns s h r (by rw [hs]; exact hn.mid) e

theorem refused_makes {α : Type} {k k' : Kind} {frees : Bool} {loadH : Heap → Nat → α → Res Loaded} :
    Makes k (loadContainer k' frees loadH) none false [] := by
  intro h p rc r hn e
  unfold loadContainer at e
  simp only [hn.cell] at e
  cases e
  exact ⟨rfl, hn.mid⟩

/-! ### The containers of simple objects -/

theorem vecAppend_getD {α : Type} (v : Option (List α)) (x : α) : (vecAppend v x).getD [] = v.getD [] ++ [x] := by
  cases v <;> rfl

theorem preview_add (p : Preview) (x : Page) (h : (p.addPage (some x)).1 = true) :
    previewParts (p.addPage (some x)).2 = previewParts p ++ [.node .page []] := by
  unfold Preview.addPage at h ⊢
  dsimp only at h ⊢
  split
  · next hv => rw [if_pos hv] at h; cases h
  · unfold previewParts
    dsimp only
    rw [vecAppend_getD, List.map_append]
    rfl

theorem preview_loop : ∀ (ns : List Node) (p : Preview),
    p.loadPages ns = valLoop Page.create.loadXml (fun p x => Preview.addPage p (some x)) p (ns.filter (named (b! "pages")))
  | [], p => rfl
  | .text _ :: ns, p => by rw [Preview.loadPages]; exact preview_loop ns p
  | .elem n as cs :: ns, p => by
    rw [Preview.loadPages]
    by_cases hn : n = b! "pages"
    · rw [if_pos hn]
      have hf : named (b! "pages") (.elem n as cs) = true := by subst hn; rfl
      rw [List.filter_cons_of_pos hf, valLoop]
      dsimp only
      split
      · rfl
      · split
        · rfl
        · exact preview_loop ns _
    · rw [if_neg hn]
      have hf : ¬ named (b! "pages") (.elem n as cs) = true := by
        intro hh
        apply hn
        unfold named at hh
        have hh : (Node.elem n as cs).element = some (b! "pages") := by simpa using hh
        exact Option.some.inj hh
      rw [List.filter_cons_of_neg hf]
      exact preview_loop ns p

theorem preview_makes (node : Node) : Makes .preview loadPreview (previewPlan node) (Preview.create.loadXml node).1 (previewParts (Preview.create.loadXml node).2) := by
  unfold previewPlan Preview.loadXml
  cases hf : selfOrFind node (b! "preview") with
  | none => exact refused_makes
  | some n =>
    dsimp only [Option.map]
    rw [preview_loop]
    exact container_makes (parts := fun _ => []) (fun m => leaf_makes .page _) preview_add _ rfl _

theorem fileMeta_add (p : FileMeta) (x : FileMetaSource) (h : (p.addSource (some x)).1 = true) :
    fileMetaParts (p.addSource (some x)).2 = fileMetaParts p ++ [.node .fileMetaSource []] := by
  unfold FileMeta.addSource at h ⊢
  dsimp only at h ⊢
  split
  · next hv => rw [if_pos hv] at h; cases h
  · unfold fileMetaParts
    dsimp only
    rw [vecAppend_getD, List.map_append]
    rfl

theorem fileMeta_loop : ∀ (ns : List Node) (p : FileMeta),
    p.loadLoop ns = valLoop FileMetaSource.create.loadXml (fun p x => FileMeta.addSource p (some x)) p ns
  | [], p => rfl
  | n :: ns, p => by
    rw [FileMeta.loadLoop, valLoop]
    dsimp only
    split
    · rfl
    · split
      · rfl
      · exact fileMeta_loop ns _

theorem fileMeta_makes (node : Node) : Makes .fileMeta loadFileMeta (fileMetaPlan node) (FileMeta.create.loadXml node).1 (fileMetaParts (FileMeta.create.loadXml node).2) := by
  unfold fileMetaPlan FileMeta.loadXml
  cases hf : selfOrFind node (b! "metadata") with
  | none => exact refused_makes
  | some n =>
    dsimp only [Option.map]
    rw [fileMeta_loop]
    exact container_makes (parts := fun _ => []) (fun m => leaf_makes .fileMetaSource _) fileMeta_add _ rfl _

theorem tocMeta_add (p : TocMeta) (x : MetaSource) (h : (p.addSource (some x)).1 = true) :
    tocMetaParts (p.addSource (some x)).2 = tocMetaParts p ++ [.node .metaSource []] := by
  unfold TocMeta.addSource at h ⊢
  dsimp only at h ⊢
  split
  · next hv => rw [if_pos hv] at h; cases h
  · unfold tocMetaParts
    dsimp only
    rw [vecAppend_getD, List.map_append]
    rfl

theorem tocMeta_loop : ∀ (ns : List Node) (p : TocMeta),
    p.loadLoop ns = valLoop MetaSource.create.loadXml (fun p x => TocMeta.addSource p (some x)) p ns
  | [], p => rfl
  | n :: ns, p => by
    rw [TocMeta.loadLoop, valLoop]
    dsimp only
    split
    · rfl
    · split
      · rfl
      · exact tocMeta_loop ns _

theorem tocMeta_makes (node : Node) : Makes .tocMeta loadTocMeta (tocMetaPlan node) (TocMeta.create.loadXml node).1 (tocMetaParts (TocMeta.create.loadXml node).2) := by
  unfold tocMetaPlan TocMeta.loadXml
  cases hf : selfOrFind node (b! "metadata") with
  | none => exact refused_makes
  | some n =>
    dsimp only [Option.map]
    rw [tocMeta_loop]
    exact container_makes (parts := fun _ => []) (fun m => leaf_makes .metaSource _) tocMeta_add _ rfl _

theorem sections_add (p : Sections) (x : Section) (h : (p.append (some x)).1 = true) :
    sectionsParts (p.append (some x)).2 = sectionsParts p ++ [.node .section_ []] := by
  unfold Sections.append at h ⊢
  dsimp only at h ⊢
  split
  · next hv => rw [if_pos hv] at h; cases h
  · next hv =>
    rw [if_neg hv] at h
    split
    · next hw => rw [if_pos hw] at h; cases h
    · unfold sectionsParts
      dsimp only
      rw [vecAppend_getD, List.map_append]
      rfl

theorem sections_loop : ∀ (ns : List Node) (p : Sections),
    p.loadLoop ns = valLoop Section.create.loadXml (fun p x => Sections.append p (some x)) p ns
  | [], p => rfl
  | n :: ns, p => by
    rw [Sections.loadLoop, valLoop]
    dsimp only
    split
    · rfl
    · split
      · rfl
      · exact sections_loop ns _

theorem sections_makes (node : Node) : Makes .sections loadSections (sectionsPlan node) (Sections.create.loadXml node).1 (sectionsParts (Sections.create.loadXml node).2) := by
  unfold sectionsPlan Sections.loadXml
  cases hf : selfOrFind node (b! "sections") with
  | none => exact refused_makes
  | some n =>
    dsimp only [Option.map]
    rw [sections_loop]
    exact container_makes (parts := fun _ => []) (fun m => leaf_makes .section_ _) sections_add _ rfl _

/-! ### Single parts -/

section parts
variable {α : Type} {k k' : Kind} {load : Heap → Nat → α → Res Loaded} {x : α} {ok : Bool} {us ts : List ObjShape} {h0 h : Heap} {p : Nat} {rc : Int} {r : Loaded}

/-- A part that is loaded and then put in place. -/
theorem part_makes (hx : Makes k' load x ok us) (hm : Mid h0 h p k rc ts) (hk : ∀ t ∈ ts, kindOf t ≠ k')
    (e : loadPart k' load h p (some x) = .ok r) : r.ok = ok ∧ Mid h0 r.heap p k rc (if ok then ts ++ [.node k' us] else ts) := by
  unfold loadPart at e
  obtain ⟨q, hq, e⟩ := bind_ok_inv e
  obtain ⟨ho, hmq⟩ := hx _ _ _ _ (alloc_new (h := h) hm.above k') hq
  cases hok : ok with
  | false =>
    rw [hok] at ho
    rw [if_pos ho] at e
    obtain ⟨h2, hh, e⟩ := bind_ok_inv e
    cases e
    exact ⟨rfl, hm.given_back hmq hh⟩
  | true =>
    rw [hok] at ho
    rw [if_neg (by rw [ho]; decide)] at e
    rw [(hm.given_up hmq).no_part hk] at e
    obtain ⟨⟨h2, o⟩, hh, e⟩ := bind_ok_inv e
    unfold overwrite at hh
    obtain ⟨h3, hh3, hh⟩ := bind_ok_inv hh
    cases hh
    cases e
    exact ⟨rfl, hm.appended hmq hh3⟩

/-- The same where the old part is freed. -/
theorem replace_makes (hx : Makes k' load x ok us) (hm : Mid h0 h p k rc ts) (hk : ∀ t ∈ ts, kindOf t ≠ k')
    (e : loadReplace k' load h p (some x) = .ok r) : r.ok = ok ∧ Mid h0 r.heap p k rc (if ok then ts ++ [.node k' us] else ts) := by
  unfold loadReplace at e
  obtain ⟨q, hq, e⟩ := bind_ok_inv e
  obtain ⟨ho, hmq⟩ := hx _ _ _ _ (alloc_new (h := h) hm.above k') hq
  cases hok : ok with
  | false =>
    rw [hok] at ho
    rw [if_pos ho] at e
    obtain ⟨h2, hh, e⟩ := bind_ok_inv e
    cases e
    exact ⟨rfl, hm.given_back hmq hh⟩
  | true =>
    rw [hok] at ho
    rw [if_neg (by rw [ho]; decide)] at e
    rw [(hm.given_up hmq).no_drop hk] at e
    obtain ⟨h2, hh, e⟩ := bind_ok_inv e
    cases hh
    obtain ⟨h3, hh3, e⟩ := bind_ok_inv e
    cases e
    exact ⟨rfl, hm.appended hmq hh3⟩

/-- A part that is put in place and then loaded. -/
theorem into_makes (hx : Makes k' load x ok us) (hm : Mid h0 h p k rc ts) (e : loadInto k' load h p none x = .ok r) :
    r.ok = ok ∧ Mid h0 r.heap p k rc (ts ++ [.node k' us]) ∧ ∀ h'', release r.heap p h.next = .ok h'' → Mid h0 h'' p k rc ts := by
  unfold loadInto at e
  obtain ⟨⟨h2, o⟩, hh, e⟩ := bind_ok_inv e
  unfold overwrite at hh
  obtain ⟨h3, hh3, hh⟩ := bind_ok_inv hh
  cases hh
  obtain ⟨q, hq, e⟩ := bind_ok_inv e
  cases e
  obtain ⟨hn, key⟩ := hm.into hh3
  obtain ⟨ho, hmq⟩ := hx _ _ _ _ hn hq
  exact ⟨ho, (key hmq).1, fun h'' hr => hm.released hh3 hmq hr⟩

/-- The same where the old part is freed first. -/
theorem fresh_makes (hx : Makes k' load x ok us) (hm : Mid h0 h p k rc ts) (hk : ∀ t ∈ ts, kindOf t ≠ k') (e : loadFresh k' load h p x = .ok r) :
    r.ok = ok ∧ Mid h0 r.heap p k rc (ts ++ [.node k' us]) := by
  unfold loadFresh at e
  rw [hm.no_drop hk] at e
  obtain ⟨h2, hh, e⟩ := bind_ok_inv e
  cases hh
  obtain ⟨h3, hh3, e⟩ := bind_ok_inv e
  obtain ⟨hn, key⟩ := hm.into hh3
  obtain ⟨ho, hmq⟩ := hx _ _ _ _ hn e
  exact ⟨ho, (key hmq).1⟩
end parts

/-! ### File entries, lists of files, reels -/

theorem loadFields_parts (f : File) (n : Node) : (f.loadFields n).preview = f.preview ∧ (f.loadFields n).metadata = f.metadata := by
  unfold File.loadFields
  constructor <;> (repeat' (first | rfl | split | (dsimp only; split)))

theorem loadDataPart_parts (f : File) (n : Node) : (f.loadDataPart n).preview = f.preview ∧ (f.loadDataPart n).metadata = f.metadata := by
  unfold File.loadDataPart File.loadDataV2 File.loadDataV1 File.addType
  constructor <;> (repeat' (first | rfl | split | (dsimp only; split)))

theorem file_makes (node : Node) : Makes .file Refs.loadFile (filePlan node) (File.create.loadXml node).1 (fileParts (File.create.loadXml node).2) := by
  intro h p rc r hn e
  unfold Refs.loadFile filePlan at e
  unfold File.loadXml
  simp only [hn.cell] at e
  cases hf : selfOrFind node (b! "file") with
  | none =>
    rw [hf] at e
    cases e
    exact ⟨rfl, hn.mid⟩
  | some n =>
    rw [hf] at e
    dsimp only [Option.map] at e ⊢
    obtain ⟨q, hq, e⟩ := bind_ok_inv e
    obtain ⟨hp, hmd⟩ := loadFields_parts File.create n
    generalize hF : File.create.loadFields n = F at *
    change F.preview = none at hp
    change F.metadata = none at hmd
    -- the preview
    have h1 : q.ok = (F.loadPreview n).1 ∧ Mid h q.heap p .file rc (fileParts (F.loadPreview n).2) ∧ (F.loadPreview n).2.metadata = none := by
      unfold File.loadPreview
      cases hx : find n (b! "preview") with
      | none =>
        rw [hx] at hq
        cases hq
        refine ⟨rfl, ?_, hmd⟩
        dsimp only
        have : fileParts F = [] := by unfold fileParts; rw [hp, hmd]; rfl
        rw [this]
        exact hn.mid
      | some x =>
        rw [hx] at hq
        obtain ⟨a1, a2⟩ := part_makes (preview_makes x) hn.mid (fun t ht => by cases ht) hq
        dsimp only
        cases hv : (Preview.create.loadXml x).1 with
        | false =>
          rw [hv] at a1 a2
          rw [if_pos rfl]
          refine ⟨a1, ?_, hmd⟩
          have : fileParts (F.addType TYPE_PREVIEW) = [] := by
            have e1 : (F.addType TYPE_PREVIEW).preview = none := hp
            have e2 : (F.addType TYPE_PREVIEW).metadata = none := hmd
            unfold fileParts; rw [e1, e2]; rfl
          rw [this]
          exact a2
        | true =>
          rw [hv] at a1 a2
          rw [if_neg (by decide)]
          refine ⟨a1, ?_, hmd⟩
          have : fileParts { F.addType TYPE_PREVIEW with preview := some (Preview.create.loadXml x).2 } =
              [.node .preview (previewParts (Preview.create.loadXml x).2)] := by
            have e2 : (F.addType TYPE_PREVIEW).metadata = none := hmd
            unfold fileParts; dsimp only; rw [e2]; rfl
          rw [this]
          exact a2
    generalize hG : F.loadPreview n = G at *
    obtain ⟨g1, g2, g3⟩ := h1
    cases hg : G.1 with
    | false =>
      rw [hg] at g1
      rw [if_pos g1] at e
      cases e
      rw [if_pos rfl]
      exact ⟨g1.trans hg.symm, g2⟩
    | true =>
      rw [hg] at g1
      rw [if_neg (by rw [g1]; decide)] at e
      rw [if_neg (by decide)]
      obtain ⟨s, hs, e⟩ := bind_ok_inv e
      cases e
      dsimp only
      have hkind : ∀ t ∈ fileParts G.2, kindOf t ≠ .fileMeta := by
        intro t ht
        unfold fileParts at ht
        rw [g3] at ht
        simp only [Option.toList, List.map_nil, List.append_nil, List.mem_map] at ht
        obtain ⟨_, _, rfl⟩ := ht
        simp [kindOf]
      have key : s.ok = (G.2.loadMetadata n).1 ∧ Mid h s.heap p .file rc (fileParts (G.2.loadMetadata n).2) := by
        unfold File.loadMetadata
        cases hx : find n (b! "metadata") with
        | none =>
          rw [hx] at hs
          cases hs
          exact ⟨rfl, g2⟩
        | some x =>
          rw [hx] at hs
          obtain ⟨a1, a2⟩ := part_makes (fileMeta_makes x) g2 hkind hs
          dsimp only
          cases hv : (FileMeta.create.loadXml x).1 with
          | false =>
            rw [hv] at a1 a2
            rw [if_pos rfl]
            exact ⟨a1, a2⟩
          | true =>
            rw [hv] at a1 a2
            rw [if_neg (by decide)]
            refine ⟨a1, ?_⟩
            have : fileParts { G.2 with metadata := some (FileMeta.create.loadXml x).2 } =
                fileParts G.2 ++ [.node .fileMeta (fileMetaParts (FileMeta.create.loadXml x).2)] := by
              unfold fileParts; dsimp only; rw [g3]; simp
            rw [this]
            exact a2
      generalize hM : G.2.loadMetadata n = M at *
      obtain ⟨k1, k2⟩ := key
      cases hmm : M.1 with
      | false => rw [if_pos rfl]; exact ⟨k1, k2⟩
      | true =>
        rw [if_neg (by decide)]
        refine ⟨k1.trans hmm, ?_⟩
        obtain ⟨d1, d2⟩ := loadDataPart_parts M.2 n
        have : fileParts (M.2.loadDataPart n) = fileParts M.2 := by unfold fileParts; rw [d1, d2]
        rw [this]
        exact k2

theorem files_add (p : Files) (x : File) (h : (p.addToc (some x)).1 = true) :
    filesParts (p.addToc (some x)).2 = filesParts p ++ [.node .file (fileParts x)] := by
  unfold Files.addToc at h ⊢
  dsimp only at h ⊢
  split
  · next hv => rw [if_pos hv] at h; cases h
  · unfold filesParts
    dsimp only
    rw [vecAppend_getD, List.map_append]
    rfl

theorem files_loop : ∀ (ns : List Node) (p : Files),
    p.loadLoop ns = valLoop File.create.loadXml (fun p x => Files.addToc p (some x)) p ns
  | [], p => rfl
  | n :: ns, p => by
    rw [Files.loadLoop, valLoop]
    dsimp only
    split
    · rfl
    · split
      · rfl
      · exact files_loop ns _

theorem files_makes (node : Node) : Makes .files loadFiles (filesPlan node) (Files.create.loadXml node).1 (filesParts (Files.create.loadXml node).2) := by
  unfold filesPlan Files.loadXml
  rw [files_loop]
  exact container_makes file_makes files_add _ rfl _

theorem reel_makes (node : Node) : Makes .reel loadReel (reelPlan node) (Reel.create.loadXml node).1 (reelParts (Reel.create.loadXml node).2) := by
  intro h p rc r hn e
  unfold loadReel reelPlan at e
  unfold Reel.loadXml
  simp only [hn.cell] at e
  cases hf : selfOrFind node (b! "reel") with
  | none =>
    rw [hf] at e
    cases e
    exact ⟨rfl, hn.mid⟩
  | some n =>
    rw [hf] at e
    dsimp only at e ⊢
    cases hi : find n (b! "id") with
    | none =>
      rw [hi] at e
      cases e
      exact ⟨rfl, hn.mid⟩
    | some i =>
      rw [hi] at e
      dsimp only at e ⊢
      cases hx : find n (b! "files") with
      | none =>
        rw [hx] at e
        cases e
        exact ⟨rfl, hn.mid⟩
      | some fn =>
        rw [hx] at e
        dsimp only [Option.map] at e ⊢
        rw [hn.mid.no_part (fun t ht => by cases ht)] at e
        obtain ⟨a1, a2, -⟩ := into_makes (files_makes fn) hn.mid e
        exact ⟨a1, a2⟩

theorem reels_add (p : Reels) (x : Reel) (h : (p.addReel (some x)).1 = true) :
    reelsParts (p.addReel (some x)).2 = reelsParts p ++ [.node .reel (reelParts x)] := by
  unfold Reels.addReel at h ⊢
  dsimp only at h ⊢
  split
  · next hv => rw [if_pos hv] at h; cases h
  · unfold reelsParts
    dsimp only
    rw [vecAppend_getD, List.map_append]
    rfl

theorem reels_loop : ∀ (ns : List Node) (p : Reels),
    p.loadLoop ns = valLoop Reel.create.loadXml (fun p x => Reels.addReel p (some x)) p ns
  | [], p => rfl
  | n :: ns, p => by
    rw [Reels.loadLoop, valLoop]
    dsimp only
    split
    · rfl
    · split
      · rfl
      · exact reels_loop ns _

theorem reels_makes (node : Node) : Makes .reels loadReels (reelsPlan node) (Reels.create.loadXml node).1 (reelsParts (Reels.create.loadXml node).2) := by
  unfold reelsPlan Reels.loadXml
  rw [reels_loop]
  exact container_makes reel_makes reels_add _ rfl _

/-! ### Layouts -/

theorem layout_makes (node : Node) : Makes .layoutDef loadLayout (layoutPlan node) (LayoutDef.create.loadXml node).1 (layoutParts (LayoutDef.create.loadXml node).2) := by
  intro h p rc r hn e
  unfold loadLayout layoutPlan at e
  unfold LayoutDef.loadXml
  simp only [hn.cell] at e
  cases hf : selfOrFind node (b! "previewLayout") with
  | none =>
    rw [hf] at e
    cases e
    exact ⟨rfl, hn.mid⟩
  | some n =>
    rw [hf] at e
    dsimp only [Option.map] at e ⊢
    rw [hn.mid.no_part (fun t ht => by cases ht)] at e
    obtain ⟨a1, a2, -⟩ := into_makes (sections_makes n) hn.mid e
    exact ⟨a1, a2⟩

theorem layouts_add (d : LayoutDefs) (x : LayoutDef) (h : (addLayout d x).1 = true) :
    layoutsParts (addLayout d x).2 = layoutsParts d ++ [.node .layoutDef (layoutParts x)] := by
  unfold addLayout at h ⊢
  cases hd : d.add (some x) with
  | ub => rw [hd] at h; cases h
  | ok q =>
    rw [hd] at h
    unfold LayoutDefs.add at hd
    dsimp only at hd
    split at hd
    · cases hd; cases h
    · obtain ⟨b, hb, hd⟩ := bind_ok_inv hd
      cases b with
      | true => cases hd; cases h
      | false =>
        cases hd
        unfold layoutsParts
        dsimp only
        rw [vecAppend_getD, List.map_append]
        rfl

theorem layouts_loop : ∀ (ns : List Node) (d : LayoutDefs) (v : Bool × LayoutDefs), d.loadLoop ns = .ok v →
    v = valLoop LayoutDef.create.loadXml addLayout d ns
  | [], d, v, e => by cases e; rfl
  | n :: ns, d, v, e => by
    rw [LayoutDefs.loadLoop] at e
    rw [valLoop]
    cases h1 : (LayoutDef.create.loadXml n).1 with
    | false =>
      rw [h1] at e
      rw [if_pos rfl] at e ⊢
      cases e
      rfl
    | true =>
      rw [h1] at e
      rw [if_neg (by decide)] at e ⊢
      obtain ⟨q, hq, e⟩ := bind_ok_inv e
      have ha : addLayout d (LayoutDef.create.loadXml n).2 = q := by unfold addLayout; rw [hq]
      rw [ha]
      cases h2 : q.1 with
      | false =>
        rw [h2] at e
        rw [if_pos rfl] at e ⊢
        cases e
        rfl
      | true =>
        rw [h2] at e
        rw [if_neg (by decide)] at e ⊢
        exact layouts_loop ns _ v e

theorem layouts_makes (node : Node) (v : Bool × LayoutDefs) (hv : LayoutDefs.create.loadXml node = .ok v) :
    Makes .layoutDefs loadLayouts (layoutsPlan node) v.1 (layoutsParts v.2) := by
  unfold LayoutDefs.loadXml at hv
  unfold layoutsPlan
  cases hf : selfOrFind node (b! "layoutDefinitions") with
  | none =>
    rw [hf] at hv
    cases hv
    exact refused_makes
  | some n =>
    rw [hf] at hv
    rw [layouts_loop _ _ _ hv]
    exact container_makes layout_makes layouts_add _ rfl _

end Afs.Objects
