import Verif.Proof.Container
import Verif.Proof.LoadValid
import Verif.Props.C25_Files
import Verif.Spec.Loading
/-!
# C46: a successful load has loaded every element
-/
namespace Afs
open Spec Xml

/-- The loop shared by the list loaders: load an object from the node, add it, stop at the first
    failure. -/
def loopG {S A : Type} (load : Node → Bool × A) (add : S → Option A → Bool × S) : S → List Node → Bool × S
  | s, [] => (true, s)
  | s, n :: ns =>
    if (load n).1 = false then (false, s)
    else if (add s (some (load n).2)).1 = false then (false, s) else loopG load add (add s (some (load n).2)).2 ns

theorem loopG_spec {S A : Type} {load : Node → Bool × A} {add : S → Option A → Bool × S} {items : S → List A}
    {count : S → Nat} {get : S → Nat → Option A} {ok : List A → A → Bool}
    (hc : AppendOnlyList add items count get ok) (ns : List Node) :
    ∀ s, LoadedInOrder load ok ns (items s) (items (loopG load add s ns).2) (loopG load add s ns).1 := by
  induction ns with
  | nil => intro s; exact ⟨0, by simp, by simp [loopG], by simp, by simp, by simp, by simp [loopG]⟩
  | cons n ns ih =>
    intro s
    rw [loopG]
    split
    · rename_i h
      exact ⟨0, by simp, by simp, by simp, by simp, (by intro m hm; simp at hm; subst hm; exact .inl h), by simp⟩
    split
    · rename_i h h'
      refine ⟨0, by simp, by simp, by simp, by simp, ?_, by simp⟩
      intro m hm
      simp at hm
      subst hm
      rw [hc.result] at h'
      exact .inr h'
    · rename_i h h'
      obtain ⟨k, hk, e, hl, ha, hn, hr⟩ := ih (add s (some (load n).2)).2
      have hok : ok (items s) (load n).2 = true := by rw [← hc.result]; simpa using h'
      refine ⟨k + 1, by simp [hk], ?_, ?_, ?_, ?_, by rw [hr]; simp⟩
      · rw [e, hc.admitted _ _ (by rw [← hc.result]; simpa using h')]; simp
      · intro m hm
        rw [List.take_succ_cons] at hm
        rcases List.mem_cons.mp hm with rfl | hm
        · simpa using h
        · exact hl m hm
      · intro i m hi hm
        cases i with
        | zero =>
          simp at hm
          subst hm
          simpa using hok
        | succ i =>
          have := ha i m (by omega) (by simpa using hm)
          rw [hc.admitted _ _ hok] at this
          simpa using this
      · intro m hm
        exact hn m (by simpa using hm)

/-- Files of an index. -/
theorem C46_files (f : Files) (node : Node) :
    LoadedInOrder File.create.loadXml (fun _ x => x.isValid) (findAll node (b! "file"))
      f.list (f.loadXml node).2.list (f.loadXml node).1 := by
  have e : ∀ (ns : List Node) (f : Files), f.loadLoop ns = loopG File.create.loadXml Files.addToc f ns := by
    intro ns
    induction ns with
    | nil => intro f; rfl
    | cons n ns ih => intro f; rw [Files.loadLoop, loopG]; dsimp only; rw [ih]
  rw [Files.loadXml, e]
  exact loopG_spec files_container _ f

/-- Reels. -/
theorem C46_reels (r : Reels) (node : Node) :
    LoadedInOrder Reel.create.loadXml (fun _ x => x.isValid) (Reels.loadNodes node)
      r.list (r.loadXml node).2.list (r.loadXml node).1 := by
  have e : ∀ (ns : List Node) (f : Reels), f.loadLoop ns = loopG Reel.create.loadXml Reels.addReel f ns := by
    intro ns
    induction ns with
    | nil => intro f; rfl
    | cons n ns ih => intro f; rw [Reels.loadLoop, loopG]; dsimp only; rw [ih]
  rw [Reels.loadXml, e]
  exact loopG_spec reels_container _ r

/-- Sources of the index metadata: the `source` elements of the given or first `metadata` element. -/
theorem C46_metadata (m : TocMeta) (node n : Node) (hn : selfOrFind node (b! "metadata") = some n) :
    LoadedInOrder MetaSource.create.loadXml (fun _ x => x.isValid) (findAll n (b! "source"))
      (m.sources.getD []) ((m.loadXml node).2.sources.getD []) (m.loadXml node).1 := by
  have e : ∀ (ns : List Node) (f : TocMeta), f.loadLoop ns = loopG MetaSource.create.loadXml TocMeta.addSource f ns := by
    intro ns
    induction ns with
    | nil => intro f; rfl
    | cons n ns ih => intro f; rw [TocMeta.loadLoop, loopG]; dsimp only; rw [ih]
  rw [TocMeta.loadXml, hn]
  dsimp only
  rw [e]
  exact loopG_spec tocMeta_container _ m

/-- Sources of file metadata. -/
theorem C46_file_metadata (m : FileMeta) (node n : Node) (hn : selfOrFind node (b! "metadata") = some n) :
    LoadedInOrder FileMetaSource.create.loadXml (fun _ x => x.isValid) (findAll n (b! "source"))
      (m.sources.getD []) ((m.loadXml node).2.sources.getD []) (m.loadXml node).1 := by
  have e : ∀ (ns : List Node) (f : FileMeta), f.loadLoop ns = loopG FileMetaSource.create.loadXml FileMeta.addSource f ns := by
    intro ns
    induction ns with
    | nil => intro f; rfl
    | cons n ns ih => intro f; rw [FileMeta.loadLoop, loopG]; dsimp only; rw [ih]
  rw [FileMeta.loadXml, hn]
  dsimp only
  rw [e]
  exact loopG_spec fileMeta_container _ m

/-- Pages of a preview: the `pages` elements directly below the given or first `preview` element. -/
theorem C46_preview (p : Preview) (node n : Node) (hn : selfOrFind node (b! "preview") = some n) :
    LoadedInOrder Page.create.loadXml (fun _ x => x.isValid) (n.children.filter (named (b! "pages")))
      (p.pages.getD []) ((p.loadXml node).2.pages.getD []) (p.loadXml node).1 := by
  have e : ∀ (ns : List Node) (f : Preview),
      f.loadPages ns = loopG Page.create.loadXml Preview.addPage f (ns.filter (named (b! "pages"))) := by
    intro ns
    induction ns with
    | nil => intro f; rfl
    | cons n ns ih =>
      intro f
      cases n with
      | text s => rw [Preview.loadPages, List.filter_cons_of_neg (by simp [named, Node.element])]; exact ih f
      | elem m as cs =>
        rw [Preview.loadPages]
        split
        · rename_i h
          rw [List.filter_cons_of_pos (by simp [named, Node.element, h]), loopG]; dsimp only; rw [ih]
        · rename_i h
          rw [List.filter_cons_of_neg (by simpa [named, Node.element] using h)]; exact ih f
  rw [Preview.loadXml, hn]
  dsimp only
  rw [e]
  have := loopG_spec (load := Page.create.loadXml) preview_container
    (n.children.filter (named (b! "pages"))) { p with dpi := (intElement n (b! "dpi")).getD p.dpi }
  exact this

/-- Sections of a layout: a section is admitted if it is valid and neither its id nor its area is
    taken (C07). -/
theorem C46_sections (s : Sections) (node n : Node) (hn : selfOrFind node (b! "sections") = some n) :
    LoadedInOrder Section.create.loadXml (fun l x => x.isValid && Sections.admissible x l) (findAll n (b! "section"))
      (s.sections.getD []) ((s.loadXml node).2.sections.getD []) (s.loadXml node).1 := by
  have e : ∀ (ns : List Node) (f : Sections), f.loadLoop ns = loopG Section.create.loadXml Sections.append f ns := by
    intro ns
    induction ns with
    | nil => intro f; rfl
    | cons n ns ih => intro f; rw [Sections.loadLoop, loopG]; dsimp only; rw [ih]
  rw [Sections.loadXml, hn]
  dsimp only
  rw [e]
  exact loopG_spec sections_container _ s

/-- Without the list element nothing is loaded and the load fails. -/
theorem C46_no_list (m : TocMeta) (f : FileMeta) (p : Preview) (s : Sections) (node : Node) :
    (selfOrFind node (b! "metadata") = none → m.loadXml node = (false, m) ∧ f.loadXml node = (false, f)) ∧
    (selfOrFind node (b! "preview") = none → p.loadXml node = (false, p)) ∧
    (selfOrFind node (b! "sections") = none → s.loadXml node = (false, s)) :=
  ⟨fun h => ⟨by rw [TocMeta.loadXml, h], by rw [FileMeta.loadXml, h]⟩, fun h => by rw [Preview.loadXml, h],
   fun h => by rw [Sections.loadXml, h]⟩

/-- A layout definition loads exactly if its sections do. -/
theorem C46_layout_definition (d : LayoutDef) (node n : Node) (hn : selfOrFind node (b! "previewLayout") = some n) :
    (d.loadXml node).1 = (Sections.create.loadXml n).1 ∧
    (d.loadXml node).2.sections = some (Sections.create.loadXml n).2 := by
  rw [LayoutDef.loadXml, hn]
  exact ⟨rfl, rfl⟩

/-- A file loads exactly if its preview and its metadata do (each of them counts as loaded when the
    file has none); the loaded file has these parts. -/
theorem C46_file (f : File) (node n : Node) (hn : selfOrFind node (b! "file") = some n) :
    ((f.loadXml node).1 = true ↔
      (∀ p, find n (b! "preview") = some p → (Preview.create.loadXml p).1 = true) ∧
      (∀ m, find n (b! "metadata") = some m → (FileMeta.create.loadXml m).1 = true)) ∧
    ((f.loadXml node).1 = true →
      (∀ p, find n (b! "preview") = some p → (f.loadXml node).2.preview = some (Preview.create.loadXml p).2) ∧
      (∀ m, find n (b! "metadata") = some m → (f.loadXml node).2.metadata = some (FileMeta.create.loadXml m).2)) := by
  have hd : ∀ g : File, (g.loadDataPart n).preview = g.preview ∧ (g.loadDataPart n).metadata = g.metadata := by
    intro g
    have h1 : ∀ (g : File) m, (g.loadDataV1 m).preview = g.preview ∧ (g.loadDataV1 m).metadata = g.metadata := by
      intro g m; unfold File.loadDataV1; repeat' split
      all_goals exact ⟨rfl, rfl⟩
    have h2 : ∀ (g : File) m, (g.loadDataV2 m).preview = g.preview ∧ (g.loadDataV2 m).metadata = g.metadata := by
      intro g m; unfold File.loadDataV2; repeat' split
      all_goals exact ⟨rfl, rfl⟩
    have h3 : ∀ (g : File) m, (g.addType m).preview = g.preview ∧ (g.addType m).metadata = g.metadata := by
      intro g m; exact ⟨rfl, rfl⟩
    unfold File.loadDataPart
    split
    · exact ⟨(h3 _ _).1.trans (h2 _ _).1, (h3 _ _).2.trans (h2 _ _).2⟩
    · dsimp only
      split <;> split <;> first | exact h1 g n | exact ⟨(h3 _ _).1.trans (h1 _ _).1, (h3 _ _).2.trans (h1 _ _).2⟩
  have hf : ∀ g : File, (g.addType TYPE_PREVIEW).preview = g.preview := fun _ => rfl
  rw [File.loadXml, hn]
  dsimp only
  unfold File.loadPreview File.loadMetadata
  cases hp : find n (b! "preview") with
  | none =>
    cases hm : find n (b! "metadata") with
    | none => simp
    | some m => cases h : (FileMeta.create.loadXml m).1 <;> simp [h, hd]
  | some p =>
    cases h' : (Preview.create.loadXml p).1 with
    | false => simp [h']
    | true =>
      cases hm : find n (b! "metadata") with
      | none => simp [h', hd]
      | some m => cases h : (FileMeta.create.loadXml m).1 <;> simp [h, h', hd]

/-- Layout definitions (the stored ones valid, with distinct ids): admitted are valid definitions
    with a new id. -/
theorem C46_layout_definitions (d : LayoutDefs) (node n : Node) (hn : selfOrFind node (b! "layoutDefinitions") = some n)
    (hv : ∀ x ∈ d.defs.getD [], x.isValid = true) (hd : ((d.defs.getD []).map LayoutDef.id).Nodup) :
    ∃ b d', d.loadXml node = .ok (b, d') ∧
      LoadedInOrder LayoutDef.create.loadXml (fun l x => x.isValid && !(l.any fun e => decide (e.id = x.id)))
        (findAll n (b! "previewLayout")) (d.defs.getD []) (d'.defs.getD []) b := by
  rw [LayoutDefs.loadXml, hn]
  dsimp only
  have hinv : DefsInv (d.defs.getD []) := ⟨hv, hd⟩
  clear hv hd hn
  generalize findAll n (b! "previewLayout") = ns
  induction ns generalizing d with
  | nil => exact ⟨true, d, rfl, 0, by simp, by simp, by simp, by simp, by simp, by simp⟩
  | cons n ns ih =>
    rw [LayoutDefs.loadLoop]
    split
    · rename_i h
      exact ⟨false, d, rfl, 0, by simp, by simp, by simp, by simp, (by intro m hm; simp at hm; subst hm; exact .inl h), by simp⟩
    · rename_i h
      have hadd := layouts_add_ok (defsInv_ids hinv) (LayoutDef.create.loadXml n).2
      rw [hadd, Res.ok_bind]
      cases hok : layoutOk (d.defs.getD []) (LayoutDef.create.loadXml n).2 with
      | false =>
        refine ⟨false, d, rfl, 0, by simp, by simp, by simp, by simp, ?_, by simp⟩
        intro m hm
        simp at hm
        subst hm
        exact .inr hok
      | true =>
        obtain ⟨b, d', e, k, hk, e', hl, ha, hnx, hr⟩ :=
          ih ⟨vecAppend d.defs (LayoutDef.create.loadXml n).2⟩ (by rw [vecAppend_getD]; exact defsInv_step _ _ hinv hok)
        refine ⟨b, d', e, k + 1, by simp [hk], ?_, ?_, ?_, ?_, by rw [hr]; simp⟩
        · rw [e', vecAppend_getD]; simp
        · intro m hm
          rw [List.take_succ_cons] at hm
          rcases List.mem_cons.mp hm with rfl | hm
          · simpa using h
          · exact hl m hm
        · intro i m hi hm
          cases i with
          | zero =>
            simp at hm
            subst hm
            have hok' := hok
            rw [layoutOk] at hok'
            simpa using hok'
          | succ i =>
            have := ha i m (by omega) (by simpa using hm)
            rw [vecAppend_getD] at this
            simpa using this
        · intro m hm
          exact hnx m (by simpa using hm)

/-- A reel loads exactly if it has an id element and its file list, if it has one, loads; the
    loaded reel has exactly this file list. -/
theorem C46_reel (r : Reel) (node n : Node) (hn : selfOrFind node (b! "reel") = some n) :
    ((r.loadXml node).1 = true ↔ (find n (b! "id")).isSome = true ∧
      ∀ fs, find n (b! "files") = some fs → (Files.create.loadXml fs).1 = true) ∧
    ((r.loadXml node).1 = true → ∀ fs, find n (b! "files") = some fs →
      (r.loadXml node).2.files = some (Files.create.loadXml fs).2) := by
  rw [Reel.loadXml, hn]
  dsimp only
  cases hi : find n (b! "id") with
  | none => simp
  | some i =>
    cases hf : find n (b! "files") with
    | none => simp
    | some fs => cases h : (Files.create.loadXml fs).1 <;> simp [h]

/-- An index loads exactly if its metadata, its layout definitions and its reels load, as far as it
    has them, and then it has exactly these. -/
theorem C46_toc_data (t : TocData) (node n : Node) (hn : selfOrFind node (b! "Index") = some n) :
    ∃ b t', t.loadXml node = .ok (b, t') ∧
      (b = true ↔ (∀ m, findUnder n (b! "Index") (b! "metadata") = some m → (TocMeta.create.loadXml m).1 = true) ∧
        (∀ l, find n (b! "layoutDefinitions") = some l → ∃ d, LayoutDefs.create.loadXml l = .ok (true, d)) ∧
        (∀ r, find n (b! "reels") = some r → (Reels.create.loadXml r).1 = true)) ∧
      (b = true →
        t'.metadata = (findUnder n (b! "Index") (b! "metadata")).map (fun m => (TocMeta.create.loadXml m).2) ∧
        (∀ l, find n (b! "layoutDefinitions") = some l → ∃ d, LayoutDefs.create.loadXml l = .ok (true, d) ∧ t'.layouts = some d) ∧
        (find n (b! "layoutDefinitions") = none → t'.layouts = none) ∧
        t'.reels = (find n (b! "reels")).map (fun r => (Reels.create.loadXml r).2)) := by
  have hl : ∀ l, ∃ b d, LayoutDefs.create.loadXml l = .ok (b, d) := by
    intro l
    cases hs : selfOrFind l (b! "layoutDefinitions") with
    | none => exact ⟨false, LayoutDefs.create, by rw [LayoutDefs.loadXml, hs]⟩
    | some m =>
      obtain ⟨b, d, e, _⟩ := C46_layout_definitions LayoutDefs.create l m hs (by simp [LayoutDefs.create]) (by simp [LayoutDefs.create])
      exact ⟨b, d, e⟩
  rw [TocData.loadXml, hn]
  dsimp only
  unfold TocData.loadMeta TocData.loadLayouts TocData.loadReels
  cases hm : findUnder n (b! "Index") (b! "metadata") with
  | none =>
    cases hd : find n (b! "layoutDefinitions") with
    | none =>
      cases hr : find n (b! "reels") with
      | none => exact ⟨true, _, rfl, by simp, by simp⟩
      | some r => cases h : (Reels.create.loadXml r).1 <;> simp [h]
    | some l =>
      obtain ⟨b, d, e⟩ := hl l
      cases b with
      | false => simp [e]
      | true =>
        cases hr : find n (b! "reels") with
        | none => simp [e]
        | some r => cases h : (Reels.create.loadXml r).1 <;> simp [h, e]
  | some m =>
    cases hm' : (TocMeta.create.loadXml m).1 with
    | false => simp [hm']
    | true =>
      cases hd : find n (b! "layoutDefinitions") with
      | none =>
        cases hr : find n (b! "reels") with
        | none => simp [hm']
        | some r => cases h : (Reels.create.loadXml r).1 <;> simp [h, hm']
      | some l =>
        obtain ⟨b, d, e⟩ := hl l
        cases b with
        | false => simp [e, hm']
        | true =>
          cases hr : find n (b! "reels") with
          | none => simp [e, hm']
          | some r => cases h : (Reels.create.loadXml r).1 <;> simp [h, e, hm']

/-- Non-vacuity: a file list of one file loads; with a second file without fields the load fails,
    the first file having been added. -/
def goodList : Node := .elem (b! "files") [] ((exFile.saveXml false).toList)

def brokenList : Node := .elem (b! "files") [] (goodList.children ++ [.elem (b! "file") [] [.elem (b! "preview") [] [.elem (b! "pages") [] []]]])

set_option maxRecDepth 100000 in
example : (Files.create.loadXml goodList).1 = true ∧ (Files.create.loadXml goodList).2.list.length = 1 ∧
    (Files.create.loadXml brokenList).1 = false ∧ (Files.create.loadXml brokenList).2.list.length = 1 := by
  refine ⟨by decide +kernel, by decide +kernel, by decide +kernel, by decide +kernel⟩

/-- The list elements of the hypotheses: the element itself or a found one. -/
example : selfOrFind (.elem (b! "x") [] [.elem (b! "metadata") [] []]) (b! "metadata") = some (.elem (b! "metadata") [] []) ∧
    selfOrFind (.elem (b! "sections") [] []) (b! "sections") = some (.elem (b! "sections") [] []) := ⟨rfl, rfl⟩

end Afs
