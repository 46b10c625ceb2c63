import Verif.Proof.Stable
/-! # What a load from a clean document gives is clean: loaders of the parts (C70) -/
namespace Afs
open Spec Xml

/-! ### Loops -/

/-- A vector as loading makes it: not there at all or not empty, and all entries are as `P` says. -/
def VecAll {α : Type} (P : α → Prop) (v : Option (List α)) : Prop := v ≠ some [] ∧ ∀ x ∈ v.getD [], P x

theorem vecAll_none {α : Type} (P : α → Prop) : VecAll P none := ⟨(fun h => nomatch h), (fun _ h => nomatch h)⟩

theorem vecAll_append {α : Type} {P : α → Prop} {v : Option (List α)} (h : VecAll P v) {x : α} (hx : P x) : VecAll P (vecAppend v x) := by
  cases v with
  | none => exact ⟨by simp [vecAppend], by simpa [vecAppend] using hx⟩
  | some l =>
    refine ⟨by simp [vecAppend], ?_⟩
    intro y hy
    have hy : y ∈ l ++ [x] := hy
    rcases List.mem_append.mp hy with hy | hy
    · exact h.2 y hy
    · rw [List.mem_singleton.mp hy]; exact hx

theorem TocMeta.loadLoop_all {P : MetaSource → Prop} : ∀ (ns : List Node), (∀ n ∈ ns, P (MetaSource.create.loadXml n).2) → ∀ s : TocMeta,
    VecAll (fun x => x.isValid = true ∧ P x) s.sources → VecAll (fun x => x.isValid = true ∧ P x) (s.loadLoop ns).2.sources
  | [], _, s, h => h
  | n :: ns, hn, s, h => by
    rw [TocMeta.loadLoop]
    dsimp only
    split
    · exact h
    · unfold TocMeta.addSource
      dsimp only
      rcases Bool.eq_false_or_eq_true (MetaSource.create.loadXml n).2.isValid with hv | hv
      · simp only [hv, Bool.not_true, Bool.false_eq_true, if_false, Bool.true_eq_false]
        exact TocMeta.loadLoop_all ns (fun m hm => hn m (by simp [hm])) _ (vecAll_append h ⟨hv, hn n (by simp)⟩)
      · simp only [hv, Bool.not_false, if_true]
        exact h

theorem FileMeta.loadLoop_all {P : FileMetaSource → Prop} : ∀ (ns : List Node), (∀ n ∈ ns, P (FileMetaSource.create.loadXml n).2) → ∀ s : FileMeta,
    VecAll (fun x => x.isValid = true ∧ P x) s.sources → VecAll (fun x => x.isValid = true ∧ P x) (s.loadLoop ns).2.sources
  | [], _, s, h => h
  | n :: ns, hn, s, h => by
    rw [FileMeta.loadLoop]
    dsimp only
    split
    · exact h
    · unfold FileMeta.addSource
      dsimp only
      rcases Bool.eq_false_or_eq_true (FileMetaSource.create.loadXml n).2.isValid with hv | hv
      · simp only [hv, Bool.not_true, Bool.false_eq_true, if_false, Bool.true_eq_false]
        exact FileMeta.loadLoop_all ns (fun m hm => hn m (by simp [hm])) _ (vecAll_append h ⟨hv, hn n (by simp)⟩)
      · simp only [hv, Bool.not_false, if_true]
        exact h

theorem Files.loadLoop_all {P : File → Prop} : ∀ (ns : List Node), (∀ n ∈ ns, (File.create.loadXml n).1 = true → P (File.create.loadXml n).2) → ∀ s : Files,
    VecAll (fun x => x.isValid = true ∧ P x) s.tocs → VecAll (fun x => x.isValid = true ∧ P x) (s.loadLoop ns).2.tocs
  | [], _, s, h => h
  | n :: ns, hn, s, h => by
    rw [Files.loadLoop]
    dsimp only
    split
    · exact h
    · rename_i hok
      unfold Files.addToc
      dsimp only
      rcases Bool.eq_false_or_eq_true (File.create.loadXml n).2.isValid with hv | hv
      · simp only [hv, Bool.not_true, Bool.false_eq_true, if_false, Bool.true_eq_false]
        exact Files.loadLoop_all ns (fun m hm => hn m (by simp [hm])) _ (vecAll_append h ⟨hv, hn n (by simp) (by simpa using hok)⟩)
      · simp only [hv, Bool.not_false, if_true]
        exact h

theorem Reels.loadLoop_all {P : Reel → Prop} : ∀ (ns : List Node), (∀ n ∈ ns, (Reel.create.loadXml n).1 = true → P (Reel.create.loadXml n).2) → ∀ s : Reels,
    VecAll (fun x => x.isValid = true ∧ P x) s.reels → VecAll (fun x => x.isValid = true ∧ P x) (s.loadLoop ns).2.reels
  | [], _, s, h => h
  | n :: ns, hn, s, h => by
    rw [Reels.loadLoop]
    dsimp only
    split
    · exact h
    · rename_i hok
      unfold Reels.addReel
      dsimp only
      rcases Bool.eq_false_or_eq_true (Reel.create.loadXml n).2.isValid with hv | hv
      · simp only [hv, Bool.not_true, Bool.false_eq_true, if_false, Bool.true_eq_false]
        exact Reels.loadLoop_all ns (fun m hm => hn m (by simp [hm])) _ (vecAll_append h ⟨hv, hn n (by simp) (by simpa using hok)⟩)
      · simp only [hv, Bool.not_false, if_true]
        exact h

theorem Sections.loadLoop_all {P : Section → Prop} : ∀ (ns : List Node), (∀ n ∈ ns, P (Section.create.loadXml n).2) → ∀ s : Sections,
    VecAll P s.sections → VecAll P (s.loadLoop ns).2.sections
  | [], _, s, h => h
  | n :: ns, hn, s, h => by
    rw [Sections.loadLoop]
    dsimp only
    split
    · exact h
    · unfold Sections.append
      dsimp only
      split
      · exact h
      · split
        · exact h
        · exact Sections.loadLoop_all ns (fun m hm => hn m (by simp [hm])) _ (vecAll_append h (hn n (by simp)))

theorem Preview.loadPages_all {P : Page → Prop} : ∀ (ns : List Node), (∀ n ∈ ns, P (Page.create.loadXml n).2) → ∀ s : Preview,
    VecAll (fun x => x.isValid = true ∧ P x) s.pages → VecAll (fun x => x.isValid = true ∧ P x) (s.loadPages ns).2.pages ∧ (s.loadPages ns).2.dpi = s.dpi
  | [], _, s, h => ⟨h, rfl⟩
  | .text t :: ns, hn, s, h => by
    rw [Preview.loadPages]
    exact Preview.loadPages_all ns (fun m hm => hn m (by simp [hm])) s h
  | .elem n as cs :: ns, hn, s, h => by
    rw [Preview.loadPages]
    dsimp only
    split
    · split
      · exact ⟨h, rfl⟩
      · unfold Preview.addPage
        dsimp only
        rcases Bool.eq_false_or_eq_true (Page.create.loadXml (.elem n as cs)).2.isValid with hv | hv
        · simp only [hv, Bool.not_true, Bool.false_eq_true, if_false, Bool.true_eq_false]
          exact Preview.loadPages_all ns (fun m hm => hn m (by simp [hm])) { s with pages := vecAppend s.pages _ }
            (vecAll_append h ⟨hv, hn _ (by simp)⟩)
        · simp only [hv, Bool.not_false, if_true]
          exact ⟨h, trivial⟩
    · exact Preview.loadPages_all ns (fun m hm => hn m (by simp [hm])) s h

theorem LayoutDefs.loadLoop_all {P : LayoutDef → Prop} : ∀ (ns : List Node), (∀ n ∈ ns, P (LayoutDef.create.loadXml n).2) → ∀ s : LayoutDefs,
    DefsInv (s.defs.getD []) → VecAll P s.defs →
    ∃ b r, s.loadLoop ns = .ok (b, r) ∧ DefsInv (r.defs.getD []) ∧ VecAll P r.defs
  | [], _, s, h, hp => ⟨true, s, rfl, h, hp⟩
  | n :: ns, hn, s, h, hp => by
    rw [LayoutDefs.loadLoop]
    split
    · exact ⟨false, s, rfl, h, hp⟩
    · rw [layouts_add_ok (defsInv_ids h)]
      simp only [Res.ok_bind]
      cases hok : layoutOk (s.defs.getD []) (LayoutDef.create.loadXml n).2 with
      | false => exact ⟨false, s, rfl, h, hp⟩
      | true =>
        simp only [if_true, Bool.true_eq_false, if_false]
        refine LayoutDefs.loadLoop_all ns (fun m hm => hn m (by simp [hm])) _ ?_ (vecAll_append hp (hn n (by simp)))
        simp only [vecAppend_getD]
        exact defsInv_step _ _ h hok

/-! ### Sections and layouts -/

theorem Section.loadXml_inRange (t : Node) (s : Section) (h : s.inRange) : (s.loadXml t).2.inRange := by
  obtain ⟨h1, h2, h3, h4, h5, h6⟩ := h
  unfold Section.loadXml
  split
  · exact ⟨h1, h2, h3, h4, h5, h6⟩
  · dsimp only
    split
    · exact ⟨h1, h2, h3, h4, h5, h6⟩
    · rename_i e1
      have h1 := isUInt_attr e1
      split
      · exact ⟨h1, h2, h3, h4, h5, h6⟩
      · rename_i e2
        have h2 := isUInt_attr e2
        split
        · exact ⟨h1, h2, h3, h4, h5, h6⟩
        · rename_i e3
          have h3 := isUInt_attr e3
          split
          · exact ⟨h1, h2, h3, h4, h5, h6⟩
          · rename_i e4
            have h4 := isUInt_attr e4
            split
            · exact ⟨h1, h2, h3, h4, h5, h6⟩
            · rename_i e5
              have h5 := isUInt_attr e5
              split
              · exact ⟨h1, h2, h3, h4, h5, h6⟩
              · rename_i e6
                exact ⟨h1, h2, h3, h4, h5, isUInt_attr e6⟩

theorem Sections.loadXml_storable (t : Node) (hv : Sections.isValid (some (Sections.create.loadXml t).2) = true) :
    (Sections.create.loadXml t).2.storable := by
  have inv := Sections.loadXml_inv Sections.create (by unfold Sections.create SectionsInv; simp) t
  refine ⟨hv, ?_, ?_⟩
  · rw [List.nodup_iff_pairwise_ne, List.pairwise_map]
    exact inv.2.imp fun h => h.1
  · have : VecAll Section.inRange (Sections.create.loadXml t).2.sections := by
      unfold Sections.loadXml
      split
      · exact vecAll_none _
      · exact Sections.loadLoop_all _ (fun n _ => Section.loadXml_inRange n _ (by unfold Section.inRange; decide)) _ (vecAll_none _)
    exact this.2

theorem nullOrEmpty_ne {s : Option Bytes} (h : nullOrEmpty s = false) : s ≠ some [] := by
  intro e; subst e; exact absurd h (by decide)

theorem LayoutDef.loadXml_storable {t : Node} (h : CleanDoc t) (d : LayoutDef) (hd : d.isValid = true → d.storable)
    (hv : (d.loadXml t).2.isValid = true) : (d.loadXml t).2.storable := by
  unfold LayoutDef.loadXml at hv ⊢
  revert hv
  split
  · exact hd
  · rename_i n hn
    have hc := clean_selfOrFind h hn
    intro hv
    refine ⟨hv, ?_⟩
    dsimp only at hv ⊢
    unfold LayoutDef.isValid at hv
    split at hv
    · cases hv
    · rename_i hx
      simp only [Bool.or_eq_true, not_or, Bool.not_eq_true, Bool.not_eq_false'] at hx
      refine ⟨held_field (held_find hc _) (nullOrEmpty_ne hx.1.1), held_field (held_find hc _) (nullOrEmpty_ne hx.1.2), ?_⟩
      intro s hs
      injection hs with hs
      subst hs
      exact Sections.loadXml_storable n hx.2

theorem LayoutDefs.loadXml_storable {t : Node} (h : CleanDoc t) :
    ∃ b r, LayoutDefs.create.loadXml t = .ok (b, r) ∧ r.storable := by
  unfold LayoutDefs.loadXml
  split
  · exact ⟨false, _, rfl, (vecAll_none (fun _ => True)).1, by simp [LayoutDefs.create], fun _ h => nomatch h⟩
  · rename_i n hn
    have hc := clean_selfOrFind h hn
    obtain ⟨b, r, e, h1, h2⟩ := LayoutDefs.loadLoop_all (P := fun d => d.isValid = true → d.storable) (findAll n (b! "previewLayout"))
      (fun m hm => LayoutDef.loadXml_storable (clean_findAll hc m hm) _ (fun h => nomatch h)) LayoutDefs.create
      ⟨(fun _ h => nomatch h), by simp [LayoutDefs.create]⟩ (vecAll_none _)
    exact ⟨b, r, e, h2.1, h1.2, fun x hx => h2.2 x hx (h1.1 x hx)⟩

/-! ### Previews -/

theorem strClone_field {s : Option Bytes} (h : AttrField s) : AttrField (strClone s) := by
  intro t ht
  cases s with
  | none => cases ht
  | some v => exact h t ht

theorem isUInt_uOfInt (i : Int) : IsUInt (uOfInt i) := by unfold uOfInt IsUInt two32; omega

theorem isUInt_attrD {n : Node} {nm : Bytes} {v : Nat} (h : IsUInt v) : IsUInt (((intAttr n nm).map uOfInt).getD v) := by
  cases intAttr n nm with
  | none => exact h
  | some w => exact isUInt_uOfInt w

theorem isUInt_scan {s : Bytes} {x : Nat} {r : Bytes} (h : scanU s = some (x, r)) : IsUInt x := by
  unfold scanU at h
  split at h
  · cases h
  · dsimp only at h
    injection h with h
    injection h with h _
    rw [← h]
    unfold u32 IsUInt two32
    omega

theorem isUInt_xy {s : Option Bytes} {x y : Nat} (h : Page.extractXY s = some (x, y)) : IsUInt x ∧ IsUInt y := by
  unfold Page.extractXY at h
  split at h
  · injection h with h; injection h with h1 h2; subst h1 h2; decide
  · split at h
    · injection h with h; injection h with h1 h2; subst h1 h2; decide
    · unfold scanUxU at h
      split at h
      · cases h
      · rename_i hx
        split at h
        · cases h
        · split at h
          · split at h
            · cases h
            · rename_i hy
              injection h with h; injection h with h1 h2
              exact ⟨h1 ▸ isUInt_scan hx, h2 ▸ isUInt_scan hy⟩
          · cases h

theorem isUInt_storedX {s : Option Bytes} {x : Nat} (h : IsUInt x) : IsUInt ((Page.storedX s).getD x) := by
  unfold Page.storedX
  cases s with
  | none => exact h
  | some t =>
    cases e : scanU t with
    | none => simp only [e]; exact h
    | some r => obtain ⟨v, r⟩ := r; simp only [e]; exact isUInt_scan e

theorem Page.loadXml_writable {t : Node} (h : CleanDoc t) (p : Page) (hp : p.writable) : (p.loadXml t).2.writable := by
  obtain ⟨h1, h2, h3, h4, h5, h6, h7, h8⟩ := hp
  unfold Page.loadXml
  split
  · exact ⟨h1, h2, h3, h4, h5, h6, h7, h8⟩
  · rename_i n hn
    have hc := clean_selfOrFind h hn
    dsimp only
    have k1 := strClone_field (clean_attr hc (b! "layoutId"))
    have k2 := isUInt_attrD (n := n) (nm := b! "frame") h2
    have k3 := isUInt_attrD (n := n) (nm := b! "section") h3
    have k4 := isUInt_attrD (n := n) (nm := b! "count") h4
    split
    · exact ⟨k1, k2, k3, k4, isUInt_storedX h5, h6, h7, h8⟩
    · rename_i x y exy
      obtain ⟨h5, h6⟩ := isUInt_xy exy
      split
      · exact ⟨k1, k2, k3, k4, h5, h6, isUInt_storedX h7, h8⟩
      · rename_i x y exy
        obtain ⟨h7, h8⟩ := isUInt_xy exy
        exact ⟨k1, k2, k3, k4, h5, h6, h7, h8⟩

theorem Page.create_writable : Page.create.writable := by
  refine ⟨?_, ?_⟩
  · intro t ht; cases ht
  · decide

/-- What a load of a preview gives. -/
def PreviewHeld (p : Preview) : Prop := IsInt p.dpi ∧ VecAll (fun g => g.isValid = true ∧ g.writable) p.pages

theorem Preview.loadXml_held {t : Node} (h : CleanDoc t) : PreviewHeld (Preview.create.loadXml t).2 := by
  unfold Preview.loadXml
  split
  · exact ⟨by decide, vecAll_none _⟩
  · rename_i n hn
    have hc := clean_selfOrFind h hn
    have hk : ∀ c ∈ n.children, CleanDoc c := by
      cases n with
      | text => exact fun _ h => nomatch h
      | elem m as cs => exact fun c hc' => hc.child hc'
    have := Preview.loadPages_all (P := Page.writable) n.children (fun c hc' => Page.loadXml_writable (hk c hc') _ Page.create_writable)
      { Preview.create with dpi := (intElement n (b! "dpi")).getD Preview.create.dpi } (vecAll_none _)
    refine ⟨?_, this.1⟩
    rw [this.2]
    exact isInt_elemD (by decide)

theorem PreviewHeld.storable {p : Preview} (h : PreviewHeld p) (hk : PreviewKept p) (hv : Preview.isValid (some p) = true) : p.storable :=
  ⟨hv, h.1, hk.1, fun x hx => ⟨(h.2.2 x hx).2, hk.2 x hx⟩⟩

/-! ### Metadata -/

/-- What a load of a source of metadata gives. -/
def SourceHeld (s : MetaSource) : Prop :=
  AttrField s.format ∧ IsInt s.id ∧ IsInt s.fileId ∧ (∀ d, s.data = some d → CleanData d) ∧
    (∀ l, s.tags = some l → ∃ t, TextField (some t) ∧ l = splitOn semicolon t)

theorem SourceHeld.tags {s : MetaSource} (h : SourceHeld s) {t : Option Bytes} (ht : Held t) : SourceHeld (s.setTags t) := by
  unfold MetaSource.setTags
  split
  · exact h
  · rename_i v
    split
    · exact h
    · rename_i hl
      refine ⟨h.1, h.2.1, h.2.2.1, h.2.2.2.1, ?_⟩
      intro l e
      injection e with e
      exact ⟨v, held_field ht (by intro e; injection e with e; subst e; exact hl rfl), e.symm⟩

theorem MetaSource.loadXml_held {t : Node} (h : CleanDoc t) (s : MetaSource) (hs : SourceHeld s) (hd : s.data = none) : SourceHeld (s.loadXml t).2 := by
  obtain ⟨h1, h2, h3, h4, h5⟩ := hs
  unfold MetaSource.loadXml
  split
  · exact ⟨h1, h2, h3, h4, h5⟩
  · rename_i n hn
    have hc := clean_selfOrFind h hn
    have k1 := strClone_field (clean_attr hc (b! "formatId"))
    dsimp only
    split
    · exact ⟨k1, h2, h3, h4, h5⟩
    · rename_i e2
      have h2 := isInt_attr e2
      split
      · exact ⟨k1, h2, h3, h4, h5⟩
      · rename_i e3
        have h3 := isInt_attr e3
        dsimp only
        have k4 : ∀ dn, find n (b! "data") = some dn → ∀ d, loadData s.data dn = some d → CleanData d := by
          intro dn hdn
          rw [hd]; exact clean_loadData (clean_find hc hdn) (named_find hdn)
        have k5 : ∀ x, find n (b! "tags") = some x → Held (nodeText (some x)) := fun x hx =>
          held_nodeText fun _ e => by injection e with e; exact e ▸ clean_find hc hx
        cases hdn : find n (b! "data") with
        | none =>
          cases hx : find n (b! "tags") with
          | none => exact ⟨k1, h2, h3, h4, h5⟩
          | some x =>
            refine SourceHeld.tags (s := _) ?_ (k5 x hx)
            exact ⟨k1, h2, h3, h4, h5⟩
        | some dn =>
          cases hx : find n (b! "tags") with
          | none => exact ⟨k1, h2, h3, k4 _ hdn, h5⟩
          | some x =>
            refine SourceHeld.tags (s := _) ?_ (k5 x hx)
            exact ⟨k1, h2, h3, k4 _ hdn, h5⟩

theorem MetaSource.create_held : SourceHeld MetaSource.create :=
  ⟨(fun _ h => nomatch h), by decide, by decide, (fun _ h => nomatch h), (fun _ h => nomatch h)⟩

theorem TocMeta.loadXml_held {t : Node} (h : CleanDoc t) :
    VecAll (fun s => s.isValid = true ∧ SourceHeld s) (TocMeta.create.loadXml t).2.sources := by
  unfold TocMeta.loadXml
  split
  · exact vecAll_none _
  · rename_i n hn
    exact TocMeta.loadLoop_all _ (fun m hm => MetaSource.loadXml_held (clean_findAll (clean_selfOrFind h hn) m hm) _ MetaSource.create_held rfl) _ (vecAll_none _)

/-- What a load of a source of metadata of a file gives. -/
def FileSourceHeld (s : FileMetaSource) : Prop :=
  AttrField s.formatId ∧ IsInt s.fileId ∧ IsInt s.sourceId ∧ ∀ d, s.data = some d → CleanData d

theorem FileMetaSource.loadXml_held {t : Node} (h : CleanDoc t) (s : FileMetaSource) (hs : FileSourceHeld s) (hd : s.data = none) :
    FileSourceHeld (s.loadXml t).2 := by
  obtain ⟨h1, h2, h3, h4⟩ := hs
  unfold FileMetaSource.loadXml
  split
  · exact ⟨h1, h2, h3, h4⟩
  · rename_i n hn
    have hc := clean_selfOrFind h hn
    split
    · exact ⟨h1, h2, h3, h4⟩
    · rename_i e2
      have h2 := isInt_attr e2
      have h3 : IsInt ((intAttr n (b! "sourceId")).getD (-1)) := isInt_attrD (by decide)
      dsimp only
      split
      · exact ⟨h1, h2, h3, h4⟩
      · rename_i dn hdn
        have hdc := clean_find hc hdn
        refine ⟨strClone_field (clean_attr hdc _), h2, h3, ?_⟩
        dsimp only
        rw [hd]; exact clean_loadData hdc (named_find hdn)

theorem FileMetaSource.create_held : FileSourceHeld FileMetaSource.create :=
  ⟨(fun _ h => nomatch h), by decide, by decide, (fun _ h => nomatch h)⟩

/-- What a load of metadata of a file gives. -/
def FileMetaHeld (m : FileMeta) : Prop := VecAll (fun s => s.isValid = true ∧ FileSourceHeld s) m.sources

theorem FileMeta.loadXml_held {t : Node} (h : CleanDoc t) : FileMetaHeld (FileMeta.create.loadXml t).2 := by
  unfold FileMeta.loadXml
  split
  · exact vecAll_none _
  · rename_i n hn
    exact FileMeta.loadLoop_all _ (fun m hm => FileMetaSource.loadXml_held (clean_findAll (clean_selfOrFind h hn) m hm) _ FileMetaSource.create_held rfl) _ (vecAll_none _)

theorem FileMetaHeld.storable {m : FileMeta} (h : FileMetaHeld m) (hk : MetaKept m) : m.storable :=
  ⟨h.1, fun x hx => ⟨(h.2 x hx).1, (h.2 x hx).2.1, (h.2 x hx).2.2.1, (h.2 x hx).2.2.2.1, (h.2 x hx).2.2.2.2, hk x hx⟩⟩

theorem TocMeta.storable_of_held {m : TocMeta} (h : VecAll (fun s => s.isValid = true ∧ SourceHeld s) m.sources) (hv : TocMeta.isValid (some m) = true) :
    m.storable := ⟨hv, fun x hx => ⟨(h.2 x hx).1, (h.2 x hx).2.1, (h.2 x hx).2.2.1, (h.2 x hx).2.2.2.1, (h.2 x hx).2.2.2.2.1, (h.2 x hx).2.2.2.2.2⟩⟩

end Afs
