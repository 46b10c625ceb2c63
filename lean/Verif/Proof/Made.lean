import Verif.Spec.Made
import Verif.Proof.LoadValid
import Verif.Proof.Equal
import Verif.Props.C11_Offsets
import Verif.Props.C14_UsedLayouts
import Verif.Props.C37_Validity
/-! # What every history of calls keeps (for C86) -/
namespace Afs.Keep
open Afs Spec Xml

theorem add_keeps {S A : Type} {add : S → Option A → Bool × S} {items : S → List A} {count get ok}
    (c : AppendOnlyList add items count get ok) {P : A → Prop} {s : S} (h : ∀ y ∈ items s, P y) (x : Option A)
    (hx : ∀ y, x = some y → ok (items s) y = true → P y) : ∀ y ∈ items (add s x).2, P y := by
  intro y hy
  cases x with
  | none => rw [c.null_refused] at hy; exact h y hy
  | some x =>
    cases hok : ok (items s) x with
    | true =>
      rw [c.admitted _ _ hok] at hy
      rcases List.mem_append.mp hy with hy | hy
      · exact h y hy
      · rw [List.mem_singleton.mp hy]; exact hx x rfl hok
    | false => rw [c.refused _ _ hok] at hy; exact h y hy

/-- Pages and sources inside a file are valid. -/
def KFile (f : File) : Prop :=
  (∀ p, f.preview = some p → ∀ q ∈ p.pages.getD [], q.isValid = true) ∧
  (∀ m, f.metadata = some m → ∀ s ∈ m.sources.getD [], s.isValid = true)

def KFiles (l : List File) : Prop := ∀ f ∈ l, f.isValid = true ∧ KFile f

def KReels (l : List Reel) : Prop := ∀ r ∈ l, r.isValid = true ∧ KFiles r.list

def KDefs (l : List LayoutDef) : Prop := DefsInv l ∧ ∀ d ∈ l, SectionsInv d.sectionList

/-- What every history keeps. -/
def Kept : Obj → Prop
  | .sections s => SectionsInv (s.sections.getD [])
  | .layout d => SectionsInv d.sectionList
  | .layouts ds => KDefs (ds.defs.getD [])
  | .preview p => ∀ q ∈ p.pages.getD [], q.isValid = true
  | .fileMeta m => ∀ s ∈ m.sources.getD [], s.isValid = true
  | .file f => KFile f
  | .files fs => KFiles fs.list
  | .reel r => KFiles r.list
  | .reels rs => KReels rs.list
  | .tocMeta m => ∀ s ∈ m.sources.getD [], s.isValid = true
  | .toc t =>
    (∀ r, t.reels = some r → KReels r.list) ∧
    (∀ d, t.layouts = some d → KDefs (d.defs.getD [])) ∧
    (∀ m, t.metadata = some m → ∀ s ∈ m.sources.getD [], s.isValid = true)

/-! ### Sections and layout definitions -/

theorem sectionsInv_nil : SectionsInv [] := ⟨by simp, by simp⟩

theorem sections_add {s : Sections} (h : SectionsInv (s.sections.getD [])) (x : Option Section) :
    SectionsInv ((s.append x).2.sections.getD []) := by
  cases x with
  | none => exact h
  | some x =>
    cases hok : sectionOk (s.sections.getD []) x with
    | true => rw [sections_container.admitted _ _ hok]; exact sectionsInv_step _ _ h hok
    | false => rw [sections_container.refused _ _ hok]; exact h

theorem layout_add {d : LayoutDef} (h : SectionsInv d.sectionList) (x : Option Section) :
    SectionsInv (d.addSection x).2.sectionList := by
  cases x with
  | none => exact h
  | some x =>
    cases hok : sectionOk d.sectionList x with
    | true => rw [layoutDef_container.admitted _ _ hok]; exact sectionsInv_step _ _ h hok
    | false => rw [layoutDef_container.refused _ _ hok]; exact h

theorem layout_load {d : LayoutDef} (h : SectionsInv d.sectionList) (n : Node) : SectionsInv (d.loadXml n).2.sectionList := by
  unfold LayoutDef.loadXml
  split
  · exact h
  · exact Sections.loadXml_inv Sections.create sectionsInv_nil _

theorem kdefs_nil : KDefs [] := ⟨⟨by simp, by simp⟩, by simp⟩

theorem defs_add {ds : LayoutDefs} (h : KDefs (ds.defs.getD [])) {d : LayoutDef} (hd : SectionsInv d.sectionList) :
    ∃ b ds', LayoutDefs.add ds (some d) = .ok (b, ds') ∧ KDefs (ds'.defs.getD []) := by
  rw [layouts_add_ok (defsInv_ids h.1)]
  cases hok : layoutOk (ds.defs.getD []) d with
  | false => exact ⟨_, _, rfl, h⟩
  | true =>
    refine ⟨_, _, rfl, ?_⟩
    simp only [vecAppend_getD]
    refine ⟨defsInv_step _ _ h.1 hok, ?_⟩
    intro e he
    rcases List.mem_append.mp he with he | he
    · exact h.2 e he
    · rw [List.mem_singleton.mp he]; exact hd

theorem defs_loop (ns : List Node) : ∀ ds : LayoutDefs, KDefs (ds.defs.getD []) →
    ∃ b r, ds.loadLoop ns = .ok (b, r) ∧ KDefs (r.defs.getD []) := by
  induction ns with
  | nil => intro s h; exact ⟨true, s, rfl, h⟩
  | cons n ns ih =>
    intro s h
    rw [LayoutDefs.loadLoop]
    split
    · exact ⟨false, s, rfl, h⟩
    · obtain ⟨b, s', e, h'⟩ := defs_add h (d := (LayoutDef.create.loadXml n).2) (layout_load (d := LayoutDef.create) sectionsInv_nil n)
      rw [e]
      simp only [Res.ok_bind]
      cases b with
      | false => exact ⟨_, _, rfl, h⟩
      | true => simpa using ih s' h'

theorem defs_load {ds : LayoutDefs} (h : KDefs (ds.defs.getD [])) (n : Node) :
    ∃ b r, ds.loadXml n = .ok (b, r) ∧ KDefs (r.defs.getD []) := by
  unfold LayoutDefs.loadXml
  split
  · exact ⟨false, ds, rfl, h⟩
  · exact defs_loop _ ds h

/-! ### Files, reels -/

theorem preview_shift {p : Preview} (h : ∀ q ∈ p.pages.getD [], q.isValid = true) (offset : Nat) :
    ∀ q ∈ (p.addFrameOffset offset).pages.getD [], q.isValid = true := by
  intro q hq
  unfold Preview.addFrameOffset at hq
  cases hp : p.pages with
  | none => rw [hp] at hq; simp only [hp] at hq; simp at hq
  | some l =>
    rw [hp] at hq
    simp only [Option.getD_some] at hq
    obtain ⟨q', hq', rfl⟩ := List.mem_map.mp hq
    exact h q' (by rw [hp]; exact hq')

theorem page_movedPage (d : Int) (q : Page) : (movedPage d q).isValid = q.isValid := rfl

theorem movedPreview_pages (d : Int) (p : Preview) (h : ∀ q ∈ p.pages.getD [], q.isValid = true) :
    ∀ q ∈ (movedPreview d p).pages.getD [], q.isValid = true := by
  intro q hq
  unfold movedPreview at hq
  cases hp : p.pages with
  | none => simp [hp] at hq
  | some l =>
    simp only [hp, Option.map_some, Option.getD_some] at hq
    obtain ⟨q', hq', rfl⟩ := List.mem_map.mp hq
    exact h q' (by rw [hp]; exact hq')

theorem movedPreview_valid (d : Int) (p : Option Preview) (h : Preview.isValid p = true) :
    Preview.isValid (p.map (movedPreview d)) = true := by
  rw [C37_preview] at h ⊢
  obtain ⟨x, rfl, l, hl, hne, hv⟩ := h
  refine ⟨_, rfl, l.map (movedPage d), by simp [movedPreview, hl], by simpa using hne, ?_⟩
  intro q hq
  obtain ⟨q', hq', rfl⟩ := List.mem_map.mp hq
  exact (C37_page _).mp ((page_movedPage d q').trans ((C37_page _).mpr (hv q' hq')))

theorem movedFile_keeps (dig prev : Bool) (d : Int) (f : File) (h : f.isValid = true ∧ KFile f)
    (hs : FileStays dig prev d f) : (movedFile dig prev d f).isValid = true ∧ KFile (movedFile dig prev d f) := by
  obtain ⟨hv, hk⟩ := h
  refine ⟨?_, ?_, hk.2⟩
  · rw [C37_file] at hv ⊢
    obtain ⟨h1, h2, h3, h4, h5, h6⟩ := hv
    refine ⟨h1, h2, h3, ?_, ?_, h6⟩
    · intro ht
      obtain ⟨a, b, c, e, g⟩ := h4 ht
      unfold movedFile moved
      cases dig with
      | false => exact ⟨a, b, c, e, g⟩
      | true =>
        obtain ⟨s1, s2⟩ := hs.1 rfl
        have s1 := s1.2 a
        have s2 := s2.2 (by omega)
        have c' : 0 ≤ f.endFrame := by omega
        simp only [if_true, a, c']
        refine ⟨s1.1, b, by omega, e, fun hh => g (by omega)⟩
    · intro ht
      obtain ⟨p, hp, hv⟩ := h5 ht
      cases prev with
      | false => exact ⟨p, hp, hv⟩
      | true =>
        have := movedPreview_valid d (some p) ((C37_preview _).mpr ⟨p, rfl, hv⟩)
        obtain ⟨x, hx, hxv⟩ := (C37_preview _).mp this
        exact ⟨x, by simpa [movedFile, hp] using hx, hxv⟩
  · intro p hp
    cases prev with
    | false => exact hk.1 p hp
    | true =>
      simp only [movedFile, if_true] at hp
      cases hf : f.preview with
      | none => rw [hf] at hp; cases hp
      | some p0 =>
        rw [hf] at hp
        cases hp
        exact movedPreview_pages d p0 (hk.1 p0 hf)

theorem movedFiles_keeps (dig prev : Bool) (d : Int) (f : Files) (h : KFiles f.list)
    (hs : ∀ x ∈ f.tocs.getD [], FileStays dig prev d x) : KFiles (movedFiles dig prev d f).list := by
  intro x hx
  unfold movedFiles Files.list at hx
  cases hf : f.tocs with
  | none => simp [hf] at hx
  | some l =>
    simp only [hf, Option.map_some, Option.getD_some] at hx
    obtain ⟨x', hx', rfl⟩ := List.mem_map.mp hx
    exact movedFile_keeps dig prev d x' (h x' (by unfold Files.list; rw [hf]; exact hx'))
      (hs x' (by rw [hf]; exact hx'))

theorem movedReel_keeps (dig prev : Bool) (d : Int) (r : Reel) (h : KFiles r.list)
    (hs : ReelStays dig prev d r) : KFiles (movedReel dig prev d r).list := by
  unfold movedReel Reel.list
  cases hf : r.files with
  | none => intro x hx; cases hx
  | some f =>
    refine movedFiles_keeps dig prev d f ?_ ?_
    · unfold Reel.list at h; rw [hf] at h; exact h
    · intro x hx; exact hs x (by rw [hf]; exact hx)

/-- A reel is valid exactly when it has an id and its files are valid. -/
theorem reel_valid (r : Reel) : r.isValid = true ↔ nullOrEmpty r.id = false ∧ ∀ f ∈ r.list, f.isValid = true := by
  rw [C37_reel, ValidReel]
  have e : NonEmpty r.id ↔ nullOrEmpty r.id = false := (nullOrEmpty_iff _).symm
  rw [e]
  refine and_congr_right fun _ => ?_
  unfold Reel.list Files.list
  cases r.files with
  | none => simp
  | some f =>
    simp only [Option.some.injEq, forall_eq', ValidFiles]
    exact forall_congr' fun x => forall_congr' fun _ => (C37_file x).symm

theorem movedReel_valid (dig prev : Bool) (d : Int) (r : Reel) (h : r.isValid = true ∧ KFiles r.list)
    (hs : ReelStays dig prev d r) : (movedReel dig prev d r).isValid = true ∧ KFiles (movedReel dig prev d r).list := by
  have hk := movedReel_keeps dig prev d r h.2 hs
  exact ⟨(reel_valid _).mpr ⟨((reel_valid r).mp h.1).1, fun f hf => (hk f hf).1⟩, hk⟩

theorem file_loadPreview (f : File) (h : KFile f) (n : Node) : KFile (f.loadPreview n).2 := by
  unfold File.loadPreview
  split
  · exact h
  · dsimp only
    split
    · exact h
    · refine ⟨?_, h.2⟩
      intro p hp
      cases hp
      exact Preview.loadXml_inv _ (by simp [Preview.create]) _

theorem file_loadMetadata (f : File) (h : KFile f) (n : Node) : KFile (f.loadMetadata n).2 := by
  unfold File.loadMetadata
  split
  · exact h
  · dsimp only
    split
    · exact h
    · refine ⟨h.1, ?_⟩
      intro p hp
      cases hp
      exact FileMeta.loadXml_inv _ (by simp [FileMeta.create]) _

theorem file_loadFields (f : File) (n : Node) : (f.loadFields n).preview = f.preview ∧ (f.loadFields n).metadata = f.metadata := by
  unfold File.loadFields
  dsimp only
  repeat' split
  all_goals exact ⟨rfl, rfl⟩

theorem file_dataPart (f : File) (n : Node) : (f.loadDataPart n).preview = f.preview ∧ (f.loadDataPart n).metadata = f.metadata := by
  unfold File.loadDataPart File.addType File.loadDataV1 File.loadDataV2
  dsimp only
  repeat' split
  all_goals exact ⟨rfl, rfl⟩

theorem file_load (f : File) (h : KFile f) (node : Node) : KFile (f.loadXml node).2 := by
  unfold File.loadXml
  split
  · exact h
  · rename_i n _
    have h1 : KFile (f.loadFields n) := by
      unfold KFile; rw [(file_loadFields f n).1, (file_loadFields f n).2]; exact h
    have h2 := file_loadPreview _ h1 n
    dsimp only
    split
    · exact h2
    · have h3 := file_loadMetadata _ h2 n
      split
      · exact h3
      · unfold KFile
        rw [(file_dataPart _ n).1, (file_dataPart _ n).2]
        exact h3

theorem kfile_create : KFile File.create := ⟨by simp [File.create], by simp [File.create]⟩

theorem files_add {fs : Files} (h : KFiles fs.list) {f : File} (hf : KFile f) : KFiles (fs.addToc (some f)).2.list :=
  add_keeps files_container h _ fun _ e hv => by cases e; exact ⟨hv, hf⟩

theorem reel_add {r : Reel} (h : KFiles r.list) {f : File} (hf : KFile f) : KFiles (r.addFile (some f)).2.list :=
  add_keeps reel_container h _ fun _ e hv => by cases e; exact ⟨hv, hf⟩

theorem reels_add {rs : Reels} (h : KReels rs.list) {r : Reel} (hr : KFiles r.list) : KReels (rs.addReel (some r)).2.list :=
  add_keeps reels_container h _ fun _ e hv => by cases e; exact ⟨hv, hr⟩

theorem files_loop (ns : List Node) : ∀ fs : Files, KFiles fs.list → KFiles (fs.loadLoop ns).2.list := by
  induction ns with
  | nil => intro s h; exact h
  | cons n ns ih =>
    intro s h
    rw [Files.loadLoop]
    dsimp only
    split
    · exact h
    · split
      · exact h
      · exact ih _ (files_add h (file_load _ kfile_create n))

theorem files_load {fs : Files} (h : KFiles fs.list) (n : Node) : KFiles (fs.loadXml n).2.list := files_loop _ _ h

theorem kfiles_nil : KFiles [] := by intro f hf; cases hf

theorem reel_load {r : Reel} (h : KFiles r.list) (n : Node) : KFiles (r.loadXml n).2.list := by
  unfold Reel.loadXml
  split
  · exact h
  · split
    · exact h
    · dsimp only
      split
      · exact h
      · exact files_load (fs := Files.create) kfiles_nil _

theorem reels_loop (ns : List Node) : ∀ rs : Reels, KReels rs.list → KReels (rs.loadLoop ns).2.list := by
  induction ns with
  | nil => intro s h; exact h
  | cons n ns ih =>
    intro s h
    rw [Reels.loadLoop]
    dsimp only
    split
    · exact h
    · split
      · exact h
      · exact ih _ (reels_add h (reel_load (r := Reel.create) kfiles_nil n))

theorem reels_load {rs : Reels} (h : KReels rs.list) (n : Node) : KReels (rs.loadXml n).2.list := reels_loop _ _ h

theorem kreels_nil : KReels [] := by intro f hf; cases hf

theorem select_keeps (p : File → Bool) (type : Nat) (l : List File) (h : KFiles l) :
    KFiles (resultFiles (Reel.selectLoop p type none l)) := by
  rw [selectLoop_list]
  intro f hf
  rcases List.mem_append.mp hf with hf | hf
  · cases hf
  · exact h f (List.mem_filter.mp hf).1

/-! ### Tables of contents -/

theorem toc_addLayout {t : TocData} (h : Kept (.toc t)) {d : LayoutDef} (hd : SectionsInv d.sectionList) :
    ∃ b t', t.addLayout (some d) = .ok (b, t') ∧ Kept (.toc t') := by
  unfold TocData.addLayout
  have key : ∀ ds : LayoutDefs, KDefs (ds.defs.getD []) → ∃ b t',
      ((LayoutDefs.add ds (some d)).bind fun r => .ok (r.1, { t with layouts := some r.2 })) = .ok (b, t') ∧ Kept (.toc t') := by
    intro ds hds
    obtain ⟨b, ds', e, h'⟩ := defs_add hds hd
    rw [e]
    refine ⟨_, _, rfl, h.1, ?_, h.2.2⟩
    intro x hx; cases hx; exact h'
  cases hl : t.layouts with
  | none => exact key LayoutDefs.create kdefs_nil
  | some ds => exact key ds (h.2.1 ds hl)

theorem toc_addLayoutsLoop (l : List LayoutDef) (hl : ∀ d ∈ l, SectionsInv d.sectionList) :
    ∀ t : TocData, Kept (.toc t) → ∃ b t', t.addLayoutsLoop l = .ok (b, t') ∧ Kept (.toc t') := by
  induction l with
  | nil => intro t h; exact ⟨true, t, rfl, h⟩
  | cons d l ih =>
    intro t h
    obtain ⟨b, t', e, h'⟩ := toc_addLayout h (d := d.clone) (by rw [layout_clone]; exact hl d (by simp))
    rw [TocData.addLayoutsLoop, e]
    simp only [Res.ok_bind]
    cases b with
    | false => exact ⟨_, _, rfl, h'⟩
    | true => simpa using ih (fun d hd => hl d (by simp [hd])) t' h'

theorem toc_addLayouts {t : TocData} (h : Kept (.toc t)) {ds : LayoutDefs} (hd : KDefs (ds.defs.getD [])) :
    ∃ b t', t.addLayouts (some ds) = .ok (b, t') ∧ Kept (.toc t') := by
  unfold TocData.addLayouts
  dsimp only
  split
  · exact ⟨_, _, rfl, h⟩
  · split
    · exact ⟨_, _, rfl, h⟩
    · refine toc_addLayoutsLoop _ hd.2 _ ?_
      cases hl : t.layouts with
      | none =>
        refine ⟨h.1, ?_, h.2.2⟩
        intro x hx; cases hx; exact kdefs_nil
      | some o => exact h

theorem toc_used {t : TocData} (h : Kept (.toc t)) :
    ∃ r, TocData.usedLayouts (some t) = .ok r ∧ ∀ u, r = some u → KDefs (u.defs.getD []) := by
  by_cases hn : t.layouts = none ∨ (t.layouts.bind LayoutDefs.defs).getD [] = [] ∨ (t.reels.bind Reels.reels).getD [] = []
  · exact ⟨none, C14_used_layouts_null t hn, by intro u hu; cases hu⟩
  · cases hl : t.layouts with
    | none => exact absurd (Or.inl hl) hn
    | some defs =>
      have hd := h.2.1 defs hl
      obtain ⟨r, e, h1, h2⟩ := C14_used_layouts_exact t defs hl hd.1.1 hd.1.2
        (fun e => hn (Or.inr (Or.inl (by rw [hl]; exact e)))) (fun e => hn (Or.inr (Or.inr e)))
      refine ⟨some r, e, ?_⟩
      intro u hu
      cases hu
      have mem : ∀ d ∈ r.defs.getD [], d ∈ defs.defs.getD [] := fun d hdm => ((h2 d).mp hdm).1
      have hids : ∀ d ∈ r.defs.getD [], d.id ≠ none := fun d hdm => defsInv_ids hd.1 d (mem d hdm)
      refine ⟨⟨fun d hdm => hd.1.1 d (mem d hdm), ?_⟩, fun d hdm => hd.2 d (mem d hdm)⟩
      rw [List.Nodup, List.pairwise_map]
      refine h1.imp ?_
      intro a b hab heq
      rw [heq] at hab
      have irr : ∀ x : Bytes, ¬ BytesLt x x := by
        intro x hx
        have := (strcmpGt_iff x x).mpr hx
        have irr' : ∀ y : Bytes, strcmpGt y y = false := by
          intro y; induction y with
          | nil => rfl
          | cons c y ih => simp [strcmpGt, ih]
        rw [irr'] at this; cases this
      exact irr _ hab

theorem toc_loadFields (t : TocData) (n : Node) : (t.loadFields n).reels = t.reels ∧ (t.loadFields n).layouts = t.layouts ∧
    (t.loadFields n).metadata = t.metadata := ⟨rfl, rfl, rfl⟩

theorem toc_load {t : TocData} (h : Kept (.toc t)) (node : Node) :
    ∃ b t', t.loadXml node = .ok (b, t') ∧ Kept (.toc t') := by
  unfold TocData.loadXml
  split
  · exact ⟨_, _, rfl, h⟩
  · rename_i n _
    have hm : ∀ m, (TocData.loadMeta n).2 = some m → ∀ s ∈ m.sources.getD [], s.isValid = true := by
      intro m
      unfold TocData.loadMeta
      split
      · intro h; cases h
      · intro h; cases h
        exact TocMeta.loadXml_inv _ (by simp [TocMeta.create]) _
    have hl : ∃ b l, TocData.loadLayouts n = .ok (b, l) ∧ ∀ d, l = some d → KDefs (d.defs.getD []) := by
      unfold TocData.loadLayouts
      split
      · exact ⟨_, _, rfl, by intro d h; cases h⟩
      · rename_i m _
        obtain ⟨b, r, e, hr⟩ := defs_load (ds := LayoutDefs.create) kdefs_nil m
        rw [e]
        refine ⟨_, _, rfl, ?_⟩
        intro d h; cases h; exact hr
    have hr : ∀ r, (TocData.loadReels n).2 = some r → KReels r.list := by
      intro r
      unfold TocData.loadReels
      split
      · intro h; cases h
      · intro h; cases h
        exact reels_load (rs := Reels.create) kreels_nil _
    have keep : ∀ {α : Type} {Q : α → Prop} (a b : Option α), (∀ x, a = some x → Q x) → (∀ x, b = some x → Q x) →
        ∀ x, TocData.keepOld a b = some x → Q x := by
      intro α Q a b ha hb x hx
      cases a with
      | none => exact hb x hx
      | some y => exact ha x hx
    obtain ⟨b, l, el, hl⟩ := hl
    dsimp only
    split
    · exact ⟨_, _, rfl, h⟩
    · rw [el]
      simp only [Res.ok_bind]
      split
      · exact ⟨_, _, rfl, h.1, h.2.1, keep _ _ hm h.2.2⟩
      · split
        · exact ⟨_, _, rfl, h.1, keep _ _ hl h.2.1, keep _ _ hm h.2.2⟩
        · exact ⟨_, _, rfl, hr, hl, hm⟩

theorem toc_addReel {t : TocData} (h : Kept (.toc t)) {r : Reel} (hr : KFiles r.list) : Kept (.toc (t.addReel (some r)).2) := by
  refine ⟨?_, h.2⟩
  unfold TocData.addReel
  intro x hx
  cases hx
  refine reels_add ?_ hr
  cases hl : t.reels with
  | none => exact kreels_nil
  | some rs => exact h.1 rs hl

theorem toc_addSource {t : TocData} (h : Kept (.toc t)) (x : Option MetaSource) : Kept (.toc (t.addMetadataSource x).2) := by
  cases x with
  | none => exact h
  | some x =>
    refine ⟨h.1, h.2.1, ?_⟩
    unfold TocData.addMetadataSource
    intro m hm
    cases hm
    refine add_keeps tocMeta_container ?_ _ fun _ _ hv => hv
    cases hl : t.metadata with
    | none => intro y hy; cases hy
    | some m => exact h.2.2 m hl

/-! ### Every history -/

theorem str_keeps {β : Type} {load : Node → Bool × β} {x : β} (P : β → Prop) (h : P x) (hl : ∀ n, P (load n).2) (s : Bytes) :
    P (loadFromString load (false, x) s).2 ∧ P (loadFromFile load (false, x) s).2 :=
  ⟨loadFromString_inv (fun r : Bool × β => P r.2) h hl s, loadFromFile_inv (fun r : Bool × β => P r.2) h hl s⟩

theorem res_keeps {β : Type} {load : Node → Res (Bool × β)} {x : β} (P : β → Prop) (h : P x)
    (hl : ∀ n, ∃ b y, load n = .ok (b, y) ∧ P y) (s : Bytes) :
    (∃ b y, loadFromString load (.ok (false, x)) s = .ok (b, y) ∧ P y) ∧
    (∃ b y, loadFromFile load (.ok (false, x)) s = .ok (b, y) ∧ P y) :=
  ⟨loadFromString_inv (fun r : Res (Bool × β) => ∃ b y, r = .ok (b, y) ∧ P y) ⟨_, _, rfl, h⟩ hl s,
   loadFromFile_inv (fun r : Res (Bool × β) => ∃ b y, r = .ok (b, y) ∧ P y) ⟨_, _, rfl, h⟩ hl s⟩

theorem of_ok {β : Type} {P : β → Prop} {r : Res (Bool × β)} (h : ∃ b y, r = .ok (b, y) ∧ P y) {b : Bool} {y : β}
    (e : r = .ok (b, y)) : P y := by
  obtain ⟨b', y', e', hp⟩ := h
  rw [e'] at e
  cases e
  exact hp

theorem get_mem {α : Type} {v : Option (List α)} {i : Nat} {x : α} (h : vecGet v i = some x) : x ∈ v.getD [] := by
  unfold vecGet at h
  cases v with
  | none => cases h
  | some l =>
    dsimp only at h
    split at h
    · cases h
    · exact List.mem_of_getElem? h

theorem kept {o : Obj} (h : Made o) : Kept o := by
  induction h with
  | sectionsNew => exact sectionsInv_nil
  | sectionsAdd x _ ih => exact sections_add ih x
  | sectionsClone _ ih => rw [sections_clone]; exact ih
  | sectionsXml n _ ih => exact Sections.loadXml_inv _ ih n
  | sectionsString b _ ih => exact (str_keeps (fun s : Sections => Kept (.sections s)) ih (Sections.loadXml_inv _ ih) b).1
  | sectionsFile b _ ih => exact (str_keeps (fun s : Sections => Kept (.sections s)) ih (Sections.loadXml_inv _ ih) b).2
  | sectionsOf _ e ih =>
    simpa only [Kept, LayoutDef.sectionList, e] using ih
  | layoutNew => exact sectionsInv_nil
  | layoutNew2 _ _ => exact sectionsInv_nil
  | layoutAdd x _ ih => exact layout_add ih x
  | layoutClone _ ih => rw [layout_clone]; exact ih
  | layoutXml n _ ih => exact layout_load ih n
  | layoutString b _ ih => exact (str_keeps (fun s : LayoutDef => Kept (.layout s)) ih (layout_load ih) b).1
  | layoutFile b _ ih => exact (str_keeps (fun s : LayoutDef => Kept (.layout s)) ih (layout_load ih) b).2
  | layoutOf i _ e ih => exact ih.2 _ (get_mem e)
  | layoutsNew => exact kdefs_nil
  | layoutsAdd _ _ e ih1 ih2 => exact of_ok (P := fun ds : LayoutDefs => Kept (.layouts ds)) (defs_add ih1 ih2) e
  | layoutsClone _ ih => rw [layouts_clone]; exact ih
  | layoutsXml n _ e ih => exact of_ok (P := fun ds : LayoutDefs => Kept (.layouts ds)) (defs_load ih n) e
  | layoutsString s _ e ih => exact of_ok (res_keeps (fun ds : LayoutDefs => Kept (.layouts ds)) ih (defs_load ih) s).1 e
  | layoutsFile s _ e ih => exact of_ok (res_keeps (fun ds : LayoutDefs => Kept (.layouts ds)) ih (defs_load ih) s).2 e
  | layoutsOf _ e ih => exact ih.2.1 _ e
  | layoutsUsed _ e ih =>
    obtain ⟨r, e', hr⟩ := toc_used ih
    rw [e'] at e
    cases e
    exact hr _ rfl
  | previewNew => intro q hq; cases hq
  | previewAdd x _ ih => exact add_keeps preview_container ih x fun _ _ hv => hv
  | previewDpi _ _ ih => exact ih
  | previewShift offset _ ih => exact preview_shift ih offset
  | previewClone _ ih => rw [preview_clone]; exact ih
  | previewXml n _ ih => exact Preview.loadXml_inv _ ih n
  | previewString b _ ih => exact (str_keeps (fun s : Preview => Kept (.preview s)) ih (Preview.loadXml_inv _ ih) b).1
  | previewFile b _ ih => exact (str_keeps (fun s : Preview => Kept (.preview s)) ih (Preview.loadXml_inv _ ih) b).2
  | previewOf _ e ih => exact ih.1 _ e
  | fileMetaNew => intro q hq; cases hq
  | fileMetaAdd x _ ih => exact add_keeps fileMeta_container ih x fun _ _ hv => hv
  | fileMetaClone _ ih => rw [fileMeta_clone]; exact ih
  | fileMetaXml n _ ih => exact FileMeta.loadXml_inv _ ih n
  | fileMetaString b _ ih => exact (str_keeps (fun s : FileMeta => Kept (.fileMeta s)) ih (FileMeta.loadXml_inv _ ih) b).1
  | fileMetaFile b _ ih => exact (str_keeps (fun s : FileMeta => Kept (.fileMeta s)) ih (FileMeta.loadXml_inv _ ih) b).2
  | fileMetaOf _ e ih => exact ih.2 _ e
  | fileNew => exact kfile_create
  | fileNew2 _ _ _ _ _ _ _ _ _ _ _ _ _ _ _ ih1 ih2 => exact ⟨fun p e => ih1 p e, fun m e => ih2 m e⟩
  | fileName _ _ ih => exact ih
  | fileDate _ _ ih => exact ih
  | fileChecksum _ _ ih => exact ih
  | fileUniqueId _ _ ih => exact ih
  | fileFormat _ _ ih => exact ih
  | @filePreview f p _ _ ih1 ih2 =>
    refine ⟨?_, ih1.2⟩
    intro q hq
    cases p with
    | none => cases hq
    | some p => cases hq; rw [preview_clone]; exact ih2 p rfl
  | @fileMetadata f m _ _ ih1 ih2 =>
    refine ⟨ih1.1, ?_⟩
    intro q hq
    cases m with
    | none => cases hq
    | some m => cases hq; rw [fileMeta_clone]; exact ih2 m rfl
  | fileType _ _ ih => exact ih
  | fileShift offset _ ih =>
    unfold File.addFrameOffset
    split
    · exact ih
    · exact ih
  | fileClone _ ih => rw [file_clone]; exact ih
  | fileXml n _ ih => exact file_load _ ih n
  | fileString b _ ih => exact (str_keeps (fun s : File => Kept (.file s)) ih (file_load _ ih) b).1
  | fileFile b _ ih => exact (str_keeps (fun s : File => Kept (.file s)) ih (file_load _ ih) b).2
  | fileOf i _ e ih => exact (ih _ (get_mem e)).2
  | filesNew => exact kfiles_nil
  | filesAdd _ _ ih1 ih2 => exact files_add ih1 ih2
  | filesShift d type _ hs ih => rw [C11_files _ type d hs]; exact movedFiles_keeps _ _ d _ ih hs
  | filesClone _ ih => rw [files_clone]; exact ih
  | filesXml n _ ih => exact files_load ih n
  | filesString b _ ih => exact (str_keeps (fun s : Files => Kept (.files s)) ih (files_load ih) b).1
  | filesFile b _ ih => exact (str_keeps (fun s : Files => Kept (.files s)) ih (files_load ih) b).2
  | filesOf _ e ih =>
    simpa only [Kept, Reel.list, e] using ih
  | filesParents types _ e ih =>
    have := select_keeps (fun f => f.isParent) (sectionToType types) _ ih
    unfold Reel.parentFiles at e
    dsimp only at e
    rw [e] at this
    exact this
  | filesChildren types _ e ih =>
    have := select_keeps (fun f => !f.isParent) (sectionToType types) _ ih
    unfold Reel.childFiles at e
    dsimp only at e
    rw [e] at this
    exact this
  | filesAlone types _ e ih =>
    have := select_keeps (fun f => f.isStandalone) (sectionToType types) _ ih
    unfold Reel.standaloneFiles at e
    dsimp only at e
    rw [e] at this
    exact this
  | reelNew => exact kfiles_nil
  | reelNew2 _ => exact kfiles_nil
  | reelId _ _ ih => exact ih
  | reelAdd _ _ ih1 ih2 => exact reel_add ih1 ih2
  | reelShift d mask _ hs ih => rw [C11_reel _ mask d hs]; exact movedReel_keeps _ _ d _ ih hs
  | reelClone _ ih => rw [reel_clone]; exact ih
  | reelXml n _ ih => exact reel_load ih n
  | reelString b _ ih => exact (str_keeps (fun s : Reel => Kept (.reel s)) ih (reel_load ih) b).1
  | reelFile b _ ih => exact (str_keeps (fun s : Reel => Kept (.reel s)) ih (reel_load ih) b).2
  | reelOf i _ e ih => exact (ih _ (get_mem e)).2
  | reelsNew => exact kreels_nil
  | reelsAdd _ _ ih1 ih2 => exact reels_add ih1 ih2
  | reelsClone _ ih => rw [reels_clone]; exact ih
  | reelsXml n _ ih => exact reels_load ih n
  | reelsString b _ ih => exact (str_keeps (fun s : Reels => Kept (.reels s)) ih (reels_load ih) b).1
  | reelsFile b _ ih => exact (str_keeps (fun s : Reels => Kept (.reels s)) ih (reels_load ih) b).2
  | reelsOf _ e ih => exact ih.1 _ e
  | tocMetaNew => intro q hq; cases hq
  | tocMetaAdd x _ ih => exact add_keeps tocMeta_container ih x fun _ _ hv => hv
  | tocMetaClone _ ih => rw [tocMeta_clone]; exact ih
  | tocMetaXml n _ ih => exact TocMeta.loadXml_inv _ ih n
  | tocMetaString b _ ih => exact (str_keeps (fun s : TocMeta => Kept (.tocMeta s)) ih (TocMeta.loadXml_inv _ ih) b).1
  | tocMetaFile b _ ih => exact (str_keeps (fun s : TocMeta => Kept (.tocMeta s)) ih (TocMeta.loadXml_inv _ ih) b).2
  | tocMetaOf _ e ih => exact ih.2.2 _ e
  | tocNew => exact ⟨(fun _ e => nomatch e), (fun _ e => nomatch e), (fun _ e => nomatch e)⟩
  | tocNew2 _ _ _ _ => exact ⟨(fun _ e => nomatch e), (fun _ e => nomatch e), (fun _ e => nomatch e)⟩
  | tocVersion _ _ ih => exact ih
  | tocIndexType _ _ ih => exact ih
  | tocJobId _ _ ih => exact ih
  | tocReelId _ _ ih => exact ih
  | tocReel _ _ ih1 ih2 => exact toc_addReel ih1 ih2
  | tocSource x _ ih => exact toc_addSource ih x
  | tocLayout _ _ e ih1 ih2 => exact of_ok (P := fun t : TocData => Kept (.toc t)) (toc_addLayout ih1 ih2) e
  | tocLayouts _ _ e ih1 ih2 => exact of_ok (P := fun t : TocData => Kept (.toc t)) (toc_addLayouts ih1 ih2) e
  | @tocShift t d mask _ hs ih =>
    rw [C11_toc _ mask d hs]
    refine ⟨?_, ih.2⟩
    intro r hr
    simp only [movedToc] at hr
    cases ht : t.reels with
    | none => rw [ht] at hr; cases hr
    | some rs =>
      rw [ht] at hr
      cases hr
      intro x hx
      unfold movedReels Reels.list at hx
      cases hl : rs.reels with
      | none => simp [hl] at hx
      | some l =>
        simp only [hl, Option.map_some, Option.getD_some] at hx
        obtain ⟨y, hy, rfl⟩ := List.mem_map.mp hx
        exact movedReel_valid _ _ d y (ih.1 rs ht y (by unfold Reels.list; rw [hl]; exact hy))
          (hs y (by rw [ht]; show y ∈ rs.reels.getD []; rw [hl]; exact hy))
  | tocClone _ ih => rw [toc_clone]; exact ih
  | tocXml n _ e ih => exact of_ok (P := fun t : TocData => Kept (.toc t)) (toc_load ih n) e
  | tocString s _ e ih => exact of_ok (res_keeps (fun t : TocData => Kept (.toc t)) ih (toc_load ih) s).1 e
  | tocFile s _ e ih => exact of_ok (res_keeps (fun t : TocData => Kept (.toc t)) ih (toc_load ih) s).2 e

end Afs.Keep
