import Verif.Model.Create
import Verif.Props.C24_Metadata
import Verif.Props.C22_C23_Layouts
import Verif.Props.C32_C35_TagsSizes
import Verif.Props.C46_LoadAll
import Verif.Model.ControlData
import Verif.Model.FrameRange
/-!
# C78: constructors give the object that their arguments describe

The library has many constructors that differ in what they take.  What is given is what can be read afterwards, what is not given is undefined (-1, NULL);
constructors that take a whole list check nothing; constructors that take an XML node are a load into a new object whose answer is dropped.
-/
namespace Afs
open Spec Xml

/-! ### Sources of metadata -/

/-- A source as its arguments describe it, in the order format, file id, id, data, tags. -/
def Spec.IsSource (s : MetaSource) (format : Option Bytes) (fileId id : Int) (data : Option Bytes) (tags : Option (List Bytes)) : Prop :=
  s.format = format ∧ s.fileId = fileId ∧ s.id = id ∧ s.data = data ∧ s.tags = tags

/-- Each of the constructors: what is not given is -1 or NULL. -/
theorem C78_sources (fm d : Option Bytes) (fi i : Int) (ts : Option (List Bytes)) :
    IsSource MetaSource.create none (-1) (-1) none none ∧
    IsSource (MetaSource.create2 fm fi) fm fi (-1) none none ∧
    IsSource (MetaSource.create3 fm fi i) fm fi i none none ∧
    IsSource (MetaSource.create4 fm fi d) fm fi (-1) d none ∧
    IsSource (MetaSource.create5 fm fi d i) fm fi i d none ∧
    IsSource (MetaSource.create8 fm fi ts) fm fi (-1) none ts ∧
    IsSource (MetaSource.create9 fm fi ts i) fm fi i none ts := by
  have hc : ∀ s : Option Bytes, strClone s = s := fun s => by cases s <;> rfl
  refine ⟨⟨rfl, rfl, rfl, rfl, rfl⟩, ?_, ?_, ?_, ?_, ?_, ?_⟩ <;> exact ⟨hc _, rfl, rfl, by first | rfl | exact hc _, rfl⟩

/-- The constructors that take tags as one text: the pieces between semicolons are the tags, so that the text read back is the text given. -/
theorem C78_sources_tags (fm d : Option Bytes) (fi i : Int) (t : Option Bytes) :
    (∃ ts, IsSource (MetaSource.create6 fm fi d t) fm fi (-1) d ts ∧ IsSource (MetaSource.create7 fm fi d t i) fm fi i d ts ∧ (ts = none ↔ t = none) ∧
      ∀ l, ts = some l → ∀ x ∈ l, semicolon ∉ x) ∧
    (MetaSource.create6 fm fi d t).getTags = t ∧ (MetaSource.create7 fm fi d t i).getTags = t := by
  have hc : ∀ s : Option Bytes, strClone s = s := fun s => by cases s <;> rfl
  have hj : (t.map (splitOn semicolon)).map (joinWith semicolon) = t := by
    cases t with
    | none => rfl
    | some t => rw [Option.map_some, Option.map_some, join_split]
  refine ⟨⟨t.map (splitOn semicolon), ⟨hc _, rfl, rfl, hc _, rfl⟩, ⟨hc _, rfl, rfl, hc _, rfl⟩, ?_, ?_⟩, hj, hj⟩
  · cases t <;> simp
  · intro l hl x hx
    cases t with
    | none => cases hl
    | some t =>
      cases hl
      clear hj
      induction t generalizing x with
      | nil => simp [splitOn] at hx; subst hx; simp
      | cons c cs ih =>
        rw [splitOn] at hx
        split at hx
        · rcases List.mem_cons.mp hx with rfl | hx
          · simp
          · exact ih x hx
        · rename_i hne
          cases hs : splitOn semicolon cs with
          | nil => exact absurd hs (splitOn_ne_nil _ _)
          | cons p ps =>
            rw [hs] at hx ih
            rcases List.mem_cons.mp hx with rfl | hx
            · intro hm
              rcases List.mem_cons.mp hm with e | hm
              · exact hne e.symm
              · exact ih p List.mem_cons_self hm
            · exact ih x (List.mem_cons_of_mem _ hx)

/-- When a source so made is valid, and can be added and saved: it has a format, and a file id or else data; the constructors without data are of no use
    without a file id. -/
theorem C78_sources_valid (fm d t : Option Bytes) (fi i : Int) (ts : Option (List Bytes)) :
    ((MetaSource.create2 fm fi).isValid = true ↔ fm ≠ none ∧ fm ≠ some [] ∧ 0 ≤ fi) ∧
    ((MetaSource.create3 fm fi i).isValid = true ↔ fm ≠ none ∧ fm ≠ some [] ∧ 0 ≤ fi) ∧
    ((MetaSource.create4 fm fi d).isValid = true ↔ fm ≠ none ∧ fm ≠ some [] ∧ (0 ≤ fi ∨ fi = -1 ∧ d ≠ none ∧ d ≠ some [])) ∧
    ((MetaSource.create5 fm fi d i).isValid = true ↔ fm ≠ none ∧ fm ≠ some [] ∧ (0 ≤ fi ∨ fi = -1 ∧ d ≠ none ∧ d ≠ some [])) ∧
    ((MetaSource.create6 fm fi d t).isValid = true ↔ fm ≠ none ∧ fm ≠ some [] ∧ (0 ≤ fi ∨ fi = -1 ∧ d ≠ none ∧ d ≠ some [])) ∧
    ((MetaSource.create7 fm fi d t i).isValid = true ↔ fm ≠ none ∧ fm ≠ some [] ∧ (0 ≤ fi ∨ fi = -1 ∧ d ≠ none ∧ d ≠ some [])) ∧
    ((MetaSource.create8 fm fi ts).isValid = true ↔ fm ≠ none ∧ fm ≠ some [] ∧ 0 ≤ fi) ∧
    ((MetaSource.create9 fm fi ts i).isValid = true ↔ fm ≠ none ∧ fm ≠ some [] ∧ 0 ≤ fi) := by
  have hc : ∀ s : Option Bytes, strClone s = s := fun s => by cases s <;> rfl
  have hn : ∀ s : Option Bytes, nullOrEmpty s = true ↔ s = none ∨ s = some [] := by
    intro s
    cases s with
    | none => simp [nullOrEmpty]
    | some l => cases l <;> simp [nullOrEmpty]
  have key : ∀ (s : MetaSource), s.format = fm → s.fileId = fi → (s.isValid = true ↔ fm ≠ none ∧ fm ≠ some [] ∧ (0 ≤ fi ∨ fi = -1 ∧ s.data ≠ none ∧ s.data ≠ some [])) := by
    intro s h1 h2
    rw [MetaSource.isValid, h1, h2]
    have e : MetaSource.FILE_ID_UNDEF = -1 := rfl
    rw [e]
    simp only [hn]
    by_cases h3 : fm = none ∨ fm = some [] <;> by_cases h4 : s.data = none ∨ s.data = some []
    · rw [if_pos (.inl h3)]; simp; intro a b; exact absurd h3 (by simp [a, b])
    · rw [if_pos (.inl h3)]; simp; intro a b; exact absurd h3 (by simp [a, b])
    · have h3' := not_or.mp h3
      by_cases h5 : 0 ≤ fi
      · rw [if_neg (by rintro (h | h | h); exact h3 h; omega; omega)]
        exact ⟨fun _ => ⟨h3'.1, h3'.2, .inl h5⟩, fun _ => rfl⟩
      · rw [if_pos (by by_cases h6 : fi = -1; exact .inr (.inr ⟨h6, h4⟩); exact .inr (.inl ⟨h6, by omega⟩))]
        constructor
        · intro h; cases h
        · rintro ⟨-, -, h | ⟨-, a, b⟩⟩
          · exact absurd h h5
          · exact absurd h4 (by simp [a, b])
    · have h3' := not_or.mp h3
      have h4' := not_or.mp h4
      by_cases h5 : 0 ≤ fi ∨ fi = -1
      · rw [if_neg (by rintro (h | h | h); exact h3 h; omega; exact h4 h.2)]
        exact ⟨fun _ => ⟨h3'.1, h3'.2, h5.imp id fun h => ⟨h, h4'.1, h4'.2⟩⟩, fun _ => rfl⟩
      · rw [if_pos (.inr (.inl ⟨by omega, by omega⟩))]
        constructor
        · intro h; cases h
        · rintro ⟨-, -, h | ⟨a, -⟩⟩
          · exact absurd (.inl h) h5
          · exact absurd (.inr a) h5
  have key0 : ∀ (s : MetaSource), s.format = fm → s.fileId = fi → s.data = none → (s.isValid = true ↔ fm ≠ none ∧ fm ≠ some [] ∧ 0 ≤ fi) := by
    intro s h1 h2 h3
    rw [key s h1 h2, h3]
    simp
  have keyd : ∀ (s : MetaSource), s.format = fm → s.fileId = fi → s.data = d →
      (s.isValid = true ↔ fm ≠ none ∧ fm ≠ some [] ∧ (0 ≤ fi ∨ fi = -1 ∧ d ≠ none ∧ d ≠ some [])) := by
    intro s h1 h2 h3
    rw [key s h1 h2, h3]
  exact ⟨key0 _ (hc _) rfl rfl, key0 _ (hc _) rfl rfl, keyd _ (hc _) rfl (hc _), keyd _ (hc _) rfl (hc _), keyd _ (hc _) rfl (hc _), keyd _ (hc _) rfl (hc _),
    key0 _ (hc _) rfl rfl, key0 _ (hc _) rfl rfl⟩

/-! ### Constructors that take a whole list -/

/-- Adding the elements of a list one after the other, as long as they are admitted. -/
def Spec.addAll {S A : Type} (add : S → Option A → Bool × S) : S → List A → Bool × S
  | s, [] => (true, s)
  | s, x :: xs => if (add s (some x)).1 = false then (false, (add s (some x)).2) else addAll add (add s (some x)).2 xs

theorem addAll_list {S A : Type} {add : S → Option A → Bool × S} {mk : Option (List A) → S} {ok : A → Bool}
    (h1 : ∀ v x, ok x = true → add (mk v) (some x) = (true, mk (some (v.getD [] ++ [x])))) (h2 : ∀ v x, ok x = false → (add (mk v) (some x)).1 = false) :
    ∀ (l : List A) (v : Option (List A)), ((addAll add (mk v) l).1 = true ↔ l.all ok = true) ∧
      ((addAll add (mk v) l).1 = true → (addAll add (mk v) l).2 = mk (if l = [] then v else some (v.getD [] ++ l))) := by
  intro l
  induction l with
  | nil => intro v; simp [addAll]
  | cons x xs ih =>
    intro v
    cases hx : ok x with
    | false => simp [addAll, h2 v x hx, hx]
    | true =>
      rw [addAll, h1 v x hx]
      dsimp only
      rw [if_neg (by simp)]
      obtain ⟨k1, k2⟩ := ih (some (v.getD [] ++ [x]))
      refine ⟨by rw [k1, List.all_cons, hx, Bool.true_and], fun h => ?_⟩
      have hne : x :: xs ≠ [] := List.cons_ne_nil x xs
      rw [k2 h, if_neg hne]
      by_cases hxs : xs = []
      · subst hxs; rfl
      · rw [if_neg hxs]; simp

theorem addAll_new {S A : Type} {add : S → Option A → Bool × S} {mk : Option (List A) → S} {ok : A → Bool}
    (h1 : ∀ v x, ok x = true → add (mk v) (some x) = (true, mk (vecAppend v x))) (h2 : ∀ v x, ok x = false → (add (mk v) (some x)).1 = false)
    (l : List A) (hl : l ≠ []) : ((addAll add (mk none) l).1 = true ↔ l.all ok = true) ∧ ((addAll add (mk none) l).1 = true → (addAll add (mk none) l).2 = mk (some l)) := by
  have app : ∀ (v : Option (List A)) (x : A), vecAppend v x = some (v.getD [] ++ [x]) := by
    intro v x; cases v <;> rfl
  obtain ⟨k1, k2⟩ := addAll_list (fun v x hx => by rw [h1 v x hx, app]) h2 l none
  rw [if_neg hl] at k2
  exact ⟨k1, k2⟩

/-- A list given to the constructor is the list, unchecked.  If it is not empty, and all its elements could be added one by one, then adding them to a new
    object gives the same; and otherwise some element would have been refused. -/
theorem C78_lists (ms : List MetaSource) (fs : List FileMetaSource) (ts : List File) (rs : List Reel) :
    (∀ i, TocMeta.getSource (some (TocMeta.create2 (some ms))) i = ms[i]?) ∧
    (∀ i, FileMeta.getSource (some (FileMeta.create2 (some fs))) i = fs[i]?) ∧
    (∀ i, Files.getToc (some (Files.create2 (some ts))) i = ts[i]?) ∧
    (∀ i, Reels.getReel (some (Reels.create2 (some rs))) i = rs[i]?) ∧
    (ms ≠ [] → ((addAll TocMeta.addSource TocMeta.create ms).1 = true ↔ TocMeta.isValid (some (TocMeta.create2 (some ms))) = true) ∧
      ((addAll TocMeta.addSource TocMeta.create ms).1 = true → (addAll TocMeta.addSource TocMeta.create ms).2 = TocMeta.create2 (some ms))) ∧
    (fs ≠ [] → ((addAll FileMeta.addSource FileMeta.create fs).1 = true ↔ FileMeta.isValid (some (FileMeta.create2 (some fs))) = true) ∧
      ((addAll FileMeta.addSource FileMeta.create fs).1 = true → (addAll FileMeta.addSource FileMeta.create fs).2 = FileMeta.create2 (some fs))) ∧
    (ts ≠ [] → ((addAll Files.addToc Files.create ts).1 = true ↔ Files.isValid (some (Files.create2 (some ts))) = true) ∧
      ((addAll Files.addToc Files.create ts).1 = true → (addAll Files.addToc Files.create ts).2 = Files.create2 (some ts))) ∧
    (rs ≠ [] → ((addAll Reels.addReel Reels.create rs).1 = true ↔ Reels.isValid (some (Reels.create2 (some rs))) = true) ∧
      ((addAll Reels.addReel Reels.create rs).1 = true → (addAll Reels.addReel Reels.create rs).2 = Reels.create2 (some rs))) := by
  have hget : ∀ {A : Type} (l : List A) (i : Nat), vecGet (some l) i = l[i]? := by
    intro A l i
    simp [vecGet]
  have hlen : ∀ {A : Type} (l : List A), l ≠ [] → ¬ l.length = 0 := by
    intro A l h e
    exact h (List.length_eq_zero_iff.mp e)
  refine ⟨hget ms, hget fs, hget ts, hget rs, fun h => ?_, fun h => ?_, fun h => ?_, fun h => ?_⟩
  · have k := addAll_new (add := TocMeta.addSource) (mk := TocMeta.mk) (ok := MetaSource.isValid)
      (fun v x hx => by simp [TocMeta.addSource, hx]) (fun v x hx => by simp [TocMeta.addSource, hx]) ms h
    refine ⟨k.1.trans ?_, k.2⟩
    rw [TocMeta.isValid, TocMeta.create2]
    dsimp only
    rw [if_neg (hlen ms h)]
  · exact addAll_new (add := FileMeta.addSource) (mk := FileMeta.mk) (ok := FileMetaSource.isValid)
      (fun v x hx => by simp [FileMeta.addSource, hx]) (fun v x hx => by simp [FileMeta.addSource, hx]) fs h
  · exact addAll_new (add := Files.addToc) (mk := Files.mk) (ok := File.isValid)
      (fun v x hx => by simp [Files.addToc, hx]) (fun v x hx => by simp [Files.addToc, hx]) ts h
  · exact addAll_new (add := Reels.addReel) (mk := Reels.mk) (ok := Reel.isValid)
      (fun v x hx => by simp [Reels.addReel, hx]) (fun v x hx => by simp [Reels.addReel, hx]) rs h

/-! ### Sections and layouts -/

/-- A section, a page of a preview and a layout are what they are given. -/
theorem C78_layouts (id x y w h r : Nat) (i n : Option Bytes) (ss old : Option Sections) :
    Section.create2 id x y w h r = { id := id, x := x, y := y, width := w, height := h, rotation := r } ∧
    ((Section.create2 id x y w h r).isValid = true ↔ (r = 0 ∨ r = 90 ∨ r = 180 ∨ r = 270) ∧ w ≠ 0 ∧ h ≠ 0) ∧
    LayoutDef.create3 i n ss = { id := i, name := n, sections := ss } ∧
    LayoutDef.create2 i n = LayoutDef.create3 i n none ∧
    (LayoutDef.init old i n = LayoutDef.create2 i n ↔ old = none) := by
  have hc : ∀ s : Option Bytes, strClone s = s := fun s => by cases s <;> rfl
  refine ⟨rfl, ?_, ?_, rfl, ?_⟩
  · rw [Section.isValid, Section.create2]
    dsimp only
    by_cases hr : r = 0 ∨ r = 90 ∨ r = 180 ∨ r = 270
    · rw [if_neg (by omega)]
      by_cases hw : w = 0 ∨ h = 0
      · rw [if_pos hw]
        exact ⟨fun e => (nomatch e), fun ⟨_, a, b⟩ => absurd hw (by omega)⟩
      · rw [if_neg hw]
        exact ⟨fun _ => ⟨hr, by omega, by omega⟩, fun _ => rfl⟩
    · rw [if_pos (by omega)]
      exact ⟨fun e => (nomatch e), fun ⟨a, _⟩ => absurd a hr⟩
  · rw [LayoutDef.create3, hc, hc]
  · rw [LayoutDef.init, LayoutDef.create2]
    simp

/-! ### Constructors that take an XML node -/

/-- An object made from the document that was saved is the object that was saved. -/
theorem C78_from_saved (m : TocMeta) (s : Sections) (d : LayoutDef) (hm : m.storable) (hs : s.storable) (hd : d.storable) (compact : Bool) :
    (∃ t doc, m.saveString compact = some t ∧ Xml.loadString t = some doc ∧ TocMeta.create3 doc = m) ∧
    (∃ t doc, s.saveString compact = some t ∧ Xml.loadString t = some doc ∧ Sections.create2 doc = s) ∧
    (∃ t doc, d.saveString compact = some t ∧ Xml.loadString t = some doc ∧ LayoutDef.create4 doc = d) := by
  have key : ∀ {A : Type} {load : Node → Bool × A} {z x : A} {t : Bytes}, loadFromString load (false, z) t = (true, x) →
      ∃ doc, Xml.loadString t = some doc ∧ (load doc).2 = x := by
    intro A load z x t e
    rw [loadFromString] at e
    split at e
    · cases e
    · split at e
      · cases e
      · rename_i doc hdoc
        exact ⟨doc, hdoc, by rw [e]⟩
  refine ⟨?_, ?_, ?_⟩
  · obtain ⟨t, h1, h2⟩ := (C24_metadata m hm compact).1
    obtain ⟨doc, h3, h4⟩ := key h2
    exact ⟨t, doc, h1, h3, h4⟩
  · obtain ⟨t, h1, h2⟩ := (C23_sections s hs compact).1
    obtain ⟨doc, h3, h4⟩ := key h2
    exact ⟨t, doc, h1, h3, h4⟩
  · obtain ⟨t, h1, h2⟩ := (C23_layout d LayoutDef.create hd compact).1
    obtain ⟨doc, h3, h4⟩ := key h2
    exact ⟨t, doc, h1, h3, h4⟩

/-- A new object holds nothing: no texts, no parts, all counts 0; no new object is valid except empty lists of files, reels, layout definitions and metadata sources of a file.  A new file has no place on
    the medium (all positions -1), no kind and no parent. -/
theorem C78_new_objects :
    ((File.create.isValid = false ∧ File.create.isDigital = false ∧ File.create.isPreview = false ∧ File.create.isParent = false ∧
        File.create.hasParent = false ∧ File.create.isStandalone = true ∧ File.create.hasMetadata = false) ∧
      (File.create.startFrame = -1 ∧ File.create.endFrame = -1 ∧ File.create.startByte = -1 ∧ File.create.endByte = -1 ∧
        File.getSize (some File.create) = 0 ∧ File.create.id = FILE_ID_UNDEFINED) ∧
      (File.create.name = none ∧ File.create.date = none ∧ File.create.checksum = none ∧ File.create.uniqueId = none ∧
        File.create.fileFormat = none ∧ File.create.preview = none ∧ File.create.metadata = none)) ∧
    (Page.create.isValid = false ∧ Page.create.layoutId = none ∧ Page.create.startFrame = 0 ∧ Page.create.startSection = 0 ∧
      Page.create.sectionCount = 0 ∧ Page.create.dimX = 0 ∧ Page.create.dimY = 0 ∧ Page.create.ovX = 0 ∧ Page.create.ovY = 0) ∧
    (Preview.isValid (some Preview.create) = false ∧ Preview.create.pages = none ∧ Preview.create.dpi = -1) ∧
    (Section.create.isValid = false ∧ Sections.isValid (some Sections.create) = false ∧ LayoutDef.create.isValid = false ∧
      LayoutDefs.isValid (some LayoutDefs.create) = true ∧ Sections.create.sections = none ∧ LayoutDefs.create.defs = none ∧
      LayoutDef.create.id = none ∧ LayoutDef.create.name = none ∧ LayoutDef.create.sections = none) ∧
    (MetaSource.create.isValid = false ∧ MetaSource.create.format = none ∧ MetaSource.create.data = none ∧ MetaSource.create.tags = none ∧
      MetaSource.create.id = -1 ∧ MetaSource.create.fileId = -1 ∧ TocMeta.isValid (some TocMeta.create) = false ∧
      TocMeta.create.sources = none) ∧
    (FileMetaSource.create.isValid = false ∧ FileMetaSource.create.data = none ∧ FileMetaSource.create.formatId = none ∧
      FileMetaSource.create.fileId = -1 ∧ FileMetaSource.create.sourceId = -1 ∧ FileMeta.isValid (some FileMeta.create) = true ∧
      FileMeta.create.sources = none) ∧
    (Files.isValid (some Files.create) = true ∧ Reels.isValid (some Reels.create) = true ∧ Files.count (some Files.create) = 0 ∧ Reel.create.isValid = false ∧
      Reel.create.id = none ∧ Reel.create.files = none ∧ Reels.count (some Reels.create) = 0) ∧
    (TocData.create.isValid = false ∧ TocData.create.version = none ∧ TocData.create.indexType = none ∧ TocData.create.jobId = none ∧
      TocData.create.reelId = none ∧ TocData.create.metadata = none ∧ TocData.create.layouts = none ∧ TocData.create.reels = none) := by
  refine ⟨⟨?_, ?_, ?_⟩, ?_, ?_, ?_, ?_, ?_, ?_, ?_⟩ <;> decide +kernel

/-- From any other node the constructor makes an object all the same, of the elements before the first that does not load or is refused.  These are valid: the
    metadata made are valid exactly if there is one of them, whether or not the load failed. -/
theorem C78_from_node (node : Node) :
    (selfOrFind node (b! "metadata") = none → TocMeta.create3 node = TocMeta.create) ∧
    (selfOrFind node (b! "sections") = none → Sections.create2 node = Sections.create) ∧
    (selfOrFind node (b! "previewLayout") = none → LayoutDef.create4 node = LayoutDef.create) ∧
    (∀ n, selfOrFind node (b! "metadata") = some n → ∃ k, k ≤ (findAll n (b! "source")).length ∧
      (TocMeta.create3 node).sources.getD [] = ((findAll n (b! "source")).take k).map (fun x => (MetaSource.create.loadXml x).2) ∧
      (∀ x ∈ (TocMeta.create3 node).sources.getD [], x.isValid = true) ∧
      (TocMeta.isValid (some (TocMeta.create3 node)) = true ↔ k ≠ 0) ∧
      ((TocMeta.create.loadXml node).1 = true ↔ k = (findAll n (b! "source")).length)) := by
  refine ⟨fun h => ?_, fun h => ?_, fun h => ?_, fun n hn => ?_⟩
  · rw [TocMeta.create3, TocMeta.loadXml, h]
  · rw [Sections.create2, Sections.loadXml, h]
  · rw [LayoutDef.create4, LayoutDef.loadXml, h]
  · obtain ⟨k, h1, h2, h3, -, -, h5⟩ := C46_metadata TocMeta.create node n hn
    have h2 : (TocMeta.create3 node).sources.getD [] = ((findAll n (b! "source")).take k).map (fun x => (MetaSource.create.loadXml x).2) := h2
    have hv : ∀ x ∈ (TocMeta.create3 node).sources.getD [], x.isValid = true := by
      exact TocMeta.loadXml_inv TocMeta.create (fun x hx => nomatch hx) node
    refine ⟨k, h1, h2, hv, ?_, h5⟩
    have hlen : ((TocMeta.create3 node).sources.getD []).length = k := by rw [h2, List.length_map, List.length_take]; omega
    rw [TocMeta.isValid]
    cases hs : (TocMeta.create3 node).sources with
    | none => rw [hs] at hlen; simp at hlen; simp [← hlen]
    | some l =>
      rw [hs] at hlen hv
      dsimp only
      have hlen : l.length = k := hlen
      by_cases hk : k = 0
      · rw [if_pos (by omega)]; simp [hk]
      · rw [if_neg (by omega)]
        exact ⟨fun _ => hk, fun _ => List.all_eq_true.mpr hv⟩

/-- So a program cannot see that such a load failed: a document with a broken second source makes the same metadata as the document without it, and they are
    valid. -/
theorem C78_failure_hidden :
    let s : Node := .elem (b! "source") [(b! "formatId", some (b! "f")), (b! "id", some (b! "1")), (b! "fileId", some (b! "2"))] []
    let good : Node := .elem (b! "metadata") [] [s]
    let bad : Node := .elem (b! "metadata") [] [s, .elem (b! "source") [] []]
    (TocMeta.create.loadXml good).1 = true ∧ (TocMeta.create.loadXml bad).1 = false ∧ TocMeta.create3 good = TocMeta.create3 bad ∧
      TocMeta.isValid (some (TocMeta.create3 bad)) = true := by
  decide +kernel

/-! ### Control data -/

/-- **C78.** Control data, technical metadata and frame ranges: what is given is stored, a new range is empty, and what cannot be given is absent. -/
theorem C78_control_objects (L : ConfigLib) (tocs : Option Files) (f : Option (Format L)) (a : Option Admin) (t : Option (TechMeta L)) (s n : Nat) :
    ((TechMeta.create2 tocs f).tocs = tocs ∧ (TechMeta.create2 tocs f).format = f ∧ (TechMeta.create2 tocs f).apps = none) ∧
    ((TechMeta.create : TechMeta L).tocs = none ∧ (TechMeta.create : TechMeta L).format = none ∧ (TechMeta.create : TechMeta L).apps = none) ∧
    ((ControlData.create2 a t).admin = a ∧ (ControlData.create2 a t).tech = t) ∧
    ((ControlData.create : ControlData L).admin = none ∧ (ControlData.create : ControlData L).tech = none) ∧
    ((FrameRange.create2 s n).start = s ∧ (FrameRange.create2 s n).count = n ∧ FrameRange.create.start = 0 ∧ FrameRange.create.count = 0) :=
  ⟨⟨rfl, rfl, rfl⟩, ⟨rfl, rfl, rfl⟩, ⟨rfl, rfl⟩, ⟨rfl, rfl⟩, rfl, rfl, rfl, rfl⟩

/-! ### The hypotheses are met -/

example : (MetaSource.create4 (some (b! "f")) (-1) (some (b! "d"))).isValid = true ∧ (MetaSource.create4 (some (b! "f")) (-1) none).isValid = false := by decide

end Afs
