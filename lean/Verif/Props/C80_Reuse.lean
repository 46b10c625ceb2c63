import Verif.Props.C46_LoadAll
import Verif.Proof.NodeEq
import Verif.Model.ControlData

/-!
# C80: loading into an object that is already in use

What is left of the old contents: every theorem compares loading a document into an object `x` with loading the same document into a new object.
-/

namespace Afs
open Spec Xml

/-- `new` if the document gives the value, otherwise what the object had. -/
def Spec.given {α : Type} (has : Bool) (new old : α) : α := if has then new else old

namespace Reuse

theorem unique {A : Type} {load : Node → Bool × A} {ok : A → Bool} {ns : List Node} {old new fresh : List A} {r r' : Bool}
    (h : LoadedInOrder load (fun _ x => ok x) ns old new r) (h' : LoadedInOrder load (fun _ x => ok x) ns [] fresh r') :
    r = r' ∧ new = old ++ fresh := by
  obtain ⟨k, hk, e, hl, ha, hn, hr⟩ := h
  obtain ⟨k', hk', e', hl', ha', hn', hr'⟩ := h'
  have aux : ∀ {a b : Nat}, b ≤ ns.length → (∀ n ∈ ns.take b, (load n).1 = true) →
      (∀ i n, i < b → ns[i]? = some n → ok (load n).2 = true) →
      (∀ n, ns[a]? = some n → (load n).1 = false ∨ ok (load n).2 = false) → ¬ a < b := by
    intro a b hb h1 h2 h3 hab
    have hx : ns[a]? = some (ns[a]'(by omega)) := List.getElem?_eq_getElem _
    have hm : ns[a]'(by omega) ∈ ns.take b := by
      rw [List.mem_take_iff_getElem]
      exact ⟨a, by omega, rfl⟩
    rcases h3 _ hx with h4 | h4
    · rw [h1 _ hm] at h4; cases h4
    · rw [h2 a _ hab hx] at h4; cases h4
  have e1 := aux hk' hl' ha' hn
  have e2 := aux hk hl ha hn'
  have ek : k = k' := by omega
  subst ek
  refine ⟨?_, by rw [e, e']; simp⟩
  cases r <;> cases r' <;> simp_all

theorem none_of {α : Type} {o : Option α} (h : o.isSome = false) : o = none := by
  cases o with
  | none => rfl
  | some x => cases h

end Reuse

open Reuse

/-- **C80.** Loading a list into a list in use answers what loading into a new list answers, and adds to the old elements exactly what a new list would
    hold. Nothing of the old is removed. -/
theorem C80_lists (f : Files) (r : Reels) (m : TocMeta) (s : FileMeta) (p : Preview) (node : Node) :
    ((f.loadXml node).1 = (Files.create.loadXml node).1 ∧ (f.loadXml node).2.list = f.list ++ (Files.create.loadXml node).2.list) ∧
    ((r.loadXml node).1 = (Reels.create.loadXml node).1 ∧ (r.loadXml node).2.list = r.list ++ (Reels.create.loadXml node).2.list) ∧
    ((m.loadXml node).1 = (TocMeta.create.loadXml node).1 ∧
      (m.loadXml node).2.sources.getD [] = m.sources.getD [] ++ (TocMeta.create.loadXml node).2.sources.getD []) ∧
    ((s.loadXml node).1 = (FileMeta.create.loadXml node).1 ∧
      (s.loadXml node).2.sources.getD [] = s.sources.getD [] ++ (FileMeta.create.loadXml node).2.sources.getD []) ∧
    ((p.loadXml node).1 = (Preview.create.loadXml node).1 ∧
      (p.loadXml node).2.pages.getD [] = p.pages.getD [] ++ (Preview.create.loadXml node).2.pages.getD []) := by
  refine ⟨unique (C46_files f node) (C46_files Files.create node), unique (C46_reels r node) (C46_reels Reels.create node), ?_, ?_, ?_⟩
  · cases hn : selfOrFind node (b! "metadata") with
    | none => rw [TocMeta.loadXml, TocMeta.loadXml, hn]; exact ⟨rfl, by simp [TocMeta.create]⟩
    | some n => exact unique (C46_metadata m node n hn) (C46_metadata TocMeta.create node n hn)
  · cases hn : selfOrFind node (b! "metadata") with
    | none => rw [FileMeta.loadXml, FileMeta.loadXml, hn]; exact ⟨rfl, by simp [FileMeta.create]⟩
    | some n => exact unique (C46_file_metadata s node n hn) (C46_file_metadata FileMeta.create node n hn)
  · cases hn : selfOrFind node (b! "preview") with
    | none => rw [Preview.loadXml, Preview.loadXml, hn]; exact ⟨rfl, by simp [Preview.create]⟩
    | some n => exact unique (C46_preview p node n hn) (C46_preview Preview.create node n hn)

/-- **C80.** So a document loaded twice is in the list twice. -/
theorem C80_lists_again (f : Files) (r : Reels) (m : TocMeta) (s : FileMeta) (p : Preview) (node : Node) :
    ((f.loadXml node).2.loadXml node).2.list = f.list ++ (Files.create.loadXml node).2.list ++ (Files.create.loadXml node).2.list ∧
    ((r.loadXml node).2.loadXml node).2.list = r.list ++ (Reels.create.loadXml node).2.list ++ (Reels.create.loadXml node).2.list ∧
    ((m.loadXml node).2.loadXml node).2.sources.getD [] =
      m.sources.getD [] ++ (TocMeta.create.loadXml node).2.sources.getD [] ++ (TocMeta.create.loadXml node).2.sources.getD [] ∧
    ((s.loadXml node).2.loadXml node).2.sources.getD [] =
      s.sources.getD [] ++ (FileMeta.create.loadXml node).2.sources.getD [] ++ (FileMeta.create.loadXml node).2.sources.getD [] ∧
    ((p.loadXml node).2.loadXml node).2.pages.getD [] =
      p.pages.getD [] ++ (Preview.create.loadXml node).2.pages.getD [] ++ (Preview.create.loadXml node).2.pages.getD [] := by
  have h := C80_lists f r m s p node
  have h' := C80_lists (f.loadXml node).2 (r.loadXml node).2 (m.loadXml node).2 (s.loadXml node).2 (p.loadXml node).2 node
  exact ⟨by rw [h'.1.2, h.1.2], by rw [h'.2.1.2, h.2.1.2], by rw [h'.2.2.1.2, h.2.2.1.2], by rw [h'.2.2.2.1.2, h.2.2.2.1.2],
    by rw [h'.2.2.2.2.2, h.2.2.2.2.2]⟩

/-- **C80.** A page: only the frame, the section and the count can be left from before, each if the document does not give it. -/
theorem C80_page (p : Page) (node : Node) :
    (p.loadXml node).1 = (Page.create.loadXml node).1 ∧
    ∀ n, selfOrFind node (b! "pages") = some n → (p.loadXml node).1 = true →
      (p.loadXml node).2 =
        { (Page.create.loadXml node).2 with
          startFrame := given (intAttr n (b! "frame")).isSome (Page.create.loadXml node).2.startFrame p.startFrame
          startSection := given (intAttr n (b! "section")).isSome (Page.create.loadXml node).2.startSection p.startSection
          sectionCount := given (intAttr n (b! "count")).isSome (Page.create.loadXml node).2.sectionCount p.sectionCount } := by
  rw [Page.loadXml, Page.loadXml]
  cases hn : selfOrFind node (b! "pages") with
  | none => exact ⟨rfl, fun n e => nomatch e⟩
  | some n =>
    dsimp only
    cases h1 : Page.extractXY (n.getAttr (b! "dimension")) with
    | none => exact ⟨rfl, fun m e h => nomatch h⟩
    | some a =>
      obtain ⟨x, y⟩ := a
      dsimp only
      cases h2 : Page.extractXY (n.getAttr (b! "overlap")) with
      | none => exact ⟨rfl, fun m e h => nomatch h⟩
      | some a =>
        obtain ⟨x', y'⟩ := a
        refine ⟨rfl, fun m e h => ?_⟩
        cases e
        dsimp only
        cases intAttr n (b! "frame") <;> cases intAttr n (b! "section") <;> cases intAttr n (b! "count") <;> rfl

/-- **C80.** A section, a layout definition, administrative metadata, a boxing format and control data keep nothing: when the load succeeds the object is what a new
    object would be. (For layout definitions and administrative metadata also when it fails, if there is such an element at all.) -/
theorem C80_replaced {L : ConfigLib} (s : Section) (d : LayoutDef) (a : Admin) (f : Format L) (c : ControlData L) (node : Node) :
    ((s.loadXml node).1 = (Section.create.loadXml node).1 ∧
      ((s.loadXml node).1 = true → (s.loadXml node).2 = (Section.create.loadXml node).2)) ∧
    ((d.loadXml node).1 = (LayoutDef.create.loadXml node).1 ∧
      (selfOrFind node (b! "previewLayout") ≠ none → (d.loadXml node).2 = (LayoutDef.create.loadXml node).2)) ∧
    ((a.loadXml node).1 = (Admin.create.loadXml node).1 ∧
      ((a.loadXml node).1 = true → (a.loadXml node).2 = (Admin.create.loadXml node).2)) ∧
    ((f.loadXml node).1 = ((Format.create : Format L).loadXml node).1 ∧
      ((f.loadXml node).1 = true → (f.loadXml node).2 = ((Format.create : Format L).loadXml node).2)) ∧
    ((c.loadXml node).1 = ((ControlData.create : ControlData L).loadXml node).1 ∧
      ((c.loadXml node).1 = true → (c.loadXml node).2 = ((ControlData.create : ControlData L).loadXml node).2)) := by
  refine ⟨?_, ?_, ?_, ?_, ?_⟩
  · rw [Section.loadXml, Section.loadXml]
    cases selfOrFind node (b! "section") with
    | none => exact ⟨rfl, fun h => nomatch h⟩
    | some n =>
      dsimp only
      cases uintAttr n (b! "id") with
      | none => exact ⟨rfl, fun h => nomatch h⟩
      | some v1 =>
        dsimp only
        cases uintAttr n (b! "x") with
        | none => exact ⟨rfl, fun h => nomatch h⟩
        | some v2 =>
          dsimp only
          cases uintAttr n (b! "y") with
          | none => exact ⟨rfl, fun h => nomatch h⟩
          | some v3 =>
            dsimp only
            cases uintAttr n (b! "w") with
            | none => exact ⟨rfl, fun h => nomatch h⟩
            | some v4 =>
              dsimp only
              cases uintAttr n (b! "h") with
              | none => exact ⟨rfl, fun h => nomatch h⟩
              | some v5 =>
                dsimp only
                cases uintAttr n (b! "rotation") with
                | none => exact ⟨rfl, fun h => nomatch h⟩
                | some v6 => exact ⟨rfl, fun _ => rfl⟩
  · rw [LayoutDef.loadXml, LayoutDef.loadXml]
    cases selfOrFind node (b! "previewLayout") with
    | none => exact ⟨rfl, fun h => absurd rfl h⟩
    | some n => exact ⟨rfl, fun _ => rfl⟩
  · rw [Admin.loadXml, Admin.loadXml]
    cases find node (b! "AdministrativeMetadata") with
    | none => exact ⟨rfl, fun h => nomatch h⟩
    | some n => exact ⟨rfl, fun _ => rfl⟩
  · rw [Format.loadXml, Format.loadXml]
    cases find node (b! "NULL") with
    | some n => exact ⟨rfl, fun _ => rfl⟩
    | none =>
      dsimp only
      cases find node (b! "work") with
      | none => exact ⟨rfl, fun h => nomatch h⟩
      | some n => exact ⟨rfl, fun _ => rfl⟩
  · rw [ControlData.loadXml, ControlData.loadXml]
    cases find node (b! "AdministrativeMetadata") with
    | none => exact ⟨rfl, fun h => nomatch h⟩
    | some n =>
      dsimp only
      cases find node (b! "TechnicalMetadata") with
      | none => exact ⟨rfl, fun h => nomatch h⟩
      | some n => exact ⟨rfl, fun _ => rfl⟩

/-- The value of a `data` element in CDATA, as the loaders look for it: the first child of the element that is CDATA. -/
def Spec.dataGiven (n : Node) : Bool := ((find n (b! "data")).bind fun d => firstCData d.children).isSome

/-- Text in a `data` element without CDATA. -/
def Spec.dataText (n : Node) : Option Bytes := (find n (b! "data")).bind fun d => nodeText (some d)

/-- **C80.** A metadata source and a metadata source of a file take the ids from the document. Data are taken from the document if they are in CDATA; otherwise
    data that the object had stay, even if the document has data as plain text. Tags stay if the document gives none. The
    format of the data of a file stays if the document has no data element. -/
theorem C80_sources (s : MetaSource) (t : FileMetaSource) (node n : Node) (hn : selfOrFind node (b! "source") = some n) :
    ((s.loadXml node).1 = true → ∃ i j,
      intAttr n (b! "id") = some i ∧ intAttr n (b! "fileId") = some j ∧
      (s.loadXml node).2.format = strClone (n.getAttr (b! "formatId")) ∧ (s.loadXml node).2.id = i ∧ (s.loadXml node).2.fileId = j ∧
      (dataGiven n = true → (s.loadXml node).2.data = (MetaSource.create.loadXml node).2.data) ∧
      (dataGiven n = false → s.data ≠ none → (s.loadXml node).2.data = s.data) ∧
      (dataGiven n = false → s.data = none → (s.loadXml node).2.data = dataText n) ∧
      (s.loadXml node).2.tags =
        given ((MetaSource.create.loadXml node).2.tags).isSome (MetaSource.create.loadXml node).2.tags s.tags) ∧
    ((t.loadXml node).1 = true → ∃ j, intAttr n (b! "fileId") = some j ∧
      (t.loadXml node).2.fileId = j ∧ (t.loadXml node).2.sourceId = (intAttr n (b! "sourceId")).getD (-1) ∧
      (dataGiven n = true → (t.loadXml node).2.data = (FileMetaSource.create.loadXml node).2.data) ∧
      (dataGiven n = false → t.data ≠ none → (t.loadXml node).2.data = t.data) ∧
      (dataGiven n = false → t.data = none → (t.loadXml node).2.data = dataText n) ∧
      (t.loadXml node).2.formatId =
        given (find n (b! "data")).isSome (FileMetaSource.create.loadXml node).2.formatId t.formatId) := by
  constructor
  · rw [MetaSource.loadXml, MetaSource.loadXml, hn]
    dsimp only
    cases h1 : intAttr n (b! "id") with
    | none => exact fun h => nomatch h
    | some i =>
      dsimp only
      cases h2 : intAttr n (b! "fileId") with
      | none => exact fun h => nomatch h
      | some j =>
        intro _
        refine ⟨i, j, rfl, rfl, ?_⟩
        rw [dataGiven, dataText]
        cases h3 : find n (b! "data") with
        | none =>
          cases h4 : find n (b! "tags") with
          | none =>
            refine ⟨rfl, rfl, rfl, (fun h => nomatch h), fun _ _ => rfl, fun _ h => h, rfl⟩
          | some t =>
            dsimp only
            rw [MetaSource.setTags.eq_def, MetaSource.setTags.eq_def]
            cases nodeText (some t) with
            | none => exact ⟨rfl, rfl, rfl, (fun h => nomatch h), fun _ _ => rfl, fun _ h => h, rfl⟩
            | some x =>
              dsimp only
              by_cases hx : x.length = 0
              · rw [if_pos hx, if_pos hx]
                exact ⟨rfl, rfl, rfl, (fun h => nomatch h), fun _ _ => rfl, fun _ h => h, rfl⟩
              · rw [if_neg hx, if_neg hx]
                exact ⟨rfl, rfl, rfl, (fun h => nomatch h), fun _ _ => rfl, fun _ h => h, rfl⟩
        | some d =>
          have key : ∀ old : Option Bytes, ((some d).bind fun d => firstCData d.children).isSome = true →
              Afs.loadData old d = Afs.loadData none d := by
            intro old h
            rw [Afs.loadData.eq_def, Afs.loadData.eq_def]
            rw [Option.bind_some] at h
            obtain ⟨x, hx⟩ := Option.isSome_iff_exists.1 h
            rw [hx]
          have key2 : ∀ old : Option Bytes, ((some d).bind fun d => firstCData d.children).isSome = false →
              (old ≠ none → Afs.loadData old d = old) ∧ (old = none → Afs.loadData old d = (some d).bind fun d => nodeText (some d)) := by
            intro old h
            rw [Afs.loadData.eq_def]
            rw [Option.bind_some] at h
            rw [none_of h]
            dsimp only
            cases old with
            | none => exact ⟨fun h => absurd rfl h, fun _ => rfl⟩
            | some x => exact ⟨fun _ => rfl, fun h => nomatch h⟩
          cases h4 : find n (b! "tags") with
          | none =>
            exact ⟨rfl, rfl, rfl, fun h => key _ h, fun h g => (key2 _ h).1 g, fun h g => (key2 _ h).2 g, rfl⟩
          | some t =>
            dsimp only
            rw [MetaSource.setTags.eq_def, MetaSource.setTags.eq_def]
            cases nodeText (some t) with
            | none => exact ⟨rfl, rfl, rfl, fun h => key _ h, fun h g => (key2 _ h).1 g, fun h g => (key2 _ h).2 g, rfl⟩
            | some x =>
              dsimp only
              by_cases hx : x.length = 0
              · rw [if_pos hx, if_pos hx]
                exact ⟨rfl, rfl, rfl, fun h => key _ h, fun h g => (key2 _ h).1 g, fun h g => (key2 _ h).2 g, rfl⟩
              · rw [if_neg hx, if_neg hx]
                exact ⟨rfl, rfl, rfl, fun h => key _ h, fun h g => (key2 _ h).1 g, fun h g => (key2 _ h).2 g, rfl⟩
  · rw [FileMetaSource.loadXml, FileMetaSource.loadXml, hn]
    dsimp only
    cases h2 : intAttr n (b! "fileId") with
    | none => exact fun h => nomatch h
    | some j =>
      intro _
      refine ⟨j, rfl, ?_⟩
      rw [dataGiven, dataText]
      cases h3 : find n (b! "data") with
      | none => exact ⟨rfl, rfl, (fun h => nomatch h), fun _ _ => rfl, fun _ h => h, rfl⟩
      | some d =>
        dsimp only
        refine ⟨rfl, rfl, ?_, ?_, ?_, rfl⟩
        · intro h
          rw [Option.bind_some] at h
          obtain ⟨x, hx⟩ := Option.isSome_iff_exists.1 h
          rw [Afs.loadData.eq_def, Afs.loadData.eq_def, hx]
        · intro h g
          rw [Option.bind_some] at h
          rw [Afs.loadData.eq_def, none_of h]
          dsimp only
          cases hd : t.data with
          | none => exact absurd hd g
          | some x => rfl
        · intro h g
          rw [Option.bind_some] at h
          rw [Afs.loadData.eq_def, none_of h, g]
          rfl

/-- **C80.** A reel: the files stay if the document has none. -/
theorem C80_reel (r : Reel) (node : Node) :
    (r.loadXml node).1 = (Reel.create.loadXml node).1 ∧
    ∀ n, selfOrFind node (b! "reel") = some n → (r.loadXml node).1 = true →
      (r.loadXml node).2.id = (Reel.create.loadXml node).2.id ∧
      (r.loadXml node).2.files = given (find n (b! "files")).isSome (Reel.create.loadXml node).2.files r.files := by
  rw [Reel.loadXml, Reel.loadXml]
  cases hn : selfOrFind node (b! "reel") with
  | none => exact ⟨rfl, fun n e => nomatch e⟩
  | some n =>
    dsimp only
    cases find n (b! "id") with
    | none => exact ⟨rfl, fun n e h => nomatch h⟩
    | some i =>
      dsimp only
      cases hf : find n (b! "files") with
      | none =>
        refine ⟨rfl, fun m e h => ?_⟩
        cases e
        rw [hf]
        exact ⟨rfl, rfl⟩
      | some fs =>
        refine ⟨rfl, fun m e h => ?_⟩
        cases e
        rw [hf]
        exact ⟨rfl, rfl⟩

/-- **C80.** Technical metadata: contents tables and applications stay if the document has no such element. -/
theorem C80_technical {L : ConfigLib} (t : TechMeta L) (node : Node) :
    (t.loadXml node).1 = ((TechMeta.create : TechMeta L).loadXml node).1 ∧
    ∀ n, find node (b! "TechnicalMetadata") = some n → (t.loadXml node).1 = true →
      (t.loadXml node).2.format = ((TechMeta.create : TechMeta L).loadXml node).2.format ∧
      (t.loadXml node).2.tocs =
        given (find n (b! "Tocs")).isSome ((TechMeta.create : TechMeta L).loadXml node).2.tocs t.tocs ∧
      (t.loadXml node).2.apps =
        given (find n (b! "Applications")).isSome ((TechMeta.create : TechMeta L).loadXml node).2.apps t.apps := by
  rw [TechMeta.loadXml, TechMeta.loadXml]
  cases find node (b! "TechnicalMetadata") with
  | none => exact ⟨rfl, fun n e => nomatch e⟩
  | some n =>
    dsimp only
    cases find n (b! "BoxerFormat") with
    | none => exact ⟨rfl, fun n e h => nomatch h⟩
    | some b =>
      dsimp only
      have key : ∀ (x : Option Node) (t : TechMeta L), (TechMeta.loadApps t x).format = t.format ∧
          (TechMeta.loadApps t x).tocs = t.tocs ∧
          (TechMeta.loadApps t x).apps = given x.isSome (TechMeta.loadApps (TechMeta.create : TechMeta L) x).apps t.apps := by
        intro x t
        cases x with
        | none => exact ⟨rfl, rfl, rfl⟩
        | some y =>
          rw [TechMeta.loadApps.eq_def, TechMeta.loadApps.eq_def, Option.map_some]
          rcases Files.create.loadXml y with ⟨b, g⟩
          cases b <;> exact ⟨rfl, rfl, rfl⟩
      have key2 : ∀ (x : Option Node) (t u : TechMeta L), (TechMeta.loadApps t x).apps =
          given x.isSome (TechMeta.loadApps u x).apps t.apps := by
        intro x t u
        cases x with
        | none => rfl
        | some y =>
          rw [TechMeta.loadApps.eq_def, TechMeta.loadApps.eq_def, Option.map_some]
          rcases Files.create.loadXml y with ⟨b, g⟩
          cases b <;> rfl
      cases ht : find n (b! "Tocs") with
      | none =>
        refine ⟨rfl, fun m e h => ?_⟩
        cases e
        rw [ht]
        exact ⟨by rw [if_neg (by exact fun h => nomatch h), if_neg (by exact fun h => nomatch h), (key _ _).1, (key _ _).1]; rfl,
          by rw [if_neg (by exact fun h => nomatch h), if_neg (by exact fun h => nomatch h), (key _ _).2.1, (key _ _).2.1]; rfl,
          by rw [if_neg (by exact fun h => nomatch h), if_neg (by exact fun h => nomatch h)]; exact key2 _ _ _⟩
      | some y =>
        rw [TechMeta.loadTocs.eq_def, TechMeta.loadTocs.eq_def, Option.map_some]
        rcases Files.create.loadXml y with ⟨b, g⟩
        cases b with
        | false => exact ⟨rfl, fun m e h => nomatch h⟩
        | true =>
          refine ⟨rfl, fun m e h => ?_⟩
          cases e
          rw [ht]
          dsimp only
          rw [if_neg (by exact fun h => nomatch h), if_neg (by exact fun h => nomatch h)]
          exact ⟨by rw [(key _ _).1, (key _ _).1], by rw [(key _ _).2.1, (key _ _).2.1]; rfl, key2 _ _ _⟩

/-- **C80.** A table of contents: the index type, the job id and the reel id stay if the document does not give them; everything else is replaced, also by
    nothing. -/
theorem C80_toc (t t' : TocData) (b : Bool) (node : Node) (h : t.loadXml node = .ok (b, t')) :
    ∃ y, TocData.create.loadXml node = .ok (b, y) ∧
      ∀ n, selfOrFind node (b! "Index") = some n → b = true →
        t' = { y with
          indexType := given (find n (b! "indexType")).isSome y.indexType t.indexType
          jobId := given (find n (b! "jobId")).isSome y.jobId t.jobId
          reelId := given (find n (b! "reelId")).isSome y.reelId t.reelId } := by
  rw [TocData.loadXml] at h ⊢
  cases hn : selfOrFind node (b! "Index") with
  | none => rw [hn] at h; cases h; exact ⟨_, rfl, fun n e => nomatch e⟩
  | some n =>
    rw [hn] at h
    dsimp only at h ⊢
    cases hm : (TocData.loadMeta n).1 with
    | false =>
      rw [hm, if_pos rfl] at h
      rw [if_pos rfl]
      cases h
      exact ⟨_, rfl, fun m e g => nomatch g⟩
    | true =>
      rw [hm, if_neg (by decide)] at h
      rw [if_neg (by decide)]
      cases hl : TocData.loadLayouts n with
      | ub => rw [hl] at h; cases h
      | ok l =>
        rw [hl, Res.ok_bind] at h
        rw [Res.ok_bind]
        cases hl1 : l.1 with
        | false =>
          rw [hl1, if_pos rfl] at h
          rw [if_pos rfl]
          cases h
          exact ⟨_, rfl, fun m e g => nomatch g⟩
        | true =>
          rw [hl1, if_neg (by decide)] at h
          rw [if_neg (by decide)]
          cases hr : (TocData.loadReels n).1 with
          | false =>
            rw [hr, if_pos rfl] at h
            rw [if_pos rfl]
            cases h
            exact ⟨_, rfl, fun m e g => nomatch g⟩
          | true =>
            rw [hr, if_neg (by decide)] at h
            rw [if_neg (by decide)]
            cases h
            refine ⟨_, rfl, fun m e _ => ?_⟩
            cases e
            rw [TocData.loadFields, TocData.loadFields]
            dsimp only
            cases find n (b! "indexType") <;> cases find n (b! "jobId") <;> cases find n (b! "reelId") <;> rfl

/-- The element with the data of a file, and how a position is given in it: in the current format in attributes of the `data` element, in the old one in elements
    of the file itself. -/
def Spec.positionGiven (n : Node) (which what : Bytes) : Bool :=
  match findUnder n (b! "file") (b! "data") with
  | some d => ((find d which).bind fun s => intAttr s what).isSome
  | none => ((find n which).bind fun s => intElement s what).isSome

/-- The size of a file is given. -/
def Spec.sizeGiven (n : Node) : Bool := (find ((findUnder n (b! "file") (b! "data")).getD n) (b! "size")).isSome

/-- The kinds that the document says the file has: preview, and data on the medium. -/
def Spec.typesGiven (n : Node) : Nat :=
  (if (find n (b! "preview")).isSome then TYPE_PREVIEW else 0) |||
  (if (findUnder n (b! "file") (b! "data")).isSome || (find n (b! "size")).isSome || (find n (b! "start")).isSome ||
      (find n (b! "end")).isSome then TYPE_DIGITAL else 0)

namespace Reuse

/-- `File.loadFields` with what it looks up as arguments. -/
def fields (f : File) (k : Option Bytes) (a c d : Option Node) (i p q : Option Int) : File :=
  let f := { f with fileFormat := match k with
      | none => some (b! "undefined")
      | some s => some s }
  let f := match a with
    | none => f
    | some x => { f with name := nodeText (some x) }
  let f := { f with id := i.getD f.id }
  let f := match c with
    | none => f
    | some x => { f with uniqueId := nodeText (some x) }
  let f := match d with
    | none => f
    | some x => { f with date := nodeText (some x) }
  { f with parentId := match p with
      | some v => v
      | none => match q with
        | some v => v
        | none => FILE_NO_PARENT }

theorem loadFields_eq (f : File) (n : Node) : f.loadFields n =
    fields f (strClone (n.getAttr (b! "formatId"))) (find n (b! "name")) (find n (b! "uniqueId")) (find n (b! "date"))
      (intElement n (b! "id")) (intElement n (b! "parentId")) (intElement n (b! "parentid")) := rfl

theorem fields_given (g h : File) (k : Option Bytes) (a c d : Option Node) (i p q : Option Int) :
    fields g k a c d i p q =
      { g with
        fileFormat := (fields h k a c d i p q).fileFormat
        parentId := (fields h k a c d i p q).parentId
        name := given a.isSome (fields h k a c d i p q).name g.name
        date := given d.isSome (fields h k a c d i p q).date g.date
        uniqueId := given c.isSome (fields h k a c d i p q).uniqueId g.uniqueId
        id := given i.isSome (fields h k a c d i p q).id g.id } := by
  cases a <;> cases c <;> cases d <;> cases i <;> rfl

/-- `File.loadDataV1` and `File.loadDataV2` with what they look up as arguments. -/
def place (f : File) (z s t : Option Node) (k : Option Bytes) (sf sb ef eb : Node → Option Int) : File :=
  let f := match z with
    | none => f
    | some s => { f with size := strtol ((nodeTextSafe (some s) (b! "0")).getD []) }
  let f := { f with checksum := k }
  let f := match s with
    | none => f
    | some s => { f with
        startFrame := (sf s).getD f.startFrame
        startByte := (sb s).getD f.startByte }
  match t with
  | none => f
  | some s => { f with
      endFrame := (ef s).getD f.endFrame
      endByte := (eb s).getD f.endByte }

theorem loadDataV1_eq (f : File) (n : Node) : f.loadDataV1 n =
    place f (find n (b! "size")) (find n (b! "start")) (find n (b! "end")) (nodeTextSafe (find n (b! "checksum")) [])
      (fun s => intElement s (b! "frame")) (fun s => intElement s (b! "byte"))
      (fun s => intElement s (b! "frame")) (fun s => intElement s (b! "byte")) := rfl

theorem loadDataV2_eq (f : File) (n : Node) : f.loadDataV2 n =
    place f (find n (b! "size")) (find n (b! "start")) (find n (b! "end")) (nodeTextSafe (find n (b! "checksum")) [])
      (fun s => intAttr s (b! "frame")) (fun s => intAttr s (b! "byte"))
      (fun s => intAttr s (b! "frame")) (fun s => intAttr s (b! "byte")) := rfl

theorem place_given (g h : File) (z s t : Option Node) (k : Option Bytes) (sf sb ef eb : Node → Option Int) :
    place g z s t k sf sb ef eb =
      { g with
        checksum := (place h z s t k sf sb ef eb).checksum
        size := given z.isSome (place h z s t k sf sb ef eb).size g.size
        startFrame := given (s.bind sf).isSome (place h z s t k sf sb ef eb).startFrame g.startFrame
        startByte := given (s.bind sb).isSome (place h z s t k sf sb ef eb).startByte g.startByte
        endFrame := given (t.bind ef).isSome (place h z s t k sf sb ef eb).endFrame g.endFrame
        endByte := given (t.bind eb).isSome (place h z s t k sf sb ef eb).endByte g.endByte } := by
  have e : ∀ (s : Option Node) (o : Node → Option Int) (d d' : Int),
      (match s with | none => d | some x => (o x).getD d) =
        given (s.bind o).isSome (match s with | none => d' | some x => (o x).getD d') d := by
    intro s o d d'
    cases s with
    | none => rfl
    | some x =>
      dsimp only [Option.bind]
      cases o x <;> rfl
  have e1 := e s sf g.startFrame h.startFrame
  have e2 := e s sb g.startByte h.startByte
  have e3 := e t ef g.endFrame h.endFrame
  have e4 := e t eb g.endByte h.endByte
  cases z <;> cases s <;> cases t <;> dsimp only at e1 e2 e3 e4 <;> unfold place <;> dsimp only <;>
    rw [← e1, ← e2, ← e3, ← e4] <;> rfl

theorem loadPreview_given (g h : File) (n : Node) : (g.loadPreview n).1 = (h.loadPreview n).1 ∧
    ((g.loadPreview n).1 = true → (g.loadPreview n).2 =
      { g with
        preview := given (find n (b! "preview")).isSome (h.loadPreview n).2.preview g.preview
        types := g.types ||| (if (find n (b! "preview")).isSome then TYPE_PREVIEW else 0) }) := by
  rw [File.loadPreview, File.loadPreview]
  cases find n (b! "preview") with
  | none => exact ⟨rfl, fun _ => by simp [given]⟩
  | some p =>
    dsimp only
    cases (Preview.create.loadXml p).1 with
    | false => exact ⟨rfl, fun h => nomatch h⟩
    | true => exact ⟨rfl, fun _ => rfl⟩

theorem loadMetadata_given (g h : File) (n : Node) : (g.loadMetadata n).1 = (h.loadMetadata n).1 ∧
    ((g.loadMetadata n).1 = true → (g.loadMetadata n).2 =
      { g with metadata := given (find n (b! "metadata")).isSome (h.loadMetadata n).2.metadata g.metadata }) := by
  rw [File.loadMetadata, File.loadMetadata]
  cases find n (b! "metadata") with
  | none => exact ⟨rfl, fun _ => by simp [given]⟩
  | some p =>
    dsimp only
    cases (FileMeta.create.loadXml p).1 with
    | false => exact ⟨rfl, fun h => nomatch h⟩
    | true => exact ⟨rfl, fun _ => rfl⟩

/-- The positions of a file, before its kinds. -/
def placed (g : File) (n : Node) : File :=
  match findUnder n (b! "file") (b! "data") with
  | some d => g.loadDataV2 d
  | none => g.loadDataV1 n

theorem placed_given (g h : File) (n : Node) : placed g n =
    { g with
      checksum := (placed h n).checksum
      size := given (sizeGiven n) (placed h n).size g.size
      startFrame := given (positionGiven n (b! "start") (b! "frame")) (placed h n).startFrame g.startFrame
      startByte := given (positionGiven n (b! "start") (b! "byte")) (placed h n).startByte g.startByte
      endFrame := given (positionGiven n (b! "end") (b! "frame")) (placed h n).endFrame g.endFrame
      endByte := given (positionGiven n (b! "end") (b! "byte")) (placed h n).endByte g.endByte } := by
  rw [placed.eq_def, placed.eq_def, sizeGiven, positionGiven, positionGiven, positionGiven, positionGiven]
  cases findUnder n (b! "file") (b! "data") with
  | some d =>
    dsimp only [Option.getD]
    rw [loadDataV2_eq, loadDataV2_eq]
    exact place_given g h _ _ _ _ _ _ _ _
  | none =>
    dsimp only [Option.getD]
    rw [loadDataV1_eq, loadDataV1_eq]
    exact place_given g h _ _ _ _ _ _ _ _

/-- The kind a file has by its data. -/
def digitalBit (n : Node) : Nat :=
  if (findUnder n (b! "file") (b! "data")).isSome || (find n (b! "size")).isSome || (find n (b! "start")).isSome ||
      (find n (b! "end")).isSome then TYPE_DIGITAL else 0

theorem placed_types (g : File) (n : Node) : (placed g n).types = g.types := by rw [placed_given g g]

theorem loadDataPart_given (g : File) (n : Node) :
    g.loadDataPart n = { placed g n with types := (g.loadDataPart n).types } ∧
    (g.loadDataPart n).types =
      (if (findUnder n (b! "file") (b! "data")).isSome ∨ ({ placed g n with types := g.types ||| digitalBit n } : File).isValid = true
        then g.types ||| digitalBit n else TYPE_UNDEFINED) := by
  have ht := placed_types g n
  rw [digitalBit]
  rw [File.loadDataPart.eq_def]
  rw [placed] at ht ⊢
  cases hd : findUnder n (b! "file") (b! "data") with
  | some d =>
    rw [hd] at ht
    dsimp only at ht ⊢
    refine ⟨rfl, ?_⟩
    rw [if_pos (Or.inl (by rfl)), File.addType, ht]
    simp only [Option.isSome_some, Bool.true_or, if_true]
  | none =>
    rw [hd] at ht
    dsimp only at ht ⊢
    have e : (if ((find n (b! "size")).isSome || (find n (b! "start")).isSome || (find n (b! "end")).isSome) = true
          then (g.loadDataV1 n).addType TYPE_DIGITAL else g.loadDataV1 n) =
        { g.loadDataV1 n with types := g.types |||
          (if ((find n (b! "size")).isSome || (find n (b! "start")).isSome || (find n (b! "end")).isSome) = true then TYPE_DIGITAL else 0) } := by
      split
      · rw [File.addType, ht]
      · rw [Nat.or_zero, ← ht]
    rw [e]
    simp only [Option.isSome_none, Bool.false_or, Bool.false_eq_true, false_or]
    generalize (if ((find n (b! "size")).isSome || (find n (b! "start")).isSome || (find n (b! "end")).isSome) = true
      then TYPE_DIGITAL else 0) = bit
    cases ({ g.loadDataV1 n with types := g.types ||| bit } : File).isValid with
    | false => exact ⟨rfl, rfl⟩
    | true => exact ⟨rfl, rfl⟩

end Reuse

open Reuse

namespace Reuse

theorem file_parts (f : File) (node n : Node) (hn : selfOrFind node (b! "file") = some n) :
    ((f.loadXml node).1 = false ∧ (File.create.loadXml node).1 = false) ∨
    ∃ A0 A1 A B0 B1 B : File, f.loadXml node = (true, A.loadDataPart n) ∧ File.create.loadXml node = (true, B.loadDataPart n) ∧
      A0 = { f with
          fileFormat := B0.fileFormat
          parentId := B0.parentId
          name := given (find n (b! "name")).isSome B0.name f.name
          date := given (find n (b! "date")).isSome B0.date f.date
          uniqueId := given (find n (b! "uniqueId")).isSome B0.uniqueId f.uniqueId
          id := given (intElement n (b! "id")).isSome B0.id f.id } ∧
      A1 = { A0 with
        preview := given (find n (b! "preview")).isSome B1.preview A0.preview
        types := A0.types ||| (if (find n (b! "preview")).isSome then TYPE_PREVIEW else 0) } ∧
      (∃ p t, B1 = { B0 with preview := p, types := t }) ∧
      A = { A1 with metadata := given (find n (b! "metadata")).isSome B.metadata A1.metadata } ∧
      (∃ m, B = { B1 with metadata := m }) := by
  rw [File.loadXml, File.loadXml, hn]
  dsimp only
  have hf := fields_given f File.create (strClone (n.getAttr (b! "formatId"))) (find n (b! "name")) (find n (b! "uniqueId"))
    (find n (b! "date")) (intElement n (b! "id")) (intElement n (b! "parentId")) (intElement n (b! "parentid"))
  rw [← loadFields_eq, ← loadFields_eq] at hf
  obtain ⟨p1, p2⟩ := loadPreview_given (f.loadFields n) (File.create.loadFields n) n
  obtain ⟨-, p3⟩ := loadPreview_given (File.create.loadFields n) (File.create.loadFields n) n
  rcases Bool.eq_false_or_eq_true ((f.loadFields n).loadPreview n).1 with hb | hb
  · have hb' : ((File.create.loadFields n).loadPreview n).1 = true := by rw [← p1]; exact hb
    have n1 : ¬ ((f.loadFields n).loadPreview n).1 = false := by rw [hb]; decide
    have n1' : ¬ ((File.create.loadFields n).loadPreview n).1 = false := by rw [hb']; decide
    rw [if_neg n1, if_neg n1']
    have q2 := p2 hb
    have q3 := p3 hb'
    obtain ⟨m1, m2⟩ := loadMetadata_given ((f.loadFields n).loadPreview n).2 ((File.create.loadFields n).loadPreview n).2 n
    obtain ⟨-, m3⟩ := loadMetadata_given ((File.create.loadFields n).loadPreview n).2 ((File.create.loadFields n).loadPreview n).2 n
    rcases Bool.eq_false_or_eq_true (((f.loadFields n).loadPreview n).2.loadMetadata n).1 with hc | hc
    · have hc' : (((File.create.loadFields n).loadPreview n).2.loadMetadata n).1 = true := by rw [← m1]; exact hc
      have n2 : ¬ (((f.loadFields n).loadPreview n).2.loadMetadata n).1 = false := by rw [hc]; decide
      have n2' : ¬ (((File.create.loadFields n).loadPreview n).2.loadMetadata n).1 = false := by rw [hc']; decide
      rw [if_neg n2, if_neg n2']
      exact Or.inr ⟨_, _, _, _, _, _, rfl, rfl, hf, q2, ⟨_, _, q3⟩, m2 hc, ⟨_, m3 hc'⟩⟩
    · have hc' : (((File.create.loadFields n).loadPreview n).2.loadMetadata n).1 = false := by rw [← m1]; exact hc
      rw [if_pos hc, if_pos hc']
      exact Or.inl ⟨hc, hc'⟩
  · have hb' : ((File.create.loadFields n).loadPreview n).1 = false := by rw [← p1]; exact hb
    rw [if_pos hb, if_pos hb']
    exact Or.inl ⟨hb, hb'⟩

end Reuse

/-- **C80.** A file: format, parent and checksum are replaced; name, id, unique id, date, size, each position, preview and metadata stay if the document does not
    give them. The kinds the file had stay and those of the document are added; only in a document in the old format a file that is not
    valid then loses all kinds. -/
theorem C80_file (f : File) (node : Node) :
    (f.loadXml node).1 = (File.create.loadXml node).1 ∧
    ∀ n, selfOrFind node (b! "file") = some n → (f.loadXml node).1 = true →
      (f.loadXml node).2 =
        { (File.create.loadXml node).2 with
          name := given (find n (b! "name")).isSome (File.create.loadXml node).2.name f.name
          date := given (find n (b! "date")).isSome (File.create.loadXml node).2.date f.date
          uniqueId := given (find n (b! "uniqueId")).isSome (File.create.loadXml node).2.uniqueId f.uniqueId
          id := given (intElement n (b! "id")).isSome (File.create.loadXml node).2.id f.id
          size := given (sizeGiven n) (File.create.loadXml node).2.size f.size
          startFrame := given (positionGiven n (b! "start") (b! "frame")) (File.create.loadXml node).2.startFrame f.startFrame
          startByte := given (positionGiven n (b! "start") (b! "byte")) (File.create.loadXml node).2.startByte f.startByte
          endFrame := given (positionGiven n (b! "end") (b! "frame")) (File.create.loadXml node).2.endFrame f.endFrame
          endByte := given (positionGiven n (b! "end") (b! "byte")) (File.create.loadXml node).2.endByte f.endByte
          preview := given (find n (b! "preview")).isSome (File.create.loadXml node).2.preview f.preview
          metadata := given (find n (b! "metadata")).isSome (File.create.loadXml node).2.metadata f.metadata
          types := (f.loadXml node).2.types } ∧
      (f.loadXml node).2.types =
        (if (findUnder n (b! "file") (b! "data")).isSome ∨
            ({ (f.loadXml node).2 with types := f.types ||| typesGiven n } : File).isValid = true
          then f.types ||| typesGiven n else TYPE_UNDEFINED) := by
  cases hn : selfOrFind node (b! "file") with
  | none =>
    rw [File.loadXml, File.loadXml, hn]
    exact ⟨rfl, fun n e => nomatch e⟩
  | some n =>
    rcases file_parts f node n hn with ⟨h1, h2⟩ | ⟨A0, A1, A, B0, B1, B, eA, eB, hf, q2, ⟨p, t, q3⟩, r2, ⟨m, r3⟩⟩
    · exact ⟨by rw [h1, h2], fun n e h => by rw [h1] at h; cases h⟩
    · refine ⟨by rw [eA, eB], fun m e _ => ?_⟩
      cases e
      generalize f.loadXml node = x at eA ⊢
      generalize File.create.loadXml node = y at eB ⊢
      subst eA eB
      dsimp only
      obtain ⟨dA, tA⟩ := loadDataPart_given A n
      obtain ⟨dB, -⟩ := loadDataPart_given B n
      have pA := placed_given A B n
      have pB := placed_given B B n
      have ht : A.types ||| digitalBit n = f.types ||| typesGiven n := by
        rw [r2, q2, hf, typesGiven, digitalBit]
        exact Nat.or_assoc ..
      have eq : A.loadDataPart n =
        { B.loadDataPart n with
          name := given (find n (b! "name")).isSome (B.loadDataPart n).name f.name
          date := given (find n (b! "date")).isSome (B.loadDataPart n).date f.date
          uniqueId := given (find n (b! "uniqueId")).isSome (B.loadDataPart n).uniqueId f.uniqueId
          id := given (intElement n (b! "id")).isSome (B.loadDataPart n).id f.id
          size := given (sizeGiven n) (B.loadDataPart n).size f.size
          startFrame := given (positionGiven n (b! "start") (b! "frame")) (B.loadDataPart n).startFrame f.startFrame
          startByte := given (positionGiven n (b! "start") (b! "byte")) (B.loadDataPart n).startByte f.startByte
          endFrame := given (positionGiven n (b! "end") (b! "frame")) (B.loadDataPart n).endFrame f.endFrame
          endByte := given (positionGiven n (b! "end") (b! "byte")) (B.loadDataPart n).endByte f.endByte
          preview := given (find n (b! "preview")).isSome (B.loadDataPart n).preview f.preview
          metadata := given (find n (b! "metadata")).isSome (B.loadDataPart n).metadata f.metadata
          types := (A.loadDataPart n).types } := by
        generalize A.loadDataPart n = x at dA
        generalize B.loadDataPart n = y at dB
        generalize placed A n = pa at dA pA
        generalize placed B n = pb at dB pA pB
        rw [dA, dB, pA, pB]
        rw [r2, q2, hf, r3, q3]
      refine ⟨eq, ?_⟩
      generalize A.types ||| digitalBit n = v at tA ht
      subst ht
      have e2 : ({ placed A n with types := f.types ||| typesGiven n } : File) =
          { A.loadDataPart n with types := f.types ||| typesGiven n } :=
        (congrArg (fun y : File => ({ y with types := f.types ||| typesGiven n } : File)) dA).symm
      rw [← e2]
      exact tA

namespace Reuse

theorem given_given {α : Type} (b : Bool) (x o : α) : given b x (given b x o) = given b x o := by cases b <;> rfl

end Reuse

/-- **C80.** Loading the same document again into the same object changes nothing: pages, sections, layout definitions, administrative metadata, formats,
    control data, reels, technical metadata. -/
theorem C80_again {L : ConfigLib} (p : Page) (s : Section) (d : LayoutDef) (a : Admin) (f : Format L) (c : ControlData L) (r : Reel) (t : TechMeta L)
    (node : Node) :
    ((p.loadXml node).1 = true → (p.loadXml node).2.loadXml node = p.loadXml node) ∧
    ((s.loadXml node).1 = true → (s.loadXml node).2.loadXml node = s.loadXml node) ∧
    ((d.loadXml node).1 = true → (d.loadXml node).2.loadXml node = d.loadXml node) ∧
    ((a.loadXml node).1 = true → (a.loadXml node).2.loadXml node = a.loadXml node) ∧
    ((f.loadXml node).1 = true → (f.loadXml node).2.loadXml node = f.loadXml node) ∧
    ((c.loadXml node).1 = true → (c.loadXml node).2.loadXml node = c.loadXml node) ∧
    ((r.loadXml node).1 = true → (r.loadXml node).2.loadXml node = r.loadXml node) ∧
    ((t.loadXml node).1 = true → (t.loadXml node).2.loadXml node = t.loadXml node) := by
  obtain ⟨hs, hd, ha, hf, hc⟩ := C80_replaced s d a f c node
  obtain ⟨hs', hd', ha', hf', hc'⟩ := C80_replaced (s.loadXml node).2 (d.loadXml node).2 (a.loadXml node).2 (f.loadXml node).2
    (c.loadXml node).2 node
  refine ⟨fun h => ?_, fun h => ?_, fun h => ?_, fun h => ?_, fun h => ?_, fun h => ?_, fun h => ?_, fun h => ?_⟩
  · have h1 := C80_page p node
    have h2 := C80_page (p.loadXml node).2 node
    cases hn : selfOrFind node (b! "pages") with
    | none => rw [Page.loadXml, hn] at h; cases h
    | some n =>
      have g : ((p.loadXml node).2.loadXml node).1 = true := by rw [h2.1, ← h1.1, h]
      refine Prod.ext (by rw [h2.1, h1.1]) ?_
      have e1 := h1.2 n hn h
      have e2 := h2.2 n hn g
      generalize (p.loadXml node).2 = x at e1 e2 ⊢
      rw [e2, e1]
      dsimp only
      rw [given_given, given_given, given_given]
  · exact Prod.ext (by rw [hs'.1, hs.1]) (by rw [hs'.2 (by rw [hs'.1, ← hs.1, h]), hs.2 h])
  · have k : selfOrFind node (b! "previewLayout") ≠ none := by
      intro k
      rw [LayoutDef.loadXml, k] at h
      cases h
    exact Prod.ext (by rw [hd'.1, hd.1]) (by rw [hd'.2 k, hd.2 k])
  · exact Prod.ext (by rw [ha'.1, ha.1]) (by rw [ha'.2 (by rw [ha'.1, ← ha.1, h]), ha.2 h])
  · exact Prod.ext (by rw [hf'.1, hf.1]) (by rw [hf'.2 (by rw [hf'.1, ← hf.1, h]), hf.2 h])
  · exact Prod.ext (by rw [hc'.1, hc.1]) (by rw [hc'.2 (by rw [hc'.1, ← hc.1, h]), hc.2 h])
  · have h1 := C80_reel r node
    have h2 := C80_reel (r.loadXml node).2 node
    cases hn : selfOrFind node (b! "reel") with
    | none => rw [Reel.loadXml, hn] at h; cases h
    | some n =>
      have g : ((r.loadXml node).2.loadXml node).1 = true := by rw [h2.1, ← h1.1, h]
      refine Prod.ext (by rw [h2.1, h1.1]) ?_
      obtain ⟨i1, f1⟩ := h1.2 n hn h
      obtain ⟨i2, f2⟩ := h2.2 n hn g
      rw [f1, given_given, ← f1] at f2
      rw [← i1] at i2
      generalize ((r.loadXml node).2.loadXml node).2 = x at i2 f2 ⊢
      generalize (r.loadXml node).2 = y at i2 f2 ⊢
      cases x; cases y
      cases i2; cases f2
      rfl
  · have h1 := C80_technical t node
    have h2 := C80_technical (t.loadXml node).2 node
    cases hn : find node (b! "TechnicalMetadata") with
    | none => rw [TechMeta.loadXml, hn] at h; cases h
    | some n =>
      have g : ((t.loadXml node).2.loadXml node).1 = true := by rw [h2.1, ← h1.1, h]
      refine Prod.ext (by rw [h2.1, h1.1]) ?_
      obtain ⟨i1, f1, g1⟩ := h1.2 n hn h
      obtain ⟨i2, f2, g2⟩ := h2.2 n hn g
      rw [f1, given_given, ← f1] at f2
      rw [g1, given_given, ← g1] at g2
      rw [← i1] at i2
      generalize ((t.loadXml node).2.loadXml node).2 = x at i2 f2 g2 ⊢
      generalize (t.loadXml node).2 = y at i2 f2 g2 ⊢
      cases x; cases y
      cases i2; cases f2; cases g2
      rfl

/-- **C80.** The same for a table of contents. -/
theorem C80_toc_again (t t' : TocData) (node : Node) (h : t.loadXml node = .ok (true, t')) : t'.loadXml node = .ok (true, t') := by
  obtain ⟨y, hy, e⟩ := C80_toc t t' true node h
  obtain ⟨y', b', hy'⟩ : ∃ y' b', t'.loadXml node = .ok (b', y') := by
    cases h2 : t'.loadXml node with
    | ok z => exact ⟨z.2, z.1, rfl⟩
    | ub =>
      cases hn : selfOrFind node (b! "Index") with
      | none => rw [TocData.loadXml, hn] at h; cases h
      | some n =>
        obtain ⟨b, x, hx, _⟩ := C46_toc_data t' node n hn
        rw [h2] at hx
        cases hx
  obtain ⟨z, hz, e'⟩ := C80_toc t' y' b' node hy'
  rw [hy] at hz
  cases hz
  cases hn : selfOrFind node (b! "Index") with
  | none => rw [TocData.loadXml, hn] at h; cases h
  | some n =>
    have e1 := e n hn rfl
    have e2 := e' n hn rfl
    rw [hy', e2]
    generalize hx : t' = x at e1 ⊢
    rw [e1]
    dsimp only
    rw [given_given, given_given, given_given]

/-- **C80.** The same for a file, if its document is in the current format (has a `data` element). -/
theorem C80_file_again (f : File) (node n : Node) (hn : selfOrFind node (b! "file") = some n)
    (hd : (findUnder n (b! "file") (b! "data")).isSome = true) (h : (f.loadXml node).1 = true) :
    (f.loadXml node).2.loadXml node = f.loadXml node := by
  have h1 := C80_file f node
  have h2 := C80_file (f.loadXml node).2 node
  have g : ((f.loadXml node).2.loadXml node).1 = true := by rw [h2.1, ← h1.1, h]
  refine Prod.ext (by rw [h2.1, h1.1]) ?_
  obtain ⟨e1, t1⟩ := h1.2 n hn h
  obtain ⟨e2, t2⟩ := h2.2 n hn g
  rw [if_pos (Or.inl hd)] at t1 t2
  rw [t2] at e2
  rw [t1] at e1 e2
  have o : f.types ||| typesGiven n ||| typesGiven n = f.types ||| typesGiven n := by
    rw [Nat.or_assoc, Nat.or_self]
  rw [o] at e2
  generalize (f.loadXml node).2 = x at e1 e2 ⊢
  rw [e2, e1]
  dsimp only
  simp only [given_given]

namespace Reuse

theorem refused_again {A : Type} {load : Node → Bool × A} {ok : List A → A → Bool} {ns : List Node} {old new new' : List A} {r : Bool}
    (hne : ns ≠ []) (hok : ∀ l x, x ∈ l → ok l x = false)
    (h : LoadedInOrder load ok ns old new true) (h' : LoadedInOrder load ok ns new new' r) : r = false ∧ new' = new := by
  obtain ⟨k, hk, e, hl, ha, hs, hr⟩ := h
  obtain ⟨k', hk', e', hl', ha', hs', hr'⟩ := h'
  have ek : k = ns.length := hr.mp rfl
  subst ek
  cases ns with
  | nil => exact absurd rfl hne
  | cons n ns =>
    have hm : (load n).2 ∈ new := by rw [e]; simp
    have hk0 : k' = 0 := by
      rcases Nat.eq_zero_or_pos k' with h0 | h0
      · exact h0
      · have := ha' 0 n h0 rfl
        rw [hok _ _ (by simpa using hm)] at this
        cases this
    subst hk0
    refine ⟨?_, by simpa using e'⟩
    cases r with
    | false => rfl
    | true => exact absurd (hr'.mp rfl) (by simp)

theorem section_own_id (l : List Section) (x : Section) (h : x ∈ l) : Sections.admissible x l = false := by
  induction l with
  | nil => cases h
  | cons c l ih =>
    rw [Sections.admissible]
    rcases List.mem_cons.mp h with rfl | h
    · rw [if_pos rfl]
    · rw [ih h]
      split
      · rfl
      · split <;> rfl

end Reuse

/-- **C80.** Sections and layout definitions have ids, so a list that was loaded completely from a document refuses the same document, and stays as it is. -/
theorem C80_layouts_again (s : Sections) (d d' : LayoutDefs) (node n : Node) :
    (selfOrFind node (b! "sections") = some n → findAll n (b! "section") ≠ [] → (s.loadXml node).1 = true →
      ((s.loadXml node).2.loadXml node).1 = false ∧
      ((s.loadXml node).2.loadXml node).2.sections.getD [] = (s.loadXml node).2.sections.getD []) ∧
    (selfOrFind node (b! "layoutDefinitions") = some n → findAll n (b! "previewLayout") ≠ [] →
      (∀ x ∈ d.defs.getD [], x.isValid = true) → ((d.defs.getD []).map LayoutDef.id).Nodup → d.loadXml node = .ok (true, d') →
      ∃ d'', d'.loadXml node = .ok (false, d'') ∧ d''.defs.getD [] = d'.defs.getD []) := by
  constructor
  · intro hn hne h
    have h1 := C46_sections s node n hn
    have h2 := C46_sections (s.loadXml node).2 node n hn
    rw [h] at h1
    exact refused_again hne (fun l x hx => by rw [section_own_id l x hx, Bool.and_false]) h1 h2
  · intro hn hne hv hd h
    obtain ⟨b, e, he, h1⟩ := C46_layout_definitions d node n hn hv hd
    rw [h] at he
    cases he
    obtain ⟨b', r, hr, inv⟩ := LayoutDefs.loadXml_inv d ⟨hv, hd⟩ node
    rw [h] at hr
    cases hr
    obtain ⟨b2, e2, he2, h2⟩ := C46_layout_definitions d' node n hn inv.1 inv.2
    obtain ⟨g1, g2⟩ := refused_again hne (fun l x hx => by
      have : (l.any fun e => decide (e.id = x.id)) = true := List.any_eq_true.mpr ⟨x, hx, by simp⟩
      rw [this]; simp) h1 h2
    subst g1
    exact ⟨e2, he2, g2⟩

/-- **C80.** Loading a source again changes nothing. -/
theorem C80_sources_again (s : MetaSource) (t : FileMetaSource) (node : Node) :
    ((s.loadXml node).1 = true → (s.loadXml node).2.loadXml node = s.loadXml node) ∧
    ((t.loadXml node).1 = true → (t.loadXml node).2.loadXml node = t.loadXml node) := by
  have hl : ∀ (o : Option Bytes) (d : Node), Afs.loadData (Afs.loadData o d) d = Afs.loadData o d := by
    intro o d
    rw [Afs.loadData.eq_def, Afs.loadData.eq_def]
    cases firstCData d.children with
    | some c => rfl
    | none =>
      cases o with
      | some c => rfl
      | none =>
        dsimp only
        cases h : nodeText (some d) <;> rfl
  constructor
  · intro h
    rw [MetaSource.loadXml.eq_def s] at h ⊢
    cases hn : selfOrFind node (b! "source") with
    | none => rw [hn] at h; cases h
    | some n =>
      rw [hn] at h
      dsimp only at h ⊢
      cases h1 : intAttr n (b! "id") with
      | none => rw [h1] at h; cases h
      | some i =>
        rw [h1] at h
        dsimp only at h ⊢
        cases h2 : intAttr n (b! "fileId") with
        | none => rw [h2] at h; cases h
        | some j =>
          dsimp only
          rw [MetaSource.loadXml.eq_def, hn]
          dsimp only
          rw [h1]
          dsimp only
          rw [h2]
          dsimp only
          clear h h1 h2 hn
          cases find n (b! "data") with
          | none =>
            dsimp only
            cases find n (b! "tags") with
            | none => rfl
            | some t =>
              dsimp only
              cases nodeText (some t) with
              | none => rfl
              | some u =>
                rw [MetaSource.setTags]
                dsimp only
                by_cases e : u.length = 0
                · rw [if_pos e, MetaSource.setTags]; dsimp only; rw [if_pos e]
                · rw [if_neg e, MetaSource.setTags]; dsimp only; rw [if_neg e]
          | some d =>
            dsimp only
            cases find n (b! "tags") with
            | none => dsimp only; rw [hl]
            | some t =>
              dsimp only
              cases nodeText (some t) with
              | none => rw [MetaSource.setTags, MetaSource.setTags]; dsimp only; rw [hl]
              | some u =>
                rw [MetaSource.setTags]
                dsimp only
                by_cases e : u.length = 0
                · rw [if_pos e, MetaSource.setTags]; dsimp only; rw [if_pos e, hl]
                · rw [if_neg e, MetaSource.setTags]; dsimp only; rw [if_neg e, hl]
  · intro h
    rw [FileMetaSource.loadXml.eq_def t] at h ⊢
    cases hn : selfOrFind node (b! "source") with
    | none => rw [hn] at h; cases h
    | some n =>
      rw [hn] at h
      dsimp only at h ⊢
      cases h1 : intAttr n (b! "fileId") with
      | none => rw [h1] at h; cases h
      | some i =>
        dsimp only
        rw [FileMetaSource.loadXml.eq_def, hn]
        dsimp only
        rw [h1]
        dsimp only
        cases find n (b! "data") with
        | none => rfl
        | some d => dsimp only; rw [hl]

namespace Reuse

/-- A source whose data are plain text, and one without data. -/
def textSource : Node := .elem (b! "source") [(b! "formatId", some (b! "f")), (b! "id", some (b! "1")), (b! "fileId", some (b! "2"))]
  [.elem (b! "data") [] [.text (b! "new")]]

def bareSource : Node := .elem (b! "source") [(b! "formatId", some (b! "f")), (b! "id", some (b! "1")), (b! "fileId", some (b! "-1"))] []

/-- A file in the old format. -/
def oldFile : Node := .elem (b! "file") [(b! "formatId", some (b! "f"))]
  [.elem (b! "name") [] [.text (b! "n")], .elem (b! "date") [] [.text (b! "d")], .elem (b! "id") [] [.text (b! "7")], .elem (b! "parentId") [] [.text (b! "-1")],
   .elem (b! "checksum") [] [.text (b! "c")],
   .elem (b! "size") [] [.text (b! "10")],
   .elem (b! "start") [] [.elem (b! "frame") [] [.text (b! "1")], .elem (b! "byte") [] [.text (b! "0")]],
   .elem (b! "end") [] [.elem (b! "frame") [] [.text (b! "1")], .elem (b! "byte") [] [.text (b! "9")]]]

end Reuse

set_option maxRecDepth 100000 in
/-- **C80.** What a user may not expect. A source in use keeps its data although the document has other data, as plain text; and it loads a document
    without data, with its old data, that a new source refuses. A file marked as having a preview, but without one, loses all its
    kinds when a document in the old format is loaded, and has the kind of the document when it is loaded again. -/
theorem C80_stale :
    (∃ s : MetaSource, s.data = some (b! "old") ∧ (s.loadXml textSource).1 = true ∧ (s.loadXml textSource).2.data = some (b! "old") ∧
      (MetaSource.create.loadXml textSource).2.data = some (b! "new") ∧
      (s.loadXml bareSource).1 = true ∧ (s.loadXml bareSource).2.data = some (b! "old") ∧ (MetaSource.create.loadXml bareSource).1 = false) ∧
    (∃ f : File, (f.loadXml oldFile).1 = true ∧ (f.loadXml oldFile).2.types = TYPE_UNDEFINED ∧
      ((f.loadXml oldFile).2.loadXml oldFile).2.types = TYPE_DIGITAL ∧ (File.create.loadXml oldFile).2.types = TYPE_DIGITAL) := by
  refine ⟨⟨{ MetaSource.create with data := some (b! "old") }, ?_⟩, ⟨File.create.addType TYPE_PREVIEW, ?_⟩⟩
  · refine ⟨?_, ?_, ?_, ?_, ?_, ?_, ?_⟩ <;> decide +kernel
  · refine ⟨?_, ?_, ?_, ?_⟩ <;> decide +kernel

namespace Reuse

/-- A file in the current format, and a list of sections. -/
def newFile : Node := .elem (b! "file") [(b! "formatId", some (b! "f"))]
  [.elem (b! "name") [] [.text (b! "n")],
   .elem (b! "data") [] [.elem (b! "size") [] [.text (b! "10")],
     .elem (b! "start") [(b! "frame", some (b! "1")), (b! "byte", some (b! "0"))] []]]

def twoSections : Node := .elem (b! "sections") []
  [.elem (b! "section") [(b! "id", some (b! "1")), (b! "x", some (b! "0")), (b! "y", some (b! "0")), (b! "w", some (b! "10")), (b! "h", some (b! "10")), (b! "rotation", some (b! "0"))] [],
   .elem (b! "section") [(b! "id", some (b! "2")), (b! "x", some (b! "20")), (b! "y", some (b! "0")), (b! "w", some (b! "10")), (b! "h", some (b! "10")), (b! "rotation", some (b! "0"))] []]

end Reuse

set_option maxRecDepth 100000 in
/-- The hypotheses are met: a file in use keeps its date, its end and its kind and takes the rest; two sections are loaded, and then refused. -/
theorem C80_example : ∃ f : File,
    f.date = some (b! "old") ∧ f.endFrame = 5 ∧ f.types = TYPE_PREVIEW ∧
    (findUnder newFile (b! "file") (b! "data")).isSome = true ∧ (f.loadXml newFile).1 = true ∧
    (f.loadXml newFile).2.date = some (b! "old") ∧ (f.loadXml newFile).2.name = some (b! "n") ∧ (f.loadXml newFile).2.size = 10 ∧
    (f.loadXml newFile).2.startFrame = 1 ∧ (f.loadXml newFile).2.endFrame = 5 ∧ (f.loadXml newFile).2.types = 3 ∧
    (File.create.loadXml newFile).2.date = none ∧
    (Sections.create.loadXml twoSections).1 = true ∧ ((Sections.create.loadXml twoSections).2.sections.getD []).length = 2 ∧
    ((Sections.create.loadXml twoSections).2.loadXml twoSections).1 = false := by
  refine ⟨{ File.create.addType TYPE_PREVIEW with date := some (b! "old"), endFrame := 5 }, ?_, ?_, ?_, ?_, ?_, ?_, ?_, ?_, ?_, ?_, ?_, ?_, ?_, ?_, ?_⟩ <;>
    decide +kernel

end Afs
