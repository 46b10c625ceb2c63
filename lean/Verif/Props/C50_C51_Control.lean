import Verif.Proof.IoTech
import Verif.Props.C03_C05_CloneEqual
import Verif.Props.C48_Admin
import Verif.Props.C49_FormatXml
/-! # C50, C51: technical metadata and control data -/
namespace Afs
open Spec Xml

variable {L : ConfigLib}

theorem techCb_space : SpaceCb TechMeta.cb :=
  cb_white (by intro a n w; unfold TechMeta.cb; dsimp only; (repeat' refine all_ite ?_ ?_) <;> first | exact indent_white _ | rfl)
theorem controlCb_space : SpaceCb ControlData.cb :=
  cb_white (by intro a n w; unfold ControlData.cb; dsimp only; (repeat' refine all_ite ?_ ?_) <;> first | exact indent_white _ | rfl)

/-! ### C50 -/

/-- The round trip with the loaded boxing format named. -/
theorem tech_roundtrip {t : TechMeta L} {f : Format L} (hf : t.format = some f) (hfs : f.storable) (hw : t.writable) (before : TechMeta L)
    (compact : Bool) :
    (∃ s, t.saveString compact = some s ∧ before.loadString s =
      (true, ⟨some (TechMeta.loadedFormat f), t.tocs.map Files.asLoaded, (t.apps.map Files.asLoaded).or before.apps⟩)) ∧
    (∃ s, t.saveFile compact = (true, some s) ∧ before.loadFile s =
      (true, ⟨some (TechMeta.loadedFormat f), t.tocs.map Files.asLoaded, (t.apps.map Files.asLoaded).or before.apps⟩)) := by
  obtain ⟨_, ⟨x, hx, hxw⟩, ha⟩ := hw
  have ht : ∀ y, t.tocs = some y → ∀ z ∈ y.list, z.writable := by
    intro y hy; rw [hx] at hy; injection hy with hy; subst hy; exact hxw
  unfold TechMeta.saveString TechMeta.saveFile TechMeta.loadString TechMeta.loadFile
  have hc : t.complete = true := by simp [TechMeta.complete, hx, hf]
  rw [if_neg (by simp [hc]), if_neg (by simp [hc]), TechMeta.saveXml_eq hf ht ha]
  have e : t.tocs.map Files.asLoaded = (t.tocs.map Files.asLoaded).or before.tocs := by rw [hx]; rfl
  rw [e]
  exact doc_roundtrip techCb_space compact (by decide) (TechMeta.nodeOf_savable hfs ht ha) _ _ _ fun T hT => by
    obtain ⟨d, h1, h2⟩ := isRead_find_some hT (find_doc (nm := b! "TechnicalMetadata") (t := TechMeta.nodeOf f t.tocs t.apps) rfl)
    exact TechMeta.loadXml_of hfs ht ha before h1 h2

/-- Every writable technical metadata, compact or indented, through a string or a file, is loaded with an
    equal boxing format and the files of both lists in order (each as `File.asLoaded` says).  When nothing is
    written for the applications, the ones the object held before stay. -/
theorem C50_roundtrip_general (hL : LawfulConfig L) (t : TechMeta L) (h : t.writable) (before : TechMeta L) (compact : Bool) :
    ∃ g : Format L, Format.equal t.format (some g) = true ∧ g = Format.create2 g.config ∧
      (∃ s, t.saveString compact = some s ∧
        before.loadString s = (true, ⟨some g, t.tocs.map Files.asLoaded, (t.apps.map Files.asLoaded).or before.apps⟩)) ∧
      (∃ s, t.saveFile compact = (true, some s) ∧
        before.loadFile s = (true, ⟨some g, t.tocs.map Files.asLoaded, (t.apps.map Files.asLoaded).or before.apps⟩)) := by
  obtain ⟨⟨f, hf, hfs⟩, hrest⟩ := h
  refine ⟨TechMeta.loadedFormat f, ?_, ?_, tech_roundtrip hf hfs ⟨⟨f, hf, hfs⟩, hrest⟩ before compact⟩
  · rw [hf]; exact TechMeta.loadedFormat_equal hL hfs
  · unfold TechMeta.loadedFormat
    have : ∀ c : Option L.Config, (Format.create2 c).config = c := by
      intro c; unfold Format.create2 Format.init
      cases c with
      | none => rfl
      | some c => dsimp only; split <;> rfl
    rw [this]

/-- Storable technical metadata is loaded, by an object that held no applications, as an equal one. -/
theorem C50_roundtrip (hL : LawfulConfig L) (t : TechMeta L) (h : t.storable) (before : TechMeta L) (hb : before.apps = none)
    (compact : Bool) :
    ∃ u, TechMeta.equal (some t) (some u) = true ∧ u.tocs = t.tocs ∧ u.apps = t.apps ∧
      (∃ s, t.saveString compact = some s ∧ before.loadString s = (true, u)) ∧
      (∃ s, t.saveFile compact = (true, some s) ∧ before.loadFile s = (true, u)) := by
  obtain ⟨⟨f, hf, hfs⟩, ⟨x, hx, hxs⟩, ha⟩ := h
  have hw : t.writable := ⟨⟨f, hf, hfs⟩, ⟨x, hx, fun y hy => (hxs.2 y hy).1⟩, fun y hy z hz => ((ha y hy).2 z hz).1⟩
  obtain ⟨g, h1, _, h3, h4⟩ := C50_roundtrip_general hL t hw before compact
  have e1 : t.tocs.map Files.asLoaded = t.tocs := by rw [hx, Option.map_some, Files.asLoaded_of hxs]
  have e2 : (t.apps.map Files.asLoaded).or before.apps = t.apps := by
    rw [hb, Option.or_none]
    cases hy : t.apps with
    | none => rfl
    | some y => rw [Option.map_some, Files.asLoaded_of (ha y hy)]
  rw [e1, e2] at h3 h4
  refine ⟨⟨some g, t.tocs, t.apps⟩, ?_, rfl, rfl, h3, h4⟩
  rw [hf] at h1
  have hce : L.isEqual f.config g.config = true := by
    simp only [Format.equal, ptrEqual, Format.eqFields, Bool.and_eq_true] at h1
    exact h1.1.1.1.1.1.1.1.1.1.1.1
  simp only [TechMeta.equal, ptrEqual, TechMeta.eqFields, hf, Bool.and_eq_true]
  exact ⟨⟨hce, C04_files_equivalence.refl _⟩, C04_files_equivalence.refl _⟩

/-- Without a boxing format or without a list of tables of contents nothing is saved, and no file is made. -/
theorem C50_incomplete_refused (t : TechMeta L) (h : t.format = none ∨ t.tocs = none) (compact : Bool) :
    t.saveString compact = none ∧ t.saveFile compact = (false, none) := by
  have : t.complete = false := by rcases h with h | h <;> simp [TechMeta.complete, h]
  simp [TechMeta.saveString, TechMeta.saveFile, this]

/-- A copy is equal to the original. -/
theorem C50_clone_equal (hL : LawfulConfig L) (t : TechMeta L) : TechMeta.equal (some t) (some t.clone) = true := by
  obtain ⟨f, x, y⟩ := t
  have hf : ∀ o : Option Files, Files.equal o (o.map Files.clone) = true := by
    intro o
    cases o with
    | none => rfl
    | some o => exact (C03_files_clone o).2.2.1
  simp only [TechMeta.equal, ptrEqual, TechMeta.eqFields, TechMeta.clone, hf, Bool.and_true]
  cases f with
  | none => rfl
  | some f =>
    simp only [Option.map_some, ptrEqual]
    cases hc : f.config with
    | none => exact hL.equal_null
    | some c =>
      have : (Format.create2 (some c)).config = some c := by unfold Format.create2 Format.init; dsimp only; split <;> rfl
      rw [this]; exact hL.equal_refl c

/-- Technical metadata is equal exactly when the boxing formats are both missing or have equal
    configurations (nothing else of them counts), and the lists are equal. -/
theorem C50_equal_iff (a b : TechMeta L) :
    TechMeta.equal (some a) (some b) = true ↔
      ((a.format = none ∧ b.format = none) ∨ ∃ f g, a.format = some f ∧ b.format = some g ∧ L.isEqual f.config g.config = true) ∧
      Files.equal a.tocs b.tocs = true ∧ Files.equal a.apps b.apps = true := by
  obtain ⟨f, x, y⟩ := a
  obtain ⟨g, u, v⟩ := b
  cases f <;> cases g <;> simp [TechMeta.equal, ptrEqual, TechMeta.eqFields, and_assoc]

/-- When loading answers success: the element and a `BoxerFormat` in it are there, and the `Tocs`, if
    there are any, can be loaded.  Nothing else counts. -/
theorem C50_load_success_iff (t : TechMeta L) (node : Node) :
    (t.loadXml node).1 = true ↔ ∃ n, find node (b! "TechnicalMetadata") = some n ∧ find n (b! "BoxerFormat") ≠ none ∧
      ∀ x, find n (b! "Tocs") = some x → (Files.create.loadXml x).1 = true := by
  unfold TechMeta.loadXml
  cases hn : find node (b! "TechnicalMetadata") with
  | none => simp
  | some n =>
    dsimp only
    cases hb : find n (b! "BoxerFormat") with
    | none => simp [hb]
    | some b =>
      dsimp only
      cases ht : find n (b! "Tocs") with
      | none => simp [TechMeta.loadTocs, hb, ht]
      | some x =>
        rcases hq : Files.create.loadXml x with ⟨_ | _, q⟩
        · simp [TechMeta.loadTocs, ht, hq]
        · simp [TechMeta.loadTocs, hb, ht, hq]

theorem tech_loaded {t : TechMeta L} {node n b : Node} (h : find node (b! "TechnicalMetadata") = some n)
    (hb : find n (b! "BoxerFormat") = some b) (hs : (t.loadXml node).1 = true) :
    ∃ u : TechMeta L, u.format = TechMeta.loadFormat b ∧ u.apps = t.apps ∧
      (t.loadXml node).2 = u.loadApps (find n (b! "Applications")) := by
  unfold TechMeta.loadXml at hs ⊢
  rw [h] at hs ⊢
  dsimp only at hs ⊢
  rw [hb] at hs ⊢
  dsimp only at hs ⊢
  cases ht : find n (b! "Tocs") with
  | none => exact ⟨{ t with format := TechMeta.loadFormat b }, rfl, rfl, rfl⟩
  | some y =>
    rw [ht] at hs
    rcases hq : Files.create.loadXml y with ⟨_ | _, q⟩
    · simp [TechMeta.loadTocs, hq] at hs
    · refine ⟨{ t with format := TechMeta.loadFormat b, tocs := some q }, rfl, rfl, ?_⟩
      simp [TechMeta.loadTocs, hq]

/-- Applications that cannot be loaded are dropped without a word: the answer is success and there are no
    applications (src/technicalmetadata.c:556-571). -/
theorem C50_applications_dropped (t : TechMeta L) (node n x : Node) (h : find node (b! "TechnicalMetadata") = some n)
    (ha : find n (b! "Applications") = some x) (hx : (Files.create.loadXml x).1 = false) (hs : (t.loadXml node).1 = true) :
    (t.loadXml node).2.apps = none := by
  obtain ⟨n', e, hb, _⟩ := (C50_load_success_iff t node).mp hs
  rw [h] at e; injection e with e; subst e
  obtain ⟨b, hb⟩ := Option.ne_none_iff_exists'.mp hb
  obtain ⟨u, _, _, e⟩ := tech_loaded h hb hs
  rw [e, ha]
  rcases hq : Files.create.loadXml x with ⟨_ | _, q⟩
  · simp [TechMeta.loadApps, hq]
  · rw [hq] at hx; cases hx

/-- A boxing format that cannot be loaded is dropped the same way (src/technicalmetadata.c:530-536). -/
theorem C50_format_dropped (t : TechMeta L) (node n b : Node) (h : find node (b! "TechnicalMetadata") = some n)
    (hb : find n (b! "BoxerFormat") = some b) (hx : find b (b! "NULL") = none ∧ find b (b! "work") = none)
    (hs : (t.loadXml node).1 = true) : (t.loadXml node).2.format = none := by
  have hl : (TechMeta.loadFormat b : Option (Format L)) = none := by
    unfold TechMeta.loadFormat Format.loadXml
    rw [hx.1, hx.2]; rfl
  obtain ⟨u, hf, _, e⟩ := tech_loaded h hb hs
  rw [e]
  rw [hl] at hf
  unfold TechMeta.loadApps
  split <;> exact hf

/-- When the tables of contents cannot be loaded the answer is failure, and the object has lost its boxing
    format and its tables of contents. -/
theorem C50_tocs_failure (t : TechMeta L) (node n b x : Node) (h : find node (b! "TechnicalMetadata") = some n)
    (hb : find n (b! "BoxerFormat") = some b) (ht : find n (b! "Tocs") = some x) (hx : (Files.create.loadXml x).1 = false) :
    t.loadXml node = (false, ⟨none, none, t.apps⟩) := by
  unfold TechMeta.loadXml
  rcases hq : Files.create.loadXml x with ⟨_ | _, q⟩
  · simp [h, hb, ht, TechMeta.loadTocs, hq]
  · rw [hq] at hx; cases hx

/-! ### C51 -/

/-- The round trip with the loaded boxing format named. -/
theorem control_roundtrip {c : ControlData L} {a : Admin} {t : TechMeta L} {f : Format L} (hadm : c.admin = some a) (has : a.storable)
    (htech : c.tech = some t) (hf : t.format = some f) (hfs : f.storable) (hw : t.writable) (before : ControlData L) (compact : Bool) :
    (∃ s, c.saveString compact = some s ∧ before.loadString s =
      (true, ⟨some a, some ⟨some (TechMeta.loadedFormat f), t.tocs.map Files.asLoaded, t.apps.map Files.asLoaded⟩⟩)) ∧
    (∃ s, c.saveFile compact = (true, some s) ∧ before.loadFile s =
      (true, ⟨some a, some ⟨some (TechMeta.loadedFormat f), t.tocs.map Files.asLoaded, t.apps.map Files.asLoaded⟩⟩)) := by
  obtain ⟨_, ⟨x, hx, hxw⟩, ha⟩ := hw
  have ht : ∀ y, t.tocs = some y → ∀ z ∈ y.list, z.writable := by
    intro y hy; rw [hx] at hy; injection hy with hy; subst hy; exact hxw
  have hc : c.complete = true := by simp [ControlData.complete, hadm, htech]
  have hs : c.saveXml = some [a.node, TechMeta.nodeOf f t.tocs t.apps] := by
    unfold ControlData.saveXml
    rw [hadm, htech]
    simp only [Option.bind_some, Admin.saveXml_eq, TechMeta.saveXml_eq hf ht ha, Option.map_some]
  have hd : ControlData.document [a.node, TechMeta.nodeOf f t.tocs t.apps] =
      .elem xmlDecl [] [a.node, TechMeta.nodeOf f t.tocs t.apps] := rfl
  have hsav : ∀ n ∈ [a.node, TechMeta.nodeOf f t.tocs t.apps], Savable n := by
    intro n hn
    simp only [List.mem_cons, List.not_mem_nil, or_false] at hn
    rcases hn with rfl | rfl
    · exact Admin.node_savable has
    · exact TechMeta.nodeOf_savable hfs ht ha
  obtain ⟨⟨T1, h1, r1⟩, ⟨T2, h2, r2⟩⟩ := read_documents (spaceCb_if controlCb_space compact) (by simp) hsav
  unfold ControlData.saveString ControlData.saveFile ControlData.loadString ControlData.loadFile loadFromString loadFromFile
  rw [hc, hs]
  simp only [Bool.true_eq_false, if_false]
  rw [hd, saveAlloc_elem]
  refine ⟨⟨_, rfl, ?_⟩, ⟨_, rfl, ?_⟩⟩
  · rw [if_neg (by
      intro e
      exact saveText_ne _ _ _ _ _ (List.length_eq_zero_iff.mp e)), h1]
    exact ControlData.loadXml_of has hfs ht ha before r1
  · rw [h2]
    exact ControlData.loadXml_of has hfs ht ha before r2

/-- Every writable control data, compact or indented, through a string or a file, is loaded with the same
    administrative metadata, an equal boxing format and the files of both lists in order.  Nothing is left of what
    the object held before. -/
theorem C51_roundtrip_general (hL : LawfulConfig L) (c : ControlData L) (h : c.writable) (before : ControlData L) (compact : Bool) :
    ∃ (a : Admin) (t : TechMeta L) (g : Format L), c.admin = some a ∧ c.tech = some t ∧ Format.equal t.format (some g) = true ∧
      (∃ s, c.saveString compact = some s ∧
        before.loadString s = (true, ⟨some a, some ⟨some g, t.tocs.map Files.asLoaded, t.apps.map Files.asLoaded⟩⟩)) ∧
      (∃ s, c.saveFile compact = (true, some s) ∧
        before.loadFile s = (true, ⟨some a, some ⟨some g, t.tocs.map Files.asLoaded, t.apps.map Files.asLoaded⟩⟩)) := by
  obtain ⟨⟨a, hadm, has⟩, t, htech, ⟨f, hf, hfs⟩, hrest⟩ := h
  refine ⟨a, t, TechMeta.loadedFormat f, hadm, htech, ?_, control_roundtrip hadm has htech hf hfs ⟨⟨f, hf, hfs⟩, hrest⟩ before compact⟩
  rw [hf]; exact TechMeta.loadedFormat_equal hL hfs

/-- Storable control data is loaded as an equal one. -/
theorem C51_roundtrip (hL : LawfulConfig L) (c : ControlData L) (h : c.storable) (before : ControlData L) (compact : Bool) :
    ∃ d, ControlData.equal (some c) (some d) = true ∧
      (∃ s, c.saveString compact = some s ∧ before.loadString s = (true, d)) ∧
      (∃ s, c.saveFile compact = (true, some s) ∧ before.loadFile s = (true, d)) := by
  obtain ⟨⟨a, hadm, has⟩, t, htech, ⟨f, hf, hfs⟩, ⟨x, hx, hxs⟩, ha⟩ := h
  have hw : c.writable := ⟨⟨a, hadm, has⟩, t, htech, ⟨f, hf, hfs⟩, ⟨x, hx, fun y hy => (hxs.2 y hy).1⟩, fun y hy z hz => ((ha y hy).2 z hz).1⟩
  obtain ⟨a', t', g, e1, e2, h1, h3, h4⟩ := C51_roundtrip_general hL c hw before compact
  rw [hadm] at e1; injection e1 with e1; subst e1
  rw [htech] at e2; injection e2 with e2; subst e2
  refine ⟨_, ?_, h3, h4⟩
  rw [hf] at h1
  have hce : L.isEqual f.config g.config = true := by
    simp only [Format.equal, ptrEqual, Format.eqFields, Bool.and_eq_true] at h1
    exact h1.1.1.1.1.1.1.1.1.1.1.1
  have f1 : t.tocs.map Files.asLoaded = t.tocs := by rw [hx, Option.map_some, Files.asLoaded_of hxs]
  have f2 : t.apps.map Files.asLoaded = t.apps := by
    cases hy : t.apps with
    | none => rfl
    | some y => rw [Option.map_some, Files.asLoaded_of (ha y hy)]
  simp only [ControlData.equal, ptrEqual, ControlData.eqFields, hadm, htech, Bool.and_eq_true]
  refine ⟨(C48_equal_iff _ _).mpr rfl, ?_⟩
  rw [f1, f2]
  simp only [TechMeta.equal, ptrEqual, TechMeta.eqFields, hf, Bool.and_eq_true]
  exact ⟨⟨hce, C04_files_equivalence.refl _⟩, C04_files_equivalence.refl _⟩

/-- Without one of the two parts nothing is saved, and no file is made.  The same when the technical
    metadata has no boxing format. -/
theorem C51_incomplete_refused (c : ControlData L) (h : c.admin = none ∨ c.tech = none ∨ ∃ t, c.tech = some t ∧ t.format = none)
    (compact : Bool) : c.saveString compact = none ∧ c.saveFile compact = (false, none) := by
  unfold ControlData.saveString ControlData.saveFile
  have : c.complete = false ∨ c.saveXml = none := by
    rcases h with h | h | ⟨t, h, h'⟩
    · left; simp [ControlData.complete, h]
    · left; simp [ControlData.complete, h]
    · right
      unfold ControlData.saveXml
      rw [h]
      have : t.saveXml = none := by unfold TechMeta.saveXml; rw [h']
      simp only [Option.bind_some, this, Option.map_none]
      cases c.admin.bind Admin.saveXml <;> rfl
  rcases this with h | h
  · simp [h]
  · rw [h]; constructor <;> split <;> rfl

/-- A copy is equal to the original. -/
theorem C51_clone_equal (hL : LawfulConfig L) (c : ControlData L) : ControlData.equal (some c) (some c.clone) = true := by
  obtain ⟨a, t⟩ := c
  simp only [ControlData.equal, ptrEqual, ControlData.eqFields, ControlData.clone, Bool.and_eq_true]
  constructor
  · rw [C48_equal_iff]
    cases a with
    | none => rfl
    | some a => rw [Option.map_some, (C48_clone a).1]
  · cases t with
    | none => rfl
    | some t => exact C50_clone_equal hL t

/-- Control data is equal exactly when both parts are. -/
theorem C51_equal_iff (a b : ControlData L) :
    ControlData.equal (some a) (some b) = true ↔ a.admin = b.admin ∧ TechMeta.equal a.tech b.tech = true := by
  simp only [ControlData.equal, ptrEqual, ControlData.eqFields, Bool.and_eq_true, C48_equal_iff]

/-- Loading answers success exactly when both elements are somewhere in the document: whether the
    technical metadata could be loaded does not count (src/controldata.c:494). -/
theorem C51_load_success_iff (c : ControlData L) (node : Node) :
    (c.loadXml node).1 = true ↔
      find node (b! "AdministrativeMetadata") ≠ none ∧ find node (b! "TechnicalMetadata") ≠ none := by
  unfold ControlData.loadXml
  cases h1 : find node (b! "AdministrativeMetadata") with
  | none => simp
  | some a =>
    cases h2 : find node (b! "TechnicalMetadata") with
    | none => simp
    | some t => simp

/-- So technical metadata that cannot be loaded gives success and technical metadata without anything. -/
theorem C51_technical_failure_hidden (c : ControlData L) (node n : Node)
    (h1 : find node (b! "AdministrativeMetadata") ≠ none) (h2 : find node (b! "TechnicalMetadata") = some n)
    (h3 : find n (b! "BoxerFormat") = none) :
    (c.loadXml node).1 = true ∧ (c.loadXml node).2.tech = some ⟨none, none, none⟩ := by
  unfold ControlData.loadXml
  cases h : find node (b! "AdministrativeMetadata") with
  | none => exact absurd h h1
  | some a =>
    dsimp only
    rw [h2]
    dsimp only
    unfold TechMeta.loadXml
    rw [h2]
    dsimp only
    rw [h3]
    exact ⟨rfl, rfl⟩

/-- When the technical metadata is missing the answer is failure, but the administrative metadata is
    the one of the document. -/
theorem C51_missing_technical (c : ControlData L) (node n : Node)
    (h1 : find node (b! "AdministrativeMetadata") = some n) (h2 : find node (b! "TechnicalMetadata") = none) :
    c.loadXml node = (false, ⟨some (Admin.create.loadXml node).2, c.tech⟩) := by
  unfold ControlData.loadXml
  rw [h1]
  dsimp only
  rw [h2]

/-- When the administrative metadata is missing the answer is failure and nothing is changed. -/
theorem C51_missing_administrative (c : ControlData L) (node : Node) (h1 : find node (b! "AdministrativeMetadata") = none) :
    c.loadXml node = (false, c) := by
  unfold ControlData.loadXml
  rw [h1]

/-! ### The hypotheses are met -/

noncomputable def exTech : TechMeta exLib := ⟨some exFormat, some ⟨some [exFile]⟩, some ⟨none⟩⟩

theorem exTech_storable : exTech.storable := by
  refine ⟨⟨_, rfl, exFormat_storable⟩, ⟨_, rfl, by decide, ?_⟩, ?_⟩
  · intro y hy
    change y ∈ [exFile] at hy
    simp only [List.mem_cons, List.not_mem_nil, or_false] at hy
    subst hy
    exact exFile_storable
  · intro x hx
    injection hx with hx
    subst hx
    exact ⟨by decide, by intro y hy; cases hy⟩

noncomputable def exControl : ControlData exLib := ⟨some adminExample, some exTech⟩

theorem exControl_storable : exControl.storable := ⟨⟨_, rfl, adminExample_storable⟩, _, rfl, exTech_storable⟩

example : ∃ u, TechMeta.equal (some exTech) (some u) = true ∧ u.tocs = exTech.tocs ∧ u.apps = exTech.apps ∧
    (∃ s, exTech.saveString false = some s ∧ TechMeta.create.loadString s = (true, u)) ∧
    (∃ s, exTech.saveFile false = (true, some s) ∧ TechMeta.create.loadFile s = (true, u)) :=
  C50_roundtrip ExConfig.lawful _ exTech_storable _ rfl _

example : ∃ d, ControlData.equal (some exControl) (some d) = true ∧
    (∃ s, exControl.saveString false = some s ∧ exControl.loadString s = (true, d)) ∧
    (∃ s, exControl.saveFile false = (true, some s) ∧ exControl.loadFile s = (true, d)) :=
  C51_roundtrip ExConfig.lawful _ exControl_storable _ _

/-- A document with applications that cannot be loaded: a `file` element without anything in it. -/
def badAppsDoc : Node := .elem (b! "doc") [] [.elem (b! "TechnicalMetadata") [] [.elem (b! "BoxerFormat") [] [.elem (b! "NULL") [] []],
  .elem (b! "Applications") [] [.elem (b! "file") [] []]]]

example : (TechMeta.loadXml (L := exLib) TechMeta.create badAppsDoc).1 = true ∧
    (TechMeta.loadXml (L := exLib) TechMeta.create badAppsDoc).2.apps = none := by
  have hs : (TechMeta.loadXml (L := exLib) TechMeta.create badAppsDoc).1 = true :=
    (C50_load_success_iff _ _).mpr ⟨_, rfl, (by intro h; cases h), (by intro x h; cases h)⟩
  exact ⟨hs, C50_applications_dropped _ badAppsDoc _ _ rfl rfl (by decide +kernel) hs⟩

example : (ControlData.loadXml (L := exLib) ControlData.create
    (.elem (b! "doc") [] [.elem (b! "AdministrativeMetadata") [] [], .elem (b! "TechnicalMetadata") [] []])).1 = true :=
  (C51_technical_failure_hidden _ _ _ (by intro h; cases h) rfl rfl).1

end Afs
