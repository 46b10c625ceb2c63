import Verif.Spec.BuiltControl
import Verif.Props.C87_Built
import Mathlib.Tactic.Tauto
/-! # C88: control data built from clean arguments survives saving and loading -/
namespace Afs
open Spec Xml Keep

variable {L : ConfigLib}

/-- What every history of calls with clean arguments keeps. -/
def ControlTidy : ControlObj L → Prop
  | .admin a => a.storable
  | .format f => f.storable
  | .tech t => TechHeld t
  | .control c => (∀ a, c.admin = some a → a.storable) ∧ ∀ t, c.tech = some t → TechHeld t

theorem arg_storable {s : Option Bytes} (h : CleanArg s) : s = some [] ∨ TextField s := by
  cases s with
  | none => exact .inr (fun _ e => nomatch e)
  | some t =>
    by_cases ht : t = []
    · exact .inl (by rw [ht])
    · refine .inr fun u e => ?_
      cases e
      exact ⟨(h t rfl).1, ht, (h t rfl).2⟩

theorem files_held {x : Option Files} (h : BuiltFiles x) : ∀ y, x = some y → VecAll (fun z => z.isValid = true ∧ FileHeld z) y.tocs :=
  fun y e => tidy (h y e)

theorem clone_framed {f : Format L} (hf : f.storable) (h : ∀ c, f.config = some c → L.frame c ≠ none) : f.clone = f := by
  obtain ⟨e, -⟩ := hf
  cases hc : f.config with
  | none =>
    rw [hc] at e
    rw [e]; rfl
  | some c =>
    have hfr := h c hc
    rw [hc] at e
    rw [e]
    unfold Format.clone Format.create2 Format.init
    dsimp only
    cases hx : L.frame c with
    | none => exact absurd hx hfr
    | some fr => rfl

/-- One field of administrative metadata is set to a clean text. -/
theorem admin_set {a b : Admin} {s : Option Bytes} (h : a.storable) (hs : CleanArg s)
    (e : ∀ x ∈ [b.reelId, b.printReelId, b.title, b.description, b.creator, b.creationDate],
      x ∈ [a.reelId, a.printReelId, a.title, a.description, a.creator, a.creationDate] ∨ x = s) : b.storable := by
  intro x hx
  rcases e x hx with h' | rfl
  · exact h x h'
  · exact arg_storable hs

theorem admin_clone (a : Admin) : a.clone = a := rfl

theorem tech_clone_held {t : TechMeta L} (h : TechHeld t) : TechHeld t.clone := by
  refine ⟨?_, ?_, ?_⟩
  · intro f e
    unfold TechMeta.clone at e
    cases hf : t.format with
    | none => rw [hf] at e; cases e
    | some g =>
      rw [hf] at e
      cases e
      have hg := h.1 g hf
      dsimp only
      rw [← hg.1]
      exact hg
  · intro x e
    unfold TechMeta.clone at e
    cases hf : t.tocs with
    | none => rw [hf] at e; cases e
    | some g => rw [hf] at e; cases e; rw [files_clone]; exact h.2.1 g hf
  · intro x e
    unfold TechMeta.clone at e
    cases hf : t.apps with
    | none => rw [hf] at e; cases e
    | some g => rw [hf] at e; cases e; rw [files_clone]; exact h.2.2 g hf

theorem format_made {c : Option L.Config} (h : CleanConfig c) : (Format.create2 c).storable := by
  have e : (Format.create2 c).config = c := by
    unfold Format.create2 Format.init Format.empty
    cases c with
    | none => rfl
    | some d => dsimp only; cases L.frame d <;> rfl
  refine ⟨by rw [e], ?_⟩
  rw [e]
  exact h

theorem control_load_tidy (hL : LawfulConfig L) {c : ControlData L} (h : ControlTidy (.control c)) {n : Node} (hn : CleanDoc n) (ha : NoAliases n) :
    ControlTidy (.control (c.loadXml n).2) := by
  unfold ControlData.loadXml
  split
  · exact h
  · dsimp only
    have hadm : (Admin.create.loadXml n).2.storable := Admin.loadXml_storable hn Admin.create_storable
    split
    · exact ⟨(fun a e => by injection e with e; subst e; exact hadm), h.2⟩
    · exact ⟨(fun a e => by injection e with e; subst e; exact hadm), (fun t e => by
        injection e with e; subst e; exact TechMeta.loadXml_held hL hn ha TechHeld.create)⟩

theorem control_tidy (hL : LawfulConfig L) {o : ControlObj L} (h : BuiltControl o) : ControlTidy o := by
  induction h with
  | adminNew => exact Admin.create_storable
  | adminNew2 h1 h2 h3 h4 h5 h6 =>
    intro s hs
    simp only [Admin.create2, strClone, List.mem_cons, List.not_mem_nil, or_false] at hs
    rcases hs with rfl | rfl | rfl | rfl | rfl | rfl <;> exact arg_storable (by assumption)
  | adminReelId _ h1 ih =>
    exact admin_set ih h1 (by intro x hx; simp only [Admin.setReelId, strClone, List.mem_cons, List.not_mem_nil, or_false] at hx ⊢; tauto)
  | adminPrintReelId _ h1 ih =>
    exact admin_set ih h1 (by intro x hx; simp only [Admin.setPrintReelId, strClone, List.mem_cons, List.not_mem_nil, or_false] at hx ⊢; tauto)
  | adminTitle _ h1 ih =>
    exact admin_set ih h1 (by intro x hx; simp only [Admin.setTitle, strClone, List.mem_cons, List.not_mem_nil, or_false] at hx ⊢; tauto)
  | adminDescription _ h1 ih =>
    exact admin_set ih h1 (by intro x hx; simp only [Admin.setDescription, strClone, List.mem_cons, List.not_mem_nil, or_false] at hx ⊢; tauto)
  | adminCreator _ h1 ih =>
    exact admin_set ih h1 (by intro x hx; simp only [Admin.setCreator, strClone, List.mem_cons, List.not_mem_nil, or_false] at hx ⊢; tauto)
  | adminCreationDate _ h1 ih =>
    exact admin_set ih h1 (by intro x hx; simp only [Admin.setCreationDate, strClone, List.mem_cons, List.not_mem_nil, or_false] at hx ⊢; tauto)
  | adminClone _ ih => exact ih
  | adminXml _ hn ih => exact Admin.loadXml_storable hn ih
  | adminOf _ e ih => exact ih.1 _ e
  | formatNew => exact Format.null_storable
  | formatNew2 h => exact format_made h
  | formatConfig _ h ih => exact format_made h
  | formatClone _ h ih => rw [ControlTidy, clone_framed ih h]; exact ih
  | formatXml _ hn ha ih => exact Format.loadXml_storable hL hn ha ih
  | formatOf _ e ih => exact ih.1 _ e
  | techNew => exact TechHeld.create
  | techNew2 hx hf ih => exact ⟨ih, files_held hx, (fun _ h => nomatch h)⟩
  | techFormat _ hf ih1 ih2 => exact ⟨ih2, ih1.2⟩
  | techTocs _ hx ih => exact ⟨ih.1, files_held hx, ih.2.2⟩
  | techApps _ hx ih => exact ⟨ih.1, ih.2.1, files_held hx⟩
  | techClone _ ih => exact tech_clone_held ih
  | techXml _ hn ha ih => exact TechMeta.loadXml_held hL hn ha ih
  | techOf _ e ih => exact ih.2 _ e
  | controlNew => exact ⟨(fun _ h => nomatch h), (fun _ h => nomatch h)⟩
  | controlNew2 _ _ ih1 ih2 => exact ⟨ih1, ih2⟩
  | controlClone _ ih =>
    refine ⟨?_, ?_⟩
    · intro a e
      obtain ⟨x, hx, rfl⟩ := Option.map_eq_some_iff.mp (show Option.map Admin.clone _ = some a from e)
      exact ih.1 x hx
    · intro t e
      obtain ⟨x, hx, rfl⟩ := Option.map_eq_some_iff.mp (show Option.map TechMeta.clone _ = some t from e)
      exact tech_clone_held (ih.2 x hx)
  | controlXml _ hn ha ih => exact control_load_tidy hL ih hn ha

/-! ### Saving and loading for ever -/

theorem survives_tech (hL : LawfulConfig L) {x : TechMeta L} (hw : x.writable) : Survives (techWay L) x (TechCopy x) := by
  have step : ∀ y, y.writable ∧ TechCopy x y → ∀ i, ∃ s z, (techWay L i).save y = some s ∧ (techWay L i).load s = some z ∧ z.writable ∧ TechCopy x z := by
    rintro y ⟨hy, hc⟩ ⟨c, fl⟩
    obtain ⟨f, hf, hfs⟩ := hy.1
    have hz := techCopy_next hL hw hy hf hfs hc
    obtain ⟨⟨s, a1, a2⟩, ⟨t, b1, b2⟩⟩ := tech_roundtrip hf hfs hy TechMeta.create c
    rw [show (TechMeta.create (L := L)).apps = none from rfl, Option.or_none] at a2 b2
    cases fl with
    | false => exact ⟨s, _, a1, by simp only [techWay, Bool.false_eq_true, if_false, loaded]; rw [a2]; rfl, hz⟩
    | true => exact ⟨t, _, by simp only [techWay, if_true, written]; rw [b1]; rfl, by simp only [techWay, if_true, loaded]; rw [b2]; rfl, hz⟩
  exact survives_of (P := fun y => y.writable ∧ TechCopy x y) ⟨hw, techCopy_refl hL hw⟩ (fun _ h => h.2) step

theorem survives_control (hL : LawfulConfig L) {x : ControlData L} {adm : Admin} {t : TechMeta L} (e1 : x.admin = some adm) (e2 : adm.storable)
    (ht : x.tech = some t) (hw : t.writable) :
    Survives (controlWay L) x fun y => y.admin = x.admin ∧ ∃ u, y.tech = some u ∧ TechCopy t u := by
  have step : ∀ y, (y.admin = x.admin ∧ ∃ u, y.tech = some u ∧ u.writable ∧ TechCopy t u) → ∀ i, ∃ s z, (controlWay L i).save y = some s ∧
      (controlWay L i).load s = some z ∧ z.admin = x.admin ∧ ∃ u, z.tech = some u ∧ u.writable ∧ TechCopy t u := by
    rintro y ⟨hy1, u, hy2, hu, hc⟩ ⟨c, fl⟩
    obtain ⟨f, hf, hfs⟩ := hu.1
    have hz := techCopy_next hL hw hu hf hfs hc
    rw [e1] at hy1
    obtain ⟨⟨s, a1, a2⟩, ⟨t, b1, b2⟩⟩ := control_roundtrip hy1 e2 hy2 hf hfs hu ControlData.create c
    cases fl with
    | false => exact ⟨s, _, a1, by simp only [controlWay, Bool.false_eq_true, if_false, loaded]; rw [a2]; rfl, e1.symm, _, rfl, hz⟩
    | true => exact ⟨t, _, by simp only [controlWay, if_true, written]; rw [b1]; rfl, by simp only [controlWay, if_true, loaded]; rw [b2]; rfl, e1.symm, _, rfl, hz⟩
  exact survives_of (P := fun y => y.admin = x.admin ∧ ∃ u, y.tech = some u ∧ u.writable ∧ TechCopy t u) ⟨rfl, t, ht, hw, techCopy_refl hL hw⟩
    (fun _ h => ⟨h.1, h.2.choose, h.2.choose_spec.1, h.2.choose_spec.2.2⟩) step

/-- Administrative metadata: every copy is the same. -/
theorem C88_admin (hL : LawfulConfig L) {a : Admin} (h : BuiltControl (L := L) (.admin a)) : Settles adminWay a a := by
  have hs : a.storable := control_tidy hL h
  refine settles_of (P := fun y => y = a) rfl rfl ?_
  rintro y rfl ⟨c, f⟩
  obtain ⟨⟨s, a1, a2⟩, ⟨t, b1, b2⟩⟩ := C48_roundtrip _ hs Admin.create c
  cases f with
  | false => exact ⟨s, a1, by simp only [adminWay, Bool.false_eq_true, if_false, loaded]; rw [a2]; rfl⟩
  | true => exact ⟨t, by simp only [adminWay, if_true, written]; rw [b1]; rfl, by simp only [adminWay, if_true, loaded]; rw [b2]; rfl⟩

/-- Boxing formats: every copy is equal and has the same classes and settings. -/
theorem C88_format (hL : LawfulConfig L) {x : Format L} (h : BuiltControl (.format x)) :
    Survives (formatWay L) x fun y => Format.equal (some x) (some y) = true ∧ SameFormat x y := by
  have hs : x.storable := control_tidy hL h
  refine survives_of (P := fun y => y.storable ∧ SameFormat x y) ⟨hs, .refl x⟩ (fun y h => ⟨h.2.equal hL hs h.1, h.2⟩) ?_
  rintro y ⟨h1, h2⟩ ⟨c, f⟩
  obtain ⟨⟨s, a1, a2⟩, ⟨t, b1, b2⟩⟩ := format_roundtrip h1 Format.create c
  refine f.casesOn ⟨s, TechMeta.loadedFormat y, a1, ?_, loadedFormat_storable hL h1, h2.trans (loadedFormat_same hL h1)⟩
    ⟨t, TechMeta.loadedFormat y, ?_, ?_, loadedFormat_storable hL h1, h2.trans (loadedFormat_same hL h1)⟩
  · simp only [formatWay, Bool.false_eq_true, if_false, loaded]; rw [a2]; rfl
  · simp only [formatWay, if_true, written]; rw [b1]; rfl
  · simp only [formatWay, if_true, loaded]; rw [b2]; rfl

/-- Technical metadata with a format and a list of tables of contents. -/
theorem C88_technical (hL : LawfulConfig L) {x : TechMeta L} (h : BuiltControl (.tech x)) (h1 : x.format ≠ none) (h2 : x.tocs ≠ none)
    (hk : ∀ l, x.tocs = some l ∨ x.apps = some l → ∀ f ∈ l.list, FileKept f) : Survives (techWay L) x (TechCopy x) :=
  survives_tech hL ((control_tidy hL h : TechHeld x).writable h1 h2 hk)

/-- Control data with both parts, technical metadata with a format and a list of tables of contents: however often they are saved and
    loaded, administrative metadata are what they were and technical metadata are copies. -/
theorem C88_control (hL : LawfulConfig L) {x : ControlData L} (h : BuiltControl (.control x)) {a : Admin} (ha : x.admin = some a)
    {t : TechMeta L} (ht : x.tech = some t) (h1 : t.format ≠ none) (h2 : t.tocs ≠ none)
    (hk : ∀ l, t.tocs = some l ∨ t.apps = some l → ∀ f ∈ l.list, FileKept f) :
    Survives (controlWay L) x fun y => y.admin = x.admin ∧ ∃ u, y.tech = some u ∧ TechCopy t u := by
  have hh : (∀ a, x.admin = some a → a.storable) ∧ ∀ t, x.tech = some t → TechHeld t := control_tidy hL h
  exact survives_control hL ha (hh.1 a ha) ht ((hh.2 t ht).writable h1 h2 hk)

/-! ### Non-vacuity -/

/-- Administrative metadata, a boxing format and a list with the file of C87 on it. -/
noncomputable def builtControl : ControlData exLib :=
  ControlData.create2 (some ((Admin.create2 (some (b! "r1")) none (some []) none (some (b! "me")) none).setDescription (some (b! "a & b"))))
    (some (TechMeta.create2 (some (Files.create.addToc (some builtFile)).2) (some exFormat)))

theorem builtControl_built : BuiltControl (.control builtControl) := by
  refine .controlNew2 ?_ ?_
  · intro x e
    cases e
    exact .adminDescription (.adminNew2 (cleanArg_ascii (by decide)) (fun _ e => nomatch e)
      (by intro t e; cases e; exact ⟨clean_ascii (by decide), by simp [Trimmed]⟩) (fun _ e => nomatch e)
      (cleanArg_ascii (by decide)) (fun _ e => nomatch e)) (cleanArg_ascii (by decide))
  · intro x e
    cases e
    refine .techNew2 ?_ ?_
    · intro y e
      cases e
      exact .filesAdd .filesNew built_file
    · intro g e
      cases e
      exact .formatNew2 exFormat_storable.2

example : ∃ t, builtControl.tech = some t ∧ (∃ l, t.tocs = some l ∧ l.list = [builtFile]) ∧
    Survives (controlWay exLib) builtControl fun y => y.admin = builtControl.admin ∧ ∃ u, y.tech = some u ∧ TechCopy t u := by
  have hl : (Files.create.addToc (some builtFile)).2 = ⟨some [builtFile]⟩ := by decide +kernel
  refine ⟨_, rfl, ⟨_, rfl, by rw [hl]; rfl⟩, C88_control ExConfig.lawful builtControl_built rfl rfl (by simp [TechMeta.create2]) (by simp [TechMeta.create2]) ?_⟩
  intro l e f hf
  rcases e with e | e
  · cases e
    rw [hl] at hf
    rw [List.mem_singleton.mp (show f ∈ [builtFile] from hf)]
    exact builtFile_kept
  · cases e

end Afs
