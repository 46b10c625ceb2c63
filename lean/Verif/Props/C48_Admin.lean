import Verif.Proof.IoAdmin
import Verif.Proof.Equal
import Verif.Props.C26_Toc
/-! # C48: administrative metadata -/
namespace Afs
open Spec Xml

theorem adminCb_space : SpaceCb Admin.cb :=
  cb_white (by
    intro a n w; unfold Admin.cb cbOf; dsimp only
    (repeat' refine all_ite ?_ ?_) <;> first | exact indent_white _ | rfl)

/-- Storable administrative metadata, compact or indented, through a string or a file, loads as itself
    into any object; nothing is left of what the object held before. -/
theorem C48_roundtrip (a : Admin) (h : a.storable) (before : Admin) (compact : Bool) :
    (∃ s, a.saveString compact = some s ∧ before.loadString s = (true, a)) ∧
    (∃ s, a.saveFile compact = (true, some s) ∧ before.loadFile s = (true, a)) := by
  unfold Admin.saveString Admin.saveFile Admin.loadString Admin.loadFile
  rw [Admin.saveXml_eq]
  exact doc_roundtrip adminCb_space compact (by decide) (Admin.node_savable h) _ _ _ fun T hT => by
    obtain ⟨d, h1, h2⟩ := isRead_find_some hT (find_doc (nm := b! "AdministrativeMetadata") (t := a.node) rfl)
    exact Admin.loadXml_of h before h1 h2

/-- Saving works for every object. -/
theorem C48_save_total (a : Admin) (compact : Bool) :
    (∃ s, a.saveString compact = some s ∧ s ≠ []) ∧ (∃ s, a.saveFile compact = (true, some s) ∧ s ≠ []) := by
  unfold Admin.saveString Admin.saveFile docString docFile
  rw [Admin.saveXml_eq]
  simp only [newXML_addChild]
  rw [saveAlloc_elem]
  exact ⟨⟨_, rfl, saveText_ne _ _ _ _ _⟩, ⟨_, rfl, saveText_ne _ _ _ _ _⟩⟩

/-- Two objects are equal exactly when every field is the same; NULL and the empty string differ. -/
theorem C48_equal_iff (a b : Option Admin) : Admin.equal a b = true ↔ a = b := by
  have hs : ∀ x y : Option Bytes, strEqStrict x y = true ↔ x = y := by
    intro x y; cases x <;> cases y <;> simp [strEqStrict]
  cases a with
  | none => cases b <;> simp [Admin.equal, ptrEqual]
  | some a =>
    cases b with
    | none => simp [Admin.equal, ptrEqual]
    | some b =>
      obtain ⟨a1, a2, a3, a4, a5, a6⟩ := a
      obtain ⟨b1, b2, b3, b4, b5, b6⟩ := b
      simp only [Admin.equal, ptrEqual, Admin.eqFields, Bool.and_eq_true, hs, Option.some.injEq, Admin.mk.injEq]
      constructor
      · rintro ⟨⟨⟨⟨⟨h1, h2⟩, h3⟩, h4⟩, h5⟩, h6⟩; exact ⟨h1, h2, h3, h4, h5, h6⟩
      · rintro ⟨h1, h2, h3, h4, h5, h6⟩; exact ⟨⟨⟨⟨⟨h1, h2⟩, h3⟩, h4⟩, h5⟩, h6⟩

/-- A copy, and an object made from the six strings of another, hold the same texts. -/
theorem C48_clone (a : Admin) :
    a.clone = a ∧ Admin.create2 a.reelId a.printReelId a.title a.description a.creator a.creationDate = a := by
  obtain ⟨a1, a2, a3, a4, a5, a6⟩ := a
  simp [Admin.clone, Admin.create2, strClone]

/-- After any history of setter calls each field holds the value given last for it, and what it held
    before when there was none. -/
theorem C48_setters (h : List (AdminField × Option Bytes)) (a : Admin) (f : AdminField) :
    f.get (h.foldl (fun a x => x.1.call a x.2) a) = lastGiven f (f.get a) h := by
  induction h generalizing a with
  | nil => rfl
  | cons x h ih =>
    obtain ⟨g, v⟩ := x
    rw [List.foldl_cons, ih]
    unfold lastGiven
    rw [List.filter_cons]
    have hget : f.get (g.call a v) = if g = f then v else f.get a := by
      cases f <;> cases g <;> rfl
    by_cases hgf : g = f
    · rw [hget, if_pos hgf]
      simp only [hgf, if_true, decide_true]
      rw [List.getLast?_cons]
      cases (h.filter fun x => x.1 = f).getLast? <;> rfl
    · simp only [hget, hgf, if_false, decide_false, Bool.false_eq_true]

/-- A text that is not XML, or has no such element, is refused and the object stays as it was. -/
theorem C48_load_refused (a : Admin) (s : Bytes)
    (h : ∀ d, Xml.loadString s = some d → find d (b! "AdministrativeMetadata") = none) :
    a.loadString s = (false, a) := by
  unfold Admin.loadString loadFromString
  split
  · rfl
  · cases hd : Xml.loadString s with
    | none => rfl
    | some d => simp [Admin.loadXml, h d hd]

theorem C48_load_file_refused (a : Admin) (s : Bytes)
    (h : ∀ d, Xml.loadFile s = some d → find d (b! "AdministrativeMetadata") = none) :
    a.loadFile s = (false, a) := by
  unfold Admin.loadFile loadFromFile
  cases hd : Xml.loadFile s with
  | none => rfl
  | some d => simp [Admin.loadXml, h d hd]

/-- Whatever is loaded, no field is left from before: two objects that load the same text with success
    are the same afterwards. -/
theorem C48_load_replaces (a b : Admin) (s : Bytes) (h : (a.loadString s).1 = true) : b.loadString s = a.loadString s := by
  unfold Admin.loadString loadFromString at *
  split
  · rename_i hs; rw [if_pos hs] at h; cases h
  · rename_i hs
    rw [if_neg hs] at h
    cases hd : Xml.loadString s with
    | none => rw [hd] at h; cases h
    | some d =>
      rw [hd] at h
      simp only [Admin.loadXml] at h ⊢
      cases hf : find d (b! "AdministrativeMetadata") with
      | none => rw [hf] at h; cases h
      | some n => rfl

/-! ### The hypotheses are met -/

def adminExample : Admin :=
  ⟨some (b! "r1"), none, some (b! "A <title> & more"), some [], some (b! "x"), some (b! "2020-01-01")⟩

theorem adminExample_storable : adminExample.storable := by
  intro s hs
  simp only [adminExample, List.mem_cons, List.not_mem_nil, or_false] at hs
  rcases hs with rfl | rfl | rfl | rfl | rfl | rfl
  · exact .inr (textField_ascii (by decide))
  · exact .inr textField_none
  · exact .inr (textField_ascii (by decide))
  · exact .inl rfl
  · exact .inr (textField_ascii (by decide))
  · exact .inr (textField_ascii (by decide))

example : ∃ s, adminExample.saveString false = some s ∧ Admin.create.loadString s = (true, adminExample) :=
  (C48_roundtrip adminExample adminExample_storable _ _).1

example : Admin.equal (some { adminExample with title := none }) (some { adminExample with title := some [] }) = false := by decide

example : lastGiven .title none [(.title, some [65]), (.creator, none), (.title, some [66])] = some [66] := by decide

set_option maxRecDepth 100000 in
/-- Outside the storable values: spaces around a text are lost, so the text that is loaded differs
    from the one that was saved. -/
theorem C48_spaces_trimmed :
    ∃ s, ({ adminExample with title := some (b! " A ") }).saveString true = some s ∧
      Admin.create.loadString s = (true, { adminExample with title := some (b! "A") }) :=
  ⟨_, rfl, by decide +kernel⟩

set_option maxRecDepth 100000 in
example : adminExample.loadString (b! "<other/>") = (false, adminExample) :=
  by decide +kernel

end Afs
