import Verif.Proof.Save
import Verif.Model.Io.Layout
import Verif.Spec.Storable
/-! # Layouts: saved trees and what loading makes of them -/
namespace Afs
open Spec Xml

def Section.node (s : Section) : Node :=
  .elem (b! "section") [(b! "id", some (printNat s.id)), (b! "x", some (printNat s.x)), (b! "y", some (printNat s.y)),
    (b! "w", some (printNat s.width)), (b! "h", some (printNat s.height)), (b! "rotation", some (printNat s.rotation))] []

theorem Section.saveXml_eq {s : Section} (h : s.isValid = true) : s.saveXml = some s.node := by
  unfold Section.saveXml
  rw [if_neg (by simp [h])]
  rfl

theorem Section.node_savable (s : Section) : Savable s.node := by
  refine .branch (by decide) ?_ (by simp)
  refine cleanAttrs_cons (by decide) (clean_printNat _) (by simp) ?_
  refine cleanAttrs_cons (by decide) (clean_printNat _) (by simp) ?_
  refine cleanAttrs_cons (by decide) (clean_printNat _) (by simp) ?_
  refine cleanAttrs_cons (by decide) (clean_printNat _) (by simp) ?_
  refine cleanAttrs_cons (by decide) (clean_printNat _) (by simp) ?_
  exact cleanAttrs_cons (by decide) (clean_printNat _) (by simp) cleanAttrs_nil

theorem Section.loadXml_of {s q : Section} (hr : s.inRange) (hv : s.isValid = true) {T d : Node}
    (hT : selfOrFind T (b! "section") = some d) (hd : IsRead d s.node) : q.loadXml T = (true, s) := by
  obtain ⟨h1, h2, h3, h4, h5, h6⟩ := hr
  have e : ∀ a v, s.node.getAttr a = some (printNat v) → IsUInt v → uintAttr d a = some v := by
    intro a v h hv
    unfold uintAttr
    rw [isRead_attr hd, h, Option.map_some, uOfInt_atoi_printNat v hv]
  unfold Section.loadXml
  rw [hT]
  simp only
  rw [e (b! "id") s.id rfl h1]
  simp only
  rw [e (b! "x") s.x rfl h2]
  simp only
  rw [e (b! "y") s.y rfl h3]
  simp only
  rw [e (b! "w") s.width rfl h4]
  simp only
  rw [e (b! "h") s.height rfl h5]
  simp only
  rw [e (b! "rotation") s.rotation rfl h6]
  simp only [hv]

/-! ### Sections -/

def Sections.node (s : Sections) : Node := .elem (b! "sections") [] ((s.sections.getD []).map Section.node)

theorem validLoop_mem {l : List Section} (h : Sections.validLoop l = true) : ∀ x ∈ l, x.isValid = true := by
  induction l with
  | nil => simp
  | cons s l ih =>
    rw [Sections.validLoop] at h
    simp only [Bool.and_eq_true] at h
    intro x hx
    rcases List.mem_cons.mp hx with rfl | hx
    · exact h.1.1
    · exact ih h.2 x hx

theorem validLoop_pairs {l : List Section} (h : Sections.validLoop l = true) :
    l.Pairwise fun a b => Section.isOverlap a b = false := by
  induction l with
  | nil => simp
  | cons s l ih =>
    rw [Sections.validLoop] at h
    simp only [Bool.and_eq_true, List.all_eq_true, Bool.not_eq_true'] at h
    exact List.pairwise_cons.mpr ⟨h.1.2, ih h.2⟩

theorem Sections.valid_list {s : Sections} (h : Sections.isValid (some s) = true) :
    ∃ l, s.sections = some l ∧ l ≠ [] ∧ Sections.validLoop l = true := by
  obtain ⟨o⟩ := s
  cases o with
  | none => simp [Sections.isValid] at h
  | some l =>
    have h' : (if l.length = 0 then false else Sections.validLoop l) = true := h
    split at h'
    · cases h'
    · rename_i hl
      exact ⟨l, rfl, fun e => hl (by simp [e]), h'⟩

theorem Sections.saveXml_eq {s : Sections} (h : Sections.isValid (some s) = true) :
    Sections.saveXml (some s) = some s.node := by
  obtain ⟨l, h1, _, h2⟩ := Sections.valid_list h
  unfold Sections.saveXml Sections.node
  simp only
  rw [if_neg (by simp [h]), h1]
  simp only [Option.getD_some]
  rw [mapM_some (g := Section.node) (fun x hx => Section.saveXml_eq (validLoop_mem h2 x hx))]

theorem Sections.node_savable (s : Sections) : Savable s.node := by
  refine .branch (by decide) cleanAttrs_nil ?_
  intro c hc
  obtain ⟨x, _, rfl⟩ := List.mem_map.mp hc
  exact x.node_savable

theorem section_named (s : Section) : named (b! "section") s.node = true := rfl

theorem admissible_of {x : Section} {l : List Section} (h1 : ∀ c ∈ l, c.id ≠ x.id)
    (h2 : ∀ c ∈ l, Section.isOverlap c x = false) : Sections.admissible x l = true := by
  induction l with
  | nil => rfl
  | cons c l ih =>
    rw [Sections.admissible, if_neg (h1 c (by simp)), if_neg (by simp [h2 c (by simp)])]
    exact ih (fun c hc => h1 c (by simp [hc])) (fun c hc => h2 c (by simp [hc]))

theorem Sections.loadLoop_of {ns : List Node} {l : List Section} (hns : ReadList ns (l.map Section.node)) :
    ∀ (s : Sections) (done : List Section), s.sections.getD [] = done →
    (s.sections = none ∨ s.sections = some done) →
    ((done ++ l).map Section.id).Nodup → (∀ x ∈ l, x.inRange) → Sections.validLoop (done ++ l) = true →
    Sections.loadLoop s ns = (true, if l = [] then s else ⟨some (done ++ l)⟩) := by
  induction l generalizing ns with
  | nil =>
    intro s done _ _ _ _ _
    cases hns
    simp [Sections.loadLoop]
  | cons x l ih =>
    intro s done hs hs' hnd hr hv
    generalize hu : List.map Section.node (x :: l) = us at hns
    cases hns with
    | nil => simp at hu
    | @cons t u ts us' hd hrest =>
    rw [List.map_cons] at hu
    injection hu with hu1 hu2
    subst hu1 hu2
    have hx : x.isValid = true := validLoop_mem hv x (by simp)
    have hself : selfOrFind t (b! "section") = some t := isRead_self hd (section_named x)
    rw [Sections.loadLoop, Section.loadXml_of (q := Section.create) (hr x (by simp)) hx hself hd]
    simp only [Bool.true_eq_false, if_false]
    have hadm : Sections.admissible x done = true := by
      refine admissible_of ?_ ?_
      · intro c hc he
        rw [List.map_append, List.nodup_append] at hnd
        exact hnd.2.2 c.id (List.mem_map_of_mem hc) x.id (by simp) he
      · intro c hc
        have := (List.pairwise_append.mp (validLoop_pairs hv)).2.2 c hc x (by simp)
        exact this
    have happ : s.append (some x) = (true, ⟨some (done ++ [x])⟩) := by
      unfold Sections.append
      simp only [hx, Bool.not_true, Bool.false_eq_true, if_false, hs, hadm]
      rcases hs' with h | h
      · rw [h] at hs ⊢
        simp at hs
        subst hs
        rfl
      · rw [h]; rfl
    rw [happ]
    simp only [Bool.true_eq_false, if_false]
    rw [ih hrest ⟨some (done ++ [x])⟩ (done ++ [x]) rfl (.inr rfl) (by simpa using hnd)
      (fun y hy => hr y (by simp [hy])) (by simpa using hv)]
    by_cases hl : l = []
    · subst hl; simp
    · simp [hl]

theorem Sections.loadXml_of {s : Sections} (hb : s.storable) {T d : Node}
    (hT : selfOrFind T (b! "sections") = some d) (hd : IsRead d s.node) :
    Sections.create.loadXml T = (true, s) := by
  obtain ⟨hv, hnd, hr⟩ := hb
  obtain ⟨l, h1, hne, h2⟩ := Sections.valid_list hv
  have hall := isRead_findAll hd (b! "section")
  have hroots : findAll s.node (b! "section") = l.map Section.node := by
    unfold Sections.node
    rw [h1, findAll_elem]
    apply filter_roots
    intro c hc
    obtain ⟨x, _, rfl⟩ := List.mem_map.mp hc
    exact ⟨rfl, by simp [Section.node, Node.children, namesOf_nil]⟩
  rw [hroots] at hall
  unfold Sections.loadXml
  rw [hT]
  simp only
  rw [h1] at hnd hr
  rw [Sections.loadLoop_of hall Sections.create [] rfl (.inl rfl) (by simpa using hnd) (by simpa using hr) (by simpa using h2)]
  obtain ⟨o⟩ := s
  simp only at h1
  subst h1
  simp [hne]

/-! ### Layout definitions -/

def LayoutDef.node (d : LayoutDef) : Node :=
  .elem (b! "previewLayout") [] (textNode (b! "id") d.id ++ textNode (b! "name") d.name ++
    [match d.sections with | some s => s.node | none => .text []])

theorem LayoutDef.valid_parts {d : LayoutDef} (h : d.isValid = true) :
    ∃ i n s, d = ⟨some i, some n, some s⟩ ∧ i ≠ [] ∧ n ≠ [] ∧ Sections.isValid (some s) = true := by
  obtain ⟨i, n, s⟩ := d
  unfold LayoutDef.isValid at h
  split at h
  · cases h
  · rename_i hh
    cases i with
    | none => simp [nullOrEmpty] at hh
    | some i =>
      cases n with
      | none => simp [nullOrEmpty] at hh
      | some n =>
        cases s with
        | none => simp [Sections.isValid] at hh
        | some s =>
          simp [nullOrEmpty] at hh
          exact ⟨i, n, s, rfl, hh.1.1, hh.1.2, hh.2⟩

theorem LayoutDef.saveXml_eq {d : LayoutDef} (h : d.isValid = true) : d.saveXml = some d.node := by
  unfold LayoutDef.saveXml
  rw [if_neg (by simp [h])]
  obtain ⟨i, n, s, rfl, h1, h2, h3⟩ := LayoutDef.valid_parts h
  simp only
  rw [Sections.saveXml_eq h3]
  rfl

theorem LayoutDef.node_savable {d : LayoutDef} (h : d.storable) : Savable d.node := by
  obtain ⟨hv, h1, h2, _⟩ := h
  obtain ⟨i, n, s, rfl, hi, hn, hs⟩ := LayoutDef.valid_parts hv
  refine .branch (by decide) cleanAttrs_nil ?_
  intro c hc
  simp only [List.mem_append, List.mem_singleton] at hc
  rcases hc with (hc | hc) | hc
  · exact textNode_savable (by decide) h1 c hc
  · exact textNode_savable (by decide) h2 c hc
  · subst hc; exact s.node_savable

theorem sections_names (s : Sections) : ∀ nm ∈ namesOf [s.node], nm = b! "sections" ∨ nm = b! "section" := by
  intro nm h
  unfold Sections.node at h
  rw [namesOf_elem, namesOf_nil, List.append_nil] at h
  rcases List.mem_cons.mp h with h | h
  · exact .inl h
  · rw [mem_namesOf_iff] at h
    obtain ⟨c, hc, h⟩ := h
    obtain ⟨x, _, rfl⟩ := List.mem_map.mp hc
    unfold Section.node at h
    rw [namesOf_elem] at h
    simp [namesOf_nil] at h
    exact .inr h

theorem LayoutDef.loadXml_of {d q : LayoutDef} (hb : d.storable) {T t : Node}
    (hT : selfOrFind T (b! "previewLayout") = some t) (hd : IsRead t d.node) :
    q.loadXml T = (true, d) := by
  obtain ⟨hv, _, _, hs⟩ := hb
  obtain ⟨i, n, s, rfl, hi, hn, hsv⟩ := LayoutDef.valid_parts hv
  have hs := hs s rfl
  have hnode : LayoutDef.node ⟨some i, some n, some s⟩ =
      .elem (b! "previewLayout") [] [.elem (b! "id") [] [.text i], .elem (b! "name") [] [.text n], s.node] := by
    unfold LayoutDef.node
    simp only
    rw [textNode_some hi, textNode_some hn]; rfl
  rw [hnode] at hd
  unfold LayoutDef.loadXml
  rw [hT]
  simp only
  have hid : nodeText (find t (b! "id")) = some i := by
    obtain ⟨x, h1, h2⟩ := isRead_find_some hd (nm := b! "id") (e := .elem (b! "id") [] [.text i]) rfl
    rw [h1]; exact isRead_text h2
  have hname : nodeText (find t (b! "name")) = some n := by
    obtain ⟨x, h1, h2⟩ := isRead_find_some hd (nm := b! "name") (e := .elem (b! "name") [] [.text n]) rfl
    rw [h1]; exact isRead_text h2
  have hsec : ∃ x, selfOrFind t (b! "sections") = some x ∧ IsRead x s.node := by
    refine isRead_selfOrFind hd rfl ?_
    rfl
  obtain ⟨x, h1, h2⟩ := hsec
  rw [Sections.loadXml_of hs h1 h2, hid, hname]

def LayoutDefs.node (d : LayoutDefs) : Node := .elem (b! "layoutDefinitions") [] ((d.defs.getD []).map LayoutDef.node)

theorem LayoutDefs.storable_valid {d : LayoutDefs} (h : d.storable) : LayoutDefs.isValid (some d) = true := by
  obtain ⟨_, _, h⟩ := h
  obtain ⟨o⟩ := d
  cases o with
  | none => rfl
  | some l =>
    simp only [LayoutDefs.isValid, List.all_eq_true]
    exact fun x hx => (h x hx).1

theorem LayoutDefs.saveXml_eq {d : LayoutDefs} (h : d.storable) : LayoutDefs.saveXml (some d) = some d.node := by
  have hv := LayoutDefs.storable_valid h
  unfold LayoutDefs.saveXml LayoutDefs.node
  simp only
  rw [if_neg (by simp [hv]), mapM_some (g := LayoutDef.node) (fun x hx => LayoutDef.saveXml_eq (h.2.2 x hx).1)]

theorem LayoutDefs.node_savable {d : LayoutDefs} (h : d.storable) : Savable d.node := by
  refine .branch (by decide) cleanAttrs_nil ?_
  intro c hc
  obtain ⟨x, hx, rfl⟩ := List.mem_map.mp hc
  exact LayoutDef.node_savable (h.2.2 x hx)

theorem findKey_absent {k : Bytes} {l : List LayoutDef} (h : ∀ d ∈ l, ∃ i, d.id = some i ∧ i ≠ k) :
    LayoutDefs.findKey LayoutDef.id k l = .ok none := by
  induction l with
  | nil => rfl
  | cons d l ih =>
    obtain ⟨i, h1, h2⟩ := h d (by simp)
    rw [LayoutDefs.findKey, h1]
    have : (i == k) = false := by simpa using h2
    simp [strcmpEq, this, ih (fun d hd => h d (by simp [hd]))]

theorem layoutDef_names {d : LayoutDef} (hv : d.isValid = true) : ∀ nm ∈ namesOf d.node.children,
    nm = b! "id" ∨ nm = b! "name" ∨ nm = b! "sections" ∨ nm = b! "section" := by
  obtain ⟨i, n, s, rfl, hi, hn, hsv⟩ := LayoutDef.valid_parts hv
  intro nm h
  unfold LayoutDef.node at h
  simp only [Node.children] at h
  rw [textNode_some hi, textNode_some hn, namesOf_append, namesOf_append, namesOf_elem, namesOf_elem, namesOf_text,
    namesOf_text, namesOf_nil] at h
  simp only [List.append_nil, List.mem_append, List.mem_singleton] at h
  rcases h with (h | h) | h
  · exact .inl h
  · exact .inr (.inl h)
  · exact .inr (.inr (sections_names s nm h))

theorem LayoutDefs.loadLoop_of {ns : List Node} {l : List LayoutDef} (hns : ReadList ns (l.map LayoutDef.node)) :
    ∀ (s : LayoutDefs) (done : List LayoutDef), s.defs.getD [] = done →
    (s.defs = none ∨ s.defs = some done) → (∀ x ∈ done ++ l, x.storable) →
    ((done ++ l).map LayoutDef.id).Nodup →
    LayoutDefs.loadLoop s ns = .ok (true, if l = [] then s else ⟨some (done ++ l)⟩) := by
  induction l generalizing ns with
  | nil =>
    intro s done _ _ _ _
    cases hns
    simp [LayoutDefs.loadLoop]
  | cons x l ih =>
    intro s done hs hs' hb hnd
    generalize hu : List.map LayoutDef.node (x :: l) = us at hns
    cases hns with
    | nil => simp at hu
    | @cons t u ts us' hd hrest =>
    rw [List.map_cons] at hu
    injection hu with hu1 hu2
    subst hu1 hu2
    have hx := hb x (by simp)
    have hself : selfOrFind t (b! "previewLayout") = some t := isRead_self hd rfl
    rw [LayoutDefs.loadLoop, LayoutDef.loadXml_of (q := LayoutDef.create) hx hself hd]
    simp only [Bool.true_eq_false, if_false]
    have hadd : s.add (some x) = .ok (true, ⟨some (done ++ [x])⟩) := by
      obtain ⟨i, n, sec, rfl, hi, hn, hsv⟩ := LayoutDef.valid_parts hx.1
      unfold LayoutDefs.add
      simp only [hx.1, Bool.not_true, Bool.false_eq_true, if_false]
      have : LayoutDefs.has (some s) (some i) = .ok false := by
        unfold LayoutDefs.has
        simp only
        rw [if_neg (by simpa using hi), hs, findKey_absent]
        · rfl
        · intro d hdm
          obtain ⟨i', n', sec', rfl, _, _, _⟩ := LayoutDef.valid_parts (hb d (by simp [hdm])).1
          refine ⟨i', rfl, ?_⟩
          rintro rfl
          rw [List.map_append, List.nodup_append] at hnd
          exact hnd.2.2 (some i')
            (List.mem_map.mpr ⟨⟨some i', some n', some sec'⟩, hdm, rfl⟩) (some i') (by simp) rfl
      rw [this]
      simp only [Res.ok_bind, Bool.false_eq_true, if_false]
      rcases hs' with h | h
      · rw [h] at hs ⊢
        simp at hs
        subst hs
        rfl
      · rw [h]; rfl
    rw [hadd]
    simp only [Res.ok_bind, Bool.true_eq_false, if_false]
    rw [ih hrest ⟨some (done ++ [x])⟩ (done ++ [x]) rfl (.inr rfl) (by simpa using hb) (by simpa using hnd)]
    by_cases hl : l = []
    · subst hl; simp
    · simp [hl]

theorem LayoutDefs.loadXml_of {s : LayoutDefs} (hb : s.storable) {T d : Node}
    (hT : selfOrFind T (b! "layoutDefinitions") = some d) (hd : IsRead d s.node) :
    LayoutDefs.create.loadXml T = .ok (true, s) := by
  obtain ⟨hne, hnd, hall⟩ := hb
  have hfa := isRead_findAll hd (b! "previewLayout")
  have hroots : findAll s.node (b! "previewLayout") = (s.defs.getD []).map LayoutDef.node := by
    unfold LayoutDefs.node
    rw [findAll_elem]
    apply filter_roots
    intro c hc
    obtain ⟨x, hx, rfl⟩ := List.mem_map.mp hc
    refine ⟨rfl, fun h => ?_⟩
    rcases layoutDef_names (hall x hx).1 _ h with h | h | h | h <;> exact absurd h (by decide)
  rw [hroots] at hfa
  unfold LayoutDefs.loadXml
  rw [hT]
  simp only
  rw [LayoutDefs.loadLoop_of hfa LayoutDefs.create [] rfl (.inl rfl) (by simpa using hall) (by simpa using hnd)]
  obtain ⟨o⟩ := s
  cases o with
  | none => rfl
  | some l =>
    have : l ≠ [] := by simpa using hne
    simp [this]

end Afs
