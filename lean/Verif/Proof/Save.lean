import Verif.Proof.XmlNorm
import Verif.Model.Io.Common
import Verif.Proof.Numbers
import Verif.Spec.Save
/-!
# Trees the save functions build
-/
namespace Afs
open Spec Xml

theorem trimmed_noEnds {s : Bytes} (h : Trimmed s) : NoEnds s := by
  constructor
  · intro c hc
    have := h c (.inl hc)
    simp [isTrimByte, this]
  · intro c hc
    have := h c (.inr hc)
    simp [isTrimByte, this]

/-- Trees that are read back up to white space: CDATA, leaves with a trimmed text, branches. -/
inductive Savable : Node → Prop
  | cdata {d} : CleanData d → Savable (Node.newCDATA d)
  | leaf {n as s} : PlainName n → CleanAttrs as → CleanText s → s ≠ [] → NoEnds s → Savable (.elem n as [.text s])
  | branch {n as cs} : PlainName n → CleanAttrs as → (∀ c ∈ cs, Savable c) → Savable (.elem n as cs)

theorem Savable.isElem {t : Node} (h : Savable t) : isElem t = true := by cases h <;> rfl

theorem Savable.clean {t : Node} (h : Savable t) : CleanTree t := by
  induction h with
  | cdata h => exact .cdata h
  | leaf h1 h2 h3 => exact .elem h1 h2 (by simpa using .text h3)
  | branch h1 h2 _ ih => exact .elem h1 h2 ih

theorem Savable.noEmpty {t : Node} (h : Savable t) : NoEmptyText t := by
  induction h with
  | cdata h => exact .elem (by simp)
  | leaf h1 h2 h3 h4 => exact .elem (by simpa using .text h4)
  | branch h1 h2 _ ih => exact .elem ih

theorem Savable.norm {t : Node} (h : Savable t) : norm t = t := by
  induction h with
  | cdata h => rfl
  | @leaf n as s h1 h2 h3 h4 h5 =>
    rw [norm_elem]
    simp [Afs.isElem, leafText, textOf, stringTrim_of_noEnds h5]
  | @branch n as cs h1 h2 h3 ih =>
    rw [norm_elem]
    cases cs with
    | nil => simp [leafText]
    | cons c cs =>
      have hf : (c :: cs).filter Afs.isElem = c :: cs := by
        rw [List.filter_eq_self]; exact fun x hx => (h3 x hx).isElem
      rw [any_eq_filter, hf]
      simp only [List.isEmpty_cons, Bool.not_false, if_true]
      congr 1
      conv => rhs; rw [← List.map_id (c :: cs)]
      exact List.map_congr_left ih

/-- The name of the declaration node. -/
theorem newXML_addChild (t : Node) : Node.newXML.addChild t = .elem xmlDecl [] [t] := rfl

theorem not_named_decl {nm : Bytes} (h : PlainName nm) (cs : List Node) : named nm (.elem xmlDecl [] cs) = false := by
  unfold named Node.element
  have : nm ≠ xmlDecl := by
    rintro rfl
    have := h.2 63 (by decide)
    exact absurd this (by decide)
  simp [Ne.symm this]

/-- A document of a savable element is read back, by the string and the file reader. -/
theorem read_document {cb : SaveCb} (hcb : SpaceCb cb) {n : Bytes} {as cs} (hn : PlainName n)
    (h : Savable (.elem n as cs)) :
    (∃ T, Xml.loadString (saveText cb [] (Node.newXML.addChild (.elem n as cs))) = some T ∧
      IsRead T (.elem xmlDecl [] [.elem n as cs])) ∧
    (∃ T, Xml.loadFile (saveText cb [] (Node.newXML.addChild (.elem n as cs))) = some T ∧
      IsRead T (.elem xmlDecl [] [.elem n as cs])) := by
  have hc := h.clean
  have hall : CleanAttrs as ∧ ∀ c ∈ cs, CleanTree c := by
    generalize ht : Node.elem n as cs = t at hc
    cases hc with
    | text _ => cases ht
    | cdata _ =>
      unfold Node.newCDATA at ht
      injection ht with h1 _ _
      have := hn.2 33 (by rw [h1]; simp [Node.cdataOpen])
      exact absurd this (by decide)
    | elem hn' has hcs => cases ht; exact ⟨has, hcs⟩
  have key : ∀ A : Bytes, IsRead (.elem xmlDecl [] ((if A = [] then [] else [.text A]) ++
      [withWhite cb [xmlDecl] (.elem n as cs)])) (.elem xmlDecl [] [.elem n as cs]) := by
    intro A
    have hw : Afs.isElem (withWhite cb [xmlDecl] (.elem n as cs)) = true := by rw [isElem_withWhite]; rfl
    constructor
    · refine .elem ?_ ?_
      · generalize withWhite cb [xmlDecl] (.elem n as cs) = w at hw
        cases w with
        | text => cases hw
        | elem => by_cases hA : A = [] <;> simp [NoAdjacentText, hA]
      · intro x hx
        rcases List.mem_append.mp hx with hx | hx
        · split at hx
          · simp at hx
          · simp at hx; subst hx; exact .text
        · simp at hx; subst hx; exact normal_withWhite _ _ _
    · rw [norm_elem]
      have hf : ((if A = [] then [] else [.text A]) ++ [withWhite cb [xmlDecl] (.elem n as cs)] : List Node).filter Afs.isElem =
          [withWhite cb [xmlDecl] (.elem n as cs)] := by
        rw [List.filter_append, List.filter_cons_of_pos hw]
        split <;> rfl
      rw [any_eq_filter, hf]
      simp only [List.isEmpty_cons, Bool.not_false, if_true, List.map_cons, List.map_nil]
      rw [norm_withWhite hcb h.noEmpty, h.norm]
  constructor
  · obtain ⟨A, _, e⟩ := load_document good_decode hcb.white hn hall.1 hall.2
    exact ⟨_, e, key A⟩
  · obtain ⟨A, _, e⟩ := load_document good_decodeFile hcb.white hn hall.1 hall.2
    exact ⟨_, e, key A⟩

/-- A savable element written without declaration is read back. -/
theorem read_element {cb : SaveCb} (hcb : SpaceCb cb) (anc : List Bytes) {n : Bytes} {as cs} (hn : PlainName n)
    (h : Savable (.elem n as cs)) :
    (∃ T, Xml.loadString (saveText cb anc (.elem n as cs)) = some T ∧ IsRead T (.elem n as cs)) ∧
    (∃ T, Xml.loadFile (saveText cb anc (.elem n as cs)) = some T ∧ IsRead T (.elem n as cs)) := by
  have hc := h.clean
  have hall : CleanAttrs as ∧ ∀ c ∈ cs, CleanTree c := by
    generalize ht : Node.elem n as cs = t at hc
    cases hc with
    | text _ => cases ht
    | cdata _ =>
      unfold Node.newCDATA at ht
      injection ht with h1 _ _
      have := hn.2 33 (by rw [h1]; simp [Node.cdataOpen])
      exact absurd this (by decide)
    | elem hn' has hcs => cases ht; exact ⟨has, hcs⟩
  have hr := isRead_withWhite hcb h.noEmpty anc
  rw [h.norm] at hr
  exact ⟨⟨_, load_elem good_decode hcb.white anc hn hall.1 hall.2, hr⟩,
    ⟨_, load_elem good_decodeFile hcb.white anc hn hall.1 hall.2, hr⟩⟩

/-! ### Pieces -/

theorem clean_append {a b : Bytes} (ha : CleanText a) (hb : CleanText b) : CleanText (a ++ b) := by
  obtain ⟨cs, h1, rfl⟩ := ha
  obtain ⟨ds, h2, rfl⟩ := hb
  exact ⟨cs ++ ds, fun c hc => (List.mem_append.mp hc).elim (h1 c) (h2 c), by simp⟩

theorem clean_digits {d : Bytes} (h : ∀ c ∈ d, isDigitByte c = true) : CleanText d := by
  refine clean_ascii fun b hb => ?_
  have := h b hb
  unfold isDigitByte at this
  unfold okByte
  simp [UInt8.le_iff_toNat_le] at this ⊢
  omega

theorem clean_printNat (n : Nat) : CleanText (printNat n) := clean_digits (printNat_digits n)

theorem clean_cons {b : UInt8} {s : Bytes} (hb : okByte b = true) (h : CleanText s) : CleanText (b :: s) :=
  clean_append (a := [b]) (clean_ascii (by simpa using hb)) h

theorem clean_printInt (i : Int) : CleanText (printInt i) := by
  unfold printInt
  split
  · exact clean_cons (by decide) (clean_printNat _)
  · exact clean_printNat _

theorem clean_zeros (k : Nat) : CleanText (List.replicate k (48 : UInt8)) :=
  clean_digits (by intro c hc; rw [(List.mem_replicate.mp hc).2]; decide)

theorem clean_printInt06 (i : Int) : CleanText (printInt06 i) := by
  unfold printInt06
  split
  · exact clean_cons (by decide) (clean_append (clean_zeros _) (clean_printNat _))
  · exact clean_append (clean_zeros _) (clean_printNat _)

theorem clean_UxU (x y : Nat) : CleanText (printNat x ++ [120] ++ printNat y) :=
  clean_append (clean_append (clean_printNat _) (clean_ascii (by decide))) (clean_printNat _)

theorem digit_not_trim {c : UInt8} (h : isDigitByte c = true) : isTrimByte c = false := by
  unfold isDigitByte at h
  unfold isTrimByte
  simp [UInt8.le_iff_toNat_le] at h ⊢
  refine ⟨⟨?_, ?_⟩, ?_⟩ <;> (rintro rfl; simp at h)

theorem noEnds_all {s : Bytes} (h : ∀ c ∈ s, isTrimByte c = false) : NoEnds s :=
  ⟨fun c hc => h c (List.mem_of_mem_head? hc), fun c hc => h c (List.mem_of_mem_getLast? hc)⟩

theorem noEnds_printInt (i : Int) : NoEnds (printInt i) := by
  apply noEnds_all
  intro c hc
  unfold printInt at hc
  split at hc
  · rcases List.mem_cons.mp hc with rfl | hc
    · decide
    · exact digit_not_trim (printNat_digits _ c hc)
  · exact digit_not_trim (printNat_digits _ c hc)

theorem printInt_ne (i : Int) : printInt i ≠ [] := by
  unfold printInt; split
  · simp
  · exact printNat_ne _

theorem cleanAttrs_nil : CleanAttrs [] := ⟨by simp, by simp⟩

/-- A text leaf as added by `afs_xmlutils_add_new_text_node`. -/
theorem textNode_savable {nm : Bytes} (hn : PlainName nm) {s : Option Bytes} (hs : TextField s) :
    ∀ c ∈ textNode nm s, Savable c := by
  cases s with
  | none => simp [textNode]
  | some t =>
    obtain ⟨h1, h2, h3⟩ := hs t rfl
    have hl : t.length ≠ 0 := by simpa using h2
    intro c hc
    simp [textNode, setNodeText, Node.new, Node.addChild, hl] at hc
    subst hc
    exact .leaf hn cleanAttrs_nil h1 h2 (trimmed_noEnds h3)

theorem textNode_some {nm t : Bytes} (h2 : t ≠ []) : textNode nm (some t) = [.elem nm [] [.text t]] := by
  simp [textNode, setNodeText, Node.new, Node.addChild, h2]

theorem intNode_eq (nm : Bytes) (v : Int) : intNode nm v = .elem nm [] [.text (printInt v)] := by
  simp [intNode, setNodeText, Node.new, Node.addChild, printInt_ne]

theorem int64Node_eq (nm : Bytes) (v : Int) : int64Node nm v = .elem nm [] [.text (printInt v)] := intNode_eq nm v

theorem intNode_savable {nm : Bytes} (hn : PlainName nm) (v : Int) : Savable (intNode nm v) := by
  rw [intNode_eq]
  exact .leaf hn cleanAttrs_nil (clean_printInt v) (printInt_ne v) (noEnds_printInt v)

/-! ### Searching built trees -/

theorem find_elem (n : Bytes) (as) (cs : List Node) (nm : Bytes) :
    find (.elem n as cs) nm = (descendantsList cs).find? (named nm) := by
  unfold find; rw [descendants]

theorem findAll_elem (n : Bytes) (as) (cs : List Node) (nm : Bytes) :
    findAll (.elem n as cs) nm = (descendantsList cs).filter (named nm) := by
  unfold findAll; rw [descendants]

theorem descendantsList_append (a b : List Node) :
    descendantsList (a ++ b) = descendantsList a ++ descendantsList b := by
  induction a with
  | nil => rw [List.nil_append, descendantsList, List.nil_append]
  | cons x a ih => rw [List.cons_append, descendantsList, descendantsList, ih]; simp

theorem descendants_elem (n : Bytes) (as) (cs : List Node) : descendants (.elem n as cs) = descendantsList cs := by
  rw [descendants]

/-- The names of all elements in a list of trees. -/
def namesOf (cs : List Node) : List Bytes := (descendantsList cs).filterMap Node.element

theorem find?_none_of_names {cs : List Node} {nm : Bytes} (h : nm ∉ namesOf cs) :
    (descendantsList cs).find? (named nm) = none := by
  rw [List.find?_eq_none]
  intro x hx hn
  apply h
  unfold namesOf
  rw [List.mem_filterMap]
  refine ⟨x, hx, ?_⟩
  simpa [named] using hn

theorem filter_none_of_names {cs : List Node} {nm : Bytes} (h : nm ∉ namesOf cs) :
    (descendantsList cs).filter (named nm) = [] := by
  rw [List.filter_eq_nil_iff]
  intro x hx hn
  apply h
  unfold namesOf
  rw [List.mem_filterMap]
  refine ⟨x, hx, ?_⟩
  simpa [named] using hn

theorem namesOf_nil : namesOf [] = [] := by unfold namesOf; rw [descendantsList]; rfl

theorem namesOf_append (a b : List Node) : namesOf (a ++ b) = namesOf a ++ namesOf b := by
  unfold namesOf; rw [descendantsList_append, List.filterMap_append]

theorem namesOf_elem (n : Bytes) (as) (cs r : List Node) :
    namesOf (.elem n as cs :: r) = n :: (namesOf cs ++ namesOf r) := by
  unfold namesOf; rw [descendantsList, descendants, List.filterMap_cons]
  simp [Node.element]

theorem namesOf_text (s : Bytes) (r : List Node) : namesOf (.text s :: r) = namesOf r := by
  unfold namesOf; rw [descendantsList, descendants, List.filterMap_cons]
  simp [Node.element]

theorem namesOf_cons (c : Node) (r : List Node) : namesOf (c :: r) = namesOf [c] ++ namesOf r := by
  rw [← namesOf_append]; rfl

theorem mem_namesOf_iff (cs : List Node) (nm : Bytes) : nm ∈ namesOf cs ↔ ∃ c ∈ cs, nm ∈ namesOf [c] := by
  induction cs with
  | nil => simp [namesOf_nil]
  | cons c cs ih => rw [namesOf_cons, List.mem_append, ih]; simp

/-- Elements next to each other, none of them named `nm` inside: the filter only sees the roots. -/
theorem filter_roots {cs : List Node} {nm : Bytes} (h : ∀ c ∈ cs, named nm c = true ∧ nm ∉ namesOf c.children) :
    (descendantsList cs).filter (named nm) = cs := by
  induction cs with
  | nil => rw [descendantsList]; rfl
  | cons c cs ih =>
    obtain ⟨h1, h2⟩ := h c (by simp)
    rw [descendantsList, List.filter_cons_of_pos h1, List.filter_append, ih (fun c hc => h c (by simp [hc]))]
    cases c with
    | text => simp [named, Node.element] at h1
    | elem n as ks => rw [descendants_elem, filter_none_of_names (cs := ks) h2]; rfl

end Afs
namespace Afs
open Spec Xml

/-! ### The text buffer -/

theorem putc_fold (w : Bytes) (b : StrBuf) (h : b.stored.length ≤ b.size) :
    w.foldl StrBuf.putc b = ⟨b.stored ++ w.take (b.size - b.stored.length), b.size, b.count + w.length⟩ := by
  induction w generalizing b with
  | nil => simp
  | cons c w ih =>
    rw [List.foldl_cons]
    by_cases hl : b.stored.length < b.size
    · have e : b.putc c = ⟨b.stored ++ [c], b.size, b.count + 1⟩ := by simp [StrBuf.putc, hl]
      rw [e, ih _ (by simp; omega)]
      have : b.size - b.stored.length = (b.size - (b.stored.length + 1)) + 1 := by omega
      simp only [List.length_append, List.length_nil, Nat.zero_add, List.append_assoc, List.singleton_append, List.length_cons]
      rw [this, List.take_succ_cons, show b.count + 1 + w.length = b.count + (w.length + 1) by omega]
    · have e : b.putc c = ⟨b.stored, b.size, b.count + 1⟩ := by simp [StrBuf.putc, hl]
      rw [e, ih ⟨b.stored, b.size, b.count + 1⟩ h]
      simp only [List.length_cons]
      rw [show b.size - b.stored.length = 0 by omega, show b.count + 1 + w.length = b.count + (w.length + 1) by omega]
      simp

/-- The saved string is the complete text, whatever its length: the first buffer of 8192 bytes is
    never returned cut off. -/
theorem saveAlloc_complete (cb : SaveCb) (anc : List Bytes) (n : Node) (h : saveText cb anc n ≠ []) :
    saveAllocString cb anc n = some (saveText cb anc n) := by
  have key : ∀ size, 1 ≤ size → saveString cb anc n size =
      ((if (saveText cb anc n).length < size then saveText cb anc n else (saveText cb anc n).take (size - 1)),
        (saveText cb anc n).length) := by
    intro size hs
    unfold saveString
    rw [putc_fold _ _ (by simp)]
    simp only [List.nil_append, List.length_nil, Nat.sub_zero, Nat.zero_add, List.length_take]
    by_cases hl : (saveText cb anc n).length < size
    · rw [if_neg (by omega), if_pos hl, List.take_of_length_le (by omega)]
    · rw [if_pos (by omega), if_neg hl, List.take_take, Nat.min_eq_left (by omega)]
  unfold saveAllocString
  rw [key 8192 (by omega)]
  simp only
  rw [key ((saveText cb anc n).length + 1) (by omega)]
  have hpos : (saveText cb anc n).length ≠ 0 := by simpa using h
  simp only [hpos, if_false]
  by_cases hl : (saveText cb anc n).length < 8191
  · rw [if_pos hl, if_pos (by omega)]
  · rw [if_neg hl]
    simp

/-! ### Attributes -/

theorem cleanAttrs_cons {a : Bytes} {v : Bytes} {as : List (Bytes × Option Bytes)} (ha : PlainName a) (hv : CleanText v)
    (hn : a ∉ as.map Prod.fst) (h : CleanAttrs as) : CleanAttrs ((a, some v) :: as) := by
  refine ⟨?_, ?_⟩
  · rw [List.map_cons, List.nodup_cons]; exact ⟨hn, h.1⟩
  · intro x hx
    rcases List.mem_cons.mp hx with rfl | hx
    · exact ⟨ha, v, rfl, hv⟩
    · exact h.2 x hx

theorem find_doc {t : Node} {nm : Bytes} (h : named nm t = true) : find (.elem xmlDecl [] [t]) nm = some t := by
  rw [find_elem, descendantsList, List.find?_cons, h]

theorem isRead_doc {T t : Node} {nm : Bytes} (hp : PlainName nm) (h : named nm t = true)
    (hr : IsRead T (.elem xmlDecl [] [t])) : ∃ d, selfOrFind T nm = some d ∧ IsRead d t :=
  isRead_selfOrFind hr (not_named_decl hp _) (find_doc h)

theorem spaceCb_noCb : SpaceCb noCb := by intro anc n w c hc; simp [noCb] at hc

theorem spaceCb_if {cb : SaveCb} (h : SpaceCb cb) (compact : Bool) : SpaceCb (if compact then noCb else cb) := by
  cases compact
  · exact h
  · exact spaceCb_noCb

theorem cb_white {cb : SaveCb} (h : ∀ anc n w, (cb anc n w).all isTrimByte = true) : SpaceCb cb := by
  intro anc n w c hc
  exact List.all_eq_true.mp (h anc n w) c hc

/-- `mxmlSaveAllocString` returns the whole text of an element. -/
theorem saveAlloc_elem (cb : SaveCb) (anc : List Bytes) (n : Bytes) (as cs) :
    saveAllocString cb anc (.elem n as cs) = some (saveText cb anc (.elem n as cs)) := by
  apply saveAlloc_complete
  unfold saveText
  cases cs with
  | nil => rw [writeNode]; simp
  | cons c cs => rw [writeNode]; simp

theorem saveText_ne (cb : SaveCb) (anc : List Bytes) (n : Bytes) (as cs) :
    saveText cb anc (.elem n as cs) ≠ [] := by
  unfold saveText
  cases cs with
  | nil => rw [writeNode]; simp
  | cons c cs => rw [writeNode]; simp

/-- A whole document round trip: string and file, for any object whose loader recognises the
    read tree. -/
theorem doc_roundtrip {openFirst : Bool} {β : Type} {cb : SaveCb} (hcb : SpaceCb cb) (compact : Bool) {n : Bytes} {as cs} (hn : PlainName n)
    (hs : Savable (.elem n as cs)) (load : Node → β) (fail good : β)
    (hload : ∀ T, IsRead T (.elem xmlDecl [] [.elem n as cs]) → load T = good) :
    (∃ t, docString cb compact (some (.elem n as cs)) = some t ∧ loadFromString load fail t = good) ∧
    (∃ t, docFile openFirst cb compact (some (.elem n as cs)) = (true, some t) ∧ loadFromFile load fail t = good) := by
  have hcb' := spaceCb_if hcb compact
  obtain ⟨⟨T, h1, h2⟩, ⟨T', h3, h4⟩⟩ := read_document hcb' hn hs
  constructor
  · refine ⟨_, saveAlloc_elem _ _ _ _ _, ?_⟩
    unfold loadFromString
    rw [if_neg (by simpa using saveText_ne _ _ _ _ _)]
    rw [newXML_addChild] at h1
    rw [List.nil_append, h1]; exact hload T h2
  · refine ⟨_, rfl, ?_⟩
    unfold loadFromFile
    rw [h3]; exact hload T' h4

/-- The same for an element written without declaration. -/
theorem elem_roundtrip {β : Type} {cb : SaveCb} (hcb : SpaceCb cb) (compact : Bool) {n : Bytes} {as cs} (hn : PlainName n)
    (hs : Savable (.elem n as cs)) (load : Node → β) (fail good : β)
    (hload : ∀ T, IsRead T (.elem n as cs) → load T = good) :
    ∃ t, elemString cb compact (some (.elem n as cs)) = some t ∧ loadFromString load fail t = good := by
  have hcb' := spaceCb_if hcb compact
  obtain ⟨⟨T, h1, h2⟩, _⟩ := read_element hcb' [xmlDecl] hn hs
  refine ⟨_, saveAlloc_elem _ _ _ _ _, ?_⟩
  unfold loadFromString
  rw [if_neg (by simpa using saveText_ne _ _ _ _ _), h1]
  exact hload T h2

theorem mapM_some {α : Type} {f : α → Option Node} {g : α → Node} {l : List α} (h : ∀ x ∈ l, f x = some (g x)) :
    l.mapM f = some (l.map g) := by
  induction l with
  | nil => rfl
  | cons x l ih =>
    rw [List.mapM_cons, h x (by simp), ih (fun y hy => h y (by simp [hy]))]
    rfl

/-- A quick test for text fields. -/
def asciiField (s : Bytes) : Bool :=
  s.all okByte && !s.isEmpty && (s.head?.all fun c => !isTrimByte c) && (s.getLast?.all fun c => !isTrimByte c)

theorem textField_ascii {s : Bytes} (h : asciiField s = true) : TextField (some s) := by
  unfold asciiField at h
  simp only [Bool.and_eq_true, List.all_eq_true, Bool.not_eq_true', List.isEmpty_eq_false_iff] at h
  obtain ⟨⟨⟨h1, h2⟩, h3⟩, h4⟩ := h
  intro t ht
  cases ht
  refine ⟨clean_ascii h1, h2, ?_⟩
  intro c hc
  have : isTrimByte c = false := by
    rcases hc with hc | hc
    · rw [hc] at h3; simpa using h3
    · rw [hc] at h4; simpa using h4
  unfold isTrimByte at this
  simp only [Bool.or_eq_false_iff, beq_eq_false_iff_ne] at this
  exact ⟨this.2, this.1.1, this.1.2⟩

theorem textField_none : TextField none := by intro t h; cases h

theorem attrField_ascii {s : Bytes} (h : s.all okByte = true) : AttrField (some s) := by
  intro t ht
  cases ht
  exact clean_ascii (List.all_eq_true.mp h)

theorem attrField_none : AttrField none := by intro t h; cases h

end Afs
