import Verif.Proof.Save
import Verif.Spec.Schema
/-! # Validity of what is read back, from validity of what was written -/
namespace Afs
open Spec Spec.Schema Xml

/-! ## Items -/

def itemChars : List Item → Bytes
  | [] => []
  | .txt s :: l => s ++ itemChars l
  | .el n :: l => charsOf n ++ itemChars l

theorem itemChars_append (a b : List Item) : itemChars (a ++ b) = itemChars a ++ itemChars b := by
  induction a with
  | nil => rfl
  | cons x a ih => cases x <;> simp [itemChars, ih]

theorem chars_append (a b : List Node) : chars (a ++ b) = chars a ++ chars b := by simp [chars]

theorem chars_cons (a : Node) (b : List Node) : chars (a :: b) = charsOf a ++ chars b := by simp [chars]

theorem chars_nil : chars [] = [] := rfl

theorem pending_chars (p : Bytes) : chars (if p = [] then [] else [.text p]) = p := by
  split
  · rename_i h; rw [h]; rfl
  · simp [chars, charsOf]

theorem pending_elements (p : Bytes) : elements (if p = [] then [] else [.text p]) = [] := by
  split
  · rfl
  · rfl

theorem elements_append (a b : List Node) : elements (a ++ b) = elements a ++ elements b := by simp [elements]

theorem chars_joinText (l : List Item) (p : Bytes) : chars (joinText p l) = p ++ itemChars l := by
  induction l generalizing p with
  | nil => rw [joinText, pending_chars, itemChars, List.append_nil]
  | cons x l ih =>
    cases x with
    | txt s => rw [joinText, ih, itemChars, List.append_assoc]
    | el n => rw [joinText, chars_append, pending_chars, chars_cons, ih, itemChars]; simp

theorem elements_joinText (l : List Item) (p : Bytes) : elements (joinText p l) = (itemEls l).filter isElement := by
  induction l generalizing p with
  | nil => rw [joinText, pending_elements]; rfl
  | cons x l ih =>
    cases x with
    | txt s => rw [joinText, ih, itemEls]
    | el n =>
      rw [joinText, elements_append, pending_elements, List.nil_append, itemEls]
      unfold elements
      rw [List.filter_cons, List.filter_cons]
      have := ih []
      unfold elements at this
      rw [this]

/-! ## Stripping -/

theorem dropWhile_white (w s : Bytes) (h : ∀ c ∈ w, isWhite c = true) : (w ++ s).dropWhile isWhite = s.dropWhile isWhite := by
  induction w with
  | nil => rfl
  | cons a w ih =>
    rw [List.cons_append, List.dropWhile_cons_of_pos (h a (by simp)), ih fun c hc => h c (by simp [hc])]

theorem dropWhile_reverse_white (s w : Bytes) (h : ∀ c ∈ w, isWhite c = true) :
    ((s ++ w).dropWhile isWhite).reverse.dropWhile isWhite = (s.dropWhile isWhite).reverse.dropWhile isWhite := by
  induction s with
  | nil =>
    rw [List.nil_append, ← List.append_nil w, dropWhile_white _ _ h]
  | cons a s ih =>
    rw [List.cons_append]
    by_cases ha : isWhite a = true
    · rw [List.dropWhile_cons_of_pos ha, List.dropWhile_cons_of_pos ha, ih]
    · rw [List.dropWhile_cons_of_neg ha, List.dropWhile_cons_of_neg ha, ← List.cons_append, List.reverse_append,
        dropWhile_white _ _ (by simpa using h)]

theorem strip_pad (v s w : Bytes) (hv : ∀ c ∈ v, isWhite c = true) (hw : ∀ c ∈ w, isWhite c = true) : strip (v ++ s ++ w) = strip s := by
  unfold strip
  rw [List.append_assoc, dropWhile_white _ _ hv, dropWhile_reverse_white _ _ hw]

/-- A simple type that does not see white space at the ends. -/
def Padded (p : Bytes → Prop) : Prop := ∀ s t, strip s = strip t → (p s ↔ p t)

theorem padded_string : Padded Schema.string := fun _ _ _ => Iff.rfl
theorem padded_integer : Padded integer := fun s t h => by unfold integer; rw [h]
theorem padded_unsigned : Padded unsignedInt := fun s t h => by unfold unsignedInt; rw [h]
theorem padded_parent : Padded parentIdType := fun s t h => by unfold parentIdType; rw [padded_integer s t h, h]
theorem padded_date (D) : Padded (dateType D) := fun s t h => by unfold dateType; rw [h]

mutual
/-- Types of which the lemma below holds: texts are padded, and an element named `data` is not empty. -/
def Loose : Ty → Prop
  | .text _ p => Padded p
  | .empty _ => True
  | .seq _ ps => LooseParts ps
def LooseParts : Parts → Prop
  | .nil => True
  | .cons name _ _ ty rest => Loose ty ∧ (name = b! "data" → ∀ ds, ty ≠ .empty ds) ∧ LooseParts rest
end

/-- The trees the library writes. -/
inductive Shape : Node → Prop
  | cdata {as d} : Shape (.elem (b! "data") as [Node.newCDATA d])
  | leaf {n as s} : PlainName n → s ≠ [] → Shape (.elem n as [.text s])
  | branch {n as cs} : PlainName n → (∀ c ∈ cs, Shape c) → Shape (.elem n as cs)

theorem plain_head {n : Bytes} (h : PlainName n) : ∃ c r, n = c :: r ∧ c ≠ 33 ∧ c ≠ 63 := by
  obtain ⟨⟨h1, h2⟩, -⟩ := h
  cases n with
  | nil => exact absurd rfl h1
  | cons c r =>
    have := h2 c rfl
    refine ⟨c, r, rfl, ?_, ?_⟩
    · rintro rfl; revert this; decide
    · rintro rfl; revert this; decide

theorem plain_isElement {n : Bytes} (h : PlainName n) (as cs) : isElement (.elem n as cs) = true := by
  obtain ⟨c, r, rfl, h1, h2⟩ := plain_head h
  simp [isElement, h1, h2]

theorem plain_charsOf {n : Bytes} (h : PlainName n) (as cs) : charsOf (.elem n as cs) = [] := by
  obtain ⟨c, r, rfl, h1, h2⟩ := plain_head h
  have : ¬ (b! "![CDATA[") <+: c :: r := by
    rintro ⟨t, ht⟩
    have h3 := congrArg List.head? ht
    simp only [List.head?_cons] at h3
    rw [show ((b! "![CDATA[") ++ t).head? = some 33 from rfl] at h3
    exact h1 (Option.some.inj h3).symm
  simp [charsOf, this]

theorem cdata_isElement (d : Bytes) : isElement (Node.newCDATA d) = false := rfl

theorem cdata_charsOf (d : Bytes) : charsOf (Node.newCDATA d) = d := by
  have h : (b! "![CDATA[") <+: Node.cdataOpen ++ d ++ Node.cdataClose := ⟨d ++ Node.cdataClose, by rw [List.append_assoc]; rfl⟩
  unfold Node.newCDATA charsOf
  dsimp only
  rw [if_pos h]
  have e : (Node.cdataOpen ++ d ++ Node.cdataClose).length = d.length + 10 := by
    simp [show Node.cdataOpen.length = 8 from rfl, show Node.cdataClose.length = 2 from rfl]; omega
  rw [e, List.append_assoc, show (8 : Nat) = Node.cdataOpen.length from rfl, List.drop_left]
  simp

theorem Shape.name {t : Node} (h : Shape t) : ∃ n as cs, t = .elem n as cs ∧ PlainName n := by
  cases h with
  | cdata => exact ⟨_, _, _, rfl, by decide⟩
  | leaf h => exact ⟨_, _, _, rfl, h⟩
  | branch h => exact ⟨_, _, _, rfl, h⟩

theorem withWhite_elem' (cb : SaveCb) (anc : List Bytes) (n as cs) : ∃ xs, withWhite cb anc (.elem n as cs) = .elem n as xs := by
  cases cs with
  | nil => exact ⟨_, by rw [withWhite]⟩
  | cons c cs => exact ⟨_, by rw [withWhite]⟩

theorem Shape.isElement {t : Node} (h : Shape t) : isElement t = true := by
  obtain ⟨n, as, cs, rfl, hn⟩ := h.name
  exact plain_isElement hn _ _

theorem Shape.white_isElement {t : Node} (h : Shape t) (cb anc) : Schema.isElement (withWhite cb anc t) = true := by
  obtain ⟨n, as, cs, rfl, hn⟩ := h.name
  obtain ⟨xs, e⟩ := withWhite_elem' cb anc n as cs
  rw [e]
  exact plain_isElement hn _ _

theorem spaceCb_white {cb : SaveCb} (h : SpaceCb cb) (anc n w) : ∀ c ∈ cb anc n w, isWhite c = true := by
  intro c hc
  rcases h.white anc n w c hc with h | h | h | h <;> rw [h] <;> rfl

theorem itemChars_shape {cb : SaveCb} (hcb : SpaceCb cb) (anc : List Bytes) {t : Node} (h : Shape t) :
    ∀ c ∈ itemChars (xmlItems cb anc t), isWhite c = true := by
  obtain ⟨n, as, cs, rfl, hn⟩ := h.name
  cases cs with
  | nil =>
    rw [xmlItems]
    simp only [itemChars, plain_charsOf hn, List.nil_append, List.append_nil]
    intro c hc
    rcases List.mem_append.mp hc with h | h
    · exact spaceCb_white hcb _ _ _ c h
    · exact spaceCb_white hcb _ _ _ c h
  | cons x cs =>
    rw [xmlItems]
    simp only [itemChars, plain_charsOf hn, List.nil_append, List.append_nil]
    intro c hc
    rcases List.mem_append.mp hc with h | h
    · exact spaceCb_white hcb _ _ _ c h
    · exact spaceCb_white hcb _ _ _ c h

theorem itemChars_shapes {cb : SaveCb} (hcb : SpaceCb cb) (anc : List Bytes) {ts : List Node} (h : ∀ t ∈ ts, Shape t) :
    ∀ c ∈ itemChars (xmlItemsList cb anc ts), isWhite c = true := by
  induction ts with
  | nil => rw [xmlItemsList]; simp [itemChars]
  | cons t ts ih =>
    rw [xmlItemsList, itemChars_append]
    intro c hc
    rcases List.mem_append.mp hc with h' | h'
    · exact itemChars_shape hcb anc (h t (by simp)) c h'
    · exact ih (fun x hx => h x (by simp [hx])) c h'

theorem shapes_elements {ts : List Node} (h : ∀ t ∈ ts, Shape t) : elements ts = ts := by
  unfold elements
  rw [List.filter_eq_self]
  exact fun t ht => (h t ht).isElement

theorem shapes_chars {ts : List Node} (h : ∀ t ∈ ts, Shape t) : chars ts = [] := by
  unfold chars
  rw [List.flatMap_eq_nil_iff]
  intro t ht
  obtain ⟨n, as, cs, rfl, hn⟩ := (h t ht).name
  exact plain_charsOf hn _ _

/-- What the induction below gives for one node. -/
def Kept (cb : SaveCb) (t : Node) : Prop :=
  ∀ anc n as cs, t = .elem n as cs → ∃ ks, withWhite cb anc t = .elem n as ks ∧
    ∀ ty, Loose ty → (n = b! "data" → ∀ ds, ty ≠ .empty ds) → (Valid ty as ks ↔ Valid ty as cs)

theorem inOrder_map {cb : SaveCb} (anc : List Bytes) : ∀ (ps : Parts) (l : List Node), LooseParts ps → (∀ x ∈ l, isElem x = true ∧ Kept cb x) →
    (InOrder ps (l.map (withWhite cb anc)) ↔ InOrder ps l)
  | .nil, l, _, _ => by rw [InOrder, InOrder, List.map_eq_nil_iff]
  | .cons name lo hi ty rest, l, hp, hl => by
    rw [LooseParts] at hp
    have key : ∀ x ∈ l, (∃ as cs, withWhite cb anc x = .elem name as cs ∧ Valid ty as cs) ↔
        ∃ as cs, x = .elem name as cs ∧ Valid ty as cs := by
      intro x hx
      obtain ⟨he, hk⟩ := hl x hx
      cases x with
      | text => cases he
      | elem n as cs =>
        obtain ⟨ks, e, h⟩ := hk anc n as cs rfl
        rw [e]
        constructor
        · rintro ⟨as', cs', e', hv⟩
          cases e'
          exact ⟨as, cs, rfl, (h ty hp.1 hp.2.1).mp hv⟩
        · rintro ⟨as', cs', e', hv⟩
          cases e'
          exact ⟨as, ks, rfl, (h ty hp.1 hp.2.1).mpr hv⟩
    rw [InOrder, InOrder]
    constructor
    · rintro ⟨xs, ys, e, h1, h2, h3, h4⟩
      obtain ⟨us, vs, rfl, rfl, rfl⟩ := List.map_eq_append_iff.mp e
      rw [List.length_map] at h1 h2
      exact ⟨us, vs, rfl, h1, h2, fun x hx => (key x (by simp [hx])).mp (h3 _ (List.mem_map_of_mem hx)),
        (inOrder_map anc rest vs hp.2.2 fun x hx => hl x (by simp [hx])).mp h4⟩
    · rintro ⟨xs, ys, rfl, h1, h2, h3, h4⟩
      refine ⟨xs.map (withWhite cb anc), ys.map (withWhite cb anc), by rw [List.map_append], ?_, ?_, ?_,
        (inOrder_map anc rest ys hp.2.2 fun x hx => hl x (by simp [hx])).mpr h4⟩
      · rwa [List.length_map]
      · rwa [List.length_map]
      · intro x hx
        obtain ⟨y, hy, rfl⟩ := List.mem_map.mp hx
        exact (key y (by simp [hy])).mpr (h3 y hy)

theorem white_append {a b : Bytes} : (∀ c ∈ a ++ b, isWhite c = true) ↔ (∀ c ∈ a, isWhite c = true) ∧ ∀ c ∈ b, isWhite c = true := by
  simp only [List.mem_append]
  exact ⟨fun h => ⟨fun c hc => h c (.inl hc), fun c hc => h c (.inr hc)⟩, fun h c hc => hc.elim (h.1 c) (h.2 c)⟩

/-- Two contents with the same elements (none) and texts that differ in white space at the ends. -/
theorem valid_leaf {ty : Ty} (hty : Loose ty) {as} {cs ks : List Node} (h1 : elements cs = []) (h2 : elements ks = []) {v w : Bytes}
    (hv : ∀ c ∈ v, isWhite c = true) (hw : ∀ c ∈ w, isWhite c = true) (h3 : chars ks = v ++ chars cs ++ w)
    (hne : chars cs ≠ [] ∨ ∀ ds, ty ≠ .empty ds) : Valid ty as ks ↔ Valid ty as cs := by
  cases ty with
  | text ds p =>
    rw [Loose] at hty
    rw [Valid, Valid, h1, h2, h3, hty _ _ (strip_pad v (chars cs) w hv hw)]
  | empty ds =>
    rw [Valid, Valid, h1, h2, h3]
    have hne' : chars cs ≠ [] := hne.elim id (fun h => absurd rfl (h ds))
    simp [hne']
  | seq ds ps =>
    rw [Valid, Valid, h1, h2, h3, white_append, white_append]
    exact ⟨fun h => ⟨h.1, h.2.1.1.2, h.2.2⟩, fun h => ⟨h.1, ⟨⟨hv, h.2.1⟩, hw⟩, h.2.2⟩⟩

theorem Shape.kept {cb : SaveCb} (hcb : SpaceCb cb) {t : Node} (h : Shape t) : Kept cb t := by
  induction h with
  | @cdata as d =>
    intro anc n as' cs e
    cases e
    refine ⟨_, by rw [withWhite], fun ty hty hne => ?_⟩
    have hi : xmlItemsList cb ((b! "data") :: anc) [Node.newCDATA d] =
        [.txt (cb ((b! "data") :: anc) (Node.newCDATA d) .beforeOpen), .el (Node.newCDATA d), .txt (cb ((b! "data") :: anc) (Node.newCDATA d) .afterOpen)] := by
      rw [xmlItemsList, xmlItemsList, Node.newCDATA, xmlItems]; rfl
    rw [hi]
    refine valid_leaf hty (by unfold elements; rw [List.filter_cons, cdata_isElement]; rfl) ?_ (v := cb anc (.elem (b! "data") as [Node.newCDATA d]) .afterOpen ++ cb ((b! "data") :: anc) (Node.newCDATA d) .beforeOpen)
      (w := cb ((b! "data") :: anc) (Node.newCDATA d) .afterOpen ++ cb anc (.elem (b! "data") as [Node.newCDATA d]) .beforeClose) ?_ ?_ ?_ (.inr (hne rfl))
    · rw [elements_joinText]
      simp [itemEls, cdata_isElement]
    · exact white_append.mpr ⟨spaceCb_white hcb _ _ _, spaceCb_white hcb _ _ _⟩
    · exact white_append.mpr ⟨spaceCb_white hcb _ _ _, spaceCb_white hcb _ _ _⟩
    · rw [chars_joinText]
      simp [itemChars, chars, cdata_charsOf]
  | @leaf n as s hn hs =>
    intro anc n' as' cs e
    cases e
    refine ⟨_, by rw [withWhite], fun ty hty hne => ?_⟩
    refine valid_leaf hty rfl ?_ (v := cb anc (.elem n as [.text s]) .afterOpen) (w := cb anc (.elem n as [.text s]) .beforeClose)
      (spaceCb_white hcb _ _ _) (spaceCb_white hcb _ _ _) ?_ (.inl (by simp [chars, charsOf, hs]))
    · rw [elements_joinText, xmlItemsList, xmlItems, xmlItemsList]; rfl
    · rw [chars_joinText, xmlItemsList, xmlItems, xmlItemsList]
      simp [itemChars, chars, charsOf]
  | @branch n as cs hn hcs ih =>
    intro anc n' as' cs' e
    cases e
    cases cs with
    | nil => exact ⟨[], by rw [withWhite], fun _ _ _ => Iff.rfl⟩
    | cons c cs =>
      refine ⟨_, by rw [withWhite], fun ty hty hne => ?_⟩
      generalize hA : cb anc (.elem n as (c :: cs)) .afterOpen = A
      generalize hB : cb anc (.elem n as (c :: cs)) .beforeClose = B
      have hels : itemEls (.txt A :: xmlItemsList cb (n :: anc) (c :: cs) ++ [.txt B]) = (c :: cs).map (withWhite cb (n :: anc)) := by
        rw [List.cons_append, itemEls, itemEls_append, xmlItemsList_els]
        rw [List.filter_eq_self.mpr]
        · simp [itemEls]
        · intro x hx
          obtain ⟨_, _, _, rfl, _⟩ := (hcs x hx).name
          rfl
      have hel : elements (joinText [] (.txt A :: xmlItemsList cb (n :: anc) (c :: cs) ++ [.txt B])) = (c :: cs).map (withWhite cb (n :: anc)) := by
        rw [elements_joinText, hels, List.filter_eq_self]
        intro x hx
        obtain ⟨y, hy, rfl⟩ := List.mem_map.mp hx
        exact (hcs y hy).white_isElement _ _
      have hch : ∀ x ∈ chars (joinText [] (.txt A :: xmlItemsList cb (n :: anc) (c :: cs) ++ [.txt B])), isWhite x = true := by
        rw [chars_joinText, List.nil_append, List.cons_append, itemChars, itemChars_append]
        refine white_append.mpr ⟨hA ▸ spaceCb_white hcb _ _ _, white_append.mpr ⟨itemChars_shapes hcb _ hcs, ?_⟩⟩
        simp only [itemChars, List.append_nil]
        exact hB ▸ spaceCb_white hcb _ _ _
      cases ty with
      | text ds p => rw [Valid, Valid, hel, shapes_elements hcs]; simp
      | empty ds => rw [Valid, Valid, hel, shapes_elements hcs]; simp
      | seq ds ps =>
        rw [Loose] at hty
        rw [Valid, Valid, hel, shapes_elements hcs, shapes_chars hcs, inOrder_map (n :: anc) ps (c :: cs) hty]
        · exact ⟨fun h => ⟨h.1, (fun _ hx => nomatch hx), h.2.2⟩, fun h => ⟨h.1, hch, h.2.2⟩⟩
        · intro x hx
          refine ⟨?_, ih x hx⟩
          obtain ⟨_, _, _, rfl, _⟩ := (hcs x hx).name
          rfl

end Afs
