import Verif.Proof.XmlRound
import Verif.Proof.Trim
/-!
# Trees up to layout white space

`norm` forgets the texts between elements and trims the text of elements without element
children.  Writing with a white-space callback and reading back does not change it.
-/
namespace Afs
open Spec Xml

/-- A callback that only produces spaces and line ends (what trimming removes). -/
def SpaceCb (cb : SaveCb) : Prop := ∀ anc n w, ∀ c ∈ cb anc n w, isTrimByte c = true

theorem SpaceCb.white {cb : SaveCb} (h : SpaceCb cb) : WhiteCb cb := by
  intro anc n w c hc
  have := h anc n w c hc
  simp [isTrimByte] at this
  rcases this with (h | h) | h <;> simp [h]

def isElem : Node → Bool
  | .elem _ _ _ => true
  | .text _ => false

def textOf : List Node → Bytes
  | [] => []
  | .text s :: cs => s ++ textOf cs
  | .elem _ _ _ :: cs => textOf cs

def leafText (cs : List Node) : List Node := if cs = [] then [] else [.text (stringTrim (textOf cs))]

mutual
def norm : Node → Node
  | .text s => .text s
  | .elem n as cs => .elem n as (if cs.any isElem then normList cs else leafText cs)
def normList : List Node → List Node
  | [] => []
  | .text _ :: cs => normList cs
  | .elem n as ks :: cs => norm (.elem n as ks) :: normList cs
end

theorem normList_eq (cs : List Node) : normList cs = (cs.filter isElem).map norm := by
  induction cs with
  | nil => rw [normList]; rfl
  | cons c cs ih =>
    cases c with
    | text s => rw [normList, ih]; rfl
    | elem n as ks => rw [normList, ih]; rfl

theorem isElem_norm (n : Node) : isElem (norm n) = isElem n := by
  cases n <;> rw [norm] <;> rfl

theorem element_norm (n : Node) : (norm n).element = n.element := by
  cases n <;> rw [norm] <;> rfl

theorem attrs_norm (n : Node) : (norm n).attrs = n.attrs := by
  cases n <;> rw [norm] <;> rfl

theorem getAttr_norm (n : Node) (a : Bytes) : (norm n).getAttr a = n.getAttr a := by
  unfold Node.getAttr; rw [attrs_norm]

theorem named_norm (nm : Bytes) (n : Node) : named nm (norm n) = named nm n := by
  unfold named; rw [element_norm]

theorem children_norm (n : Node) : (norm n).children.filter isElem = (n.children.filter isElem).map norm := by
  cases n with
  | text s => rw [norm]; rfl
  | elem n as cs =>
    rw [norm]
    show List.filter isElem (if _ then _ else _) = (cs.filter isElem).map norm
    split
    · rw [normList_eq]
      rw [List.filter_eq_self.mpr]
      intro x hx
      obtain ⟨y, hy, rfl⟩ := List.mem_map.mp hx
      rw [isElem_norm]
      exact (List.mem_filter.mp hy).2
    · rename_i h
      have : cs.filter isElem = [] := by
        rw [List.filter_eq_nil_iff]
        simpa using h
      rw [this]
      unfold leafText
      split <;> rfl

theorem named_isElem {nm : Bytes} {n : Node} (h : named nm n = true) : isElem n = true := by
  cases n with
  | text s => simp [named, Node.element] at h
  | elem => rfl

mutual
theorem desc_norm : ∀ t : Node, (descendants (norm t)).filter isElem = ((descendants t).filter isElem).map norm
  | .text s => by rw [norm, descendants]; rfl
  | .elem n as cs => by
    rw [norm, descendants, descendants]
    split
    · exact descList_norm cs
    · rename_i h
      have : ∀ cs : List Node, ¬ cs.any isElem = true → (descendantsList cs).filter isElem = [] := by
        intro cs
        induction cs with
        | nil => intro _; rw [descendantsList]; rfl
        | cons c cs ih =>
          intro h
          cases c with
          | elem => simp [isElem] at h
          | text s =>
            rw [descendantsList, descendants]
            simp only [List.nil_append]
            rw [List.filter_cons_of_neg (by simp [isElem])]
            exact ih (by simpa [isElem] using h)
      rw [this cs h]
      unfold leafText
      split
      · rw [descendantsList]; rfl
      · rw [descendantsList, descendants, descendantsList]; rfl
theorem descList_norm : ∀ cs : List Node,
    (descendantsList (normList cs)).filter isElem = ((descendantsList cs).filter isElem).map norm
  | [] => by rw [normList, descendantsList]; rfl
  | .text s :: cs => by
    rw [normList, descList_norm cs]
    conv => rhs; rw [descendantsList, descendants]
    rfl
  | .elem n as ks :: cs => by
    rw [normList, descendantsList, descendantsList, List.filter_cons_of_pos (by rw [isElem_norm]; rfl),
      List.filter_cons_of_pos (by rfl), List.filter_append, List.filter_append, desc_norm (.elem n as ks),
      descList_norm cs]
    simp
end

theorem find?_filter_named (nm : Bytes) (l : List Node) :
    l.find? (named nm) = (l.filter isElem).find? (named nm) := by
  induction l with
  | nil => rfl
  | cons x l ih =>
    cases hx : isElem x with
    | true => rw [List.filter_cons_of_pos hx, List.find?_cons, List.find?_cons, ih]
    | false =>
      have : named nm x = false := by
        cases h : named nm x with
        | false => rfl
        | true => rw [named_isElem h] at hx; cases hx
      rw [List.filter_cons_of_neg (by simp [hx]), List.find?_cons, this, ih]

theorem filter_filter_named (nm : Bytes) (l : List Node) :
    l.filter (named nm) = (l.filter isElem).filter (named nm) := by
  rw [List.filter_filter]
  apply List.filter_congr
  intro x _
  cases h : named nm x with
  | false => simp
  | true => simp [named_isElem h]

theorem find_norm (t : Node) (nm : Bytes) : find (norm t) nm = (find t nm).map norm := by
  unfold find
  rw [find?_filter_named, desc_norm, find?_filter_named (l := descendants t), List.find?_map]
  congr 2
  funext x
  exact named_norm nm x

theorem findAll_norm (t : Node) (nm : Bytes) : findAll (norm t) nm = (findAll t nm).map norm := by
  unfold findAll
  rw [filter_filter_named, desc_norm, filter_filter_named (l := descendants t), List.filter_map]
  congr 2
  funext x
  exact named_norm nm x

theorem selfOrFind_norm (t : Node) (nm : Bytes) : selfOrFind (norm t) nm = (selfOrFind t nm).map norm := by
  unfold selfOrFind
  rw [named_norm, find_norm]
  split <;> rfl

/-! ### Writing and reading does not change the normal form -/

/-- No text node is empty (texts are only added when non-empty, src/xmlutils.c:64). -/
inductive NoEmptyText : Node → Prop
  | text {s} : s ≠ [] → NoEmptyText (.text s)
  | elem {n as cs} : (∀ c ∈ cs, NoEmptyText c) → NoEmptyText (.elem n as cs)

/-- Elements of an item list. -/
def itemEls : List Item → List Node
  | [] => []
  | .txt _ :: r => itemEls r
  | .el n :: r => n :: itemEls r

/-- Texts of an item list. -/
def itemTexts : List Item → Bytes
  | [] => []
  | .txt s :: r => s ++ itemTexts r
  | .el _ :: r => itemTexts r

theorem itemEls_append (a b : List Item) : itemEls (a ++ b) = itemEls a ++ itemEls b := by
  induction a with
  | nil => rfl
  | cons x a ih => cases x <;> simp [itemEls, ih]

theorem itemTexts_append (a b : List Item) : itemTexts (a ++ b) = itemTexts a ++ itemTexts b := by
  induction a with
  | nil => rfl
  | cons x a ih => cases x <;> simp [itemTexts, ih]

theorem joinText_els (p : Bytes) (l : List Item) (h : ∀ n ∈ itemEls l, isElem n = true) :
    (joinText p l).filter isElem = itemEls l := by
  induction l generalizing p with
  | nil => rw [joinText]; split <;> rfl
  | cons x l ih =>
    cases x with
    | txt s => rw [joinText, itemEls]; exact ih _ h
    | el n =>
      have h' : ∀ n ∈ itemEls l, isElem n = true := fun m hm => h m (by simp [itemEls, hm])
      have hn : isElem n = true := h n (by simp [itemEls])
      rw [joinText, itemEls, List.filter_append, List.filter_cons_of_pos hn, ih [] h']
      split <;> rfl

theorem joinText_texts (p : Bytes) (l : List Item) (h : itemEls l = []) :
    joinText p l = if p ++ itemTexts l = [] then [] else [.text (p ++ itemTexts l)] := by
  induction l generalizing p with
  | nil => rw [joinText, itemTexts, List.append_nil]
  | cons x l ih =>
    cases x with
    | txt s => rw [joinText, itemTexts, ih _ h, List.append_assoc]
    | el n => simp [itemEls] at h

/-- The element items of a node's contribution. -/
def nodeEls (cb : SaveCb) (anc : List Bytes) : Node → List Node
  | .text _ => []
  | .elem n as cs => [withWhite cb anc (.elem n as cs)]

theorem xmlItems_els (cb : SaveCb) (anc : List Bytes) (c : Node) :
    itemEls (xmlItems cb anc c) = nodeEls cb anc c := by
  cases c with
  | text s => rw [xmlItems]; rfl
  | elem n as cs =>
    cases cs with
    | nil => rw [xmlItems, nodeEls, withWhite]; rfl
    | cons c cs => rw [xmlItems, nodeEls, withWhite]; rfl

theorem xmlItemsList_els (cb : SaveCb) (anc : List Bytes) (cs : List Node) :
    itemEls (xmlItemsList cb anc cs) = (cs.filter isElem).map (withWhite cb anc) := by
  induction cs with
  | nil => rw [xmlItemsList]; rfl
  | cons c cs ih =>
    rw [xmlItemsList, itemEls_append, xmlItems_els, ih]
    cases c with
    | text s => simp [nodeEls, isElem]
    | elem n as ks => rw [List.filter_cons_of_pos (by rfl)]; rfl

theorem isElem_withWhite (cb : SaveCb) (anc : List Bytes) (n : Node) :
    isElem (withWhite cb anc n) = isElem n := by
  cases n with
  | text => rw [withWhite]
  | elem n as cs => cases cs <;> rw [withWhite] <;> rfl

theorem xmlItemsList_texts (cb : SaveCb) (anc : List Bytes) (cs : List Node) (h : cs.any isElem = false) :
    itemTexts (xmlItemsList cb anc cs) = textOf cs := by
  induction cs with
  | nil => rw [xmlItemsList]; rfl
  | cons c cs ih =>
    cases c with
    | elem => simp [isElem] at h
    | text s =>
      rw [xmlItemsList, xmlItems, itemTexts_append, ih (by simpa [isElem] using h)]
      simp [itemTexts, textOf]

theorem norm_elem (n : Bytes) (as : List (Bytes × Option Bytes)) (cs : List Node) :
    norm (.elem n as cs) = .elem n as (if cs.any isElem then (cs.filter isElem).map norm else leafText cs) := by
  rw [norm, normList_eq]

theorem any_eq_filter (cs : List Node) : cs.any isElem = !(cs.filter isElem).isEmpty := by
  cases h : cs.any isElem with
  | true =>
    cases h' : cs.filter isElem with
    | nil => rw [List.filter_eq_nil_iff] at h'; simp at h; obtain ⟨x, hx, h⟩ := h; exact absurd h (h' x hx)
    | cons => rfl
  | false =>
    have : cs.filter isElem = [] := by rw [List.filter_eq_nil_iff]; simpa using h
    simp [this]

theorem norm_withWhite {cb : SaveCb} (hcb : SpaceCb cb) {t : Node} (ht : NoEmptyText t) (anc : List Bytes) :
    norm (withWhite cb anc t) = norm t := by
  induction ht generalizing anc with
  | text => rw [withWhite]
  | @elem n as cs hcs ih =>
    cases cs with
    | nil => rw [withWhite]
    | cons c cs =>
      generalize hA : cb anc (.elem n as (c :: cs)) .afterOpen = A
      generalize hB : cb anc (.elem n as (c :: cs)) .beforeClose = B
      have hwA : ∀ c ∈ A, isTrimByte c = true := by rw [← hA]; exact hcb _ _ _
      have hwB : ∀ c ∈ B, isTrimByte c = true := by rw [← hB]; exact hcb _ _ _
      rw [withWhite, hA, hB, norm_elem, norm_elem]
      have hels : itemEls (.txt A :: xmlItemsList cb (n :: anc) (c :: cs) ++ [.txt B]) =
          ((c :: cs).filter isElem).map (withWhite cb (n :: anc)) := by
        rw [List.cons_append, itemEls, itemEls_append, xmlItemsList_els]
        simp [itemEls]
      have hf := joinText_els [] (.txt A :: xmlItemsList cb (n :: anc) (c :: cs) ++ [.txt B]) (by
        rw [hels]
        intro m hm
        obtain ⟨y, hy, rfl⟩ := List.mem_map.mp hm
        rw [isElem_withWhite]
        exact (List.mem_filter.mp hy).2)
      rw [any_eq_filter, hf, hels, any_eq_filter (c :: cs)]
      have hmap : ((c :: cs).filter isElem).map (norm ∘ withWhite cb (n :: anc)) = ((c :: cs).filter isElem).map norm := by
        apply List.map_congr_left
        intro x hx
        exact ih x (List.mem_filter.mp hx).1 (n :: anc)
      cases hfl : (c :: cs).filter isElem with
      | cons x xs =>
        rw [hfl] at hmap
        simp only [List.map_map, List.map_cons, List.isEmpty_cons, Bool.not_false, if_true]
        exact congrArg _ hmap
      | nil =>
        have hany : (c :: cs).any isElem = false := by rw [any_eq_filter, hfl]; rfl
        simp only [List.map_nil, List.isEmpty_nil, Bool.not_true, Bool.false_eq_true, if_false]
        rw [joinText_texts _ _ (by rw [hels, hfl]; rfl)]
        have htx : itemTexts (.txt A :: xmlItemsList cb (n :: anc) (c :: cs) ++ [.txt B]) = A ++ textOf (c :: cs) ++ B := by
          rw [List.cons_append, itemTexts, itemTexts_append, xmlItemsList_texts _ _ _ hany]
          simp [itemTexts]
        rw [htx, List.nil_append]
        have hne : textOf (c :: cs) ≠ [] := by
          have hc := hcs c (by simp)
          cases hc with
          | elem => simp [isElem] at hany
          | text h => simp [textOf, h]
        rw [if_neg (by simp [hne])]
        unfold leafText
        rw [if_neg (by simp), if_neg (by simp)]
        congr 3
        simp only [textOf, List.append_nil]
        exact stringTrim_pad A (textOf (c :: cs)) B hwA hwB

/-! ### Read trees -/

theorem joinText_noAdj (p : Bytes) (l : List Item) (h : ∀ n ∈ itemEls l, isElem n = true) :
    NoAdjacentText (joinText p l) := by
  induction l generalizing p with
  | nil => rw [joinText]; split <;> simp [NoAdjacentText, *]
  | cons x l ih =>
    cases x with
    | txt s => rw [joinText]; exact ih _ h
    | el n =>
      have hn : isElem n = true := h n (by simp [itemEls])
      have h' := ih [] (fun m hm => h m (by simp [itemEls, hm]))
      cases n with
      | text s => cases hn
      | elem n as ks =>
        rw [joinText]
        split
        · simpa [NoAdjacentText] using h'
        · rename_i hp
          simp [NoAdjacentText, hp, h']

theorem mem_joinText {p : Bytes} {l : List Item} {x : Node} (h : x ∈ joinText p l) :
    (∃ s, x = .text s) ∨ x ∈ itemEls l := by
  induction l generalizing p with
  | nil =>
    rw [joinText] at h
    split at h
    · simp at h
    · simp at h; exact .inl ⟨p, h⟩
  | cons y l ih =>
    cases y with
    | txt s => rw [joinText] at h; exact ih h
    | el n =>
      rw [joinText] at h
      rcases List.mem_append.mp h with h | h
      · split at h
        · simp at h
        · simp at h; exact .inl ⟨p, h⟩
      · rcases List.mem_cons.mp h with rfl | h
        · right; simp [itemEls]
        · rcases ih h with h | h
          · exact .inl h
          · right; simp [itemEls, h]

theorem normal_withWhite (cb : SaveCb) (anc : List Bytes) (t : Node) : NormalTree (withWhite cb anc t) := by
  suffices h : ∀ k (t : Node), sizeOf t < k → ∀ anc, NormalTree (withWhite cb anc t) from h _ t (Nat.lt_succ_self _) anc
  intro k
  induction k with
  | zero => intro t h; omega
  | succ k ih =>
    intro t hk anc
    cases t with
    | text s => rw [withWhite]; exact .text
    | elem n as cs =>
      cases cs with
      | nil => rw [withWhite]; exact .elem (by simp [NoAdjacentText]) (by simp)
      | cons c cs =>
        rw [withWhite]
        have hels : ∀ A B, itemEls (.txt A :: xmlItemsList cb (n :: anc) (c :: cs) ++ [.txt B]) =
            ((c :: cs).filter isElem).map (withWhite cb (n :: anc)) := by
          intro A B
          rw [List.cons_append, itemEls, itemEls_append, xmlItemsList_els]
          simp [itemEls]
        refine .elem (joinText_noAdj _ _ ?_) ?_
        · rw [hels]
          intro m hm
          obtain ⟨y, hy, rfl⟩ := List.mem_map.mp hm
          rw [isElem_withWhite]
          exact (List.mem_filter.mp hy).2
        · intro x hx
          rcases mem_joinText hx with ⟨s, rfl⟩ | hx
          · exact .text
          · rw [hels] at hx
            obtain ⟨y, hy, rfl⟩ := List.mem_map.mp hx
            have := List.sizeOf_lt_of_mem (List.mem_filter.mp hy).1
            refine ih y ?_ (n :: anc)
            simp only [Node.elem.sizeOf_spec] at hk
            omega

mutual
theorem normal_descendants : ∀ t : Node, NormalTree t → ∀ d ∈ descendants t, NormalTree d
  | .text s, _ => by rw [descendants]; simp
  | .elem n as cs, h => by
    cases h with
    | elem h1 h2 =>
      rw [descendants]
      exact normal_descendantsList cs h2
theorem normal_descendantsList : ∀ cs : List Node, (∀ c ∈ cs, NormalTree c) → ∀ d ∈ descendantsList cs, NormalTree d
  | [], _ => by rw [descendantsList]; simp
  | c :: cs, h => by
    rw [descendantsList]
    intro d hd
    rcases List.mem_cons.mp hd with rfl | hd
    · exact h _ (by simp)
    · rcases List.mem_append.mp hd with hd | hd
      · exact normal_descendants c (h c (by simp)) d hd
      · exact normal_descendantsList cs (fun c hc => h c (by simp [hc])) d hd
end

/-- A read tree with a given normal form. -/
def IsRead (t u : Node) : Prop := NormalTree t ∧ norm t = u

theorem isRead_withWhite {cb : SaveCb} (hcb : SpaceCb cb) {t : Node} (ht : NoEmptyText t) (anc : List Bytes) :
    IsRead (withWhite cb anc t) (norm t) := ⟨normal_withWhite cb anc t, norm_withWhite hcb ht anc⟩

/-- Text of a read leaf. -/
theorem isRead_text {t : Node} {n : Bytes} {as} {s : Bytes} (h : IsRead t (.elem n as [.text s])) :
    nodeText (some t) = some s := by
  obtain ⟨h1, h2⟩ := h
  cases h1 with
  | text => rw [norm] at h2; cases h2
  | @elem n' as' cs hna hcs =>
    rw [norm_elem] at h2
    injection h2 with _ _ h2
    split at h2
    · have : isElem (.text s) = true := by
        have hm : (.text s : Node) ∈ (cs.filter isElem).map norm := by rw [h2]; simp
        obtain ⟨y, hy, e⟩ := List.mem_map.mp hm
        rw [← e, isElem_norm]; exact (List.mem_filter.mp hy).2
      cases this
    · rename_i hany
      unfold leafText at h2
      split at h2
      · cases h2
      · rename_i hne
        simp at h2
        cases cs with
        | nil => exact absurd rfl hne
        | cons c cs =>
          cases c with
          | elem => simp [isElem] at hany
          | text a =>
            cases cs with
            | nil => simp [textOf] at h2; simp [nodeText, Node.getOpaque, h2]
            | cons d cs =>
              cases d with
              | elem => simp [isElem] at hany
              | text b => exact absurd rfl (hna.2.1 b cs)

/-- A read element without content. -/
theorem isRead_empty {t : Node} {n : Bytes} {as} (h : IsRead t (.elem n as [])) :
    t = .elem n as [] ∧ nodeText (some t) = none := by
  obtain ⟨h1, h2⟩ := h
  cases h1 with
  | text => rw [norm] at h2; cases h2
  | @elem n' as' cs hna hcs =>
    rw [norm_elem] at h2
    injection h2 with e1 e2 h2
    have : cs = [] := by
      split at h2
      · rename_i h
        rw [any_eq_filter] at h
        rw [List.map_eq_nil_iff] at h2
        rw [h2] at h; cases h
      · unfold leafText at h2
        split at h2
        · assumption
        · cases h2
    subst this; subst e1; subst e2
    exact ⟨rfl, rfl⟩

theorem isRead_find {t u : Node} (h : IsRead t u) (nm : Bytes) :
    (find t nm = none ∧ find u nm = none) ∨ ∃ d e, find t nm = some d ∧ find u nm = some e ∧ IsRead d e := by
  have hf := find_norm t nm
  rw [h.2] at hf
  cases hd : find t nm with
  | none => rw [hd] at hf; exact .inl ⟨rfl, hf⟩
  | some d =>
    rw [hd] at hf
    refine .inr ⟨d, norm d, rfl, hf, ?_, rfl⟩
    exact normal_descendants t h.1 d (List.mem_of_find?_eq_some hd)

theorem isRead_find_some {t u e : Node} (h : IsRead t u) {nm : Bytes} (he : find u nm = some e) :
    ∃ d, find t nm = some d ∧ IsRead d e := by
  rcases isRead_find h nm with ⟨_, h2⟩ | ⟨d, e', h1, h2, h3⟩
  · rw [he] at h2; cases h2
  · rw [he] at h2; injection h2 with h2; exact ⟨d, h1, h2 ▸ h3⟩

theorem isRead_find_none {t u : Node} (h : IsRead t u) {nm : Bytes} (he : find u nm = none) : find t nm = none := by
  rcases isRead_find h nm with ⟨h1, _⟩ | ⟨d, e', h1, h2, h3⟩
  · exact h1
  · rw [he] at h2; cases h2

/-- Read lists, one by one. -/
inductive ReadList : List Node → List Node → Prop
  | nil : ReadList [] []
  | cons {t u ts us} : IsRead t u → ReadList ts us → ReadList (t :: ts) (u :: us)

theorem readList_map {ts : List Node} (h : ∀ t ∈ ts, NormalTree t) : ReadList ts (ts.map norm) := by
  induction ts with
  | nil => exact .nil
  | cons t ts ih => exact .cons ⟨h t (by simp), rfl⟩ (ih fun t ht => h t (by simp [ht]))

theorem isRead_findAll {t u : Node} (h : IsRead t u) (nm : Bytes) : ReadList (findAll t nm) (findAll u nm) := by
  rw [← h.2, findAll_norm]
  apply readList_map
  intro d hd
  exact normal_descendants t h.1 d (List.mem_filter.mp hd).1

theorem isRead_children {t u : Node} (h : IsRead t u) :
    ReadList (t.children.filter isElem) (u.children.filter isElem) := by
  rw [← h.2, children_norm]
  apply readList_map
  intro d hd
  have hm := (List.mem_filter.mp hd).1
  cases t with
  | text => simp [Node.children] at hm
  | elem n as cs =>
    cases h.1 with
    | elem _ h2 => exact h2 d hm

theorem isRead_attr {t u : Node} (h : IsRead t u) (a : Bytes) : t.getAttr a = u.getAttr a := by
  rw [← h.2, getAttr_norm]

theorem isRead_named {t u : Node} (h : IsRead t u) (a : Bytes) : named a t = named a u := by
  rw [← h.2, named_norm]

theorem isRead_self {t u : Node} (h : IsRead t u) {nm : Bytes} (hu : named nm u = true) :
    selfOrFind t nm = some t := by
  unfold selfOrFind; rw [isRead_named h, hu]; rfl

theorem isRead_selfOrFind {t u e : Node} (h : IsRead t u) {nm : Bytes} (hu : named nm u = false) (he : find u nm = some e) :
    ∃ d, selfOrFind t nm = some d ∧ IsRead d e := by
  unfold selfOrFind; rw [isRead_named h, hu]
  exact isRead_find_some h he

end Afs
