import Verif.Proof.Document
/-! # Searching trees that follow a schema -/
namespace Afs
open Spec Xml Spec.Schema Spec.Document

/-- No name of a comment, CDATA section or processing instruction. -/
def Proper (nm : Bytes) : Prop := nm.head? ≠ some 33 ∧ nm.head? ≠ some 63

instance (nm : Bytes) : Decidable (Proper nm) := by unfold Proper; infer_instance

/-- Everything of that name in a list of trees. -/
def allL (cs : List Node) (nm : Bytes) : List Node := (descendantsList cs).filter (named nm)

theorem allL_nil (nm : Bytes) : allL [] nm = [] := by unfold allL; rw [descendantsList]; rfl

theorem allL_append (a b : List Node) (nm : Bytes) : allL (a ++ b) nm = allL a nm ++ allL b nm := by
  unfold allL; rw [descendantsList_append, List.filter_append]

theorem allL_cons (c : Node) (r : List Node) (nm : Bytes) : allL (c :: r) nm = allL [c] nm ++ allL r nm := allL_append [c] r nm

theorem allL_one (c : Node) (nm : Bytes) : allL [c] nm = (if named nm c then [c] else []) ++ allL c.children nm := by
  unfold allL
  rw [descendantsList, descendantsList, List.append_nil]
  have : descendants c = descendantsList c.children := by
    cases c with
    | text s => rw [descendants, Node.children, descendantsList]
    | elem n as cs => rw [descendants, Node.children]
  rw [this, List.filter_cons]
  split <;> simp

theorem findL_allL (cs : List Node) (nm : Bytes) : findL cs nm = (allL cs nm).head? := by
  unfold findL allL; rw [List.head?_filter]

theorem find_allL (n : Node) (nm : Bytes) : find n nm = (allL n.children nm).head? := by
  cases n with
  | text s => unfold find allL; rw [descendants, Node.children, descendantsList]; rfl
  | elem a b cs => rw [find_eq_findL, findL_allL]; rfl

theorem findAll_allL (n : Node) (nm : Bytes) : findAll n nm = allL n.children nm := by
  cases n with
  | text s => unfold findAll allL; rw [descendants, Node.children, descendantsList]
  | elem a b cs => unfold findAll allL; rw [descendants]; rfl

theorem plain_mem : ∀ {cs : List Node} {c : Node}, PlainList cs → c ∈ cs → Plain c
  | _ :: _, _, h, .head _ => by rw [PlainList] at h; exact h.1
  | _ :: _, _, h, .tail _ hc => by rw [PlainList] at h; exact plain_mem h.2 hc

theorem plainList_iff {cs : List Node} : PlainList cs ↔ ∀ c ∈ cs, Plain c := by
  constructor
  · exact fun h c hc => plain_mem h hc
  · induction cs with
    | nil => intro _; rw [PlainList]; trivial
    | cons a cs ih => intro h; rw [PlainList]; exact ⟨h a (by simp), ih fun c hc => h c (by simp [hc])⟩

theorem plain_elements {cs : List Node} (h : PlainList cs) : PlainList (elements cs) :=
  plainList_iff.mpr fun c hc => plain_mem h ((List.mem_filter.mp hc).1)

theorem plain_children {n : Node} (h : Plain n) : PlainList n.children := by
  cases n with
  | text s => rw [Node.children, PlainList]; trivial
  | elem a b cs => rw [Plain] at h; exact h.2.2.2.2.2

theorem plain_special {n : Node} (h : Plain n) (hs : isElement n = false) : n.children = [] := by
  cases n with
  | text s => rfl
  | elem a b cs => rw [Plain] at h; exact h.1 hs

theorem proper_named {nm : Bytes} (hp : Proper nm) {n : Node} (hs : isElement n = false) : named nm n = false := by
  cases n with
  | text s => rfl
  | elem a b cs =>
    unfold isElement at hs
    cases hn : named nm (.elem a b cs) with
    | false => rfl
    | true =>
      simp [named, Node.element] at hn
      subst hn
      obtain ⟨h1, h2⟩ := hp
      simp [h1, h2] at hs

/-- Only the elements count. -/
theorem allL_elements {cs : List Node} (h : PlainList cs) {nm : Bytes} (hp : Proper nm) : allL cs nm = allL (elements cs) nm := by
  induction cs with
  | nil => rfl
  | cons c cs ih =>
    rw [PlainList] at h
    rw [allL_cons, ih h.2]
    unfold elements
    cases hc : isElement c with
    | true => rw [List.filter_cons_of_pos hc, allL_cons c (List.filter isElement cs)]
    | false =>
      rw [List.filter_cons_of_neg (by simp [hc]), allL_one, proper_named hp hc, plain_special h.1 hc, allL_nil]
      rfl

theorem named_elements {cs : List Node} {nm : Bytes} (hp : Proper nm) : cs.filter (named nm) = (elements cs).filter (named nm) := by
  unfold elements
  rw [List.filter_filter]
  refine List.filter_congr ?_
  intro x _
  cases hx : isElement x with
  | true => simp
  | false => rw [proper_named hp hx]; rfl

theorem childrenOf_eq (n : Node) (nm : Bytes) : childrenOf n nm = (elements n.children).filter (named nm) := by
  unfold childrenOf
  refine List.filter_congr ?_
  intro x _
  unfold named
  rw [Bool.eq_iff_iff]; simp

/-! ### Names a type has below it -/

mutual
/-- The names of the elements below an element of the type. -/
def docTyNames : Ty → List Bytes
  | .text _ _ => []
  | .empty _ => []
  | .seq _ ps => docPartNames ps
/-- The names of the parts and below. -/
def docPartNames : Parts → List Bytes
  | .nil => []
  | .cons name _ _ ty rest => name :: (docTyNames ty ++ docPartNames rest)
end

theorem allL_none_of {xs : List Node} {nm : Bytes} (h : ∀ x ∈ xs, allL [x] nm = []) : allL xs nm = [] := by
  induction xs with
  | nil => exact allL_nil nm
  | cons x xs ih => rw [allL_cons, h x (by simp), ih fun y hy => h y (by simp [hy])]; rfl

mutual
theorem allL_valid {nm : Bytes} (hp : Proper nm) : ∀ (ty : Ty) {as cs}, Valid ty as cs → PlainList cs → nm ∉ docTyNames ty → allL cs nm = []
  | .text _ _, as, cs, h, hpl, _ => by rw [Valid] at h; rw [allL_elements hpl hp, h.2.1, allL_nil]
  | .empty _, as, cs, h, hpl, _ => by rw [Valid] at h; rw [allL_elements hpl hp, h.2.1, allL_nil]
  | .seq _ ps, as, cs, h, hpl, hn => by
    rw [Valid] at h
    rw [docTyNames] at hn
    rw [allL_elements hpl hp]
    exact allL_inOrder hp ps h.2.2 (plain_elements hpl) hn
theorem allL_inOrder {nm : Bytes} (hp : Proper nm) : ∀ (ps : Parts) {l}, InOrder ps l → PlainList l → nm ∉ docPartNames ps → allL l nm = []
  | .nil, l, h, _, _ => by rw [InOrder] at h; rw [h, allL_nil]
  | .cons name lo hi ty rest, l, h, hpl, hn => by
    rw [InOrder] at h
    obtain ⟨xs, ys, rfl, _, _, hx, hy⟩ := h
    rw [docPartNames] at hn
    simp only [List.mem_cons, List.mem_append, not_or] at hn
    rw [plainList_iff] at hpl
    rw [allL_append, allL_inOrder hp rest hy (plainList_iff.mpr fun c hc => hpl c (by simp [hc])) hn.2.2, List.append_nil]
    refine allL_none_of ?_
    intro x hxm
    obtain ⟨as, cs, rfl, hv⟩ := hx x hxm
    have hk : allL (Node.elem name as cs).children nm = [] :=
      allL_valid hp ty hv (plain_children (n := .elem name as cs) (hpl _ (by simp [hxm]))) hn.2.1
    rw [allL_one, hk]
    have : named nm (.elem name as cs) = false := by simp [named, Node.element]; exact fun e => hn.1 e.symm
    rw [this]; rfl
end

/-! ### A search finds the part of that name -/

/-- The part comes before everything else of its name. -/
def direct (nm : Bytes) : Parts → Bool
  | .nil => true
  | .cons name lo _ ty rest => (name == nm && decide (1 ≤ lo)) || (!(docTyNames ty).contains nm && direct nm rest)

/-- Nothing else has the name of the part. -/
def everywhere (nm : Bytes) : Parts → Bool
  | .nil => true
  | .cons _ _ _ ty rest => !(docTyNames ty).contains nm && everywhere nm rest

theorem allL_roots {nm : Bytes} {xs : List Node} (h : ∀ x ∈ xs, allL x.children nm = []) : allL xs nm = xs.filter (named nm) := by
  induction xs with
  | nil => exact allL_nil nm
  | cons x xs ih =>
    rw [allL_cons, allL_one, h x (by simp), ih fun y hy => h y (by simp [hy]), List.append_nil, List.filter_cons]
    split <;> rfl

theorem all_everywhere {nm : Bytes} (hp : Proper nm) : ∀ (ps : Parts) {l}, InOrder ps l → PlainList l → everywhere nm ps = true →
    allL l nm = l.filter (named nm)
  | .nil, l, h, _, _ => by rw [InOrder] at h; rw [h, allL_nil]; rfl
  | .cons name lo hi ty rest, l, h, hpl, hn => by
    rw [InOrder] at h
    obtain ⟨xs, ys, rfl, _, _, hx, hy⟩ := h
    rw [everywhere] at hn
    simp only [Bool.and_eq_true, Bool.not_eq_true', List.contains_eq_mem, decide_eq_false_iff_not] at hn
    rw [plainList_iff] at hpl
    rw [allL_append, List.filter_append, all_everywhere hp rest hy (plainList_iff.mpr fun c hc => hpl c (by simp [hc])) hn.2, allL_roots]
    intro x hxm
    obtain ⟨as, cs, rfl, hv⟩ := hx x hxm
    exact allL_valid hp ty hv (plain_children (n := .elem name as cs) (hpl _ (by simp [hxm]))) hn.1

theorem head_direct {nm : Bytes} (hp : Proper nm) : ∀ (ps : Parts) {l}, InOrder ps l → PlainList l → direct nm ps = true →
    (allL l nm).head? = (l.filter (named nm)).head?
  | .nil, l, h, _, _ => by rw [InOrder] at h; rw [h, allL_nil]; rfl
  | .cons name lo hi ty rest, l, h, hpl, hn => by
    rw [InOrder] at h
    obtain ⟨xs, ys, rfl, hlo, _, hx, hy⟩ := h
    rw [direct] at hn
    simp only [Bool.or_eq_true, Bool.and_eq_true, Bool.not_eq_true', List.contains_eq_mem, decide_eq_false_iff_not, beq_iff_eq,
      decide_eq_true_eq] at hn
    rcases hn with ⟨rfl, h1⟩ | hn
    · cases xs with
      | nil => simp at hlo; omega
      | cons x xs =>
        obtain ⟨as, cs, rfl, hv⟩ := hx x (by simp)
        have : named name (.elem name as cs) = true := by simp [named, Node.element]
        rw [List.cons_append, allL_cons, allL_one, this, List.filter_cons_of_pos this]
        rfl
    · rw [plainList_iff] at hpl
      have e : allL xs nm = xs.filter (named nm) := by
        refine allL_roots ?_
        intro x hxm
        obtain ⟨as, cs, rfl, hv⟩ := hx x hxm
        exact allL_valid hp ty hv (plain_children (n := .elem name as cs) (hpl _ (by simp [hxm]))) hn.1
      rw [allL_append, List.filter_append, e, List.head?_append, List.head?_append,
        head_direct hp rest hy (plainList_iff.mpr fun c hc => hpl c (by simp [hc])) hn.2]

theorem find_child {n : Bytes} {as cs} {ds ps} (h : Valid (.seq ds ps) as cs) (hpl : PlainList cs) {nm : Bytes} (hp : Proper nm)
    (hd : direct nm ps = true) : find (.elem n as cs) nm = child (.elem n as cs) nm := by
  rw [Valid] at h
  rw [find_allL, child, childrenOf_eq, Node.children, ← head_direct hp ps h.2.2 (plain_elements hpl) hd, ← allL_elements hpl hp]

theorem findAll_children {n : Bytes} {as cs} {ds ps} (h : Valid (.seq ds ps) as cs) (hpl : PlainList cs) {nm : Bytes} (hp : Proper nm)
    (hd : everywhere nm ps = true) : findAll (.elem n as cs) nm = childrenOf (.elem n as cs) nm := by
  rw [Valid] at h
  rw [findAll_allL, childrenOf_eq, Node.children, ← all_everywhere hp ps h.2.2 (plain_elements hpl) hd, ← allL_elements hpl hp]

/-! ### Searching below a parent -/

mutual
theorem descUnder_none {p : Bytes} : ∀ (c : Node), allL [c] p = [] → ∀ x ∈ descUnder c, x.1 ≠ p
  | .text s, _, x, hx => by rw [descUnder] at hx; cases hx
  | .elem n as cs, h, x, hx => by
    rw [descUnder] at hx
    rw [allL_one] at h
    have hn : n ≠ p := by
      rintro rfl
      have : named n (.elem n as cs) = true := by simp [named, Node.element]
      rw [this] at h; cases h
    exact descUnderList_none cs (List.append_eq_nil_iff.mp h).2 hn x hx
theorem descUnderList_none {p : Bytes} : ∀ (cs : List Node), allL cs p = [] → ∀ {q : Bytes}, q ≠ p → ∀ x ∈ descUnderList q cs, x.1 ≠ p
  | [], _, q, _, x, hx => by rw [descUnderList] at hx; cases hx
  | c :: cs, h, q, hq, x, hx => by
    rw [allL_cons] at h
    obtain ⟨h1, h2⟩ := List.append_eq_nil_iff.mp h
    rw [descUnderList] at hx
    rcases List.mem_cons.mp hx with rfl | hx
    · exact hq
    · rcases List.mem_append.mp hx with hx | hx
      · exact descUnder_none c h1 x hx
      · exact descUnderList_none cs h2 hq x hx
end

theorem underL_find {q : Bytes} {cs : List Node} (h : allL cs q = []) (nm : Bytes) : underL q cs q nm = cs.find? (named nm) := by
  unfold underL
  induction cs with
  | nil => rw [descUnderList]; rfl
  | cons c cs ih =>
    rw [allL_cons] at h
    obtain ⟨h1, h2⟩ := List.append_eq_nil_iff.mp h
    rw [descUnderList]
    cases hn : named nm c with
    | true => rw [List.find?_cons_of_pos (by simp [hn]), List.find?_cons_of_pos hn]; rfl
    | false =>
      rw [List.find?_cons_of_neg (by simp [hn]), List.find?_cons_of_neg (by simp [hn]), List.find?_append]
      have e : List.find? (fun x => x.1 == q && named nm x.2) (descUnder c) = none := by
        rw [List.find?_eq_none]
        intro x hx hh
        simp only [Bool.and_eq_true, beq_iff_eq] at hh
        exact descUnder_none c h1 x hx hh.1
      rw [e]
      exact ih h2

theorem findUnder_child {n : Bytes} {as cs} {ds ps} (h : Valid (.seq ds ps) as cs) (hpl : PlainList cs) {nm : Bytes} (hp : Proper nm)
    (hq : Proper n) (hn : (docPartNames ps).contains n = false) : findUnder (.elem n as cs) n nm = child (.elem n as cs) nm := by
  have e : allL cs n = [] := allL_valid hq (.seq ds ps) h hpl (by rw [docTyNames]; simpa using hn)
  rw [findUnder_eq, underL_find e, child, childrenOf_eq, ← List.head?_filter, named_elements hp]
  rfl

/-! ### Attributes and texts -/

theorem getAttr_attr (n : Node) (nm : Bytes) : n.getAttr nm = attr n nm := by
  unfold Node.getAttr attr
  induction n.attrs with
  | nil => rfl
  | cons a l ih =>
    obtain ⟨x, v⟩ := a
    rw [Node.findAttr]
    by_cases h : x = nm
    · rw [if_pos h, List.find?_cons_of_pos (by simpa using h)]; rfl
    · rw [if_neg h, List.find?_cons_of_neg (by simpa using h), ih]

theorem attr_type {ds : List Attr} {n : Node} (h : AttrsOk ds n.attrs) {nm v : Bytes} (hv : attr n nm = some v) :
    ∃ d ∈ ds, d.name = nm ∧ d.type v := by
  unfold attr at hv
  obtain ⟨a, ha, hav⟩ := Option.bind_eq_some_iff.mp hv
  obtain ⟨d, hd, hn, w, hw, ht⟩ := h.1 a (List.mem_of_find?_eq_some ha)
  have := List.find?_some ha
  rw [decide_eq_true_eq] at this
  rw [hw] at hav
  injection hav with hav
  exact ⟨d, hd, hn.trans this, hav ▸ ht⟩

theorem attr_required {ds : List Attr} {n : Node} (h : AttrsOk ds n.attrs) {d : Attr} (hd : d ∈ ds) (hr : d.required = true) :
    ∃ v, attr n d.name = some v := by
  obtain ⟨a, ha, hn⟩ := h.2 d hd hr
  have : ∃ b, n.attrs.find? (fun a => decide (a.1 = d.name)) = some b := by
    rw [← Option.isSome_iff_exists, List.find?_isSome]
    exact ⟨a, ha, by simpa using hn⟩
  obtain ⟨b, hb⟩ := this
  obtain ⟨d', hd', hn', w, hw, _⟩ := h.1 b (List.mem_of_find?_eq_some hb)
  exact ⟨w, by unfold attr; rw [hb]; exact hw⟩

theorem child_named {n x : Node} {nm : Bytes} (h : child n nm = some x) : x ∈ n.children ∧ ∃ as cs, x = .elem nm as cs := by
  unfold child at h
  rw [childrenOf_eq] at h
  have hm := List.mem_of_head? h
  rw [List.mem_filter] at hm
  refine ⟨(List.mem_filter.mp hm.1).1, ?_⟩
  cases x with
  | text s => have := hm.2; simp [named, Node.element] at this
  | elem a b cs => have := hm.2; simp [named, Node.element] at this; exact ⟨b, cs, by rw [this]⟩

theorem nodeText_content {nm : Bytes} {as cs} (h : Plain (.elem nm as cs)) (ht : nm ∈ textNames) :
    nodeText (some (.elem nm as cs)) = Document.content (.elem nm as cs) := by
  rw [Plain] at h
  rcases h.2.1 ht with rfl | ⟨t, rfl⟩
  · rfl
  · unfold nodeText Document.content
    simp [Node.getOpaque, Node.children, stringTrim_trim, chars, charsOf]

theorem nodeText_child {n : Node} (h : Plain n) {nm : Bytes} (ht : nm ∈ textNames) : nodeText (child n nm) = text n nm := by
  unfold text
  cases hc : child n nm with
  | none => rfl
  | some x =>
    obtain ⟨hm, as, cs, rfl⟩ := child_named hc
    exact nodeText_content (plain_mem (plain_children h) hm) ht

end Afs
