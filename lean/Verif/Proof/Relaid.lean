import Verif.Spec.Extended
import Verif.Proof.Under
import Mathlib.Data.List.Forall2
/-! # Searching documents that differ in what the library does not know -/
namespace Afs
open Spec Xml Spec.Extended
open Spec.Relaid (textElements SameText SameStart isCData)

/-- The name of an element that means something to the library. -/
def realName (n : Bytes) : Bool := knownElements.contains n

/-- Such an element. -/
def realNode : Node → Bool
  | .elem n _ _ => realName n
  | .text _ => false

inductive ORel {α β : Type} (R : α → β → Prop) : Option α → Option β → Prop
  | none : ORel R none none
  | some {a b} : R a b → ORel R (some a) (some b)

def real2 (x : Bytes × Node) : Bool := realNode x.2

theorem realName_false {n : Bytes} (h : n ∉ knownElements) : realName n = false := by
  unfold realName
  cases e : knownElements.contains n with
  | false => rfl
  | true => exact absurd (List.contains_iff_mem.mp e) h

mutual
theorem foreign_under : ∀ {x : Node}, Foreign x → realNode x = false ∧ (descUnder x).filter real2 = []
  | .text _, _ => ⟨rfl, by rw [descUnder]; rfl⟩
  | .elem n _ cs, h => by
    rw [Foreign] at h
    exact ⟨realName_false h.1, by rw [descUnder]; exact foreignAll_under h.2 n⟩
theorem foreignAll_under : ∀ {cs : List Node}, ForeignAll cs → ∀ p, (descUnderList p cs).filter real2 = []
  | [], _ => fun p => by rw [descUnderList]; rfl
  | x :: cs, h => fun p => by
    rw [ForeignAll] at h
    have hx := foreign_under h.1
    rw [descUnderList, List.filter_cons_of_neg (by simp [real2, hx.1]), List.filter_append, hx.2, foreignAll_under h.2 p]
    rfl
end

mutual
theorem relaid_mono : ∀ {x y : Node}, Extended true x y → Extended false x y
  | _, _, .mk (n := n) ha hk ht hd => by
    refine .mk ha ?_ ht (fun h => nomatch h)
    by_cases h : n = b! "source"
    · simpa [h] using hk
    · simp only [h, decide_false, Bool.or_false] at hk ⊢
      exact kids_mono hk
theorem kids_mono : ∀ {cs ds : List Node}, Kids true cs ds → Kids false cs ds
  | _, _, .nil => .nil
  | _, _, .left h hk => .left h (kids_mono hk)
  | _, _, .right h hk => .right h (kids_mono hk)
  | _, _, .cons h hk => .cons (relaid_mono h) (kids_mono hk)
end

theorem relaid_le {b c : Bool} {x y : Node} (h : Extended (b || c) x y) : Extended b x y := by
  cases b with
  | true => simpa using h
  | false =>
    cases c with
    | true => exact relaid_mono h
    | false => exact h

def Pairs (b : Bool) (x y : Bytes × Node) : Prop := x.1 = y.1 ∧ Extended b x.2 y.2

theorem forall2_append {α β : Type} {R : α → β → Prop} {a : List α} {b : List β} {c : List α} {d : List β}
    (h : List.Forall₂ R a b) (h' : List.Forall₂ R c d) : List.Forall₂ R (a ++ c) (b ++ d) := by
  induction h with
  | nil => exact h'
  | cons h _ ih => exact .cons h ih

theorem forall2_imp {α β : Type} {R S : α → β → Prop} (hi : ∀ x y, R x y → S x y) {a : List α} {b : List β}
    (h : List.Forall₂ R a b) : List.Forall₂ S a b := by
  induction h with
  | nil => exact .nil
  | cons h _ ih => exact .cons (hi _ _ h) ih

theorem relaid_element {b : Bool} {x y : Node} (h : Extended b x y) : x.element = y.element := by cases h; rfl

theorem relaid_real {b : Bool} {x y : Node} (h : Extended b x y) : realNode x = realNode y := by cases h; rfl

mutual
theorem relaid_under : ∀ {b : Bool} {x y : Node}, Extended b x y →
    List.Forall₂ (Pairs b) ((descUnder x).filter real2) ((descUnder y).filter real2)
  | b, _, _, .mk (n := n) _ hk _ _ => by
    rw [descUnder, descUnder]
    exact forall2_imp (fun _ _ h => ⟨h.1, relaid_le h.2⟩) (kids_under hk n)
theorem kids_under : ∀ {b : Bool} {cs ds : List Node}, Kids b cs ds → ∀ p,
    List.Forall₂ (Pairs b) ((descUnderList p cs).filter real2) ((descUnderList p ds).filter real2)
  | _, _, _, .nil => fun p => by rw [descUnderList]; exact .nil
  | _, _, _, .left (x := x) h hk => fun p => by
    have := foreign_under h
    rw [descUnderList, List.filter_cons_of_neg (by simp [real2, this.1]), List.filter_append, this.2, List.nil_append]
    exact kids_under hk p
  | _, _, _, .right (x := x) h hk => fun p => by
    have := foreign_under h
    rw [descUnderList, List.filter_cons_of_neg (by simp [real2, this.1]), List.filter_append, this.2, List.nil_append]
    exact kids_under hk p
  | _, _, _, .cons (x := x) (y := y) h hk => fun p => by
    rw [descUnderList, descUnderList, List.filter_cons, List.filter_cons]
    have hr : real2 (p, x) = real2 (p, y) := relaid_real h
    rw [hr, List.filter_append, List.filter_append]
    have ht := forall2_append (relaid_under h) (kids_under hk p)
    split
    · exact .cons ⟨rfl, h⟩ ht
    · exact ht
end

theorem forall2_map_snd {b : Bool} {l m : List (Bytes × Node)} (h : List.Forall₂ (Pairs b) l m) :
    List.Forall₂ (Extended b) (l.map Prod.snd) (m.map Prod.snd) := by
  induction h with
  | nil => exact .nil
  | cons h _ ih => exact .cons h.2 ih

theorem filter_snd (l : List (Bytes × Node)) : (l.map Prod.snd).filter realNode = (l.filter real2).map Prod.snd := by
  induction l with
  | nil => rfl
  | cons x l ih =>
    rw [List.map_cons, List.filter_cons, List.filter_cons, ih]
    unfold real2
    split <;> rfl

theorem kids_desc {b : Bool} {cs ds : List Node} (h : Kids b cs ds) :
    List.Forall₂ (Extended b) ((descendantsList cs).filter realNode) ((descendantsList ds).filter realNode) := by
  rw [← descUnderList_snd [], ← descUnderList_snd [], filter_snd, filter_snd]
  exact forall2_map_snd (kids_under h [])

theorem relaid_desc {b : Bool} {x y : Node} (h : Extended b x y) :
    List.Forall₂ (Extended b) ((descendants x).filter realNode) ((descendants y).filter realNode) := by
  rw [← descUnder_snd, ← descUnder_snd, filter_snd, filter_snd]
  exact forall2_map_snd (relaid_under h)

theorem named_real {nm : Bytes} (hn : realName nm = true) {x : Node} (h : named nm x = true) : realNode x = true := by
  cases x with
  | text s => simp [named, Node.element] at h
  | elem n as cs =>
    have : n = nm := by simpa [named, Node.element] using h
    subst this
    exact hn

theorem relaid_named {b : Bool} {x y : Node} (h : Extended b x y) (nm : Bytes) : named nm x = named nm y := by
  unfold named; rw [relaid_element h]

/-! ### Whatever is below -/

/-- Two nodes below which the same is found. -/
def SameBelow (b : Bool) (x y : Node) : Prop :=
  List.Forall₂ (Extended b) ((descendants x).filter realNode) ((descendants y).filter realNode)

theorem filter_real_named {nm : Bytes} (hn : realName nm = true) (l : List Node) :
    (l.filter realNode).filter (named nm) = l.filter (named nm) := by
  rw [List.filter_filter]
  congr 1
  funext x
  cases h : named nm x with
  | false => simp
  | true => simp [named_real hn h]

theorem find_real_named {nm : Bytes} (hn : realName nm = true) (l : List Node) :
    (l.filter realNode).find? (named nm) = l.find? (named nm) := by
  rw [← List.head?_filter, ← List.head?_filter, filter_real_named hn]

theorem forall2_filter {R : Node → Node → Prop} {p : Node → Bool} (hp : ∀ x y, R x y → p x = p y) {l m : List Node}
    (h : List.Forall₂ R l m) : List.Forall₂ R (l.filter p) (m.filter p) := by
  induction h with
  | nil => exact .nil
  | @cons x y l m h _ ih =>
    rw [List.filter_cons, List.filter_cons, ← hp x y h]
    split
    · exact .cons h ih
    · exact ih

theorem forall2_head {R : Node → Node → Prop} {l m : List Node} (h : List.Forall₂ R l m) : ORel R l.head? m.head? := by
  cases h with
  | nil => exact .none
  | cons h _ => exact .some h

theorem below_findAll {b : Bool} {x y : Node} (h : SameBelow b x y) {nm : Bytes} (hn : realName nm = true) :
    List.Forall₂ (Extended b) (findAll x nm) (findAll y nm) := by
  unfold findAll
  rw [← filter_real_named hn, ← filter_real_named hn (descendants y)]
  exact forall2_filter (R := Extended b) (fun x y h => relaid_named h nm) h

theorem below_find {b : Bool} {x y : Node} (h : SameBelow b x y) {nm : Bytes} (hn : realName nm = true) :
    ORel (Extended b) (find x nm) (find y nm) := by
  unfold find
  rw [← List.head?_filter, ← List.head?_filter]
  exact forall2_head (below_findAll h hn)

theorem relaid_findUnder {b : Bool} {x y : Node} (h : Extended b x y) (p : Bytes) {nm : Bytes} (hn : realName nm = true) :
    ORel (Extended b) (findUnder x p nm) (findUnder y p nm) := by
  unfold findUnder
  have key : ∀ l : List (Bytes × Node), (l.filter real2).find? (fun x => x.1 == p && named nm x.2) = l.find? (fun x => x.1 == p && named nm x.2) := by
    intro l
    rw [← List.head?_filter, ← List.head?_filter, List.filter_filter]
    congr 2
    funext x
    cases h : named nm x.2 with
    | false => simp
    | true => simp [real2, named_real hn h]
  rw [← key, ← key (descUnder y)]
  have := relaid_under h
  generalize (descUnder x).filter real2 = l at this
  generalize (descUnder y).filter real2 = m at this
  induction this with
  | nil => exact .none
  | @cons x y l m h _ ih =>
    rw [List.find?_cons, List.find?_cons, ← h.1, ← relaid_named h.2 nm]
    split
    · exact .some h.2
    · exact ih

theorem relaid_below {b : Bool} {x y : Node} (h : Extended b x y) : SameBelow b x y := relaid_desc h

theorem relaid_find {b : Bool} {x y : Node} (h : Extended b x y) {nm : Bytes} (hn : realName nm = true) :
    ORel (Extended b) (find x nm) (find y nm) := below_find (relaid_below h) hn

/-- Below a `source`. -/
theorem source_below {b : Bool} {x y : Node} (h : Extended b x y) (hs : named (b! "source") x = true) : SameBelow true x y := by
  cases h with
  | @mk _ n as bs cs ds ha hk ht hd =>
    have : n = b! "source" := by simpa [named, Node.element] using hs
    subst this
    unfold SameBelow
    rw [descendants, descendants]
    have e : (b || decide (b! "source" = b! "source")) = true := by simp
    rw [e] at hk
    exact kids_desc hk

/-! ### Documents -/

theorem doc_below {x y : Node} (h : ExtendedDoc x y) : SameBelow false x y := by
  cases h with
  | same h => exact relaid_below h
  | inside _ _ hk =>
    unfold SameBelow
    rw [descendants, descendants]
    exact kids_desc hk

theorem relaid_doc {b : Bool} {x y : Node} (h : Extended b x y) : ExtendedDoc x y := by
  cases b with
  | true => exact .same (relaid_mono h)
  | false => exact .same h

theorem decl_named {n : Bytes} {as cs} (h : n ∉ knownElements) {nm : Bytes} (hn : realName nm = true) :
    named nm (.elem n as cs) = false := by
  cases he : named nm (.elem n as cs) with
  | false => rfl
  | true =>
    have : n = nm := by simpa [named, Node.element] using he
    subst this
    exact absurd (List.contains_iff_mem.mp hn) h

theorem doc_named {x y : Node} (h : ExtendedDoc x y) {nm : Bytes} (hn : realName nm = true) : named nm x = named nm y := by
  cases h with
  | same h => exact relaid_named h nm
  | inside h1 h2 _ => rw [decl_named h1 hn, decl_named h2 hn]

theorem doc_find {x y : Node} (h : ExtendedDoc x y) {nm : Bytes} (hn : realName nm = true) :
    ORel (Extended false) (find x nm) (find y nm) := below_find (doc_below h) hn

theorem doc_findAll {x y : Node} (h : ExtendedDoc x y) {nm : Bytes} (hn : realName nm = true) :
    List.Forall₂ (Extended false) (findAll x nm) (findAll y nm) := below_findAll (doc_below h) hn

theorem doc_selfOrFind {x y : Node} (h : ExtendedDoc x y) {nm : Bytes} (hn : realName nm = true) :
    ORel (fun a b => Extended false a b ∧ named nm a = true) (selfOrFind x nm) (selfOrFind y nm) := by
  unfold selfOrFind
  rw [← doc_named h hn]
  split
  · rename_i hx
    cases h with
    | same h => exact .some ⟨h, hx⟩
    | inside h1 _ _ => rw [decl_named h1 hn] at hx; cases hx
  · have hf := doc_find h hn
    cases e1 : find x nm with
    | none =>
      rw [e1] at hf
      cases e2 : find y nm with
      | none => exact .none
      | some b => rw [e2] at hf; cases hf
    | some a =>
      rw [e1] at hf
      cases e2 : find y nm with
      | none => rw [e2] at hf; cases hf
      | some b =>
        rw [e2] at hf
        cases hf with
        | some hr => exact .some ⟨hr, by unfold find at e1; exact List.find?_some e1⟩

/-! ### Reading values -/

theorem findAttr_lookup (a : Bytes) (as : List (Bytes × Option Bytes)) : Node.findAttr a as = (as.lookup a).getD none := by
  induction as with
  | nil => rfl
  | cons x as ih =>
    obtain ⟨n, v⟩ := x
    rw [Node.findAttr, List.lookup_cons, ih]
    by_cases h : n = a
    · subst h; simp
    · have h' : ¬ a = n := fun e => h e.symm
      rw [if_neg h]
      have : (a == n) = false := by simpa using h'
      rw [this]

theorem relaid_attr {b : Bool} {x y : Node} (h : Extended b x y) {a : Bytes} (hk : a ∈ knownAttributes) :
    x.getAttr a = y.getAttr a := by
  cases h with
  | mk ha _ _ _ =>
    unfold Node.getAttr
    rw [findAttr_lookup, findAttr_lookup]
    exact congrArg (·.getD none) (ha a hk)

theorem relaid_intAttr {b : Bool} {x y : Node} (h : Extended b x y) {a : Bytes} (hk : a ∈ knownAttributes) :
    intAttr x a = intAttr y a := by
  unfold intAttr; rw [relaid_attr h hk]

theorem relaid_uintAttr {b : Bool} {x y : Node} (h : Extended b x y) {a : Bytes} (hk : a ∈ knownAttributes) :
    uintAttr x a = uintAttr y a := by
  unfold uintAttr; rw [relaid_attr h hk]

theorem sameText_trim {s t : Bytes} (h : SameText s t) : stringTrim s = stringTrim t := by
  obtain ⟨a, b, a', b', m, rfl, rfl, hc⟩ := h
  have hb : ∀ c ∈ a ++ b ++ a' ++ b', isTrimByte c = true := by
    intro c hx
    rcases hc c hx with h | h | h <;> subst h <;> rfl
  rw [stringTrim_pad a m b (fun c hx => hb c (by simp [hx])) (fun c hx => hb c (by simp [hx])),
    stringTrim_pad a' m b' (fun c hx => hb c (by simp [hx])) (fun c hx => hb c (by simp [hx]))]

theorem start_text {cs ds : List Node} (h : SameStart cs ds) (n m : Bytes) (as bs) :
    nodeText (some (.elem n as cs)) = nodeText (some (.elem m bs ds)) := by
  unfold nodeText
  cases h with
  | text h =>
    show some _ = some _
    rw [sameText_trim h]
  | other h1 h2 =>
    have : ∀ n as cs, (∀ s, List.head? cs ≠ some (Node.text s)) → Node.getOpaque (.elem n as cs) = none := by
      intro n as cs h
      cases cs with
      | nil => rfl
      | cons c cs =>
        cases c with
        | text s => exact absurd rfl (h s)
        | elem => rfl
    dsimp only
    rw [this n as cs h1, this m bs ds h2]

theorem relaid_text {b : Bool} {x y : Node} (h : Extended b x y) {nm : Bytes} (hx : named nm x = true) (ht : nm ∈ textElements) :
    nodeText (some x) = nodeText (some y) := by
  cases h with
  | mk _ _ hs _ =>
    have := beq_iff_eq.mp hx
    injection this with this
    subst this
    exact start_text (hs ht) _ _ _ _

theorem find_named {x y : Node} {nm : Bytes} (h : find x nm = some y) : named nm y = true := by
  unfold find at h; exact List.find?_some h

/-- The text of a text element below. -/
theorem below_text {b : Bool} {x y : Node} (h : SameBelow b x y) {nm : Bytes} (hn : realName nm = true) (ht : nm ∈ textElements) :
    nodeText (find x nm) = nodeText (find y nm) ∧ ((find x nm).isSome = (find y nm).isSome) := by
  have hf := below_find h hn
  cases e1 : find x nm with
  | none =>
    rw [e1] at hf
    cases e2 : find y nm with
    | none => exact ⟨rfl, rfl⟩
    | some b => rw [e2] at hf; cases hf
  | some a =>
    rw [e1] at hf
    cases e2 : find y nm with
    | none => rw [e2] at hf; cases hf
    | some b =>
      rw [e2] at hf
      cases hf with
      | some hr => exact ⟨relaid_text hr (find_named e1) ht, rfl⟩

theorem relaid_intElement {b : Bool} {x y : Node} (h : Extended b x y) {nm : Bytes} (hn : realName nm = true) (ht : nm ∈ textElements) :
    intElement x nm = intElement y nm := by
  unfold intElement
  rw [(below_text (relaid_below h) hn ht).1]

theorem relaid_nodeText {b : Bool} {x y : Node} (h : Extended b x y) {nm : Bytes} (hn : realName nm = true) (ht : nm ∈ textElements) :
    nodeText (find x nm) = nodeText (find y nm) := (below_text (relaid_below h) hn ht).1

theorem isCData_get (x : Node) : isCData x = x.getCDATA.isSome := by
  cases x with
  | text s => rfl
  | elem n as cs =>
    unfold isCData Node.getCDATA
    dsimp only
    have : (b! "![CDATA[").isPrefixOf n = true ↔ n.take 8 = Node.cdataOpen := by
      rw [List.isPrefixOf_iff_prefix, List.prefix_iff_eq_take]
      exact eq_comm
    by_cases h : n.take 8 = Node.cdataOpen
    · rw [if_pos h, this.mpr h]; rfl
    · rw [if_neg h]
      cases hp : (b! "![CDATA[").isPrefixOf n with
      | false => rfl
      | true => exact absurd (this.mp hp) h

theorem firstCData_cdatas (cs : List Node) : firstCData cs = ((cs.filter isCData).head?.bind Node.getCDATA).map stripBrackets := by
  induction cs with
  | nil => rfl
  | cons c cs ih =>
    rw [firstCData, List.filter_cons, isCData_get]
    cases h : c.getCDATA with
    | none => simpa using ih
    | some d => simp [h]

theorem relaid_loadData {x y : Node} (h : Extended true x y) (hx : named (b! "data") x = true) (old : Option Bytes) :
    loadData old x = loadData old y := by
  cases h with
  | mk _ _ _ hd =>
    have := beq_iff_eq.mp hx
    injection this with this
    obtain ⟨h1, h2⟩ := hd rfl this
    unfold loadData
    simp only [Node.children]
    rw [firstCData_cdatas, firstCData_cdatas, ← h1]
    cases hl : List.filter isCData _ with
    | nil =>
      rw [start_text (h2 hl)]
    | cons c l =>
      have hc : isCData c = true := (List.mem_filter.mp (hl ▸ List.mem_cons_self : c ∈ _)).2
      rw [isCData_get] at hc
      cases hg : c.getCDATA with
      | none => rw [hg] at hc; cases hc
      | some d => simp [hg]

end Afs
