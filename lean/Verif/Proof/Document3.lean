import Verif.Proof.Document2
import Verif.Props.C37_Validity
import Verif.Props.C46_LoadAll
/-! # Loading documents that follow the schema: lists, layouts, previews, metadata -/
namespace Afs
open Spec Xml Spec.Schema Spec.Document

/-! ### Lists -/

/-- The items are admitted one after the other. -/
def Admits {A : Type} (ok : List A → A → Bool) : List A → List A → Prop
  | _, [] => True
  | l, x :: xs => ok l x = true ∧ Admits ok (l ++ [x]) xs

theorem admits_const {A : Type} {p : A → Bool} (xs : List A) : ∀ l, Admits (fun _ x => p x) l xs ↔ ∀ x ∈ xs, p x = true := by
  induction xs with
  | nil => intro l; simp [Admits]
  | cons x xs ih => intro l; rw [Admits, ih]; simp

theorem loop_loads {S A : Type} {load : Node → Bool × A} {add : S → Option A → Bool × S} {mk : Option (List A) → S} {ok : List A → A → Bool}
    (hadd : ∀ v x, add (mk v) (some x) = if ok (v.getD []) x = true then (true, mk (vecAppend v x)) else (false, mk v))
    {C : Node → Prop} {val : Node → A} (ns : List Node) (hl : ∀ n ∈ ns, LoadsAs (load n) (C n) (val n)) :
    ∀ v, LoadsAs (loopG load add (mk v) ns) ((∀ n ∈ ns, C n) ∧ Admits ok (v.getD []) (ns.map val))
      (mk (if ns.isEmpty then v else some (v.getD [] ++ ns.map val))) := by
  induction ns with
  | nil => intro v; rw [loopG]; exact ⟨by simp [Admits], fun _ => rfl⟩
  | cons n ns ih =>
    intro v
    obtain ⟨h1, h2⟩ := hl n (by simp)
    rw [loopG]
    by_cases hc : C n
    · rw [if_neg (by rw [h1.mpr hc]; simp), h2 hc, hadd]
      cases ho : ok (v.getD []) (val n) with
      | false =>
        simp only [Bool.false_eq_true, if_false, if_true]
        refine ⟨⟨by simp, ?_⟩, ?_⟩
        · rintro ⟨_, h⟩; rw [List.map_cons, Admits, ho] at h; cases h.1
        · rintro ⟨_, h⟩; rw [List.map_cons, Admits, ho] at h; cases h.1
      | true =>
        simp only [Bool.true_eq_false, if_false, if_true]
        obtain ⟨i1, i2⟩ := ih (fun m hm => hl m (by simp [hm])) (vecAppend v (val n))
        have e : (vecAppend v (val n)).getD [] = v.getD [] ++ [val n] := by cases v <;> rfl
        rw [e] at i1 i2
        have hcond : ((∀ m ∈ n :: ns, C m) ∧ Admits ok (v.getD []) ((n :: ns).map val)) ↔
            ((∀ m ∈ ns, C m) ∧ Admits ok (v.getD [] ++ [val n]) (ns.map val)) := by
          rw [List.map_cons, Admits]
          simp [hc, ho]
        refine ⟨i1.trans hcond.symm, ?_⟩
        intro h
        rw [i2 (hcond.mp h)]
        cases ns with
        | nil => cases v <;> rfl
        | cons m ns => simp
    · have hf : (load n).1 = false := by
        cases hh : (load n).1 with
        | false => rfl
        | true => exact absurd (h1.mp hh) hc
      rw [if_pos hf]
      refine ⟨⟨by simp, ?_⟩, ?_⟩
      · rintro ⟨h, _⟩; exact absurd (h n (by simp)) hc
      · rintro ⟨h, _⟩; exact absurd (h n (by simp)) hc

theorem listOf_eq {A : Type} (ns : List Node) (val : Node → A) :
    (if ns.isEmpty then none else some ((none : Option (List A)).getD [] ++ ns.map val)) = listOf (ns.map val) := by
  unfold listOf
  cases ns <;> rfl

/-- Lists that admit valid items only. -/
theorem list_loads {S A : Type} {load : Node → Bool × A} {add : S → Option A → Bool × S} {mk : Option (List A) → S} {p : A → Bool}
    (hadd : ∀ v x, add (mk v) (some x) = if p x = true then (true, mk (vecAppend v x)) else (false, mk v))
    {C : Node → Prop} {val : Node → A} (ns : List Node) (hl : ∀ n ∈ ns, LoadsAs (load n) (C n) (val n)) :
    LoadsAs (loopG load add (mk none) ns) (∀ n ∈ ns, C n ∧ p (val n) = true) (mk (listOf (ns.map val))) := by
  have h := loop_loads (ok := fun _ x => p x) hadd ns hl none
  rw [admits_const] at h
  obtain ⟨h1, h2⟩ := h
  have hcond : ((∀ n ∈ ns, C n) ∧ ∀ x ∈ ns.map val, p x = true) ↔ ∀ n ∈ ns, C n ∧ p (val n) = true := by
    simp only [List.mem_map, forall_exists_index, and_imp, forall_apply_eq_imp_iff₂]
    constructor
    · rintro ⟨a, b⟩ n hn; exact ⟨a n hn, b n hn⟩
    · intro h; exact ⟨fun n hn => (h n hn).1, fun n hn => (h n hn).2⟩
  refine ⟨h1.trans hcond, fun h => ?_⟩
  rw [h2 (hcond.mpr h), ← listOf_eq]

theorem LoadsAs.congr {α : Type} {r : Bool × α} {C C' : Prop} {v : α} (h : LoadsAs r C v) (e : C ↔ C') : LoadsAs r C' v :=
  ⟨h.1.trans e, fun hc => h.2 (e.mpr hc)⟩

/-! ### Elements of a list -/

theorem mem_childrenOf {n x : Node} {nm : Bytes} (h : x ∈ childrenOf n nm) : x ∈ n.children ∧ x ∈ elements n.children ∧ ∃ as cs, x = .elem nm as cs := by
  rw [childrenOf_eq, List.mem_filter] at h
  refine ⟨(List.mem_filter.mp h.1).1, h.1, ?_⟩
  cases x with
  | text s => have := h.2; simp [named, Node.element] at this
  | elem a b cs => have := h.2; simp [named, Node.element] at this; exact ⟨b, cs, by rw [this]⟩

/-- The type of the parts of that name (the first such part). -/
def partTy (nm : Bytes) : Parts → Option Ty
  | .nil => none
  | .cons name _ _ ty rest => if name = nm then some ty else partTy nm rest

/-- No part of that name behind the first. -/
def onePart (nm : Bytes) : Parts → Bool
  | .nil => true
  | .cons name _ _ _ rest => if name = nm then (partTy nm rest).isNone else onePart nm rest

theorem inOrder_no_part {nm : Bytes} : ∀ {ps : Parts} {l : List Node}, InOrder ps l → partTy nm ps = none →
    ∀ as cs, Node.elem nm as cs ∉ l
  | .nil, l, h, _, as, cs => by rw [InOrder] at h; rw [h]; simp
  | .cons name lo hi ty rest, l, h, hp, as, cs => by
    rw [InOrder] at h
    obtain ⟨xs, ys, rfl, _, _, hx, hy⟩ := h
    rw [partTy] at hp
    split at hp
    · cases hp
    · rename_i hne
      intro hm
      rcases List.mem_append.mp hm with hm | hm
      · obtain ⟨as', cs', e, _⟩ := hx _ hm
        injection e with e1; exact hne e1.symm
      · exact inOrder_no_part hy hp as cs hm

theorem inOrder_part {nm : Bytes} {ty : Ty} : ∀ {ps : Parts} {l : List Node}, InOrder ps l → partTy nm ps = some ty → onePart nm ps = true →
    ∀ {as cs}, Node.elem nm as cs ∈ l → Valid ty as cs
  | .nil, l, h, _, _, as, cs, hm => by rw [InOrder] at h; rw [h] at hm; cases hm
  | .cons name lo hi ty' rest, l, h, hp, ho, as, cs, hm => by
    rw [InOrder] at h
    obtain ⟨xs, ys, rfl, _, _, hx, hy⟩ := h
    rw [partTy] at hp
    rw [onePart] at ho
    rcases List.mem_append.mp hm with hm | hm
    · obtain ⟨as', cs', e, hv⟩ := hx _ hm
      injection e with e1 e2 e3
      subst e1; subst e2; subst e3
      rw [if_pos rfl] at hp
      injection hp with hp
      exact hp ▸ hv
    · split at hp
      · rename_i hn
        rw [if_pos hn] at ho
        exact absurd hm (inOrder_no_part hy (by simpa using ho) as cs)
      · rename_i hn
        rw [if_neg hn] at ho
        exact inOrder_part hy hp ho hm

theorem valid_childrenOf {n : Bytes} {as cs} {ds ps} (h : Valid (.seq ds ps) as cs) (hpl : PlainList cs) {nm : Bytes} {ty : Ty}
    (hp : partTy nm ps = some ty) (ho : onePart nm ps = true) {x : Node} (hx : x ∈ childrenOf (.elem n as cs) nm) :
    ∃ as' cs', x = .elem nm as' cs' ∧ Valid ty as' cs' ∧ PlainList cs' ∧ Plain x := by
  obtain ⟨h1, h2, as', cs', rfl⟩ := mem_childrenOf hx
  rw [Valid] at h
  have hpx : Plain (.elem nm as' cs') := plain_mem hpl h1
  exact ⟨as', cs', rfl, inOrder_part h.2.2 hp ho h2, plain_children (n := .elem nm as' cs') hpx, hpx⟩

theorem valid_child {n : Bytes} {as cs} {ds ps} (h : Valid (.seq ds ps) as cs) (hpl : PlainList cs) {nm : Bytes} {ty : Ty}
    (hp : partTy nm ps = some ty) (ho : onePart nm ps = true) {x : Node} (hx : child (.elem n as cs) nm = some x) :
    ∃ as' cs', x = .elem nm as' cs' ∧ Valid ty as' cs' ∧ PlainList cs' ∧ Plain x :=
  valid_childrenOf h hpl hp ho (List.mem_of_head? hx)

/-- The part must be there. -/
def needed (nm : Bytes) : Parts → Bool
  | .nil => false
  | .cons name lo _ _ rest => (name == nm && decide (1 ≤ lo)) || needed nm rest

theorem inOrder_needed {nm : Bytes} : ∀ {ps : Parts} {l : List Node}, InOrder ps l → needed nm ps = true → ∃ x ∈ l, named nm x = true
  | .nil, l, h, hn => by cases hn
  | .cons name lo hi ty rest, l, h, hn => by
    rw [InOrder] at h
    obtain ⟨xs, ys, rfl, hlo, _, hx, hy⟩ := h
    rw [needed] at hn
    simp only [Bool.or_eq_true, Bool.and_eq_true, beq_iff_eq, decide_eq_true_eq] at hn
    rcases hn with ⟨rfl, h1⟩ | hn
    · cases xs with
      | nil => simp at hlo; omega
      | cons x xs =>
        obtain ⟨as, cs, rfl, _⟩ := hx x (by simp)
        exact ⟨.elem name as cs, by simp, by simp [named, Node.element]⟩
    · obtain ⟨x, hx, h⟩ := inOrder_needed hy hn
      exact ⟨x, by simp [hx], h⟩

theorem child_needed {n : Bytes} {as cs} {ds ps} (h : Valid (.seq ds ps) as cs) {nm : Bytes} (hn : needed nm ps = true) :
    ∃ x, child (.elem n as cs) nm = some x := by
  rw [Valid] at h
  obtain ⟨x, hx, hxn⟩ := inOrder_needed h.2.2 hn
  unfold child
  rw [childrenOf_eq]
  cases hl : (elements (Node.elem n as cs).children).filter (named nm) with
  | nil => exact absurd (List.mem_filter.mpr ⟨hx, hxn⟩) (by rw [show elements cs = elements (Node.elem n as cs).children from rfl, hl]; simp)
  | cons a l => exact ⟨a, rfl⟩

/-! ### Texts and numbers in their places -/

theorem text_type {n : Node} {nm : Bytes} {p : Bytes → Prop}
    (hv : ∀ x, child n nm = some x → Valid (.text [] p) x.attrs x.children) {t : Bytes} (h : text n nm = some t) : ∃ s, p s ∧ t = trim s := by
  unfold text at h
  obtain ⟨x, hx, hc⟩ := Option.bind_eq_some_iff.mp h
  unfold Document.content at hc
  split at hc
  · cases hc
  · injection hc with hc
    have := hv x hx
    rw [Valid] at this
    exact ⟨_, this.2.2, hc.symm⟩

theorem intElement_int {n : Bytes} {as cs} {ds ps} (h : Valid (.seq ds ps) as cs) (hpl : Plain (.elem n as cs)) {nm : Bytes} {p : Bytes → Prop}
    (hp : Proper nm) (ht : nm ∈ textNames) (hd : direct nm ps = true) (hty : partTy nm ps = some (.text [] p)) (ho : onePart nm ps = true)
    (hi : ∀ s, p s → integer s) :
    intElement (.elem n as cs) nm = (text (.elem n as cs) nm).map fun s => asInt (number s) := by
  have hk := plain_children hpl
  unfold intElement
  rw [find_child h hk hp hd, nodeText_child hpl ht]
  cases htx : text (.elem n as cs) nm with
  | none => rfl
  | some t =>
    obtain ⟨s, hs, rfl⟩ := text_type (p := p) (by
      intro x hx
      obtain ⟨as', cs', rfl, hv, _⟩ := valid_child h hk hty ho hx
      exact hv) htx
    simp only [Option.map_some]
    rw [atoi_number (integer_trim (hi s hs))]

theorem int_getD (s : Option Bytes) (d : Int) : (s.map fun s => asInt (number s)).getD d = Document.int s d := by cases s <;> rfl

theorem intAttr_int {ds : List Attr} {n : Node} (h : AttrsOk ds n.attrs) {nm : Bytes} (hu : ∀ d ∈ ds, d.name = nm → d.type = unsignedInt) :
    intAttr n nm = (attr n nm).map fun s => asInt (number s) := by
  unfold intAttr
  rw [getAttr_attr]
  cases ha : attr n nm with
  | none => rfl
  | some v =>
    obtain ⟨d, hd, hn, ht⟩ := attr_type h ha
    rw [hu d hd hn] at ht
    simp only [Option.map_some]
    rw [atoi_number (unsigned_integer ht)]

theorem uintAttr_unsigned {ds : List Attr} {n : Node} (h : AttrsOk ds n.attrs) {nm : Bytes} (hu : ∀ d ∈ ds, d.name = nm → d.type = unsignedInt) :
    ((attr n nm).map fun s => uOfInt (atoi s)) = (attr n nm).map fun s => (number s).toNat := by
  cases ha : attr n nm with
  | none => rfl
  | some v =>
    obtain ⟨d, hd, hn, ht⟩ := attr_type h ha
    rw [hu d hd hn] at ht
    simp only [Option.map_some]
    rw [uOfInt_atoi_number ht]

theorem selfOrFind_self (nm : Bytes) (as cs) : selfOrFind (.elem nm as cs) nm = some (.elem nm as cs) := by
  unfold selfOrFind
  rw [if_pos (by simp [named, Node.element])]

/-! ### Layouts -/

theorem section_loads {as cs} (h : Valid sectionType as cs) :
    LoadsAs (Section.create.loadXml (.elem (b! "section") as cs)) (ValidSection (sectionOf (.elem (b! "section") as cs)))
      (sectionOf (.elem (b! "section") as cs)) := by
  rw [sectionType, Valid] at h
  have ha := h.1
  have get : ∀ nm : Bytes, (∃ d ∈ [(⟨b! "id", unsignedInt, true⟩ : Attr), ⟨b! "x", unsignedInt, true⟩, ⟨b! "y", unsignedInt, true⟩,
      ⟨b! "w", unsignedInt, true⟩, ⟨b! "h", unsignedInt, true⟩, ⟨b! "rotation", unsignedInt, true⟩], d.name = nm ∧ d.required = true) →
      uintAttr (.elem (b! "section") as cs) nm = some (unsigned (attr (.elem (b! "section") as cs) nm)) := by
    rintro nm ⟨d, hd, rfl, hr⟩
    obtain ⟨v, hv⟩ := attr_required (n := .elem (b! "section") as cs) ha hd hr
    unfold uintAttr
    rw [getAttr_attr, uintAttr_unsigned (n := .elem (b! "section") as cs) ha (by
      intro d hd _
      simp only [List.mem_cons, List.not_mem_nil, or_false] at hd
      rcases hd with rfl | rfl | rfl | rfl | rfl | rfl <;> rfl), hv]
    rfl
  unfold Section.loadXml
  rw [selfOrFind_self]
  dsimp only
  rw [get _ ⟨_, List.mem_cons_self, rfl, rfl⟩]
  rw [get (b! "x") ⟨_, .tail _ (.head _), rfl, rfl⟩]
  rw [get (b! "y") ⟨_, .tail _ (.tail _ (.head _)), rfl, rfl⟩]
  rw [get (b! "w") ⟨_, .tail _ (.tail _ (.tail _ (.head _))), rfl, rfl⟩]
  rw [get (b! "h") ⟨_, .tail _ (.tail _ (.tail _ (.tail _ (.head _)))), rfl, rfl⟩]
  rw [get (b! "rotation") ⟨_, .tail _ (.tail _ (.tail _ (.tail _ (.tail _ (.head _))))), rfl, rfl⟩]
  exact ⟨C37_section _, fun _ => rfl⟩

end Afs
