import Verif.Proof.Links9
/-!
# C57: the links of XML trees stay consistent; C58: freeing; C59: order of walks, searches, output
-/
namespace Afs
open Links Spec Xml

/-! ### C57 -/

/-- A new node without a parent is a new tree; with a parent it is the new last child. -/
theorem C57_new {h : Heap} {kids : Nat → List Nat} (L : Linked h kids) {a : Nat} (ha : h a = none)
    (parent : Option Nat) (hp : ∀ p, parent = some p → h p ≠ none) (d : Data) :
    ∃ h', Links.new h a parent d = .ok h' ∧
      Linked h' (fun x => if some x = parent then kids x ++ [a] else kids x) ∧
      (∀ x, (h' x).map (fun c => (c.refs, c.data)) =
        if x = a then some (1, d) else (h x).map (fun c => (c.refs, c.data))) := by
  obtain ⟨h', e, L', S⟩ := new_spec L ha parent hp d
  refine ⟨h', e, L', fun x => ?_⟩
  rw [S x]
  by_cases e : x = a
  · simp [Heap.set, e, fresh]
  · simp [Heap.set, e]

/-- Adding moves a node: it leaves its old parent and is put before or behind the given child of the
    new parent (at the front or at the end if that is NULL or not a child); nothing else changes. -/
theorem C57_add {h : Heap} {kids : Nat → List Nat} (L : Linked h kids) {p n : Nat} (child : Option Nat)
    (hp : h p ≠ none) (hn : h n ≠ none) (hb : ¬ Below kids n p)
    (hx : ∀ x, child = some x → h x ≠ none ∧ x ≠ n) :
    (∃ h', add h (some p) ADD_BEFORE child (some n) = .ok h' ∧ SameData h h' ∧
      Linked h' (fun x => if x = p then putBefore child n ((kids p).erase n) else (kids x).erase n)) ∧
    (∃ h', add h (some p) ADD_AFTER child (some n) = .ok h' ∧ SameData h h' ∧
      Linked h' (fun x => if x = p then putAfter child n ((kids p).erase n) else (kids x).erase n)) := by
  obtain ⟨h1, e1, L1, S1⟩ := add_spec L ADD_BEFORE child hp hn hb (.inl rfl) hx
  obtain ⟨h2, e2, L2, S2⟩ := add_spec L ADD_AFTER child hp hn hb (.inr rfl) hx
  exact ⟨⟨h1, e1, S1, L1⟩, h2, e2, S2, L2⟩

/-- Removing makes a node the root of its own tree; nothing else changes. -/
theorem C57_remove {h : Heap} {kids : Nat → List Nat} (L : Linked h kids) {n : Nat} (hn : h n ≠ none) :
    ∃ h', remove h (some n) = .ok h' ∧ Linked h' (fun x => (kids x).erase n) ∧ SameData h h' ∧
      (∀ p, n ∉ (kids p).erase n) ∧ (h' n).bind Cell.parent = none := by
  obtain ⟨h', e, L', S, c, hc, hp⟩ := remove_spec L hn
  exact ⟨h', e, L', S, fun p => not_kid_of_root L' hc hp p, by simp [hc, hp]⟩

/-- NULL arguments change nothing. -/
theorem C57_null (h : Heap) (w : Int) (p x n : Option Nat) :
    remove h none = .ok h ∧ add h none w x n = .ok h ∧ add h p w x none = .ok h := by
  refine ⟨rfl, rfl, ?_⟩
  cases p <;> rfl

/-- Everything a program can build by such calls from nothing. -/
inductive Built : Heap → Prop where
  | empty : Built (fun _ => none)
  | new {h h' : Heap} {a : Nat} {parent : Option Nat} {d : Data} : Built h → h a = none →
      (∀ p, parent = some p → h p ≠ none) → Links.new h a parent d = .ok h' → Built h'
  | add {h h' : Heap} {p n : Nat} {w : Int} {child : Option Nat} : Built h → h p ≠ none → h n ≠ none →
      (∀ kids, Linked h kids → ¬ Below kids n p) → (w = ADD_BEFORE ∨ w = ADD_AFTER) →
      (∀ x, child = some x → h x ≠ none ∧ x ≠ n) → add h (some p) w child (some n) = .ok h' → Built h'
  | remove {h h' : Heap} {n : Nat} : Built h → h n ≠ none → remove h (some n) = .ok h' → Built h'
  | delete {h h' : Heap} {n k : Nat} {log : List Nat} : Built h → h n ≠ none →
      delete k h (some n) = some (.ok (h', log)) → Built h'
  | retain {h h' : Heap} {n : Nat} {r : Int} : Built h → retain h (some n) = .ok (h', r) → Built h'
  | release {h h' : Heap} {n k : Nat} {log : List Nat} {r : Int} : Built h → h n ≠ none →
      release k h (some n) = some (.ok (h', log, r)) → Built h'

theorem deleteLoop_more {node : Nat} : ∀ (k j : Nat) (h : Heap) (cur : Option Nat) (log : List Nat)
    (r : Res (Heap × List Nat)), deleteLoop node k h cur log = some r →
    deleteLoop node (k + j) h cur log = some r
  | k, j, h, none, log, r, e => by
    cases k <;> cases j <;> (rw [deleteLoop] at e ⊢; exact e)
  | 0, _, _, some _, _, _, e => by rw [deleteLoop] at e; cases e
  | k + 1, j, h, some cur, log, r, e => by
    rw [show k + 1 + j = (k + j) + 1 by omega]
    rw [deleteLoop] at e ⊢
    cases hc : h cur with
    | none => rw [hc] at e; exact e
    | some c =>
      rw [hc] at e
      dsimp only at e ⊢
      by_cases ec : c.child.isSome = true
      · rw [if_pos ec] at e ⊢; exact deleteLoop_more k j _ _ _ r e
      · rw [if_neg ec] at e ⊢; exact deleteLoop_more k j _ _ _ r e

theorem delete_more {k j : Nat} {h : Heap} {n : Option Nat} {r : Res (Heap × List Nat)}
    (e : delete k h n = some r) : delete (k + j) h n = some r := by
  cases n with
  | none => exact e
  | some n =>
    rw [delete] at e ⊢
    cases h1 : Links.remove h (some n) with
    | ub => rw [h1] at e; exact e
    | ok h1' =>
      rw [h1] at e
      dsimp only at e ⊢
      cases hc : h1' n with
      | none => rw [hc] at e; exact e
      | some c =>
        rw [hc] at e
        dsimp only at e ⊢
        cases hl : deleteLoop n k h1' c.child [] with
        | none => rw [hl] at e; simp [deleteLast] at e
        | some v => rw [hl] at e; rw [deleteLoop_more k j _ _ _ v hl]; exact e

/-- The result of a delete that finishes. -/
theorem delete_result {h : Heap} {kids : Nat → List Nat} (L : Linked h kids) {n k : Nat} (hn : h n ≠ none)
    {r : Res (Heap × List Nat)} (e : delete k h (some n) = some r) :
    ∃ h' log, r = .ok (h', log) ∧ Linked h' (fun x => if x ∈ log then [] else (kids x).erase n) := by
  obtain ⟨h', log, ⟨m, hm⟩, L', _⟩ := delete_spec L hn
  have h1 := delete_more (j := m) e
  rw [hm (k + m) (by omega)] at h1
  exact ⟨h', log, by simpa using h1.symm, L'⟩

/-- Whatever a program builds this way, the links stay consistent: the parent, child and sibling
    pointers of all nodes describe one and only one forest. -/
theorem C57_always {h : Heap} (B : Built h) : ∃ kids, Linked h kids ∧ ∀ kids', Linked h kids' → kids' = kids := by
  suffices ∃ kids, Linked h kids from
    let ⟨k, L⟩ := this
    ⟨k, L, fun k' L' => linked_unique L' L⟩
  induction B with
  | empty => exact ⟨_, empty_linked⟩
  | new _ ha hp e ih =>
    obtain ⟨kids, L⟩ := ih
    obtain ⟨h', e', L', _⟩ := new_spec L ha _ hp _
    rw [e] at e'
    cases e'
    exact ⟨_, L'⟩
  | add _ hp hn hb hw hx e ih =>
    obtain ⟨kids, L⟩ := ih
    obtain ⟨h', e', L', _⟩ := add_spec L _ _ hp hn (hb kids L) hw hx
    rw [e] at e'
    cases e'
    exact ⟨_, L'⟩
  | remove _ hn e ih =>
    obtain ⟨kids, L⟩ := ih
    obtain ⟨h', e', L', _⟩ := remove_spec L hn
    rw [e] at e'
    cases e'
    exact ⟨_, L'⟩
  | delete _ hn e ih =>
    obtain ⟨kids, L⟩ := ih
    obtain ⟨h', log, e', L'⟩ := delete_result L hn e
    cases e'
    exact ⟨_, L'⟩
  | @retain h h' n r _ e ih =>
    obtain ⟨kids, L⟩ := ih
    rw [Links.retain] at e
    cases hc : h n with
    | none => simp [Links.get, hc] at e
    | some c =>
      rw [get_ok hc, Res.ok_bind] at e
      cases hr : ckInt (c.refs + 1) with
      | ub => simp [hr] at e
      | ok v =>
        simp only [hr, Res.ok_bind, upd, get_ok hc, Res.ok.injEq, Prod.mk.injEq] at e
        obtain ⟨rfl, _⟩ := e
        exact ⟨_, refs_linked L hc v⟩
  | @release h h' n k log r _ hn e ih =>
    obtain ⟨kids, L⟩ := ih
    rw [Links.release] at e
    cases hc : h n with
    | none => exact absurd hc hn
    | some c =>
      rw [hc] at e
      dsimp only at e
      cases hr : ckInt (c.refs - 1) with
      | ub => rw [hr] at e; simp at e
      | ok v =>
        rw [hr] at e
        dsimp only at e
        have Lr := refs_linked L hc v
        by_cases hv : v ≤ 0
        · rw [if_pos hv] at e
          cases hd : Links.delete k (h.set n { c with refs := v }) (some n) with
          | none => rw [hd] at e; simp at e
          | some w =>
            obtain ⟨h1, log1, rfl, L1⟩ := delete_result Lr (by simp [Heap.set]) hd
            rw [hd] at e
            simp only [Option.some.injEq, Res.ok.injEq, Prod.mk.injEq] at e
            obtain ⟨rfl, _⟩ := e
            exact ⟨_, L1⟩
        · rw [if_neg hv] at e
          simp only [Option.some.injEq, Res.ok.injEq, Prod.mk.injEq] at e
          obtain ⟨rfl, _⟩ := e
          exact ⟨_, Lr⟩

/-- Listing the children of an element from the first by next-sibling gives them all, once, in order;
    from the last by previous-sibling in reverse; each of them names the element as its parent. -/
theorem C57_listing {h : Heap} {kids : Nat → List Nat} (L : Linked h kids) {p : Nat} {c : Cell}
    (hp : h p = some c) (he : c.data.isElem = true) (k : Nat) (hk : (kids p).length ≤ k) :
    (∃ a, getFirstChild h (some p) = .ok a ∧ chain (getNextSibling h) k a = some (.ok (kids p))) ∧
    (∃ a, getLastChild h (some p) = .ok a ∧ chain (getPrevSibling h) k a = some (.ok (kids p).reverse)) ∧
    (∀ x, h x ≠ none → (getParent h (some x) = .ok (some p) ↔ x ∈ kids p)) := by
  refine ⟨⟨_, ?_, chain_children L p k hk⟩, ⟨_, ?_, chain_back L p k hk⟩, fun x hx => ?_⟩
  · simp only [getFirstChild, look, get_ok hp, Res.ok_bind, he, if_true, (L.child p c hp).1]
  · simp only [getLastChild, look, get_ok hp, Res.ok_bind, he, if_true, (L.child p c hp).2]
  · obtain ⟨d, hd⟩ := Option.ne_none_iff_exists'.mp hx
    simp only [getParent, look, get_ok hd, Res.ok_bind, Res.ok.injEq]
    constructor
    · exact L.listed x d p hd
    · intro hm
      obtain ⟨d', hd', h'⟩ := L.parent p x hm
      rw [hd] at hd'
      cases hd'
      exact h'

/-- Asking for a relative of NULL, or for the next or previous node of NULL, gives NULL; a text has no children. -/
theorem C57_no_node (h : Heap) (k : Nat) (top : Option Nat) (d : Bool) :
    getFirstChild h none = .ok none ∧ getLastChild h none = .ok none ∧ getNextSibling h none = .ok none ∧
      getPrevSibling h none = .ok none ∧ getParent h none = .ok none ∧
      walkNext k h none top d = some (.ok none) ∧ walkPrev k h none top d = some (.ok none) ∧
      ∀ n c, h n = some c → c.data.isElem = false →
        getFirstChild h (some n) = .ok none ∧ getLastChild h (some n) = .ok none := by
  refine ⟨rfl, rfl, rfl, rfl, rfl, rfl, rfl, fun n c hn he => ?_⟩
  simp [getFirstChild, getLastChild, look, get_ok hn, he]

/-- The loops over children by `mxmlWalkNext(…, MXML_NO_DESCEND)` see exactly the children of their
    top node, in order. -/
theorem C57_child_loop {h : Heap} {kids : Nat → List Nat} (L : Linked h kids) {p x : Nat} (hx : x ∈ kids p)
    (k : Nat) : walkNext k h (some x) (some p) false = some (.ok (nextIn (kids p) x)) :=
  walk_children L hx k

/-- Successors in a list: what stands directly behind. -/
theorem C57_successor (l r : List Nat) (a b : Nat) (hd : (l ++ a :: b :: r).Nodup) :
    nextIn (l ++ a :: b :: r) a = some b ∧ prevIn (l ++ a :: b :: r) b = some a := by
  rw [List.nodup_append, List.nodup_cons, List.nodup_cons] at hd
  constructor
  · rw [nextIn_at (fun hm => hd.2.2 a hm a (by simp) rfl)]; rfl
  · have : l ++ a :: b :: r = (l ++ [a]) ++ b :: r := by simp
    rw [this, prevIn_at hd.2.1.2.1]
    simp

/-- Two cells: a root and an only child. -/
def pair : Heap := fun x =>
  if x = 0 then some ⟨none, some 1, some 1, none, none, 1, .elem (b! "a") []⟩
  else if x = 1 then some ⟨some 0, none, none, none, none, 1, .elem (b! "b") []⟩
  else none

/-- Adding a node relative to itself ties it to itself: the list of children has no end any more
    (`mxmlAdd(parent, MXML_ADD_AFTER, node, node)`).  Hence `x ≠ n` above. -/
theorem C57_self_loop : ∃ h', add pair (some 0) ADD_AFTER (some 1) (some 1) = .ok h' ∧
    (h' 1).bind Cell.next = some 1 ∧ ∀ kids, ¬ Linked h' kids := by
  have e : ∃ h', add pair (some 0) ADD_AFTER (some 1) (some 1) = .ok h' ∧ (h' 1).bind Cell.next = some 1 ∧
      (h' 1).bind Cell.parent = some 0 := ⟨_, rfl, rfl, rfl⟩
  obtain ⟨h', e1, e2, e3⟩ := e
  refine ⟨h', e1, e2, fun kids L => ?_⟩
  cases hc : h' 1 with
  | none => simp [hc] at e2
  | some c =>
    simp only [hc, Option.bind_some] at e2 e3
    have hm := L.listed 1 c 0 hc e3
    have hs := (L.sibling 0 1 c hm hc).1
    rw [e2] at hs
    obtain ⟨l, r, hl⟩ := List.append_of_mem hm
    have hd := L.nodup 0
    rw [hl, List.nodup_append, List.nodup_cons] at hd
    rw [hl, nextIn_at (fun h => hd.2.2 1 h 1 (by simp) rfl)] at hs
    exact hd.2.1.1 (List.mem_of_head? hs.symm)

/-- A tree built from nothing: `<a><b/><c/></a>`, then the last child moved before the first. -/
theorem built_example : ∃ h, Built h ∧ ∃ kids, Linked h kids ∧ kids 0 = [2, 1] := by
  obtain ⟨h1, e1, L1, _⟩ := C57_new empty_linked (a := 0) rfl none (by simp) (.elem (b! "a") [])
  have a0 : h1 0 ≠ none := by rw [← Res.ok.inj e1]; simp [Heap.set]
  have n1 : h1 1 = none := by rw [← Res.ok.inj e1]; simp [Heap.set]
  obtain ⟨h2, e2, L2, S2⟩ := C57_new L1 (a := 1) n1 (some 0) (by simpa using a0) (.elem (b! "b") [])
  have a01 : h2 0 ≠ none := by
    intro e; have := S2 0; rw [e] at this
    cases h : h1 0 with
    | none => exact a0 h
    | some c => rw [h] at this; simp at this
  have n2 : h2 2 = none := by
    have := S2 2
    rw [← Res.ok.inj e1] at this
    cases h : h2 2 <;> simp_all [Heap.set]
  obtain ⟨h3, e3, L3, S3⟩ := C57_new L2 (a := 2) n2 (some 0) (by simpa using a01) (.elem (b! "c") [])
  have B1 : Built h1 := .new .empty rfl (by simp) e1
  have B2 : Built h2 := .new B1 n1 (by simpa using a0) e2
  have B3 : Built h3 := .new B2 n2 (by simpa using a01) e3
  have a03 : h3 0 ≠ none := by
    intro e; have := S3 0; rw [e] at this
    cases h : h2 0 with
    | none => exact a01 h
    | some c => rw [h] at this; simp at this
  have a23 : h3 2 ≠ none := by
    intro e; have := S3 2; rw [e] at this; simp at this
  have nb : ∀ kids, Linked h3 kids → ¬ Below kids 2 0 := by
    intro kids L h
    rw [linked_unique L L3] at h
    rcases below_kid.mp h with e | ⟨b, hb, _⟩
    · cases e
    · simp at hb
  obtain ⟨⟨h4, e4, _, L4⟩, _⟩ := C57_add L3 (p := 0) (n := 2) none a03 a23 (nb _ L3) (by simp)
  exact ⟨h4, .add B3 a03 a23 nb (.inl rfl) (by simp) e4, _, L4, by simp [putBefore]⟩

/-! ### C58 -/

/-- Deleting a node frees it and all its descendants, each exactly once and only after its children,
    and nothing else; the rest stays linked, without the node; it always ends. -/
theorem C58_delete {h : Heap} {kids : Nat → List Nat} (L : Linked h kids) {n : Nat} (hn : h n ≠ none) :
    ∃ h' freed, (∃ m, ∀ k, m ≤ k → delete k h (some n) = some (.ok (h', freed))) ∧
      (∀ x, x ∈ freed ↔ Below kids n x) ∧ freed.Nodup ∧
      (∀ l r x y, freed = l ++ x :: r → y ∈ kids x → y ∈ l) ∧
      (∀ x, (h' x).map (fun c => (c.refs, c.data)) =
        if x ∈ freed then none else (h x).map (fun c => (c.refs, c.data))) ∧
      Linked h' (fun x => if x ∈ freed then [] else (kids x).erase n) := by
  obtain ⟨h', log, hk, L', hb, hd, ho, hv⟩ := delete_spec L hn
  exact ⟨h', log, hk, hb, hd, ho, hv, L'⟩

/-- However the memory came about, no delete of a live node runs into undefined behaviour. -/
theorem C58_delete_safe {h : Heap} (B : Built h) {n : Nat} (hn : h n ≠ none) (k : Nat) :
    delete k h (some n) ≠ some .ub := by
  obtain ⟨kids, L, _⟩ := C57_always B
  intro e
  obtain ⟨_, _, e', _⟩ := delete_result L hn e
  cases e'

/-- Deleting the same node again is undefined behaviour: the node is gone. -/
theorem C58_gone {h : Heap} {kids : Nat → List Nat} (L : Linked h kids) {n : Nat} (hn : h n ≠ none)
    {h' : Heap} {freed : List Nat} {k : Nat} (e : delete k h (some n) = some (.ok (h', freed))) (j : Nat)
    (x : Nat) (hx : Below kids n x) : delete j h' (some x) = some .ub := by
  obtain ⟨h1, log, ⟨m, hm⟩, _, hb, _, _, hv⟩ := delete_spec L hn
  have := delete_more (j := m) e
  rw [hm (k + m) (by omega)] at this
  simp only [Option.some.injEq, Res.ok.injEq, Prod.mk.injEq] at this
  obtain ⟨rfl, rfl⟩ := this
  have h0 := hv x
  rw [if_pos ((hb x).mpr hx)] at h0
  have : h1 x = none := by
    cases h : h1 x <;> simp_all
  simp [delete, Links.remove, Links.get, this]

/-- Releasing counts down, and deletes when the count reaches zero. -/
theorem C58_release {h : Heap} {kids : Nat → List Nat} (L : Linked h kids) {n : Nat} {c : Cell}
    (hn : h n = some c) (hr : -2147483648 < c.refs ∧ c.refs ≤ 2147483647) :
    (1 < c.refs → ∀ k, ∃ h', release k h (some n) = some (.ok (h', [], c.refs - 1)) ∧ Linked h' kids ∧
      ∀ x, (h' x).map (fun d => (d.refs, d.data)) =
        if x = n then some (c.refs - 1, c.data) else (h x).map (fun d => (d.refs, d.data))) ∧
    (c.refs ≤ 1 → ∃ h' freed, (∃ m, ∀ k, m ≤ k → release k h (some n) = some (.ok (h', freed, 0))) ∧
      (∀ x, x ∈ freed ↔ Below kids n x) ∧ freed.Nodup ∧
      (∀ x, h' x = none ↔ h x = none ∨ x ∈ freed) ∧
      Linked h' (fun x => if x ∈ freed then [] else (kids x).erase n)) := by
  have hck : ckInt (c.refs - 1) = .ok (c.refs - 1) := by
    unfold ckInt
    rw [if_pos (by unfold INT_MIN INT_MAX; omega)]
  constructor
  · intro h1 k
    refine ⟨h.set n { c with refs := c.refs - 1 }, ?_, refs_linked L hn _, fun x => ?_⟩
    · rw [release, hn]
      simp only [hck]
      rw [if_neg (by omega)]
    · by_cases e : x = n
      · simp [Heap.set, e]
      · simp [Heap.set, e]
  · intro h1
    have L1 := refs_linked L hn (c.refs - 1)
    obtain ⟨h', log, ⟨m, hm⟩, L', hb, hd, _, hv⟩ := delete_spec L1 (n := n) (by simp [Heap.set])
    refine ⟨h', log, ⟨m, fun k hk => ?_⟩, hb, hd, fun x => ?_, L'⟩
    · rw [release, hn]
      simp only [hck]
      rw [if_pos (by omega), hm k hk]
    · have := hv x
      by_cases e : x ∈ log
      · rw [if_pos e] at this
        cases hx : h' x <;> simp_all
      · rw [if_neg e] at this
        by_cases en : x = n
        · subst en
          exact absurd ((hb x).mpr .self) e
        · simp only [Heap.set, en, if_false] at this
          cases hx : h' x <;> cases hy : h x <;> simp_all

/-- Retaining counts up and is undone by one release. -/
theorem C58_retain {h : Heap} {n : Nat} {c : Cell} (hn : h n = some c) (h1 : 1 ≤ c.refs)
    (h2 : c.refs < 2147483647) (k : Nat) :
    ∃ h', retain h (some n) = .ok (h', c.refs + 1) ∧ release k h' (some n) = some (.ok (h, [], c.refs)) := by
  have hck : ckInt (c.refs + 1) = .ok (c.refs + 1) := by
    unfold ckInt
    rw [if_pos (by unfold INT_MIN INT_MAX; omega)]
  have hck' : ckInt (c.refs + 1 - 1) = .ok c.refs := by
    unfold ckInt
    rw [if_pos (by unfold INT_MIN INT_MAX; omega)]
    congr 1; omega
  refine ⟨h.set n { c with refs := c.refs + 1 }, ?_, ?_⟩
  · simp only [retain, get_ok hn, Res.ok_bind, hck, upd]
  · have hs : (h.set n { c with refs := c.refs + 1 }) n = some { c with refs := c.refs + 1 } := by
      simp [Heap.set]
    rw [release, hs]
    simp only [hck']
    rw [if_neg (by omega)]
    have : (h.set n { c with refs := c.refs + 1 }).set n c = h := by
      funext x
      by_cases e : x = n
      · subst e; simp [Heap.set, hn]
      · simp [Heap.set, e]
    simp [this]

/-- NULL is accepted by all of them. -/
theorem C58_null (h : Heap) (k : Nat) : delete k h none = some (.ok (h, [])) ∧
    release k h none = some (.ok (h, [], -1)) ∧ retain h none = .ok (h, -1) := ⟨rfl, rfl, rfl⟩

/-- `<a><b/></a>` freed: the child first. -/
theorem C58_example : (delete 5 pair (some 0)).map (fun r => match r with
    | .ub => none
    | .ok (h, l) => some (h 0, h 1, l)) = some (some (none, none, [1, 0])) := by
  decide +kernel

/-! ### C59 -/

/-- Every live node is the root of exactly its descendants in document order. -/
theorem C59_tree {h : Heap} {kids : Nat → List Nat} (L : Linked h kids) {a : Nat} (ha : h a ≠ none) :
    ∃ t : T, t.addr = a ∧ Shape kids t ∧ (pre t).Nodup ∧ ∀ x, x ∈ pre t ↔ Below kids a x := by
  obtain ⟨t, rfl, hs⟩ := exists_tree L a ha
  exact ⟨t, rfl, hs, nodup_pre (nodup_post L hs), pre_below hs⟩

/-- Document order: a node, then for each child in order the document order of that child. -/
theorem C59_order (a : Nat) (ks : List T) : pre (.mk a ks) = a :: ks.flatMap pre := by
  rw [pre]
  congr 1
  induction ks with
  | nil => simp [preL]
  | cons t ts ih => rw [preL, ih, List.flatMap_cons]

/-- Walking forward goes from each node below the top to the next one in document order and stops
    behind the last; walking back goes to the one before and stops at the first below the top. -/
theorem C59_walk {h : Heap} {kids : Nat → List Nat} (L : Linked h kids) {t : T} (hs : Shape kids t)
    (ha : h t.addr ≠ none) {x : Nat} (hx : x ∈ pre t) :
    (∃ m, ∀ k, m ≤ k → walkNext k h (some x) (some t.addr) true = some (.ok (nextIn (pre t) x))) ∧
    (∃ m, ∀ k, m ≤ k → walkPrev k h (some x) (some t.addr) true = some (.ok (prevIn (pre t).tail x))) :=
  ⟨walk_spec L hs ha hx, back_spec L hs hx⟩

theorem findAttr_first (a : Bytes) : ∀ as : List (Bytes × Option Bytes),
    Node.findAttr a as = attrValue a as
  | [] => rfl
  | (n, v) :: as => by
    rw [Node.findAttr, attrValue, List.find?_cons]
    by_cases e : n = a
    · simp [e]
    · simp only [e, if_false, decide_false]
      exact findAttr_first a as

theorem test_wanted (h : Heap) (name attr value : Option Bytes) (x : Nat) :
    test (isMatch name attr value) h x = true ↔ Wanted name attr value h x := by
  unfold test Wanted
  cases hx : h x with
  | none => simp
  | some c =>
    cases hd : c.data with
    | text t => simp [hd, isMatch]
    | elem n as =>
      simp only [hd, isMatch, Option.map_some, Option.some.injEq, Data.elem.injEq, findAttr_first]
      constructor
      · intro hm
        rw [Bool.and_eq_true] at hm
        refine ⟨n, as, ⟨rfl, rfl⟩, ?_, ?_⟩
        · rintro m rfl
          simpa using hm.1
        · rintro a rfl
          have h2 := hm.2
          dsimp only at h2
          cases hv : attrValue a as with
          | none => simp [hv] at h2
          | some v =>
            refine ⟨v, rfl, ?_⟩
            rintro w rfl
            simpa [hv] using h2
      · rintro ⟨n', as', ⟨rfl, rfl⟩, h1, h2⟩
        rw [Bool.and_eq_true]
        constructor
        · cases name with
          | none => rfl
          | some m => simp [h1 m rfl]
        · cases attr with
          | none => rfl
          | some a =>
            obtain ⟨v, hv, hw⟩ := h2 a rfl
            simp only [hv]
            cases value with
            | none => rfl
            | some w => simp [hw w rfl]

/-- Searching gives the first element with that name (and attribute, and value) behind the start in
    document order and inside the top's tree, or NULL if there is none. -/
theorem C59_find {h : Heap} {kids : Nat → List Nat} (L : Linked h kids) {t : T} (hs : Shape kids t)
    (ha : h t.addr ≠ none) {x : Nat} (hx : x ∈ pre t) (name attr value : Option Bytes)
    (hv : attr = none → value = none) :
    ∃ r, (∃ m, ∀ k, m ≤ k →
        findElement k h (some x) (some t.addr) name attr value DESCEND = some (.ok r)) ∧
      (∀ y, r = some y → Wanted name attr value h y ∧
        ∃ l l', behind (pre t) x = l ++ y :: l' ∧ ∀ z ∈ l, ¬ Wanted name attr value h z) ∧
      (r = none → ∀ z ∈ behind (pre t) x, ¬ Wanted name attr value h z) := by
  refine ⟨_, find_spec L hs ha hx name attr value hv, ?_, ?_⟩
  · intro y hy
    rw [List.find?_eq_some_iff_append] at hy
    obtain ⟨h1, l, l', h2, h3⟩ := hy
    refine ⟨(test_wanted ..).mp h1, l, l', h2, fun z hz hw => ?_⟩
    have := h3 z hz
    rw [(test_wanted ..).mpr hw] at this
    simp at this
  · intro hn z hz hw
    rw [List.find?_eq_none] at hn
    exact hn z hz ((test_wanted ..).mpr hw)

/-- Saving a tree of linked nodes writes what the tree as a value stands for: the loop over the
    pointers emits exactly the recursive text, for every callback that looks at names of the node
    and of its ancestors, if the start node has no next sibling. -/
theorem C59_write {h : Heap} {kids : Nat → List Nat} (L : Linked h kids) {pcb : PtrCb} {cb : SaveCb}
    (C : CbMatches h pcb cb) {t : T} {n : Node} {c : Cell} {anc : List Bytes} (hs : Shape kids t)
    (hi : IsNode h t n) (hc : h t.addr = some c) (hn : c.next = none) (ha : Anc h t.addr anc) :
    ∃ m, ∀ k, m ≤ k → writeLoop pcb h t.addr k (.visit (some t.addr)) [] 0 =
      some (.ok (writeNode cb anc n, colNode cb anc 0 n)) :=
  write_spec L C hs hi hc hn ha

/-- `<r><a/><b/></r>`. -/
def family : Heap := fun x =>
  if x = 0 then some ⟨none, some 1, some 2, none, none, 1, .elem (b! "r") []⟩
  else if x = 1 then some ⟨some 0, none, none, none, some 2, 1, .elem (b! "a") []⟩
  else if x = 2 then some ⟨some 0, none, none, some 1, none, 1, .elem (b! "b") []⟩
  else none

def familyKids (x : Nat) : List Nat := if x = 0 then [1, 2] else []

/-- The hypotheses of the theorems of C57–C59 are met by a small tree. -/
theorem family_linked : Linked family familyKids := by
  have cells : ∀ a c, family a = some c →
      (a = 0 ∧ c = ⟨none, some 1, some 2, none, none, 1, .elem (b! "r") []⟩) ∨
      (a = 1 ∧ c = ⟨some 0, none, none, none, some 2, 1, .elem (b! "a") []⟩) ∨
      (a = 2 ∧ c = ⟨some 0, none, none, some 1, none, 1, .elem (b! "b") []⟩) := by
    intro a c e
    unfold family at e
    split at e
    · exact .inl ⟨by assumption, (Option.some.inj e).symm⟩
    · split at e
      · exact .inr (.inl ⟨by assumption, (Option.some.inj e).symm⟩)
      · split at e
        · exact .inr (.inr ⟨by assumption, (Option.some.inj e).symm⟩)
        · cases e
  have kid : ∀ p a, a ∈ familyKids p → p = 0 ∧ (a = 1 ∨ a = 2) := by
    intro p a ha
    unfold familyKids at ha
    split at ha
    · exact ⟨by assumption, by simpa using ha⟩
    · cases ha
  refine ⟨?_, ?_, ?_, ?_, ?_, ?_, ?_, ?_, [0, 1, 2], ?_⟩
  · intro a ha
    unfold familyKids
    split
    · subst a; cases ha
    · rfl
  · intro a
    unfold familyKids
    split <;> simp
  · intro p a ha
    obtain ⟨rfl, rfl | rfl⟩ := kid p a ha
    · exact ⟨_, rfl, rfl⟩
    · exact ⟨_, rfl, rfl⟩
  · intro a c p hc hp
    rcases cells a c hc with ⟨rfl, rfl⟩ | ⟨rfl, rfl⟩ | ⟨rfl, rfl⟩
    · cases hp
    · cases hp; simp [familyKids]
    · cases hp; simp [familyKids]
  · intro a c hc
    rcases cells a c hc with ⟨rfl, rfl⟩ | ⟨rfl, rfl⟩ | ⟨rfl, rfl⟩ <;> exact ⟨rfl, rfl⟩
  · intro p a c ha hc
    obtain ⟨rfl, _⟩ := kid p a ha
    rcases cells a c hc with ⟨rfl, rfl⟩ | ⟨rfl, rfl⟩ | ⟨rfl, rfl⟩
    · simp [familyKids] at ha
    · exact ⟨rfl, rfl⟩
    · exact ⟨rfl, rfl⟩
  · intro a c hc hp
    rcases cells a c hc with ⟨rfl, rfl⟩ | ⟨rfl, rfl⟩ | ⟨rfl, rfl⟩
    · exact ⟨rfl, rfl⟩
    · cases hp
    · cases hp
  · intro p a ha hb
    obtain ⟨rfl, hor⟩ := kid p a ha
    cases hb with
    | self => omega
    | step _ h => have := kid _ _ h; simp at this
  · intro a ha
    obtain ⟨c, hc⟩ := Option.ne_none_iff_exists'.mp ha
    rcases cells a c hc with ⟨rfl, rfl⟩ | ⟨rfl, rfl⟩ | ⟨rfl, rfl⟩ <;> simp

theorem family_shape : Shape familyKids (.mk 0 [.mk 1 [], .mk 2 []]) ∧
    IsNode family (.mk 0 [.mk 1 [], .mk 2 []]) (.elem (b! "r") [] [.elem (b! "a") [] [], .elem (b! "b") [] []]) ∧
    Anc family 0 [] ∧ CbMatches family (fun _ _ => []) (fun _ _ _ => []) := by
  refine ⟨?_, ?_, .root rfl rfl, fun _ _ _ => [], fun _ _ _ => rfl, fun _ _ _ _ _ _ _ => rfl⟩
  · simp [Shape, ShapeL, familyKids, T.addr]
  · simp [IsNode, IsNodes, family]

/-- The loop on the small tree. -/
theorem C59_write_example : writeLoop (fun _ _ => []) family 0 20 (.visit (some 0)) [] 0 =
    some (.ok (b! "<r><a /><b /></r>", 17)) := by
  decide +kernel

/-- Saving a node that has a next sibling runs off the tree: the loop writes the sibling too and the
    end tag of the parent, and then follows the NULL parent of the root.  Hence the hypothesis. -/
theorem C59_write_sibling : ∀ k, 20 ≤ k →
    writeLoop (fun _ _ => []) family 1 k (.visit (some 1)) [] 0 = some .ub := by
  intro k hk
  obtain ⟨j, rfl⟩ : ∃ j, k = j + 20 := ⟨k - 20, by omega⟩
  rfl

/-- Walk and search in the example. -/
theorem C59_walk_example : walkNext 5 family (some 1) (some 0) true = some (.ok (some 2)) ∧
    walkPrev 5 family (some 2) (some 0) true = some (.ok (some 1)) ∧
    walkPrev 5 family (some 1) (some 0) true = some (.ok none) ∧
    findElement 5 family (some 0) (some 0) (some (b! "b")) none none DESCEND = some (.ok (some 2)) := by
  decide +kernel

end Afs
