import Verif.Model.Xml.Walk
import Verif.Model.Xml.Entity
/-!
# C38: element search in document order; C40: entity lookup is exact
-/
namespace Afs
open Xml

set_option maxRecDepth 4000

theorem findElement_eq (c : Cursor) (name : Bytes) :
    findElement c name = match walkNext c with
      | none => none
      | some d => if named name d.node then some d else findElement d name := by
  rw [findElement]
  split <;> simp_all

/-- One step of the pointer walk: the nodes still to come are the next node and the nodes still to
    come from there; the walk ends exactly when nothing is left. -/
theorem findElement_rest (c : Cursor) (name : Bytes) :
    (c.rest.filter (named name)) = match findElement c name with
      | none => []
      | some d => d.node :: d.rest.filter (named name) := by
  generalize hk : c.rest.length = k
  induction k using Nat.strongRecOn generalizing c with
  | _ k ih =>
    have hw := walkNext_rest c
    rw [findElement_eq]
    cases hn : walkNext c with
    | none => rw [hn] at hw; simp [hw]
    | some d =>
      rw [hn] at hw
      simp only at hw ⊢
      rw [hw, List.filter_cons]
      by_cases hm : named name d.node = true
      · simp [hm]
      · simp only [hm, Bool.false_eq_true, if_false]
        exact ih d.rest.length (by rw [← hk, hw]; simp) d rfl

theorem findElement_named (c d : Cursor) (name : Bytes) (h : findElement c name = some d) :
    named name d.node = true ∧ d.rest.length < c.rest.length := by
  generalize hk : c.rest.length = k
  induction k using Nat.strongRecOn generalizing c with
  | _ k ih =>
    have hw := walkNext_rest c
    rw [findElement_eq] at h
    cases hn : walkNext c with
    | none => simp [hn] at h
    | some e =>
      rw [hn] at hw h
      simp only at hw h
      by_cases hm : named name e.node = true
      · simp only [hm, if_true, Option.some.injEq] at h
        subst h
        exact ⟨hm, by rw [← hk, hw]; simp⟩
      · simp only [hm, Bool.false_eq_true, if_false] at h
        have hlt : e.rest.length < k := by rw [← hk, hw]; simp
        obtain ⟨h1, h2⟩ := ih e.rest.length hlt e h rfl
        exact ⟨h1, by omega⟩

theorem findLoop_eq (c : Cursor) (name : Bytes) : findLoop c name = c.rest.filter (named name) := by
  generalize hk : c.rest.length = k
  induction k using Nat.strongRecOn generalizing c with
  | _ k ih =>
    rw [findElement_rest, findLoop]
    cases hf : findElement c name with
    | none => rfl
    | some d =>
      have hlt := (findElement_named c d name hf).2
      simp only
      rw [if_pos hlt, ih d.rest.length (by omega) d rfl]

/-- Asking for the first element of a name below a node gives the first one in document order:
    the first matching node in the list of descendants, each node before its own descendants and
    before its later siblings; NULL exactly when there is none. -/
theorem C38_first (t : Node) (name : Bytes) :
    (findElement (Cursor.top t) name).map Cursor.node = (descendants t).find? (named name) := by
  have h := findElement_rest (Cursor.top t) name
  have hr : (Cursor.top t).rest = descendants t := by simp [Cursor.rest, Cursor.top]
  rw [hr] at h
  rw [← List.head?_filter, h]
  cases findElement (Cursor.top t) name <;> rfl

/-- Asking again and again enumerates exactly the descendants of that name in document order, each
    once, and then stops. -/
theorem C38_enumerate (t : Node) (name : Bytes) :
    findLoop (Cursor.top t) name = (descendants t).filter (named name) := by
  rw [findLoop_eq]
  simp [Cursor.rest, Cursor.top]

/-- The search never leaves the subtree and always makes progress. -/
theorem C38_progress (c d : Cursor) (name : Bytes) (h : findElement c name = some d) :
    d.node.element = some name ∧ d.rest.length < c.rest.length := by
  obtain ⟨h1, h2⟩ := findElement_named c d name h
  exact ⟨by simpa [named] using h1, h2⟩

/-- Document order: a node comes directly before its descendants, and these before what follows. -/
theorem C38_document_order (n : Node) (ns : List Node) :
    descendantsList (n :: ns) = n :: (descendants n ++ descendantsList ns) ∧ descendantsList [] = [] ∧
    ∀ a b cs, descendants (.elem a b cs) = descendantsList cs := by
  refine ⟨by rw [descendantsList], by rw [descendantsList], fun a b cs => by rw [descendants]⟩

/-- `a` elements at different depths, below and after a text. -/
def searchExample : Node :=
  .elem (b! "r") [] [.text (b! "x"), .elem (b! "a") [] [.elem (b! "b") [] [.elem (b! "a") [] []]],
    .elem (b! "c") [] [], .elem (b! "a") [] [.text (b! "z")]]

example : findLoop (Cursor.top searchExample) (b! "a") =
    [.elem (b! "a") [] [.elem (b! "b") [] [.elem (b! "a") [] []]], .elem (b! "a") [] [],
     .elem (b! "a") [] [.text (b! "z")]] := by
  rw [C38_enumerate]; rfl

/-! ### C40 -/

theorem strcmp_swap (a b : Bytes) : strcmpOrd b a = (strcmpOrd a b).swap := by
  induction a generalizing b with
  | nil => cases b <;> rfl
  | cons x xs ih =>
    cases b with
    | nil => rfl
    | cons y ys =>
      unfold strcmpOrd
      by_cases h1 : x.toNat < y.toNat
      · simp [h1, show ¬ y.toNat < x.toNat by omega]
      · by_cases h2 : y.toNat < x.toNat
        · simp [h1, h2]
        · simp [h1, h2, ih]

theorem strcmp_eq (a b : Bytes) : strcmpOrd a b = .eq ↔ a = b := by
  induction a generalizing b with
  | nil => cases b <;> simp [strcmpOrd]
  | cons x xs ih =>
    cases b with
    | nil => simp [strcmpOrd]
    | cons y ys =>
      unfold strcmpOrd
      by_cases h1 : x.toNat < y.toNat
      · simp [h1]; intro h; subst h; omega
      · by_cases h2 : y.toNat < x.toNat
        · simp [h1, h2]; intro h; subst h; omega
        · simp only [h1, h2, if_false, ih, List.cons.injEq]
          have : x = y := UInt8.toNat_inj.mp (by omega)
          simp [this]

theorem strcmp_trans (a b c : Bytes) (h1 : strcmpOrd a b = .lt) (h2 : strcmpOrd b c = .lt) :
    strcmpOrd a c = .lt := by
  induction a generalizing b c with
  | nil =>
    cases c with
    | nil => cases b <;> simp [strcmpOrd] at h2
    | cons z zs => rfl
  | cons x xs ih =>
    cases b with
    | nil => simp [strcmpOrd] at h1
    | cons y ys =>
      cases c with
      | nil => simp [strcmpOrd] at h2
      | cons z zs =>
        unfold strcmpOrd at h1 h2 ⊢
        by_cases a1 : x.toNat < y.toNat
        · by_cases b1 : y.toNat < z.toNat
          · rw [if_pos (by omega)]
          · rw [if_neg b1] at h2
            by_cases b2 : z.toNat < y.toNat
            · rw [if_pos b2] at h2; cases h2
            · rw [if_pos (by omega)]
        · rw [if_neg a1] at h1
          by_cases a2 : y.toNat < x.toNat
          · rw [if_pos a2] at h1; cases h1
          · rw [if_neg a2] at h1
            by_cases b1 : y.toNat < z.toNat
            · rw [if_pos (by omega)]
            · rw [if_neg b1] at h2
              by_cases b2 : z.toNat < y.toNat
              · rw [if_pos b2] at h2; cases h2
              · rw [if_neg b2] at h2
                rw [if_neg (by omega), if_neg (by omega)]
                exact ih ys zs h1 h2

/-- Neighbours are in increasing order. -/
def sortedAdj : List (Bytes × Nat) → Bool
  | [] => true
  | [_] => true
  | a :: b :: r => strcmpOrd a.1 b.1 == .lt && sortedAdj (b :: r)

theorem sorted_pairwise (l : List (Bytes × Nat)) (h : sortedAdj l = true) :
    l.Pairwise fun a b => strcmpOrd a.1 b.1 = .lt := by
  induction l with
  | nil => exact List.Pairwise.nil
  | cons a l ih =>
    cases l with
    | nil => simp
    | cons b r =>
      simp only [sortedAdj, Bool.and_eq_true, beq_iff_eq] at h
      have hp := ih h.2
      rw [List.pairwise_cons]
      refine ⟨?_, hp⟩
      intro x hx
      rcases List.mem_cons.mp hx with rfl | hx
      · exact h.1
      · exact strcmp_trans _ _ _ h.1 ((List.pairwise_cons.mp hp).1 x hx)

theorem entityTable_sorted : sortedAdj entityTable = true := by decide +kernel

theorem search_sound (tab : List (Bytes × Nat)) (name : Bytes) (fuel first last v : Nat)
    (hl : first < tab.length) (hl2 : last < tab.length)
    (h : entitySearch tab name fuel first last = some v) : (name, v) ∈ tab := by
  have key : ∀ i, i < tab.length → name = (tab.getD i ([], 0)).1 → some (tab.getD i ([], 0)).2 = some v → (name, v) ∈ tab := by
    intro i hi hn hv
    have hg : tab.getD i ([], 0) = tab[i] := by rw [List.getD_eq_getElem?_getD, List.getElem?_eq_getElem hi]; rfl
    rw [hg] at hn hv
    injection hv with hv
    rw [hn, ← hv]
    exact List.getElem_mem hi
  induction fuel generalizing first last with
  | zero => simp [entitySearch] at h
  | succ fuel ih =>
    rw [entitySearch] at h
    split at h
    · simp only at h
      split at h
      · rename_i hc
        rw [strcmp_eq] at hc
        exact key _ (by omega) hc h
      · exact ih _ _ hl (by omega) h
      · exact ih _ _ (by omega) hl2 h
    · split at h
      · rename_i hn; exact key _ hl hn h
      · split at h
        · rename_i hn; exact key _ hl2 hn h
        · simp at h

theorem search_complete (tab : List (Bytes × Nat)) (hs : tab.Pairwise fun a b => strcmpOrd a.1 b.1 = .lt)
    (k : Nat) (hk : k < tab.length) (fuel first last : Nat) (h1 : first ≤ k) (h2 : k ≤ last) (hl : last < tab.length)
    (hf : last - first < fuel) : entitySearch tab tab[k].1 fuel first last = some tab[k].2 := by
  have hg : ∀ i, (hi : i < tab.length) → tab.getD i ([], 0) = tab[i] := by
    intro i hi
    rw [List.getD_eq_getElem?_getD, List.getElem?_eq_getElem hi]; rfl
  have hord : ∀ i j (hi : i < tab.length) (hj : j < tab.length), i < j → strcmpOrd tab[i].1 tab[j].1 = .lt := by
    intro i j hi hj hij
    exact List.pairwise_iff_getElem.mp hs i j hi hj hij
  induction fuel generalizing first last with
  | zero => omega
  | succ fuel ih =>
    rw [entitySearch]
    split
    · rename_i hgt
      have hc : (first + last) / 2 < tab.length := by omega
      simp only
      rw [hg _ hc]
      generalize hcur : (first + last) / 2 = cur at *
      rcases Nat.lt_trichotomy k cur with hlt | heq | hgt2
      · rw [hord k cur hk hc hlt]
        exact ih first cur h1 (by omega) (by omega) (by omega)
      · subst heq
        rw [(strcmp_eq _ _).mpr rfl]
      · have hgt3 : strcmpOrd tab[k].1 tab[cur].1 = .gt := by
          rw [strcmp_swap, hord cur k hc hk hgt2]; rfl
        rw [hgt3]
        exact ih cur last (by omega) h2 hl (by omega)
    · rename_i hle
      rw [hg first (by omega), hg last hl]
      by_cases hkf : k = first
      · subst hkf; simp
      · have hkl : k = last := by omega
        subst hkl
        have hne : ¬ tab[k].1 = tab[first].1 := by
          intro e
          have := hord first k (by omega) hk (by omega)
          rw [← e, (strcmp_eq _ _).mpr rfl] at this
          cases this
        rw [if_neg hne, if_pos rfl]

/-- Looking up a character entity by binary search finds a value exactly when the entity table has
    an entry of that name, and then that entry's value (257 entries, all of them reachable). -/
theorem C40_entity_lookup_exact (name : Bytes) (v : Nat) :
    entityValue name = some v ↔ (name, v) ∈ entityTable := by
  unfold entityValue
  constructor
  · exact search_sound entityTable name _ _ _ v (by decide) (by decide)
  · intro h
    obtain ⟨k, hk, he⟩ := List.mem_iff_getElem.mp h
    have := search_complete entityTable (sorted_pairwise _ entityTable_sorted) k hk (entityTable.length + 1) 0
      (entityTable.length - 1) (by omega) (by omega) (by omega) (by omega)
    rw [he] at this
    exact this

/-- The names are pairwise different, so the value is unique. -/
theorem C40_entity_names_unique (n : Bytes) (v w : Nat) (h1 : (n, v) ∈ entityTable) (h2 : (n, w) ∈ entityTable) :
    v = w := by
  have a := (C40_entity_lookup_exact n v).mpr h1
  have b := (C40_entity_lookup_exact n w).mpr h2
  rw [a] at b
  injection b

/-- The four entities the writer produces stand for the characters it replaces. -/
theorem C40_escapes_invert (c : UInt8) (n : Bytes) (h : entityName c = some n) : entityValue n = some c.toNat := by
  unfold entityName at h
  split at h
  · rename_i e; subst e; injection h with h; subst h; decide +kernel
  · split at h
    · rename_i e; subst e; injection h with h; subst h; decide +kernel
    · split at h
      · rename_i e; subst e; injection h with h; subst h; decide +kernel
      · split at h
        · rename_i e; subst e; injection h with h; subst h; decide +kernel
        · simp at h

example : entityValue (b! "eacute") = some 233 ∧ entityValue (b! "nosuch") = none ∧
    entityValue (b! "zwnj") = some 8204 ∧ entityValue (b! "AElig") = some 198 := by decide +kernel

end Afs
