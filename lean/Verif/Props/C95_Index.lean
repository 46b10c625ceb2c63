import Verif.Model.Xml.Index
import Verif.Spec.Index
import Verif.Props.C38_C40_Search
/-!
# C95: searching in an index of elements
-/
namespace Afs
open Xml Index Spec.Index

/-- The nodes are in the order the index keeps: by name, then (in an index of an attribute) by value. -/
def InOrder (attr : Bool) (nodes : List Key) : Prop :=
  nodes.Pairwise fun a b => Index.compare attr a b ≠ .gt

theorem strcmp_self (a : Bytes) : strcmpOrd a a = .eq := (strcmp_eq a a).mpr rfl

theorem strcmp_gt {a b : Bytes} : strcmpOrd a b = .gt ↔ strcmpOrd b a = .lt := by
  rw [strcmp_swap a b]
  cases strcmpOrd a b <;> simp

theorem test_eq (element value : Option Bytes) (n : Key) : test element value n = .eq ↔ Spec.Index.matching element value n = true := by
  unfold test Spec.Index.matching
  cases element with
  | none => cases value <;> simp [strcmp_eq]
  | some e =>
    cases h : strcmpOrd e n.1 with
    | eq => rw [strcmp_eq] at h; subst h; cases value <;> simp [strcmp_eq, strcmp_self]
    | lt =>
      have : e ≠ n.1 := by rintro rfl; rw [strcmp_self] at h; cases h
      simp [h, this]
    | gt =>
      have : e ≠ n.1 := by rintro rfl; rw [strcmp_self] at h; cases h
      simp [h, this]

theorem test_lt {attr : Bool} {e : Bytes} {value : Option Bytes} (ha : attr = false → value = none) {a b : Key}
    (hab : Index.compare attr a b ≠ .gt) (h : test (some e) value a = .lt) : test (some e) value b = .lt := by
  unfold Index.compare at hab
  unfold test at h ⊢
  simp only at h ⊢
  cases hn : strcmpOrd a.1 b.1 with
  | gt => rw [hn] at hab; exact absurd rfl hab
  | lt =>
    cases hx : strcmpOrd e a.1 with
    | gt => rw [hx] at h; cases h
    | lt => rw [strcmp_trans _ _ _ hx hn]
    | eq => rw [strcmp_eq] at hx; rw [hx, hn]
  | eq =>
    rw [hn] at hab
    rw [strcmp_eq] at hn
    rw [← hn]
    cases hx : strcmpOrd e a.1 with
    | gt => rw [hx] at h; cases h
    | lt => rfl
    | eq =>
      rw [hx] at h
      simp only at h ⊢
      cases value with
      | none => cases h
      | some v =>
        cases attr with
        | false => cases ha rfl
        | true =>
          simp only [if_true] at h hab ⊢
          cases hv : strcmpOrd a.2 b.2 with
          | gt => exact absurd hv hab
          | lt => exact strcmp_trans _ _ _ h hv
          | eq => rw [strcmp_eq] at hv; rw [← hv]; exact h

theorem test_gt {attr : Bool} {e : Bytes} {value : Option Bytes} (ha : attr = false → value = none) {a b : Key}
    (hab : Index.compare attr a b ≠ .gt) (h : test (some e) value b = .gt) : test (some e) value a = .gt := by
  unfold Index.compare at hab
  unfold test at h ⊢
  simp only at h ⊢
  cases hn : strcmpOrd a.1 b.1 with
  | gt => rw [hn] at hab; exact absurd rfl hab
  | lt =>
    cases hx : strcmpOrd e b.1 with
    | lt => rw [hx] at h; cases h
    | gt => rw [strcmp_gt.mpr (strcmp_trans _ _ _ hn (strcmp_gt.mp hx))]
    | eq => rw [strcmp_eq] at hx; rw [hx, strcmp_gt.mpr hn]
  | eq =>
    rw [hn] at hab
    rw [strcmp_eq] at hn
    rw [hn]
    cases hx : strcmpOrd e b.1 with
    | lt => rw [hx] at h; cases h
    | gt => rfl
    | eq =>
      rw [hx] at h
      simp only at h ⊢
      cases value with
      | none => cases h
      | some v =>
        cases attr with
        | false => cases ha rfl
        | true =>
          simp only [if_true] at h hab ⊢
          cases hv : strcmpOrd a.2 b.2 with
          | gt => exact absurd hv hab
          | lt => exact strcmp_gt.mpr (strcmp_trans _ _ _ hv (strcmp_gt.mp h))
          | eq => rw [strcmp_eq] at hv; rw [hv]; exact h

/-- What the binary search needs of the order. -/
structure Ordered (f : Nat → Ordering) (n : Nat) : Prop where
  lt : ∀ i j, i < j → j < n → f i = .lt → f j = .lt
  gt : ∀ i j, i < j → j < n → f j = .gt → f i = .gt

theorem Ordered.between {f : Nat → Ordering} {n : Nat} (o : Ordered f n) {i j k : Nat} (hij : i < j) (hjk : j < k)
    (hk : k < n) (hi : f i = .eq) (he : f k = .eq) : f j = .eq := by
  cases hj : f j with
  | eq => rfl
  | lt => rw [o.lt j k hjk hk hj] at he; cases he
  | gt => rw [o.gt i j hij (by omega) hj] at hi; cases hi

theorem moveBack_spec {f : Nat → Ordering} {n : Nat} (o : Ordered f n) (c : Nat) (hc : c < n) (he : f c = .eq) :
    moveBack f c ≤ c ∧ f (moveBack f c) = .eq ∧ ∀ j < moveBack f c, f j ≠ .eq := by
  induction c with
  | zero => exact ⟨Nat.le_refl _, he, fun j hj => by cases hj⟩
  | succ c ih =>
    rw [moveBack]
    by_cases h : f c = .eq
    · rw [if_pos h]
      obtain ⟨h1, h2, h3⟩ := ih (by omega) h
      exact ⟨by omega, h2, h3⟩
    · rw [if_neg h]
      refine ⟨Nat.le_refl _, he, fun j hj hje => ?_⟩
      by_cases hjc : j = c
      · subst hjc; exact h hje
      · exact h (o.between (show j < c by omega) (Nat.lt_succ_self c) hc hje he)

theorem search_spec {f : Nat → Ordering} {n : Nat} (o : Ordered f n) (first last : Nat) (hfl : first ≤ last)
    (hl : last < n) (hf : ∀ j < first, f j ≠ .eq) (hg : ∀ j, last < j → j < n → f j ≠ .eq) :
    match search f first last with
    | some i => i < n ∧ f i = .eq ∧ ∀ j < i, f j ≠ .eq
    | none => ∀ j < n, f j ≠ .eq := by
  generalize hk : last - first = k
  induction k using Nat.strongRecOn generalizing first last with
  | _ k ih =>
    rw [search]
    by_cases h : 1 < last - first
    · rw [if_pos h]
      cases hm : f ((first + last) / 2) with
      | eq =>
        obtain ⟨h1, h2, h3⟩ := moveBack_spec o ((first + last) / 2) (by omega) hm
        exact ⟨by omega, h2, h3⟩
      | lt =>
        refine ih _ (by omega) first ((first + last) / 2) (by omega) (by omega) hf (fun j hj hjn => ?_) rfl
        rw [o.lt _ j hj hjn hm]
        decide
      | gt =>
        refine ih _ (by omega) ((first + last) / 2) last (by omega) hl (fun j hj => ?_) hg rfl
        rw [o.gt j _ hj (by omega) hm]
        decide
    · rw [if_neg h]
      by_cases h1 : f first = .eq
      · rw [if_pos h1]
        exact ⟨by omega, h1, hf⟩
      · rw [if_neg h1]
        by_cases h2 : f last = .eq
        · rw [if_pos h2]
          refine ⟨hl, h2, fun j hj hje => ?_⟩
          by_cases hjf : j = first
          · subst hjf; exact h1 hje
          · exact hf j (by omega) hje
        · rw [if_neg h2]
          intro j hj hje
          by_cases hjf : j = first
          · subst hjf; exact h1 hje
          by_cases hjl : j = last
          · subst hjl; exact h2 hje
          by_cases hjl : last < j
          · exact hg j hjl hj hje
          · exact hf j (by omega) hje

theorem ordered_of (attr : Bool) (nodes : List Key) (h : InOrder attr nodes) (e : Bytes) (value : Option Bytes)
    (ha : attr = false → value = none) :
    Ordered (fun i => test (some e) value (nodes.getD i ([], []))) nodes.length := by
  have key : ∀ i j, i < j → j < nodes.length →
      Index.compare attr (nodes.getD i ([], [])) (nodes.getD j ([], [])) ≠ .gt := by
    intro i j hij hj
    have := List.pairwise_iff_getElem.mp h i j (by omega) hj hij
    rw [← List.getElem_eq_getD, ← List.getElem_eq_getD] <;> assumption
  exact ⟨fun i j hij hj hi => test_lt ha (key i j hij hj) hi, fun i j hij hj hi => test_gt ha (key i j hij hj) hi⟩

/-- After the first match, the search goes on to the end of the block of matches. -/
theorem finds_from {f : Nat → Ordering} {n : Nat} (o : Ordered f n) (g : Nat → Option Nat × Nat)
    (hg : ∀ c, c ≠ 0 → g c = if c < n ∧ f c = .eq then (some c, c + 1) else (none, n)) (k c : Nat) (hc : 0 < c)
    (hk : n - c = k) (he : f (c - 1) = .eq) : Finds g c ((List.range' c k).filter fun i => f i = .eq) := by
  induction k generalizing c with
  | zero =>
    refine .stop (s' := n) ?_
    rw [hg c (by omega), if_neg (by omega)]
  | succ k ih =>
    rw [List.range'_succ, List.filter_cons]
    by_cases h : f c = .eq
    · simp only [h, decide_true, if_true]
      refine .found (s' := c + 1) ?_ (ih (c + 1) (by omega) (by omega) h)
      rw [hg c (by omega), if_pos ⟨by omega, h⟩]
    · have : ((List.range' (c + 1) k).filter fun i => f i = .eq) = [] := by
        rw [List.filter_eq_nil_iff]
        intro j hj hje
        simp only [List.mem_range'_1, decide_eq_true_eq] at hj hje
        exact h (o.between (show c - 1 < c by omega) (show c < j by omega) (by omega) he hje)
      simp only [h, decide_false, this]
      refine .stop (s' := n) ?_
      rw [hg c (by omega), if_neg (by simp [h])]

/-- Searching again and again in an index that is in order gives every element with the name (and with the value of the
    indexed attribute), once, in the order of the index, and then nothing. -/
theorem C95_find (attr : Bool) (nodes : List Key) (h : InOrder attr nodes) (e : Bytes) (value : Option Bytes)
    (ha : attr = false → value = none) :
    Finds (Index.find attr nodes (some e) value) 0 (places nodes (some e) value) := by
  have o := ordered_of attr nodes h e value ha
  have hp : places nodes (some e) value =
      (List.range nodes.length).filter fun i => decide (test (some e) value (nodes.getD i ([], [])) = .eq) := by
    unfold places
    congr 1
    funext i
    rw [Bool.eq_iff_iff, decide_eq_true_iff]
    exact (test_eq _ _ _).symm
  have h1 : ¬ (attr = false ∧ value.isSome = true) := by
    rintro ⟨h, hv⟩
    rw [ha h] at hv
    cases hv
  have h2 : ¬ (some e = none ∧ value = none) := by rintro ⟨h, _⟩; cases h
  by_cases hz : nodes.length = 0
  · rw [hp, hz]
    refine .stop (s' := 0) ?_
    rw [Index.find, if_neg h1, if_neg h2, if_pos hz]
  · have hs := search_spec o 0 (nodes.length - 1) (by omega) (by omega) (fun j hj => by cases hj) (fun j _ _ => by omega)
    have hf0 : Index.find attr nodes (some e) value 0 =
        match search (fun i => test (some e) value (nodes.getD i ([], []))) 0 (nodes.length - 1) with
        | some i => (some i, i + 1)
        | none => (none, nodes.length) := by
      rw [Index.find, if_neg h1, if_neg h2, if_neg hz, if_pos rfl]
      rfl
    have hf : ∀ c, c ≠ 0 → Index.find attr nodes (some e) value c =
        if c < nodes.length ∧ test (some e) value (nodes.getD c ([], [])) = .eq then (some c, c + 1)
        else (none, nodes.length) := by
      intro c hc
      rw [Index.find, if_neg h1, if_neg h2, if_neg hz, if_neg hc]
    rw [hp]
    cases hr : search (fun i => test (some e) value (nodes.getD i ([], []))) 0 (nodes.length - 1) with
    | none =>
      rw [hr] at hs hf0
      rw [List.filter_eq_nil_iff.mpr (fun j hj => by simpa using hs j (List.mem_range.mp hj))]
      exact .stop hf0
    | some i =>
      rw [hr] at hs hf0
      obtain ⟨hi, he, hb⟩ := hs
      have hsplit : List.range nodes.length = List.range i ++ i :: List.range' (i + 1) (nodes.length - (i + 1)) := by
        rw [List.range_eq_range', List.range_eq_range', ← List.range'_succ]
        rw [show nodes.length - (i + 1) + 1 = nodes.length - i by omega]
        have := List.range'_append (s := 0) (m := i) (n := nodes.length - i) (step := 1)
        simp only [Nat.one_mul, Nat.zero_add] at this
        rw [this]
        congr 1
        omega
      rw [hsplit, List.filter_append, List.filter_cons_of_pos (by simpa using he)]
      rw [List.filter_eq_nil_iff.mpr (fun j hj => by simpa using hb j (List.mem_range.mp hj)), List.nil_append]
      exact .found hf0 (finds_from o _ hf _ (i + 1) (by omega) rfl he)

theorem enum_from (nodes : List Key) (k c : Nat) (hk : nodes.length - c = k) :
    Finds (enum nodes) c (List.range' c k) := by
  induction k generalizing c with
  | zero => exact .stop (s' := c) (by rw [enum, if_neg (by omega)])
  | succ k ih =>
    rw [List.range'_succ]
    exact .found (s' := c + 1) (by rw [enum, if_pos (by omega)]) (ih (c + 1) (by omega))

/-- With neither name nor value every element of the index is given, once, in order. -/
theorem C95_enum (attr : Bool) (nodes : List Key) :
    Finds (enum nodes) 0 (List.range nodes.length) ∧ Finds (Index.find attr nodes none none) 0 (List.range nodes.length) := by
  have he : Index.find attr nodes none none = enum nodes := by
    funext c
    rw [Index.find, if_neg (by rintro ⟨_, h⟩; cases h), if_pos ⟨rfl, rfl⟩]
  rw [he, List.range_eq_range']
  exact ⟨enum_from nodes _ 0 (by omega), enum_from nodes _ 0 (by omega)⟩

/-- Values cannot be searched for in an index without attribute. -/
theorem C95_no_attribute (nodes : List Key) (element : Option Bytes) (v : Bytes) (cur : Nat) :
    Index.find false nodes element (some v) cur = (none, cur) := by
  rw [Index.find, if_pos ⟨rfl, rfl⟩]

/-- The elements `a`, `b`, `c` with the values 2, 1, 1. -/
def indexExample : List Key := [(b! "a", b! "2"), (b! "b", b! "1"), (b! "c", b! "1")]

theorem indexExample_order : InOrder true indexExample := by
  unfold InOrder indexExample
  simp only [List.pairwise_cons, List.mem_cons, List.not_mem_nil, or_false, forall_eq_or_imp, forall_eq,
    List.Pairwise.nil, and_true, false_imp_iff, imp_true_iff]
  decide +kernel

/-- A value alone is not found although it is there: the index is in the order of the names first. -/
theorem C95_value_alone_missed : InOrder true indexExample ∧ places indexExample none (some (b! "2")) = [0] ∧
    (Index.find true indexExample none (some (b! "2")) 0).1 = none := by
  refine ⟨indexExample_order, by decide +kernel, by decide +kernel⟩

example : places [(b! "a", b! "1"), (b! "b", b! "1"), (b! "b", b! "2"), (b! "c", b! "1")] (some (b! "b")) none = [1, 2] := by
  decide +kernel

end Afs
