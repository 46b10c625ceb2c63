import Verif.Model.Xml.IndexSort
import Verif.Props.C95_Index
/-!
# The sorting of an index
-/
namespace Afs
open Xml Index Spec.Index

/-- Only the nodes between two places are moved about. -/
structure Post (l l' : List Key) (a b : Nat) : Prop where
  len : l'.length = l.length
  perm : l'.Perm l
  out : ∀ i, i < a ∨ b < i → node l' i = node l i
  keeps : ∀ P : Key → Prop, (∀ i, a ≤ i → i ≤ b → P (node l i)) → ∀ i, a ≤ i → i ≤ b → P (node l' i)

theorem Post.refl (l : List Key) (a b : Nat) : Post l l a b := ⟨rfl, .refl _, fun _ _ => rfl, fun _ h => h⟩

theorem Post.trans {l l' l'' : List Key} {a b : Nat} (h : Post l l' a b) (h' : Post l' l'' a b) : Post l l'' a b :=
  ⟨h'.len.trans h.len, h'.perm.trans h.perm, fun i hi => (h'.out i hi).trans (h.out i hi),
    fun P hP => h'.keeps P (h.keeps P hP)⟩

theorem Post.mono {l l' : List Key} {a b a' b' : Nat} (h : Post l l' a b) (ha : a' ≤ a) (hb : b ≤ b') : Post l l' a' b' := by
  refine ⟨h.len, h.perm, fun i hi => h.out i (by omega), fun P hP i h1 h2 => ?_⟩
  by_cases hi : a ≤ i ∧ i ≤ b
  · exact h.keeps P (fun j h3 h4 => hP j (by omega) (by omega)) i hi.1 hi.2
  · rw [h.out i (by omega)]
    exact hP i h1 h2

theorem node_swap (l : List Key) (i j m : Nat) (hi : i < l.length) (hj : j < l.length) :
    node (swap l i j) m = if m = j then node l i else if m = i then node l j else node l m := by
  unfold swap node
  simp only [List.getD_eq_getElem?_getD, List.getElem?_set, List.length_set]
  by_cases h1 : m = j
  · subst h1; simp [hj]
  · rw [if_neg (Ne.symm h1), if_neg h1]
    by_cases h2 : m = i
    · subst h2; simp [hi]
    · rw [if_neg (Ne.symm h2), if_neg h2]

theorem post_swap (l : List Key) (i j a b : Nat) (hi : a ≤ i) (hj : a ≤ j) (hib : i ≤ b) (hjb : j ≤ b)
    (hb : b < l.length) : Post l (swap l i j) a b := by
  have hn := node_swap l i j
  refine ⟨by simp [swap], ?_, fun m hm => ?_, fun P hP m h1 h2 => ?_⟩
  · have h1 : i < l.length := by omega
    have h2 : j < l.length := by omega
    have := List.set_set_perm (as := l) h1 h2
    unfold swap node
    rwa [← List.getElem_eq_getD (h := h2), ← List.getElem_eq_getD (h := h1)]
  · rw [hn m (by omega) (by omega), if_neg (by omega), if_neg (by omega)]
  · rw [hn m (by omega) (by omega)]
    split
    · exact hP i hi hib
    · split
      · exact hP j hj hjb
      · exact hP m h1 h2

/-- At most, in the order of the index. -/
def Le (attr : Bool) (a b : Key) : Prop := Index.compare attr a b ≠ .gt

theorem compare_swap (attr : Bool) (a b : Key) : Index.compare attr b a = (Index.compare attr a b).swap := by
  unfold Index.compare
  rw [strcmp_swap a.1 b.1, strcmp_swap a.2 b.2]
  cases strcmpOrd a.1 b.1 <;> cases attr <;> simp

theorem le_of_gt {attr : Bool} {a b : Key} (h : Index.compare attr a b = .gt) : Le attr b a := by
  unfold Le
  rw [compare_swap attr a b, h]
  decide

theorem le_refl (attr : Bool) (a : Key) : Le attr a a := by
  unfold Le Index.compare
  rw [strcmp_self, strcmp_self]
  cases attr <;> decide

theorem strcmp_le_trans {a b c : Bytes} (h1 : strcmpOrd a b ≠ .gt) (h2 : strcmpOrd b c ≠ .gt) : strcmpOrd a c ≠ .gt := by
  cases ha : strcmpOrd a b with
  | gt => exact absurd ha h1
  | eq => rw [strcmp_eq] at ha; rw [ha]; exact h2
  | lt =>
    cases hb : strcmpOrd b c with
    | gt => exact absurd hb h2
    | eq => rw [strcmp_eq] at hb; rw [← hb, ha]; decide
    | lt => rw [strcmp_trans _ _ _ ha hb]; decide

theorem le_trans {attr : Bool} {a b c : Key} (h1 : Le attr a b) (h2 : Le attr b c) : Le attr a c := by
  unfold Le Index.compare at *
  cases hab : strcmpOrd a.1 b.1 with
  | gt => rw [hab] at h1; exact absurd rfl h1
  | lt =>
    cases hbc : strcmpOrd b.1 c.1 with
    | gt => rw [hbc] at h2; exact absurd rfl h2
    | lt => rw [strcmp_trans _ _ _ hab hbc]; exact fun h => by cases h
    | eq => rw [strcmp_eq] at hbc; rw [← hbc, hab]; exact fun h => by cases h
  | eq =>
    rw [hab] at h1
    rw [strcmp_eq] at hab
    rw [hab]
    cases hbc : strcmpOrd b.1 c.1 with
    | gt => rw [hbc] at h2; exact absurd rfl h2
    | lt => exact fun h => by cases h
    | eq =>
      rw [hbc] at h2
      cases attr with
      | false => exact fun h => by cases h
      | true => exact strcmp_le_trans h1 h2

theorem moveRight_spec (attr : Bool) (l : List Key) (pivot : Key) (right k t : Nat) (hk : right - t = k) (ht : t ≤ right) :
    t ≤ moveRight attr l pivot right t ∧ moveRight attr l pivot right t ≤ right ∧
      (∀ i, t ≤ i → i < moveRight attr l pivot right t → Le attr (node l i) pivot) ∧
      (moveRight attr l pivot right t = right ∨
        Index.compare attr (node l (moveRight attr l pivot right t)) pivot = .gt) := by
  induction k generalizing t with
  | zero =>
    rw [moveRight, if_neg (by omega)]
    exact ⟨by omega, ht, fun i h1 h2 => by omega, .inl (by omega)⟩
  | succ k ih =>
    rw [moveRight]
    by_cases h : t < right ∧ Index.compare attr (node l t) pivot ≠ .gt
    · rw [if_pos h]
      obtain ⟨h1, h2, h3, h4⟩ := ih (t + 1) (by omega) (by omega)
      refine ⟨by omega, h2, fun i hi hl => ?_, h4⟩
      by_cases e : i = t
      · rw [e]; exact h.2
      · exact h3 i (by omega) hl
    · rw [if_neg h]
      refine ⟨by omega, ht, fun i h1 h2 => by omega, .inr ?_⟩
      by_cases hc : Index.compare attr (node l t) pivot = .gt
      · exact hc
      · exact absurd ⟨by omega, hc⟩ h

theorem moveLeft_spec (attr : Bool) (l : List Key) (pivot : Key) (left t : Nat) (ht : left ≤ t) :
    left ≤ moveLeft attr l pivot left t ∧ moveLeft attr l pivot left t ≤ t ∧
      (∀ i, moveLeft attr l pivot left t < i → i ≤ t → Index.compare attr (node l i) pivot = .gt) ∧
      (moveLeft attr l pivot left t = left ∨ Le attr (node l (moveLeft attr l pivot left t)) pivot) := by
  induction t with
  | zero =>
    rw [moveLeft, if_neg (by omega)]
    exact ⟨ht, Nat.le_refl _, fun i h1 h2 => by omega, .inl (by omega)⟩
  | succ t ih =>
    rw [moveLeft]
    by_cases h : left < t + 1 ∧ Index.compare attr (node l (t + 1)) pivot = .gt
    · rw [if_pos h, Nat.add_sub_cancel]
      obtain ⟨h1, h2, h3, h4⟩ := ih (by omega)
      refine ⟨h1, by omega, fun i hi hl => ?_, h4⟩
      by_cases e : i = t + 1
      · rw [e]; exact h.2
      · exact h3 i hi (by omega)
    · rw [if_neg h]
      refine ⟨ht, Nat.le_refl _, fun i h1 h2 => by omega, ?_⟩
      by_cases hl : left < t + 1
      · exact .inr fun hc => h ⟨hl, hc⟩
      · exact .inl (by omega)

theorem partition_spec (attr : Bool) (pivot : Key) (left right k : Nat) (l : List Key) (tl tr : Nat)
    (hl : left ≤ tl) (hlr : tl < tr) (hr : tr ≤ right) (hb : right < l.length) (hp : node l left = pivot)
    (h1 : ∀ i, left ≤ i → i ≤ tl → Le attr (node l i) pivot)
    (h2 : ∀ i, tr < i → i ≤ right → Index.compare attr (node l i) pivot = .gt) (hk : tr - tl < k) :
    ∃ l' t, partition attr pivot left right k l tl tr = some (l', t) ∧ Post l l' left right ∧ left ≤ t ∧ t ≤ right ∧
      node l' left = pivot ∧ (∀ i, left ≤ i → i ≤ t → Le attr (node l' i) pivot) ∧
      ∀ i, t < i → i ≤ right → Index.compare attr (node l' i) pivot = .gt := by
  induction k generalizing l tl tr with
  | zero => omega
  | succ k ih =>
    obtain ⟨r1, r2, r3, r4⟩ := moveRight_spec attr l pivot right _ tl rfl (by omega)
    obtain ⟨s1, s2, s3, s4⟩ := moveLeft_spec attr l pivot left tr (by omega)
    have rstrict : tl < moveRight attr l pivot right tl := by
      rcases r4 with e | e
      · omega
      · by_cases hc : tl < moveRight attr l pivot right tl
        · exact hc
        · have : moveRight attr l pivot right tl = tl := by omega
          rw [this] at e
          exact absurd e (h1 tl hl (Nat.le_refl _))
    rw [partition, if_pos hlr]
    simp only
    generalize moveRight attr l pivot right tl = tl' at *
    generalize moveLeft attr l pivot left tr = tr' at *
    by_cases h : tl' < tr'
    · rw [if_pos h]
      have hle : Le attr (node l tr') pivot := s4.resolve_left (by omega)
      have hgt : Index.compare attr (node l tl') pivot = .gt := r4.resolve_left (by omega)
      have hn := fun m => node_swap l tl' tr' m (by omega) (by omega)
      have hps := post_swap l tl' tr' left right (by omega) (by omega) (by omega) (by omega) hb
      obtain ⟨l', t, e, p, q⟩ := ih (swap l tl' tr') tl' tr' (by omega) h (by omega) (by rw [hps.len]; exact hb)
        (by rw [hn, if_neg (by omega), if_neg (by omega)]; exact hp)
        (by
          intro i hi1 hi2
          rw [hn, if_neg (by omega)]
          split
          · exact hle
          · by_cases hi : i ≤ tl
            · exact h1 i hi1 hi
            · exact r3 i (by omega) (by omega))
        (by
          intro i hi1 hi2
          rw [hn, if_neg (by omega), if_neg (by omega)]
          by_cases hi : i ≤ tr
          · exact s3 i hi1 hi
          · exact h2 i (by omega) hi2)
        (by omega)
      exact ⟨l', t, e, hps.trans p, q⟩
    · rw [if_neg h]
      refine ⟨l, tr', rfl, .refl _ _ _, s1, by omega, hp, fun i hi1 hi2 => ?_, fun i hi1 hi2 => ?_⟩
      · by_cases hi : i ≤ tl
        · exact h1 i hi1 hi
        · by_cases e : i = tr'
          · subst e
            rcases s4 with e | e
            · rw [e, hp]; exact le_refl _ _
            · exact e
          · exact r3 i (by omega) (by omega)
      · by_cases hi : i ≤ tr
        · exact s3 i hi1 hi
        · exact h2 i (by omega) hi2

theorem place_spec (attr : Bool) (pivot : Key) (left right t : Nat) (l : List Key) (hb : right < l.length)
    (hlt : left ≤ t) (htr : t ≤ right) (hp : node l left = pivot)
    (h1 : ∀ i, left ≤ i → i ≤ t → Le attr (node l i) pivot)
    (h2 : ∀ i, t < i → i ≤ right → Index.compare attr (node l i) pivot = .gt) :
    Post l (place attr l pivot left t) left right ∧
      (∀ i, left ≤ i → i < t → Le attr (node (place attr l pivot left t) i) (node (place attr l pivot left t) t)) ∧
      ∀ i, t < i → i ≤ right → Le attr (node (place attr l pivot left t) t) (node (place attr l pivot left t) i) := by
  unfold place
  by_cases h : Index.compare attr pivot (node l t) = .gt
  · have e : (l.set left (node l t)).set t pivot = swap l left t := by rw [swap, hp]
    rw [if_pos h, e]
    have hn := fun m => node_swap l left t m (by omega) (by omega)
    have ht : node (swap l left t) t = pivot := by rw [hn, if_pos rfl, hp]
    rw [ht]
    refine ⟨post_swap l left t left right (by omega) (by omega) (by omega) (by omega) hb, fun i hi1 hi2 => ?_,
      fun i hi1 hi2 => ?_⟩
    · rw [hn, if_neg (by omega)]
      split
      · exact h1 t hlt (Nat.le_refl _)
      · exact h1 i hi1 (by omega)
    · rw [hn, if_neg (by omega), if_neg (by omega)]
      exact le_of_gt (h2 i hi1 hi2)
  · rw [if_neg h]
    exact ⟨.refl _ _ _, fun i hi1 hi2 => le_trans (h1 i hi1 (by omega)) h,
      fun i hi1 hi2 => le_trans (h1 t hlt (Nat.le_refl _)) (le_of_gt (h2 i hi1 hi2))⟩

theorem sort_spec (attr : Bool) (k : Nat) (l : List Key) (left right : Nat) (hlr : left < right)
    (hb : right < l.length) (hk : right - left < k) :
    ∃ l', Index.sort attr k l left right = some l' ∧ Post l l' left right ∧
      ∀ i j, left ≤ i → i < j → j ≤ right → Le attr (node l' i) (node l' j) := by
  induction k generalizing l left right with
  | zero => omega
  | succ k ih =>
    obtain ⟨l1, t, e1, p1, ht1, ht2, hp, ha, hc⟩ := partition_spec attr (node l left) left right (right - left + 1) l left
      right (Nat.le_refl _) hlr (Nat.le_refl _) hb rfl
      (by intro i h1 h2; have : i = left := by omega
          rw [this]; exact le_refl _ _) (by intro i h1 h2; omega) (by omega)
    obtain ⟨p2, hlow, hhigh⟩ := place_spec attr (node l left) left right t l1 (by rw [p1.len]; exact hb) ht1 ht2 hp ha hc
    rw [Index.sort, e1]
    simp only
    generalize place attr l1 (node l left) left t = l2 at *
    have p12 := p1.trans p2
    have hleft : ∃ l3, (if left + 1 < t then Index.sort attr k l2 left (t - 1) else some l2) = some l3 ∧
        Post l2 l3 left (t - 1) ∧ ∀ i j, left ≤ i → i < j → j < t → Le attr (node l3 i) (node l3 j) := by
      by_cases h : left + 1 < t
      · rw [if_pos h]
        obtain ⟨l3, e3, p3, s3⟩ := ih l2 left (t - 1) (by omega) (by rw [p12.len]; omega) (by omega)
        exact ⟨l3, e3, p3, fun i j h1 h2 h3 => s3 i j h1 h2 (by omega)⟩
      · rw [if_neg h]
        exact ⟨l2, rfl, .refl _ _ _, fun i j h1 h2 h3 => by omega⟩
    obtain ⟨l3, e3, p3, s3⟩ := hleft
    rw [e3]
    simp only
    have hright : ∃ l4, (if t + 1 < right then Index.sort attr k l3 (t + 1) right else some l3) = some l4 ∧
        Post l3 l4 (t + 1) right ∧ ∀ i j, t < i → i < j → j ≤ right → Le attr (node l4 i) (node l4 j) := by
      by_cases h : t + 1 < right
      · rw [if_pos h]
        obtain ⟨l4, e4, p4, s4⟩ := ih l3 (t + 1) right h (by rw [p3.len, p12.len]; exact hb) (by omega)
        exact ⟨l4, e4, p4, fun i j h1 h2 h3 => s4 i j (by omega) h2 h3⟩
      · rw [if_neg h]
        exact ⟨l3, rfl, .refl _ _ _, fun i j h1 h2 h3 => by omega⟩
    obtain ⟨l4, e4, p4, s4⟩ := hright
    have q3 : Post l2 l3 left right := by
      by_cases h0 : left = 0 ∧ t = 0
      · exact p3.mono (by omega) (by omega)
      · exact p3.mono (by omega) (by omega)
    refine ⟨l4, e4, (p12.trans q3).trans (p4.mono (by omega) (by omega)), ?_⟩
    have low : ∀ i, left ≤ i → i < t → Le attr (node l4 i) (node l2 t) := by
      intro i h1 h2
      rw [p4.out i (by omega)]
      exact p3.keeps (fun x => Le attr x (node l2 t)) (fun j h3 h4 => hlow j h3 (by omega)) i h1 (by omega)
    have mid : node l4 t = node l2 t := by
      by_cases h : left < t
      · rw [p4.out t (by omega), p3.out t (by omega)]
      · have e : t = left := by omega
        rw [p4.out t (by omega)]
        by_cases h0 : t = 0
        · subst h0
          have : l3 = l2 := by
            rw [if_neg (by omega)] at e3
            exact (Option.some.inj e3).symm
          rw [this]
        · rw [p3.out t (by omega)]
    have high : ∀ i, t < i → i ≤ right → Le attr (node l2 t) (node l4 i) := by
      intro i h1 h2
      refine p4.keeps (fun x => Le attr (node l2 t) x) (fun j h3 h4 => ?_) i (by omega) h2
      rw [p3.out j (by omega)]
      exact hhigh j (by omega) h4
    intro i j h1 h2 h3
    by_cases hj : j < t
    · rw [p4.out i (by omega), p4.out j (by omega)]
      exact s3 i j h1 h2 hj
    · by_cases hjt : j = t
      · subst hjt
        rw [mid]
        exact low i h1 h2
      · by_cases hi : i < t
        · exact le_trans (low i h1 hi) (high j (by omega) h3)
        · by_cases hit : i = t
          · subst hit
            rw [mid]
            exact high j h2 h3
          · exact s4 i j (by omega) h2 h3

/-- Making an index ends, keeps all its elements and puts them in order. -/
theorem C95_sorted (attr : Bool) (l : List Key) (k : Nat) (hk : l.length ≤ k) :
    ∃ l', Index.sorted attr k l = some l' ∧ l'.Perm l ∧ InOrder attr l' := by
  rw [Index.sorted]
  by_cases h : 1 < l.length
  · rw [if_pos h]
    obtain ⟨l', e, p, s⟩ := sort_spec attr k l 0 (l.length - 1) (by omega) (by omega) (by omega)
    refine ⟨l', e, p.perm, ?_⟩
    unfold InOrder
    rw [List.pairwise_iff_getElem]
    intro i j hi hj hij
    have := s i j (Nat.zero_le _) hij (by have := p.len; omega)
    unfold Le node at this
    rwa [← List.getElem_eq_getD (h := hi), ← List.getElem_eq_getD (h := hj)] at this
  · rw [if_neg h]
    refine ⟨l, rfl, .refl _, ?_⟩
    unfold InOrder
    rw [List.pairwise_iff_getElem]
    intro i j hi hj hij
    omega

theorem places_nodes (l : List Key) (element value : Option Bytes) :
    (places l element value).map (node l) = l.filter (Spec.Index.matching element value) := by
  have hl : l = (List.range l.length).map (node l) := by
    apply List.ext_getElem
    · simp
    · intro i h1 h2
      simp [node, h1]
  conv => rhs; rw [hl, List.filter_map]
  rfl

/-- From making the index to the last search: exactly the elements with the name (and the value) are found, each as often
    as it is there. -/
theorem C95_complete (attr : Bool) (l : List Key) (e : Bytes) (value : Option Bytes) (ha : attr = false → value = none) :
    ∃ l' ps, Index.sorted attr l.length l = some l' ∧ Finds (Index.find attr l' (some e) value) 0 ps ∧
      (ps.map (node l')).Perm (l.filter (Spec.Index.matching (some e) value)) := by
  obtain ⟨l', h1, h2, h3⟩ := C95_sorted attr l l.length (Nat.le_refl _)
  refine ⟨l', _, h1, C95_find attr l' h3 e value ha, ?_⟩
  rw [places_nodes]
  exact h2.filter _

example : Index.sorted true 4 [(b! "b", b! "2"), (b! "c", b! "1"), (b! "b", b! "1"), (b! "a", b! "9")] =
    some [(b! "a", b! "9"), (b! "b", b! "1"), (b! "b", b! "2"), (b! "c", b! "1")] := by
  decide +kernel

end Afs
