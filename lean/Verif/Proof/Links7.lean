import Verif.Proof.Links6
/-!
# Links: walking and searching in document order
-/
namespace Afs.Links
open Afs Afs.Spec Afs.Xml

mutual
theorem mem_pre : ∀ {t : T} {x : Nat}, x ∈ pre t ↔ x ∈ post t
  | .mk a ks, x => by
    rw [pre, post, List.mem_cons, List.mem_append, List.mem_singleton, mem_preL, or_comm]
theorem mem_preL : ∀ {ts : List T} {x : Nat}, x ∈ preL ts ↔ x ∈ postL ts
  | [], x => by rw [preL, postL]
  | t :: ts, x => by rw [preL, postL, List.mem_append, List.mem_append, mem_pre, mem_preL]
end

mutual
theorem nodup_pre : ∀ {t : T}, (post t).Nodup → (pre t).Nodup
  | .mk a ks, h => by
    rw [post, List.nodup_append] at h
    rw [pre, List.nodup_cons, mem_preL]
    exact ⟨fun hm => h.2.2 a hm a (by simp) rfl, nodup_preL h.1⟩
theorem nodup_preL : ∀ {ts : List T}, (postL ts).Nodup → (preL ts).Nodup
  | [], _ => by simp [preL]
  | t :: ts, h => by
    rw [postL, List.nodup_append] at h
    rw [preL, List.nodup_append]
    refine ⟨nodup_pre h.1, nodup_preL h.2.1, ?_⟩
    intro x hx y hy
    exact h.2.2 x (mem_pre.mp hx) y (mem_preL.mp hy)
end

theorem pre_head (t : T) : (pre t).head? = some t.addr := by
  cases t; simp [pre, T.addr]

theorem preL_head (ts : List T) (r : List Nat) (h : ts ≠ []) :
    (preL ts ++ r).head? = (ts.map T.addr).head? := by
  cases ts with
  | nil => exact absurd rfl h
  | cons t ts =>
    cases t
    simp [preL, pre, T.addr]

theorem nextIn_append_right {l m : List Nat} {x : Nat} (h : x ∉ l) : nextIn (l ++ m) x = nextIn m x := by
  induction l with
  | nil => rfl
  | cons y ys ih =>
    simp only [List.mem_cons, not_or] at h
    rw [List.cons_append, nextIn, if_neg (fun e => h.1 e.symm), ih h.2]

/-- The climb from `a` ends at `r`. -/
def Climbs (h : Heap) (top : Option Nat) (a : Nat) (r : Option Nat) : Prop :=
  ∃ m, ∀ k, m ≤ k → climbUp h top k a = some (.ok r)

/-- The next node after `x` is `r`. -/
def Walks (h : Heap) (top : Option Nat) (x : Nat) (r : Option Nat) : Prop :=
  ∃ m, ∀ k, m ≤ k → walkNext k h (some x) top true = some (.ok r)

theorem climbs_of {h : Heap} {top : Option Nat} {a : Nat} {c : Cell} {r : Option Nat}
    (hc : h a = some c) (hn : c.next = none → match c.parent with
      | none => r = none
      | some p => (some p = top ∧ r = none) ∨ (some p ≠ top ∧ Climbs h top p r))
    (hn' : c.next ≠ none → r = c.next) : Climbs h top a r := by
  cases e : c.next with
  | some y =>
    refine ⟨1, fun k hk => ?_⟩
    obtain ⟨j, rfl⟩ : ∃ j, k = j + 1 := ⟨k - 1, by omega⟩
    rw [climbUp, hc]
    simp [e, hn' (by simp [e])]
  | none =>
    have h1 := hn e
    cases ep : c.parent with
    | none =>
      rw [ep] at h1
      refine ⟨1, fun k hk => ?_⟩
      obtain ⟨j, rfl⟩ : ∃ j, k = j + 1 := ⟨k - 1, by omega⟩
      rw [climbUp, hc]
      simp [e, ep, h1]
    | some p =>
      rw [ep] at h1
      dsimp only at h1
      rcases h1 with ⟨ht, rfl⟩ | ⟨ht, m, hm⟩
      · refine ⟨1, fun k hk => ?_⟩
        obtain ⟨j, rfl⟩ : ∃ j, k = j + 1 := ⟨k - 1, by omega⟩
        rw [climbUp, hc]
        subst ht
        simp [e, ep]
      · refine ⟨m + 1, fun k hk => ?_⟩
        obtain ⟨j, rfl⟩ : ∃ j, k = j + 1 := ⟨k - 1, by omega⟩
        rw [climbUp, hc]
        simp only [e, ep, ht, Option.isSome_none, Bool.false_eq_true, if_false]
        exact hm j (by omega)

/-- A childless node other than `top` is left like the climb leaves it. -/
theorem walks_of_climbs {h : Heap} {top : Option Nat} {a : Nat} {c : Cell} {r : Option Nat}
    (hc : h a = some c) (hch : c.child = none) (ht : some a ≠ top) (C : Climbs h top a r) :
    Walks h top a r := by
  obtain ⟨m, hm⟩ := C
  refine ⟨m, fun k hk => ?_⟩
  have := hm (k + 1) (by omega)
  rw [climbUp, hc] at this
  rw [walkNext, hc]
  simp only [hch, Option.isSome_none, Bool.false_and, Bool.false_eq_true, if_false, ht]
  exact this

mutual
theorem walks_tree {h : Heap} {top : Nat} : ∀ (t : T) (r : List Nat), Tied h t → top ∉ post t →
    (post t).Nodup → Climbs h (some top) t.addr r.head? →
    ∀ x ∈ pre t, Walks h (some top) x (nextIn (pre t ++ r) x)
  | .mk a ks, r, ht, hno, hnd, C, x, hx => by
    rw [Tied] at ht
    obtain ⟨⟨c, hc, hch⟩, htl⟩ := ht
    rw [post, List.mem_append, not_or, List.mem_singleton] at hno
    rw [post, List.nodup_append] at hnd
    have hna : a ∉ postL ks := fun hm => hnd.2.2 a hm a (by simp) rfl
    have hta : some a ≠ some top := fun e => hno.2 (Option.some.inj e).symm
    rw [pre, List.mem_cons] at hx
    by_cases e : x = a
    · subst e
      rw [pre, List.cons_append, nextIn, if_pos rfl]
      cases ks with
      | nil =>
        rw [preL, List.nil_append]
        exact walks_of_climbs hc (by simpa using hch) hta C
      | cons u us =>
        rw [preL_head _ _ (by simp)]
        refine ⟨0, fun k _ => ?_⟩
        rw [walkNext, hc]
        simp [hch]
    · rw [pre, List.cons_append, nextIn, if_neg (fun h => e h.symm)]
      rcases hx with hx | hx
      · exact absurd hx e
      · exact walks_list ks a r htl hno.1 hnd.1 (.inr ⟨hta, C⟩) x hx
theorem walks_list {h : Heap} {top : Nat} : ∀ (ts : List T) (p : Nat) (r : List Nat), TiedL h p ts →
    top ∉ postL ts → (postL ts).Nodup →
    ((p = top ∧ r = []) ∨ (some p ≠ some top ∧ Climbs h (some top) p r.head?)) →
    ∀ x ∈ preL ts, Walks h (some top) x (nextIn (preL ts ++ r) x)
  | [], _, _, _, _, _, _, x, hx => by simp [preL] at hx
  | t :: ts, p, r, ht, hno, hnd, C, x, hx => by
    rw [TiedL] at ht
    obtain ⟨⟨c, hc, hcp, hcn⟩, ht1, ht2⟩ := ht
    rw [postL, List.mem_append, not_or] at hno
    rw [postL, List.nodup_append] at hnd
    have Ct : Climbs h (some top) t.addr (preL ts ++ r).head? := by
      refine climbs_of hc (fun hn => ?_) (fun hn => ?_)
      · rw [hcp]
        dsimp only
        have e : ts = [] := by
          cases ts with
          | nil => rfl
          | cons u us => rw [hcn] at hn; simp at hn
        subst e
        rw [preL, List.nil_append]
        rcases C with ⟨rfl, rfl⟩ | C
        · exact .inl ⟨rfl, rfl⟩
        · exact .inr C
      · have e : ts ≠ [] := by
          intro e
          subst e
          rw [hcn] at hn
          exact hn rfl
        rw [hcn, preL_head _ _ e]
    rw [preL, List.mem_append] at hx
    rw [preL, List.append_assoc]
    by_cases hm : x ∈ pre t
    · exact walks_tree t (preL ts ++ r) ht1 hno.1 hnd.1 Ct x hm
    · rw [nextIn_append_right hm]
      rcases hx with hx | hx
      · exact absurd hx hm
      · exact walks_list ts p r ht2 hno.2 hnd.2.1 C x hx
end

/-- Walking from any node of a tree goes to the next one in document order and stops behind the
    last. -/
theorem walk_spec {h : Heap} {kids : Nat → List Nat} (L : Linked h kids) {t : T} (hs : Shape kids t)
    (ha : h t.addr ≠ none) {x : Nat} (hx : x ∈ pre t) :
    Walks h (some t.addr) x (nextIn (pre t) x) := by
  have ht := tied_of_linked L ha hs
  have hnd := nodup_post L hs
  obtain ⟨a, ks⟩ := t
  rw [Tied] at ht
  obtain ⟨⟨c, hc, hch⟩, htl⟩ := ht
  rw [post, List.nodup_append] at hnd
  have hna : a ∉ postL ks := fun hm => hnd.2.2 a hm a (by simp) rfl
  rw [T.addr]
  rw [pre, List.mem_cons] at hx
  by_cases e : x = a
  · subst e
    rw [pre, nextIn, if_pos rfl]
    refine ⟨0, fun k _ => ?_⟩
    rw [walkNext, hc]
    cases ks with
    | nil => simp [hch, preL]
    | cons u us =>
      have := preL_head (u :: us) [] (by simp)
      rw [List.append_nil] at this
      simp [hch, this]
  · rw [pre, nextIn, if_neg (fun h => e h.symm)]
    rcases hx with hx | hx
    · exact absurd hx e
    · have := walks_list (h := h) (top := a) ks a [] htl hna hnd.1 (.inl ⟨rfl, rfl⟩) x hx
      rwa [List.append_nil] at this

/-! ### Searching -/

theorem behind_head (l : List Nat) (a : Nat) : (behind l a).head? = nextIn l a := by
  induction l with
  | nil => rfl
  | cons x xs ih =>
    rw [behind, nextIn]
    by_cases e : x = a
    · rw [if_pos e, if_pos e]
    · rw [if_neg e, if_neg e, ih]

theorem behind_step {l : List Nat} (hd : l.Nodup) {a b : Nat} {r : List Nat} (h : behind l a = b :: r) :
    behind l b = r ∧ b ∈ l := by
  induction l with
  | nil => cases h
  | cons x xs ih =>
    rw [behind] at h
    rw [List.nodup_cons] at hd
    by_cases e : x = a
    · rw [if_pos e] at h
      subst h
      have : x ≠ b := fun e => hd.1 (by simp [e])
      rw [behind, if_neg this, behind, if_pos rfl]
      exact ⟨rfl, by simp⟩
    · rw [if_neg e] at h
      obtain ⟨h1, h2⟩ := ih hd.2 h
      have : x ≠ b := fun e => hd.1 (e ▸ h2)
      rw [behind, if_neg this]
      exact ⟨h1, List.mem_cons_of_mem _ h2⟩

theorem findLoop_spec {h : Heap} {kids : Nat → List Nat} (L : Linked h kids) {t : T} (hs : Shape kids t)
    (ha : h t.addr ≠ none) (f : Data → Bool) :
    ∀ (r : List Nat) (a : Nat), behind (pre t) a = r →
    ∃ m, ∀ k, m ≤ k → findLoop f h (some t.addr) DESCEND k r.head? = some (.ok (r.find? (test f h))) := by
  intro r
  have hnd := nodup_pre (nodup_post L hs)
  induction r with
  | nil =>
    intro a _
    refine ⟨0, fun k _ => ?_⟩
    cases k <;> rw [List.head?_nil, findLoop] <;> rfl
  | cons b r ih =>
    intro a he
    obtain ⟨hb, hmem⟩ := behind_step hnd he
    have halloc : h b ≠ none := below_alloc L ha ((mem_post hs).mp (mem_pre.mp hmem))
    obtain ⟨c, hc⟩ := Option.ne_none_iff_exists'.mp halloc
    obtain ⟨m, hm⟩ := ih b hb
    obtain ⟨m', hm'⟩ := walk_spec L hs ha hmem
    rw [← behind_head, hb] at hm'
    refine ⟨m + m' + 1, fun k hk => ?_⟩
    obtain ⟨j, rfl⟩ : ∃ j, k = j + 1 := ⟨k - 1, by omega⟩
    rw [List.head?_cons, findLoop, hc, List.find?_cons]
    by_cases e : f c.data = true
    · simp [e, test, hc]
    · have e' : f c.data = false := by simpa using e
      simp only [e', Bool.false_eq_true, if_false, if_true]
      rw [hm' j (by omega)]
      dsimp only
      rw [hm j (by omega)]
      simp [test, hc, e']

/-- Searching from `x` gives the first match behind `x` in document order. -/
theorem find_spec {h : Heap} {kids : Nat → List Nat} (L : Linked h kids) {t : T} (hs : Shape kids t)
    (ha : h t.addr ≠ none) {x : Nat} (hx : x ∈ pre t) (name attr value : Option Bytes)
    (hv : attr = none → value = none) :
    ∃ m, ∀ k, m ≤ k → findElement k h (some x) (some t.addr) name attr value DESCEND =
      some (.ok ((behind (pre t) x).find? (test (isMatch name attr value) h))) := by
  obtain ⟨m, hm⟩ := walk_spec L hs ha hx
  obtain ⟨m', hm'⟩ := findLoop_spec L hs ha (isMatch name attr value) _ x rfl
  rw [← behind_head] at hm
  refine ⟨m + m', fun k hk => ?_⟩
  have hg : ((some x).isNone || (some t.addr).isNone || (attr.isNone && value.isSome)) = false := by
    cases attr with
    | none => simp [hv rfl]
    | some a => simp
  rw [findElement, hg]
  simp only [Bool.false_eq_true, if_false]
  rw [show decide (DESCEND ≠ 0) = true by decide, hm k (by omega)]
  dsimp only
  exact hm' k (by omega)

end Afs.Links
