import Verif.Proof.Links7
/-!
# Links: walking back, walking along children, searching among children
-/
namespace Afs.Links
open Afs Afs.Spec Afs.Xml

theorem prevIn_append_left {l m : List Nat} {x : Nat} (h : x ∉ m) : prevIn (l ++ m) x = prevIn l x := by
  rw [prevIn, List.reverse_append, nextIn_append_right (by simpa using h), prevIn]

theorem getLast_append_ne {l m : List Nat} (h : m ≠ []) : (l ++ m).getLast? = m.getLast? := by
  obtain ⟨y, ys, rfl⟩ := List.exists_cons_of_ne_nil h
  exact getLast_app l y ys

theorem pre_ne_nil (t : T) : pre t ≠ [] := by cases t; simp [pre]

theorem preL_ne_nil {ts : List T} (h : ts ≠ []) : preL ts ≠ [] := by
  obtain ⟨t, ts, rfl⟩ := List.exists_cons_of_ne_nil h
  rw [preL]
  simp [pre_ne_nil]

theorem preL_append (a b : List T) : preL (a ++ b) = preL a ++ preL b := by
  induction a with
  | nil => simp [preL]
  | cons t ts ih => rw [List.cons_append, preL, preL, ih, List.append_assoc]

mutual
theorem lastDown_tree {h : Heap} {kids : Nat → List Nat} (L : Linked h kids) :
    ∀ (t : T), Shape kids t → h t.addr ≠ none →
    ∃ m, ∀ k, m ≤ k → lastDown h k t.addr = some (.ok (pre t).getLast?)
  | .mk a ks, hs, ha => by
    have hs' : kids a = ks.map T.addr ∧ ShapeL kids ks := by simpa only [Shape] using hs
    obtain ⟨c, hc⟩ := Option.ne_none_iff_exists'.mp ha
    rw [T.addr] at hc
    have hl := (L.child a c hc).2
    rw [hs'.1] at hl
    by_cases hk : ks = []
    · subst hk
      refine ⟨1, fun k hk => ?_⟩
      obtain ⟨j, rfl⟩ : ∃ j, k = j + 1 := ⟨k - 1, by omega⟩
      rw [T.addr, lastDown, hc]
      simp only [hl, List.map_nil, List.getLast?_nil]
      simp [pre, preL]
    · obtain ⟨b, m, hb, hm⟩ := lastDown_list L ks hs'.2 hk (fun t ht => by
        obtain ⟨d, hd, _⟩ := L.parent a t.addr (by rw [hs'.1]; exact List.mem_map_of_mem ht)
        simp [hd])
      refine ⟨m + 1, fun k hk' => ?_⟩
      obtain ⟨j, rfl⟩ : ∃ j, k = j + 1 := ⟨k - 1, by omega⟩
      rw [T.addr, lastDown, hc]
      simp only [hl, hb]
      rw [hm j (by omega), pre, ← List.singleton_append, getLast_append_ne (preL_ne_nil hk)]
theorem lastDown_list {h : Heap} {kids : Nat → List Nat} (L : Linked h kids) :
    ∀ (ts : List T), ShapeL kids ts → ts ≠ [] → (∀ t ∈ ts, h t.addr ≠ none) →
    ∃ b m, (ts.map T.addr).getLast? = some b ∧
      ∀ k, m ≤ k → lastDown h k b = some (.ok (preL ts).getLast?)
  | [], _, hne, _ => absurd rfl hne
  | t :: ts, hs, _, ha => by
    rw [ShapeL] at hs
    by_cases e : ts = []
    · subst e
      obtain ⟨m, hm⟩ := lastDown_tree L t hs.1 (ha t (by simp))
      refine ⟨t.addr, m, by simp, fun k hk => ?_⟩
      rw [hm k hk, preL, preL, List.append_nil]
    · obtain ⟨b, m, hb, hm⟩ := lastDown_list L ts hs.2 e (fun u hu => ha u (by simp [hu]))
      refine ⟨b, m, ?_, fun k hk => ?_⟩
      · obtain ⟨u, us, rfl⟩ := List.exists_cons_of_ne_nil e
        rw [List.map_cons, List.map_cons, List.getLast?_cons_cons, ← List.map_cons, hb]
      · rw [hm k hk, preL, getLast_append_ne (preL_ne_nil e)]
end

/-- The node before `x` is `r`. -/
def Backs (h : Heap) (top : Option Nat) (x : Nat) (r : Option Nat) : Prop :=
  ∃ m, ∀ k, m ≤ k → walkPrev k h (some x) top true = some (.ok r)

/-- From a child whose left siblings are `qs`, walking back gives the last node below the nearest of
    them, or else the parent. -/
theorem back_child {h : Heap} {kids : Nat → List Nat} (L : Linked h kids) {top p x : Nat} {qs : List T}
    {rest : List Nat} (hk : kids p = qs.map T.addr ++ x :: rest) (hq : ShapeL kids qs) (hx : x ≠ top) :
    Backs h (some top) x (if qs = [] then (if p = top then none else some p) else (preL qs).getLast?) := by
  have hm : x ∈ kids p := by rw [hk]; simp
  obtain ⟨c, hc, hp⟩ := L.parent p x hm
  have hd := L.nodup p
  rw [hk, List.nodup_append, List.nodup_cons] at hd
  have hprev : c.prev = (qs.map T.addr).getLast? := by
    rw [(L.sibling p x c hm hc).2, hk, prevIn_at hd.2.1.1]
  have hxt : ¬ some x = some top := fun e => hx (Option.some.inj e)
  by_cases e : qs = []
  · subst e
    refine ⟨0, fun k _ => ?_⟩
    rw [walkPrev]
    simp only [hxt, if_false, hc, hprev, List.map_nil, List.getLast?_nil, hp, if_true]
    by_cases e : p = top
    · simp [e]
    · simp [e]
  · rw [if_neg e]
    obtain ⟨q0, hq0⟩ : ∃ q0, qs.getLast? = some q0 := by
      cases h : qs.getLast? with
      | none => exact absurd (by simpa using h) e
      | some q => exact ⟨q, rfl⟩
    obtain ⟨qs', rfl⟩ := List.getLast?_eq_some_iff.mp hq0
    have hqs : Shape kids q0 := (shapeL_iff.mp hq) q0 (by simp)
    have hqm : q0.addr ∈ kids p := by rw [hk]; simp
    obtain ⟨d, hdq, _⟩ := L.parent p q0.addr hqm
    rw [preL_append, preL, preL, List.append_nil, getLast_append_ne (pre_ne_nil q0)]
    rw [List.map_append, List.map_cons, List.map_nil, List.getLast?_concat] at hprev
    obtain ⟨m, hm'⟩ := lastDown_tree L q0 hqs (by simp [hdq])
    refine ⟨m, fun k hk => ?_⟩
    rw [walkPrev]
    simp only [hxt, if_false, hc, hprev, hdq]
    have := hm' (k + 1) (by omega)
    rw [lastDown, hdq] at this
    dsimp only at this
    cases hl : d.last with
    | none =>
      rw [hl] at this
      dsimp only at this ⊢
      exact this
    | some l =>
      rw [hl] at this
      dsimp only at this ⊢
      rw [if_pos trivial]
      exact this

mutual
theorem backs_tree {h : Heap} {kids : Nat → List Nat} (L : Linked h kids) {top : Nat} :
    ∀ (t : T) (ctx : List Nat), Shape kids t → ctx.getLast? = (if t.addr = top then none else some t.addr) →
    top ∉ postL t.kids → (ctx ++ preL t.kids).Nodup →
    ∀ x ∈ preL t.kids, Backs h (some top) x (prevIn (ctx ++ preL t.kids) x)
  | .mk a ks, ctx, hs, hc, hno, hnd, x, hx => by
    have hs' : kids a = ks.map T.addr ∧ ShapeL kids ks := by simpa only [Shape] using hs
    rw [T.kids] at *
    have := backs_list L (top := top) ks [] a ctx (by simp [ShapeL]) hs'.2 (by simpa using hs'.1) hc hno
      (by simpa [preL] using hnd) x hx
    simpa [preL] using this
theorem backs_list {h : Heap} {kids : Nat → List Nat} (L : Linked h kids) {top : Nat} :
    ∀ (ts qs : List T) (p : Nat) (ctx : List Nat), ShapeL kids qs → ShapeL kids ts →
    kids p = qs.map T.addr ++ ts.map T.addr → ctx.getLast? = (if p = top then none else some p) →
    top ∉ postL ts → (ctx ++ preL qs ++ preL ts).Nodup →
    ∀ x ∈ preL ts, Backs h (some top) x (prevIn (ctx ++ preL qs ++ preL ts) x)
  | [], _, _, _, _, _, _, _, _, _, x, hx => by simp [preL] at hx
  | .mk a ks :: ts, qs, p, ctx, hq, hs, hk, hc, hno, hnd, x, hx => by
    rw [ShapeL] at hs
    have hsa : kids a = ks.map T.addr ∧ ShapeL kids ks := by simpa only [Shape] using hs.1
    rw [postL, post, List.mem_append, List.mem_append, List.mem_singleton, not_or, not_or] at hno
    have e1 : preL (.mk a ks :: ts) = a :: (preL ks ++ preL ts) := by rw [preL, pre, List.cons_append]
    rw [e1] at hx hnd ⊢
    have hnd' := hnd
    rw [List.nodup_append, List.nodup_cons] at hnd'
    rcases List.mem_cons.mp hx with rfl | hx
    · rw [prevIn_at hnd'.2.1.1]
      have := back_child L (top := top) (p := p) (x := x) (qs := qs) (rest := ts.map T.addr)
        (by simpa [T.addr] using hk) hq (fun e => hno.1.2 e.symm)
      by_cases e : qs = []
      · subst e
        rw [if_pos rfl] at this
        simpa [preL, hc] using this
      · rw [if_neg e] at this
        rw [getLast_append_ne (preL_ne_nil e)]
        exact this
    · rcases List.mem_append.mp hx with hx | hx
      · have hxt : x ∉ preL ts := by
          intro h2
          have := hnd'.2.1.2
          rw [List.nodup_append] at this
          exact this.2.2 x hx x h2 rfl
        have e2 : ctx ++ preL qs ++ a :: (preL ks ++ preL ts) =
            ((ctx ++ preL qs ++ [a]) ++ preL ks) ++ preL ts := by simp
        rw [e2, prevIn_append_left hxt]
        rw [e2, List.nodup_append] at hnd
        exact backs_tree L (top := top) (.mk a ks) (ctx ++ preL qs ++ [a]) hs.1
          (by rw [T.addr, if_neg (fun e => hno.1.2 e.symm)]; simp) hno.1.1 hnd.1 x hx
      · have e2 : ctx ++ preL qs ++ a :: (preL ks ++ preL ts) =
            ctx ++ preL (qs ++ [.mk a ks]) ++ preL ts := by
          rw [preL_append, preL, preL, pre]; simp
        rw [e2] at hnd ⊢
        refine backs_list L ts (qs ++ [.mk a ks]) p ctx (shapeL_iff.mpr ?_) hs.2 (by rw [hk]; simp) hc hno.2
          hnd x hx
        intro u hu
        rcases List.mem_append.mp hu with hu | hu
        · exact shapeL_iff.mp hq u hu
        · rw [List.mem_singleton] at hu; subst hu; exact hs.1
end

/-- Walking back from a node goes to the one before it in document order; from the first child of
    `top` and from `top` itself it stops. -/
theorem back_spec {h : Heap} {kids : Nat → List Nat} (L : Linked h kids) {t : T} (hs : Shape kids t)
    {x : Nat} (hx : x ∈ pre t) : Backs h (some t.addr) x (prevIn (pre t).tail x) := by
  have hnd := nodup_post L hs
  obtain ⟨a, ks⟩ := t
  rw [post, List.nodup_append] at hnd
  have hna : a ∉ postL ks := fun hm => hnd.2.2 a hm a (by simp) rfl
  rw [T.addr, pre, List.tail_cons]
  rw [pre, List.mem_cons] at hx
  by_cases e : x = a
  · subst e
    refine ⟨0, fun k _ => ?_⟩
    have hn : prevIn (preL ks) x = none := by
      rw [prevIn]
      exact nextIn_not_mem (by simpa [mem_preL] using hna)
    simp [walkPrev, hn]
  · rcases hx with hx | hx
    · exact absurd hx e
    · have := backs_tree L (top := a) (.mk a ks) [] hs (by simp [T.addr]) hna
        (by simpa [T.kids] using nodup_preL hnd.1) x hx
      simpa [T.kids] using this

/-- Walking without descending goes along the children of `top` and stops behind the last one. -/
theorem walk_children {h : Heap} {kids : Nat → List Nat} (L : Linked h kids) {top x : Nat}
    (hx : x ∈ kids top) (k : Nat) :
    walkNext k h (some x) (some top) false = some (.ok (nextIn (kids top) x)) := by
  obtain ⟨c, hc, hp⟩ := L.parent top x hx
  have hn := (L.sibling top x c hx hc).1
  have hxt : ¬ some x = some top := fun e => L.self_not_mem top (Option.some.inj e ▸ hx)
  rw [walkNext, hc]
  simp only [Bool.and_false, Bool.false_eq_true, if_false, hxt, hp]
  rw [← hn]
  cases c.next <;> simp

end Afs.Links
