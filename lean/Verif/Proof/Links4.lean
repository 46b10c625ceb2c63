import Verif.Proof.Links3
/-!
# Links: `mxmlRemove`, `mxmlAdd` and `mxml_new` as operations on `kids`
-/
namespace Afs.Links
open Afs Afs.Spec

theorem unlink_data {h : Heap} {p n : Nat} {l r : List Nat} : SameData h (unlink h p n l r) := by
  intro a; simp only [unlink]; cases h a <;> rfl

theorem link_data {h : Heap} {p n : Nat} {l r : List Nat} : SameData h (link h p n l r) := by
  intro a; simp only [link]; cases h a <;> rfl

theorem _root_.Afs.Spec.SameData.trans {h h' h'' : Heap} (a : SameData h h') (b : SameData h' h'') :
    SameData h h'' := fun x => (b x).trans (a x)

theorem _root_.Afs.Spec.SameData.alloc {h h' : Heap} (s : SameData h h') (a : Nat) : h' a = none ↔ h a = none := by
  have := s a
  cases e : h a <;> cases e' : h' a <;> simp_all

theorem Linked_congr {h : Heap} {k k' : Nat → List Nat} (L : Linked h k) (e : ∀ x, k' x = k x) :
    Linked h k' := by
  have : k' = k := funext e
  rw [this]; exact L

theorem not_kid_of_root {h : Heap} {kids : Nat → List Nat} (L : Linked h kids) {n : Nat} {c : Cell}
    (hn : h n = some c) (hp : c.parent = none) (q : Nat) : n ∉ kids q := by
  intro hm
  obtain ⟨d, hd, h'⟩ := L.parent q n hm
  rw [hn] at hd
  cases hd
  rw [hp] at h'
  cases h'

/-- `mxmlRemove` takes the node out of its parent's list and changes nothing else. -/
theorem remove_spec {h : Heap} {kids : Nat → List Nat} (L : Linked h kids) {n : Nat} (hn : h n ≠ none) :
    ∃ h', remove h (some n) = .ok h' ∧ Linked h' (fun x => (kids x).erase n) ∧ SameData h h' ∧
      ∃ c, h' n = some c ∧ c.parent = none := by
  obtain ⟨c, hc⟩ := Option.ne_none_iff_exists'.mp hn
  cases hp : c.parent with
  | none =>
    refine ⟨h, ?_, Linked_congr L (fun x => ?_), fun _ => rfl, c, hc, hp⟩
    · simp [remove, get_ok hc, hp]
    · exact List.erase_of_not_mem (not_kid_of_root L hc hp x)
  | some p =>
    have hm := L.listed n c p hc hp
    obtain ⟨l, r, A⟩ := L.at hm
    refine ⟨_, remove_unlink L A, Linked_congr (unlink_linked L A) (fun x => ?_), unlink_data,
      ?_⟩
    · by_cases e : x = p
      · subst e
        rw [if_pos rfl, A.eq, List.erase_append_right _ A.nl, List.erase_cons_head]
      · rw [if_neg e]
        exact List.erase_of_not_mem (fun h => e (L.unique h hm))
    · refine ⟨_, by rw [unlink, hc]; rfl, by simp⟩

/-- Splitting a list at the first occurrence of an element. -/
theorem split_at {x : Nat} {l : List Nat} (hx : x ∈ l) :
    l = l.takeWhile (· ≠ x) ++ x :: (l.dropWhile (· ≠ x)).drop 1 ∧
      l.dropWhile (· ≠ x) = x :: (l.dropWhile (· ≠ x)).drop 1 := by
  have h2 : l.dropWhile (· ≠ x) = x :: (l.dropWhile (· ≠ x)).drop 1 := by
    induction l with
    | nil => cases hx
    | cons y ys ih =>
      by_cases e : y = x
      · subst e; simp
      · rcases List.mem_cons.mp hx with e' | hx
        · exact absurd e'.symm e
        · have := ih hx
          simp only [List.dropWhile_cons, ne_eq, e, not_false_eq_true, decide_true, if_true]
          simpa using this
  refine ⟨?_, h2⟩
  rw [← h2]
  exact (List.takeWhile_append_dropWhile).symm

theorem atEdge_some {h : Heap} {kids : Nat → List Nat} {p n x : Nat} {c : Cell} {l r : List Nat}
    (R : Ready h kids p n c l r) (hx : h x ≠ none) (xn : x ≠ n) (edge : Option Nat) :
    atEdge (withParent h p n) p (some x) edge = .ok (decide (edge = some x ∨ x ∉ kids p)) := by
  obtain ⟨d, hd⟩ := Option.ne_none_iff_exists'.mp hx
  unfold atEdge
  by_cases e : some x = edge
  · simp [← e]
  · simp only [e, if_false]
    rw [get_ok (c := d) (by rw [withParent_get xn]; exact hd), Res.ok_bind]
    congr 1
    have e' : ¬ edge = some x := fun h => e h.symm
    simp only [e', false_or, decide_eq_decide]
    constructor
    · intro h1 hm
      obtain ⟨d', hd', hp⟩ := R.L.parent p x hm
      rw [hd] at hd'
      cases hd'
      exact h1 hp
    · intro h1 h2
      exact h1 (R.L.listed x d p hd h2)

/-- The children of the parent after an add. -/
def placed (place : Int) (child : Option Nat) (n : Nat) (l : List Nat) : List Nat :=
  if place = ADD_BEFORE then putBefore child n l else putAfter child n l

theorem add_root {h : Heap} {kids : Nat → List Nat} {p n : Nat} {c : Cell} (place : Int)
    (child : Option Nat) (R : Ready h kids p n c (kids p) [])
    (hw : place = ADD_BEFORE ∨ place = ADD_AFTER)
    (hx : ∀ x, child = some x → h x ≠ none ∧ x ≠ n) :
    ∃ h', (if place = ADD_BEFORE then addBefore (withParent h p n) p child n
        else if place = ADD_AFTER then addAfter (withParent h p n) p child n
        else .ok (withParent h p n)) = .ok h' ∧
      Linked h' (fun x => if x = p then placed place child n (kids p) else kids x) ∧
      SameData h h' := by
  have fin : ∀ l r, kids p = l ++ r → placed place child n (kids p) = l ++ n :: r →
      Linked (link h p n l r) (fun x => if x = p then placed place child n (kids p) else kids x) ∧
      SameData h (link h p n l r) := by
    intro l r e1 e2
    exact ⟨by rw [e2]; exact link_linked R.L R.hn R.root R.hp R.nb e1, link_data⟩
  rcases hw with rfl | rfl
  · simp only [if_pos]
    have front : atEdge (withParent h p n) p child (kids p).head? = .ok true →
        putBefore child n (kids p) = n :: kids p →
        ∃ h', addBefore (withParent h p n) p child n = .ok h' ∧
        Linked h' (fun x => if x = p then placed ADD_BEFORE child n (kids p) else kids x) ∧
        SameData h h' := by
      intro he hpl
      refine ⟨_, addBefore_front ⟨R.L, R.hn, R.root, R.hp, R.nb, by simp⟩ he, ?_⟩
      exact fin [] (kids p) (by simp) (by rw [placed, if_pos rfl, hpl]; rfl)
    cases child with
    | none => exact front rfl rfl
    | some x =>
      obtain ⟨hxa, hxn⟩ := hx x rfl
      have ae := atEdge_some R hxa hxn (kids p).head?
      by_cases hm : x ∈ kids p
      · obtain ⟨s1, s2⟩ := split_at hm
        by_cases hh : (kids p).head? = some x
        · apply front
          · rw [ae]; simp [hh]
          · simp only [putBefore, hm, if_true]
            cases hk : kids p with
            | nil => simp [hk] at hm
            | cons y ys =>
              rw [hk] at hh
              simp only [List.head?_cons, Option.some.injEq] at hh
              subst hh
              simp
        · have hl : (kids p).takeWhile (· ≠ x) ≠ [] := by
            intro e
            rw [e, List.nil_append] at s1
            rw [s1] at hh
            simp at hh
          refine ⟨_, addBefore_mid (l := (kids p).takeWhile (· ≠ x))
            (r := x :: ((kids p).dropWhile (· ≠ x)).drop 1)
            ⟨R.L, R.hn, R.root, R.hp, R.nb, s1⟩ rfl hl ?_, ?_⟩
          · intro e he
            subst he
            rw [ae]; simp [hh, hm]
          · refine fin _ _ s1 ?_
            rw [placed, if_pos rfl, putBefore]
            simp only [hm, if_true]
            rw [← s2]
      · apply front
        · rw [ae]; simp [hm]
        · simp [putBefore, hm]
  · have hne : ¬ ADD_AFTER = ADD_BEFORE := by decide
    simp only [hne, if_false, if_true]
    have back : atEdge (withParent h p n) p child (kids p).getLast? = .ok true →
        putAfter child n (kids p) = kids p ++ [n] →
        ∃ h', addAfter (withParent h p n) p child n = .ok h' ∧
        Linked h' (fun x => if x = p then placed ADD_AFTER child n (kids p) else kids x) ∧
        SameData h h' := by
      intro he hpl
      refine ⟨_, addAfter_end R he, ?_⟩
      exact fin (kids p) [] (by simp) (by rw [placed, if_neg hne, hpl])
    cases child with
    | none => exact back rfl rfl
    | some x =>
      obtain ⟨hxa, hxn⟩ := hx x rfl
      have ae := atEdge_some R hxa hxn (kids p).getLast?
      by_cases hm : x ∈ kids p
      · obtain ⟨s1, s2⟩ := split_at hm
        have hnd := R.L.nodup p
        by_cases hr : ((kids p).dropWhile (· ≠ x)).drop 1 = []
        · have hh : (kids p).getLast? = some x := by
            rw [s1, hr]; simp
          apply back
          · rw [ae]; simp [hh]
          · simp only [putAfter, hm, if_true, hr]
            have s3 : kids p = (kids p).takeWhile (· ≠ x) ++ [x] := by rw [hr] at s1; exact s1
            calc _ = ((kids p).takeWhile (· ≠ x) ++ [x]) ++ [n] := by simp
              _ = _ := by rw [← s3]
        · have s3 : kids p = ((kids p).takeWhile (· ≠ x) ++ [x]) ++ ((kids p).dropWhile (· ≠ x)).drop 1 := by
            simpa using s1
          have hh : (kids p).getLast? ≠ some x := by
            intro e
            have hx2 : x ∈ ((kids p).dropWhile (· ≠ x)).drop 1 := by
              obtain ⟨y, ys, hy⟩ := List.exists_cons_of_ne_nil hr
              rw [s3, hy, getLast_app] at e
              rw [hy]
              exact List.mem_of_getLast? e
            rw [s3, List.nodup_append] at hnd
            exact hnd.2.2 x (by simp) x hx2 rfl
          refine ⟨_, addAfter_mid (l := (kids p).takeWhile (· ≠ x) ++ [x])
            (r := ((kids p).dropWhile (· ≠ x)).drop 1)
            ⟨R.L, R.hn, R.root, R.hp, R.nb, s3⟩ (by simp) hr ?_, ?_⟩
          · intro e he
            subst he
            rw [ae]; simp [hh, hm]
          · refine fin _ _ s3 ?_
            rw [placed, if_neg hne, putAfter]
            simp only [hm, if_true, List.append_assoc, List.singleton_append]
      · apply back
        · rw [ae]; simp [hm]
        · simp [putAfter, hm]

/-- `mxmlAdd` moves the node to its new place and changes nothing else. -/
theorem add_spec {h : Heap} {kids : Nat → List Nat} (L : Linked h kids) {p n : Nat} (place : Int)
    (child : Option Nat) (hp : h p ≠ none) (hn : h n ≠ none) (hb : ¬ Below kids n p)
    (hw : place = ADD_BEFORE ∨ place = ADD_AFTER)
    (hx : ∀ x, child = some x → h x ≠ none ∧ x ≠ n) :
    ∃ h', add h (some p) place child (some n) = .ok h' ∧
      Linked h' (fun x => if x = p then placed place child n ((kids p).erase n)
        else (kids x).erase n) ∧ SameData h h' := by
  obtain ⟨h1, e1, L1, S1, c1, hc1, hp1⟩ := remove_spec L hn
  have e2 : detach h n = .ok h1 := by
    obtain ⟨c, hc⟩ := Option.ne_none_iff_exists'.mp hn
    rw [detach, get_ok hc, Res.ok_bind]
    cases hcp : c.parent with
    | none =>
      simp only [remove, get_ok hc, Res.ok_bind, hcp, Option.isNone_none, if_true] at e1
      simpa using e1
    | some q => simpa using e1
  have R : Ready h1 (fun x => (kids x).erase n) p n c1 ((fun x => (kids x).erase n) p) [] :=
    ⟨L1, hc1, hp1, fun e => hp ((S1.alloc p).mp e),
      fun b => hb (below_mono (fun b c hm => List.mem_of_mem_erase hm) b), by simp⟩
  obtain ⟨h2, e3, L2, S2⟩ := add_root place child R hw (fun x hx' =>
    ⟨fun e => (hx x hx').1 ((S1.alloc x).mp e), (hx x hx').2⟩)
  refine ⟨h2, ?_, L2, S1.trans S2⟩
  unfold add
  simp only [Res.ok_bind, e2]
  rw [upd_mod (by simp [hc1]), Res.ok_bind]
  exact e3

theorem set_linked {h : Heap} {kids : Nat → List Nat} (L : Linked h kids) {a : Nat} (ha : h a = none)
    (d : Data) : Linked (h.set a (fresh d)) kids := by
  have ka := L.free a ha
  have nk : ∀ q, a ∉ kids q := by
    intro q hm
    obtain ⟨c, hc, _⟩ := L.parent q a hm
    rw [ha] at hc; cases hc
  refine ⟨?_, L.nodup, ?_, ?_, ?_, ?_, ?_, L.acyclic, ?_⟩
  · intro x hx
    by_cases e : x = a
    · simp [Heap.set, e] at hx
    · exact L.free x (by simpa [Heap.set, e] using hx)
  · intro p x hx
    have : x ≠ a := fun e => nk p (e ▸ hx)
    simpa [Heap.set, this] using L.parent p x hx
  · intro x c p hx hp
    by_cases e : x = a
    · simp only [Heap.set, e, if_true, Option.some.injEq] at hx
      subst hx; simp [fresh] at hp
    · exact L.listed x c p (by simpa [Heap.set, e] using hx) hp
  · intro x c hx
    by_cases e : x = a
    · simp only [Heap.set, e, if_true, Option.some.injEq] at hx
      subst hx; rw [e, ka]; simp [fresh]
    · exact L.child x c (by simpa [Heap.set, e] using hx)
  · intro p x c hm hx
    have : x ≠ a := fun e => nk p (e ▸ hm)
    exact L.sibling p x c hm (by simpa [Heap.set, this] using hx)
  · intro x c hx hp
    by_cases e : x = a
    · simp only [Heap.set, e, if_true, Option.some.injEq] at hx
      subst hx; simp [fresh]
    · exact L.root x c (by simpa [Heap.set, e] using hx) hp
  · obtain ⟨l, hl⟩ := L.finite
    refine ⟨a :: l, fun x hx => ?_⟩
    by_cases e : x = a
    · simp [e]
    · exact List.mem_cons_of_mem _ (hl x (by simpa [Heap.set, e] using hx))

/-- `mxml_new` makes a childless node: a new root, or the new last child of its parent. -/
theorem new_spec {h : Heap} {kids : Nat → List Nat} (L : Linked h kids) {a : Nat} (ha : h a = none)
    (parent : Option Nat) (hp : ∀ p, parent = some p → h p ≠ none) (d : Data) :
    ∃ h', new h a parent d = .ok h' ∧
      Linked h' (fun x => if some x = parent then kids x ++ [a] else kids x) ∧
      SameData (h.set a (fresh d)) h' := by
  have L1 := set_linked L ha d
  cases parent with
  | none => exact ⟨_, by simp [new], by simpa using L1, fun _ => rfl⟩
  | some p =>
    have hpa := hp p rfl
    have pa : p ≠ a := fun e => hpa (e ▸ ha)
    have nk : ∀ q, a ∉ kids q := by
      intro q hm
      obtain ⟨c, hc, _⟩ := L.parent q a hm
      rw [ha] at hc; cases hc
    have nb : ¬ Below kids a p := by
      have ka := L.free a ha
      have : ∀ x, Below kids a x → x = a := by
        intro x hx
        induction hx with
        | self => rfl
        | step _ hm ih => rw [ih, ka] at hm; cases hm
      exact fun h => pa (this p h)
    obtain ⟨h', e, L', S⟩ := add_spec (p := p) (n := a) L1 ADD_AFTER none
      (by simp [Heap.set, pa, hpa]) (by simp [Heap.set]) nb (.inr rfl) (fun x h => by cases h)
    refine ⟨h', by simpa [new] using e, Linked_congr L' (fun x => ?_), S⟩
    have hne : ¬ ADD_AFTER = ADD_BEFORE := by decide
    rw [List.erase_of_not_mem (nk x), List.erase_of_not_mem (nk p)]
    by_cases e : x = p
    · subst e; simp [placed, hne, putAfter]
    · simp [e]

end Afs.Links
