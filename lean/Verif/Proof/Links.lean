import Verif.Spec.Links
/-!
# Links: lists of siblings, and the pointer surgery of add and remove
-/
namespace Afs.Links
open Afs Afs.Spec

theorem nextIn_mem {l : List Nat} {a b : Nat} (h : nextIn l a = some b) : a ∈ l ∧ b ∈ l := by
  induction l with
  | nil => cases h
  | cons x xs ih =>
    rw [nextIn] at h
    by_cases e : x = a
    · rw [if_pos e] at h
      subst e
      refine ⟨List.mem_cons_self .., List.mem_cons_of_mem _ ?_⟩
      cases xs with
      | nil => cases h
      | cons y ys => simp at h; simp [h]
    · rw [if_neg e] at h
      have := ih h
      exact ⟨List.mem_cons_of_mem _ this.1, List.mem_cons_of_mem _ this.2⟩

theorem nextIn_not_mem {l : List Nat} {a : Nat} (h : a ∉ l) : nextIn l a = none := by
  cases e : nextIn l a with
  | none => rfl
  | some b => exact absurd (nextIn_mem e).1 h

theorem nextIn_at {l r : List Nat} {a : Nat} (h : a ∉ l) : nextIn (l ++ a :: r) a = r.head? := by
  induction l with
  | nil => simp [nextIn]
  | cons x xs ih =>
    simp only [List.mem_cons, not_or] at h
    rw [List.cons_append, nextIn, if_neg (fun e => h.1 e.symm), ih h.2]

theorem prevIn_at {l r : List Nat} {a : Nat} (h : a ∉ r) : prevIn (l ++ a :: r) a = l.getLast? := by
  rw [prevIn, List.reverse_append, List.reverse_cons, List.append_assoc, List.singleton_append,
    nextIn_at (by simpa using h), List.head?_reverse]

/-- What inserting `n` does to the successors. -/
theorem nextIn_insert (l r : List Nat) (n a : Nat) (hd : (l ++ r).Nodup) (hn : n ∉ l ++ r) :
    nextIn (l ++ n :: r) a =
      if a = n then r.head? else if l.getLast? = some a then some n else nextIn (l ++ r) a := by
  induction l with
  | nil =>
    simp only [List.nil_append, nextIn, List.getLast?_nil]
    by_cases e : n = a
    · simp [e]
    · simp [e, Ne.symm e]
  | cons x xs ih =>
    simp only [List.cons_append, List.nodup_cons, List.mem_cons, not_or] at hd hn
    rw [List.cons_append, nextIn, ih hd.2 hn.2, List.cons_append, nextIn]
    by_cases e : x = a
    · subst e
      rw [if_pos rfl, if_neg (fun e => hn.1 e.symm), if_pos rfl]
      cases xs with
      | nil => simp
      | cons y ys =>
        rw [if_neg]
        · simp
        · intro hl
          rw [List.getLast?_cons_cons] at hl
          exact hd.1 (List.mem_append_left _ (List.mem_of_getLast? hl))
    · rw [if_neg e, if_neg e]
      by_cases en : a = n
      · rw [if_pos en, if_pos en]
      · rw [if_neg en, if_neg en]
        cases xs with
        | nil => simp [e]
        | cons y ys => rw [List.getLast?_cons_cons]

/-- What inserting `n` does to the predecessors. -/
theorem prevIn_insert (l r : List Nat) (n a : Nat) (hd : (l ++ r).Nodup) (hn : n ∉ l ++ r) :
    prevIn (l ++ n :: r) a =
      if a = n then l.getLast? else if r.head? = some a then some n else prevIn (l ++ r) a := by
  have := nextIn_insert r.reverse l.reverse n a
    (by rw [← List.reverse_append]; exact (List.reverse_perm _).nodup_iff.mpr hd) (by simpa [or_comm] using hn)
  rw [prevIn, List.reverse_append, List.reverse_cons, List.append_assoc, List.singleton_append,
    this, List.head?_reverse, List.getLast?_reverse, prevIn, List.reverse_append]

/-- The successor of the last element before the cut. -/
theorem nextIn_cut (l r : List Nat) (a : Nat) (hd : (l ++ r).Nodup) (hl : l.getLast? = some a) :
    nextIn (l ++ r) a = r.head? := by
  obtain ⟨m, rfl⟩ : ∃ m, l = m ++ [a] := by
    have := List.getLast?_eq_some_iff.mp hl
    exact this
  rw [List.append_assoc, List.singleton_append]
  apply nextIn_at
  intro hm
  rw [List.append_assoc, List.singleton_append, List.nodup_append] at hd
  exact hd.2.2 a hm a (by simp) rfl

theorem prevIn_cut (l r : List Nat) (a : Nat) (hd : (l ++ r).Nodup) (hr : r.head? = some a) :
    prevIn (l ++ r) a = l.getLast? := by
  cases r with
  | nil => cases hr
  | cons x xs =>
    simp only [List.head?_cons, Option.some.injEq] at hr
    subst hr
    apply prevIn_at
    rw [List.nodup_append] at hd
    exact (List.nodup_cons.mp hd.2.1).1

theorem _root_.Afs.Spec.Below.trans {kids : Nat → List Nat} {a b c : Nat} (h : Below kids a b) (g : Below kids b c) :
    Below kids a c := by
  induction g with
  | self => exact h
  | step _ hm ih => exact ih.step hm

/-- Changing one field of one cell. -/
def mod (h : Heap) (a : Nat) (f : Cell → Cell) : Heap := fun x => if x = a then (h x).map f else h x

theorem upd_mod {h : Heap} {a : Nat} {f : Cell → Cell} (ha : h a ≠ none) :
    upd h (some a) f = .ok (mod h a f) := by
  cases e : h a with
  | none => exact absurd e ha
  | some c =>
    simp only [upd, get, e, Res.ok_bind]
    congr 1
    funext x
    by_cases ex : x = a
    · subst ex; simp [Heap.set, mod, e]
    · simp [Heap.set, mod, ex]

theorem mod_alloc {h : Heap} {a x : Nat} {f : Cell → Cell} : mod h a f x ≠ none ↔ h x ≠ none := by
  unfold mod
  by_cases e : x = a <;> simp [e]

theorem get_ok {h : Heap} {a : Nat} {c : Cell} (e : h a = some c) : get h a = .ok c := by
  simp [get, e]

/-- The memory after taking `n` out of the children `l ++ n :: r` of `p`. -/
def unlink (h : Heap) (p n : Nat) (l r : List Nat) : Heap := fun x =>
  (h x).map fun c =>
    { c with
      parent := if x = n then none else c.parent
      child := if x = p ∧ l = [] then r.head? else c.child
      last := if x = p ∧ r = [] then l.getLast? else c.last
      next := if x = n then none else if l.getLast? = some x then r.head? else c.next
      prev := if x = n then none else if r.head? = some x then l.getLast? else c.prev }

/-- The memory after putting `n` between `l` and `r` below `p`. -/
def link (h : Heap) (p n : Nat) (l r : List Nat) : Heap := fun x =>
  (h x).map fun c =>
    { c with
      parent := if x = n then some p else c.parent
      child := if x = p ∧ l = [] then some n else c.child
      last := if x = p ∧ r = [] then some n else c.last
      next := if x = n then r.head? else if l.getLast? = some x then some n else c.next
      prev := if x = n then l.getLast? else if r.head? = some x then some n else c.prev }

/-- The position of a child. -/
structure At (h : Heap) (kids : Nat → List Nat) (p n : Nat) (l r : List Nat) : Prop where
  eq : kids p = l ++ n :: r
  nl : n ∉ l
  nr : n ∉ r
  pn : p ≠ n
  pl : p ∉ l
  pr : p ∉ r

theorem _root_.Afs.Spec.Linked.self_not_mem {h : Heap} {kids : Nat → List Nat} (L : Linked h kids) (p : Nat) :
    p ∉ kids p := fun hm => L.acyclic p p hm .self

theorem _root_.Afs.Spec.Linked.at {h : Heap} {kids : Nat → List Nat} (L : Linked h kids) {p n : Nat}
    (hm : n ∈ kids p) : ∃ l r, At h kids p n l r := by
  obtain ⟨l, r, e⟩ := List.append_of_mem hm
  have hd := L.nodup p
  have hp := L.self_not_mem p
  rw [e] at hd hp
  rw [List.nodup_append, List.nodup_cons] at hd
  simp only [List.mem_append, List.mem_cons, not_or] at hp
  exact ⟨l, r, e, fun x => hd.2.2 n x n (by simp) rfl, hd.2.1.1, hp.2.1, hp.1, hp.2.2⟩

theorem _root_.Afs.Spec.Linked.unique {h : Heap} {kids : Nat → List Nat} (L : Linked h kids) {p q a : Nat}
    (hp : a ∈ kids p) (hq : a ∈ kids q) : p = q := by
  obtain ⟨c, e, e1⟩ := L.parent p a hp
  obtain ⟨d, e', e2⟩ := L.parent q a hq
  rw [e] at e'
  cases e'
  rw [e1] at e2
  exact Option.some.inj e2

theorem _root_.Afs.Spec.Linked.alloc_of_kids {h : Heap} {kids : Nat → List Nat} (L : Linked h kids) {p a : Nat}
    (hm : a ∈ kids p) : h p ≠ none := by
  intro e
  rw [L.free p e] at hm
  cases hm

/-- The code of `mxmlRemove` does the surgery. -/
theorem remove_unlink {h : Heap} {kids : Nat → List Nat} (L : Linked h kids) {p n : Nat}
    {l r : List Nat} (A : At h kids p n l r) : remove h (some n) = .ok (unlink h p n l r) := by
  have hn : n ∈ kids p := by rw [A.eq]; simp
  obtain ⟨c, e, ep⟩ := L.parent p n hn
  have hs := L.sibling p n c hn e
  rw [A.eq, nextIn_at A.nl, prevIn_at A.nr] at hs
  have hpa : h p ≠ none := L.alloc_of_kids hn
  have hl : ∀ x, l.getLast? = some x → h x ≠ none := by
    intro x hx
    obtain ⟨d, hd, _⟩ := L.parent p x (by rw [A.eq]; exact List.mem_append_left _ (List.mem_of_getLast? hx))
    simp [hd]
  have hr : ∀ x, r.head? = some x → h x ≠ none := by
    intro x hx
    obtain ⟨d, hd, _⟩ := L.parent p x (by
      rw [A.eq]; exact List.mem_append_right _ (List.mem_cons_of_mem _ (List.mem_of_head? hx)))
    simp [hd]
  have hln : ∀ x, l.getLast? = some x → x ≠ n := fun x hx e =>
    A.nl (e ▸ List.mem_of_getLast? hx)
  have hrn : ∀ x, r.head? = some x → x ≠ n := fun x hx e => A.nr (e ▸ List.mem_of_head? hx)
  have hlp : ∀ x, l.getLast? = some x → x ≠ p := fun x hx e =>
    A.pl (e ▸ List.mem_of_getLast? hx)
  have hrp : ∀ x, r.head? = some x → x ≠ p := fun x hx e => A.pr (e ▸ List.mem_of_head? hx)
  have h1 : removeLeft h n = .ok (match l.getLast? with
      | some q => mod h q (fun d => { d with next := r.head? })
      | none => mod h p (fun d => { d with child := r.head? })) := by
    unfold removeLeft
    rw [get_ok e, Res.ok_bind, hs.1, hs.2, ep]
    cases hq : l.getLast? with
    | none => simp only [Option.isSome_none, Bool.false_eq_true, if_false]; exact upd_mod hpa
    | some q => simp only [Option.isSome_some, if_true]; exact upd_mod (hl q hq)
  generalize hh1 : (match l.getLast? with
      | some q => mod h q (fun d => { d with next := r.head? })
      | none => mod h p (fun d => { d with child := r.head? })) = h1' at h1
  have e1 : h1' n = some c := by
    rw [← hh1]
    cases hq : l.getLast? with
    | none => simp [mod, Ne.symm A.pn, e]
    | some q => simp [mod, Ne.symm (hln q hq), e]
  have a1 : ∀ x, h1' x ≠ none ↔ h x ≠ none := by
    intro x
    rw [← hh1]
    cases hq : l.getLast? <;> exact mod_alloc
  have h2 : removeRight h1' n = .ok (match r.head? with
      | some q => mod h1' q (fun d => { d with prev := l.getLast? })
      | none => mod h1' p (fun d => { d with last := l.getLast? })) := by
    unfold removeRight
    rw [get_ok e1, Res.ok_bind, hs.1, hs.2, ep]
    cases hq : r.head? with
    | none =>
      simp only [Option.isSome_none, Bool.false_eq_true, if_false]
      exact upd_mod ((a1 p).mpr hpa)
    | some q => simp only [Option.isSome_some, if_true]; exact upd_mod ((a1 q).mpr (hr q hq))
  generalize hh2 : (match r.head? with
      | some q => mod h1' q (fun d => { d with prev := l.getLast? })
      | none => mod h1' p (fun d => { d with last := l.getLast? })) = h2' at h2
  have a2 : ∀ x, h2' x ≠ none ↔ h x ≠ none := by
    intro x
    rw [← a1, ← hh2]
    cases hq : r.head? <;> exact mod_alloc
  unfold remove
  simp only [get_ok e, Res.ok_bind, ep, Option.isNone_some, Bool.false_eq_true, if_false, h1, h2]
  rw [upd_mod ((a2 n).mpr (by simp [e]))]
  congr 1
  funext x
  rw [← hh2, ← hh1]
  unfold unlink
  cases l' : l.getLast? with
  | none =>
    have : l = [] := by simpa using l'
    subst this
    cases r' : r.head? with
    | none =>
      have : r = [] := by simpa using r'
      subst this
      by_cases xn : x = n
      · subst xn; simp [mod, Ne.symm A.pn]
      · by_cases xp : x = p
        · subst xp; simp [mod, xn]; cases h x <;> simp
        · simp [mod, xn, xp]
    | some q =>
      have hr0 : r ≠ [] := by intro e; simp [e] at r'
      have q1 := hrn q r'
      have q2 := hrp q r'
      by_cases xn : x = n
      · subst xn; simp [mod, Ne.symm A.pn, Ne.symm q1]
      · by_cases xp : x = p
        · subst xp; simp [mod, xn, hr0, q2, Ne.symm q2]
        · by_cases xq : x = q
          · subst xq; simp [mod, xn, xp]
          · simp [mod, xn, xp, xq, Ne.symm xq]
  | some q =>
    have hl0 : l ≠ [] := by intro e; simp [e] at l'
    have q1 := hln q l'
    have q2 := hlp q l'
    cases r' : r.head? with
    | none =>
      have : r = [] := by simpa using r'
      subst this
      by_cases xn : x = n
      · subst xn; simp [mod, Ne.symm A.pn, Ne.symm q1]
      · by_cases xp : x = p
        · subst xp; simp [mod, xn, hl0, q2, Ne.symm q2]
        · by_cases xq : x = q
          · subst xq; simp [mod, xn, xp]
          · simp [mod, xn, xp, xq, Ne.symm xq]
    | some s =>
      have hr0 : r ≠ [] := by intro e; simp [e] at r'
      have s1 := hrn s r'
      have s2 := hrp s r'
      by_cases xn : x = n
      · subst xn; simp [mod, Ne.symm A.pn, Ne.symm q1, Ne.symm s1]
      · by_cases xp : x = p
        · subst xp; simp [mod, xn, hl0, hr0, q2, Ne.symm q2, s2, Ne.symm s2]
        · by_cases xq : x = q
          · subst xq
            by_cases xs : x = s
            · subst xs; simp [mod, xn, xp]; cases h x <;> simp
            · simp [mod, xn, xp, xs, Ne.symm xs]
          · by_cases xs : x = s
            · subst xs; simp [mod, xn, xp, xq, Ne.symm xq]
            · simp [mod, xn, xp, xq, Ne.symm xq, xs, Ne.symm xs]

end Afs.Links
