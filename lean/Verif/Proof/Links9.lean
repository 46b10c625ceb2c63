import Verif.Proof.Links8
/-!
# Links: listing children, and what the links determine
-/
namespace Afs.Links
open Afs Afs.Spec Afs.Xml

/-- Following a step function that is the successor in `l` lists what is left of `l`. -/
theorem chain_list {step : Option Nat → Res (Option Nat)} {l : List Nat} (hd : l.Nodup)
    (hs : ∀ x ∈ l, step (some x) = .ok (nextIn l x)) :
    ∀ (r p : List Nat), l = p ++ r → ∀ k, r.length ≤ k → chain step k r.head? = some (.ok r) := by
  intro r
  induction r with
  | nil => intro p _ k _; cases k <;> rw [List.head?_nil, chain]
  | cons x xs ih =>
    intro p e k hk
    obtain ⟨j, rfl⟩ : ∃ j, k = j + 1 := ⟨k - 1, by simp at hk; omega⟩
    have hx : x ∈ l := by rw [e]; simp
    have hn : nextIn l x = xs.head? := by
      rw [e]
      apply nextIn_at
      intro hm
      rw [e, List.nodup_append] at hd
      exact hd.2.2 x hm x (by simp) rfl
    rw [List.head?_cons, chain, hs x hx, hn]
    dsimp only
    rw [ih (p ++ [x]) (by simp [e]) j (by simp at hk; omega)]

theorem chain_children {h : Heap} {kids : Nat → List Nat} (L : Linked h kids) (p : Nat) (k : Nat)
    (hk : (kids p).length ≤ k) : chain (getNextSibling h) k (kids p).head? = some (.ok (kids p)) := by
  refine chain_list (L.nodup p) (fun x hx => ?_) _ [] rfl k hk
  obtain ⟨c, hc, _⟩ := L.parent p x hx
  rw [getNextSibling, look, get_ok hc, Res.ok_bind, (L.sibling p x c hx hc).1]

theorem chain_back {h : Heap} {kids : Nat → List Nat} (L : Linked h kids) (p : Nat) (k : Nat)
    (hk : (kids p).length ≤ k) :
    chain (getPrevSibling h) k (kids p).getLast? = some (.ok (kids p).reverse) := by
  rw [← List.head?_reverse]
  refine chain_list ((List.reverse_perm _).nodup_iff.mpr (L.nodup p)) (fun x hx => ?_) _ [] rfl k
    (by simpa using hk)
  have hx' : x ∈ kids p := by simpa using hx
  obtain ⟨c, hc, _⟩ := L.parent p x hx'
  rw [getPrevSibling, look, get_ok hc, Res.ok_bind, (L.sibling p x c hx' hc).2, prevIn]

theorem chain_walk {h : Heap} {kids : Nat → List Nat} (L : Linked h kids) (p : Nat) (k : Nat)
    (hk : (kids p).length ≤ k) :
    chain (fun x => (walkNext 0 h x (some p) false).getD .ub) k (kids p).head? = some (.ok (kids p)) := by
  refine chain_list (L.nodup p) (fun x hx => ?_) _ [] rfl k hk
  rw [walk_children L hx]
  rfl

/-- The links determine the lists of children. -/
theorem linked_unique {h : Heap} {k k' : Nat → List Nat} (L : Linked h k) (L' : Linked h k') : k = k' := by
  funext p
  cases hp : h p with
  | none => rw [L.free p hp, L'.free p hp]
  | some c =>
    have h1 := chain_children L p ((k p).length + (k' p).length) (by omega)
    have h2 := chain_children L' p ((k p).length + (k' p).length) (by omega)
    rw [← (L.child p c hp).1] at h1
    rw [← (L'.child p c hp).1] at h2
    rw [h1] at h2
    simpa using h2

theorem empty_linked : Linked (fun _ => none) (fun _ => []) := by
  refine ⟨fun _ _ => rfl, fun _ => by simp, ?_, ?_, ?_, ?_, ?_, ?_, ⟨[], fun _ h => absurd rfl h⟩⟩
  · intro p a h; cases h
  · intro a c p h; cases h
  · intro a c h; cases h
  · intro p a c h; cases h
  · intro a c h; cases h
  · intro p a h; cases h

/-- Changing a reference count keeps the links. -/
theorem refs_linked {h : Heap} {kids : Nat → List Nat} (L : Linked h kids) {n : Nat} {c : Cell}
    (hn : h n = some c) (r : Int) : Linked (h.set n { c with refs := r }) kids := by
  have cell : ∀ x d, (h.set n { c with refs := r }) x = some d →
      ∃ d', h x = some d' ∧ d.parent = d'.parent ∧ d.child = d'.child ∧ d.last = d'.last ∧
        d.next = d'.next ∧ d.prev = d'.prev := by
    intro x d hx
    by_cases e : x = n
    · subst e
      simp only [Heap.set, if_true, Option.some.injEq] at hx
      subst hx
      exact ⟨c, hn, rfl, rfl, rfl, rfl, rfl⟩
    · exact ⟨d, by simpa [Heap.set, e] using hx, rfl, rfl, rfl, rfl, rfl⟩
  have none_iff : ∀ x, (h.set n { c with refs := r }) x = none ↔ h x = none := by
    intro x
    by_cases e : x = n
    · subst e; simp [Heap.set, hn]
    · simp [Heap.set, e]
  refine ⟨fun a ha => L.free a ((none_iff a).mp ha), L.nodup, ?_, ?_, ?_, ?_, ?_, L.acyclic, ?_⟩
  · intro p a ha
    obtain ⟨d, hd, hp⟩ := L.parent p a ha
    by_cases e : a = n
    · subst e
      rw [hn] at hd
      cases hd
      exact ⟨{ c with refs := r }, by simp [Heap.set], hp⟩
    · exact ⟨d, by simpa [Heap.set, e] using hd, hp⟩
  · intro a d p hd hp
    obtain ⟨d', hd', e1, _⟩ := cell a d hd
    exact L.listed a d' p hd' (e1 ▸ hp)
  · intro a d hd
    obtain ⟨d', hd', _, e2, e3, _⟩ := cell a d hd
    rw [e2, e3]; exact L.child a d' hd'
  · intro p a d ha hd
    obtain ⟨d', hd', _, _, _, e4, e5⟩ := cell a d hd
    rw [e4, e5]; exact L.sibling p a d' ha hd'
  · intro a d hd hp
    obtain ⟨d', hd', e1, _, _, e4, e5⟩ := cell a d hd
    rw [e4, e5]; exact L.root a d' hd' (e1 ▸ hp)
  · obtain ⟨l, hl⟩ := L.finite
    exact ⟨l, fun a ha => hl a (fun e => ha ((none_iff a).mpr e))⟩

/-- Descendants, as the tree lists them. -/
theorem pre_below {kids : Nat → List Nat} {t : T} (hs : Shape kids t) (x : Nat) :
    x ∈ pre t ↔ Below kids t.addr x := by
  rw [mem_pre, mem_post hs]

end Afs.Links
