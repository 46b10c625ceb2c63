import Verif.Proof.Links
/-!
# Links: add and remove keep the links consistent
-/
namespace Afs.Links
open Afs Afs.Spec

theorem unlink_alloc {h : Heap} {p n : Nat} {l r : List Nat} {x : Nat} :
    unlink h p n l r x = none ↔ h x = none := by simp [unlink]

theorem link_alloc {h : Heap} {p n : Nat} {l r : List Nat} {x : Nat} :
    link h p n l r x = none ↔ h x = none := by simp [link]

theorem getLast_app (l : List Nat) (y : Nat) (ys : List Nat) :
    (l ++ y :: ys).getLast? = (y :: ys).getLast? := by
  rw [List.getLast?_append]
  simp [List.getLast?_cons]

theorem below_mono {k k' : Nat → List Nat} (hk : ∀ b c, c ∈ k' b → c ∈ k b) {a b : Nat}
    (h : Below k' a b) : Below k a b := by
  induction h with
  | self => exact .self
  | step _ hm ih => exact ih.step (hk _ _ hm)

theorem unlink_linked {h : Heap} {kids : Nat → List Nat} (L : Linked h kids) {p n : Nat}
    {l r : List Nat} (A : At h kids p n l r) :
    Linked (unlink h p n l r) (fun x => if x = p then l ++ r else kids x) := by
  have hd := L.nodup p
  rw [A.eq] at hd
  have hd' : (l ++ r).Nodup := by
    refine List.Nodup.sublist ?_ hd
    exact List.Sublist.append (List.Sublist.refl l) (List.sublist_cons_self n r)
  have hnn : n ∉ l ++ r := by simp [A.nl, A.nr]
  have hn : n ∈ kids p := by rw [A.eq]; simp
  have sub : ∀ b c, c ∈ (if b = p then l ++ r else kids b) → c ∈ kids b := by
    intro b c hc
    by_cases e : b = p
    · subst e
      rw [if_pos rfl] at hc
      rw [A.eq]
      simp only [List.mem_append, List.mem_cons] at hc ⊢
      rcases hc with hc | hc
      · exact .inl hc
      · exact .inr (.inr hc)
    · rwa [if_neg e] at hc
  have ne : ∀ b c, c ∈ (if b = p then l ++ r else kids b) → c ≠ n := by
    intro b c hc e
    subst e
    by_cases e : b = p
    · rw [if_pos e] at hc; exact hnn hc
    · rw [if_neg e] at hc
      exact e (L.unique hc hn)
  have inl : ∀ x, l.getLast? = some x → x ∈ kids p := fun x hx => by
    rw [A.eq]; exact List.mem_append_left _ (List.mem_of_getLast? hx)
  have inr : ∀ x, r.head? = some x → x ∈ kids p := fun x hx => by
    rw [A.eq]; exact List.mem_append_right _ (List.mem_cons_of_mem _ (List.mem_of_head? hx))
  refine ⟨?_, ?_, ?_, ?_, ?_, ?_, ?_, ?_, ?_⟩
  · intro a ha
    rw [unlink_alloc] at ha
    have := L.free a ha
    by_cases e : a = p
    · subst e; rw [this] at hn; cases hn
    · simp [e, this]
  · intro a
    by_cases e : a = p
    · simpa [e] using hd'
    · simpa [e] using L.nodup a
  · intro q a ha
    have h1 := ne q a ha
    obtain ⟨c, hc, hp⟩ := L.parent q a (sub q a ha)
    exact ⟨_, by rw [unlink, hc]; rfl, by simp [h1, hp]⟩
  · intro a c q ha hq
    simp only [unlink, Option.map_eq_some_iff] at ha
    obtain ⟨d, hd, rfl⟩ := ha
    dsimp only at hq
    by_cases e : a = n
    · simp [e] at hq
    · rw [if_neg e] at hq
      have := L.listed a d q hd hq
      by_cases eq : q = p
      · subst eq
        rw [A.eq] at this
        simp only [List.mem_append, List.mem_cons] at this
        simp only [if_pos, List.mem_append]
        rcases this with h | h | h
        · exact .inl h
        · exact absurd h e
        · exact .inr h
      · simpa [eq] using this
  · intro a c ha
    simp only [unlink, Option.map_eq_some_iff] at ha
    obtain ⟨d, hd, rfl⟩ := ha
    have := L.child a d hd
    by_cases e : a = p
    · subst e
      rw [A.eq] at this
      rw [this.1, this.2]
      cases l with
      | nil =>
        cases r with
        | nil => simp
        | cons y ys => simp [List.getLast?_cons_cons]
      | cons x xs =>
        cases r with
        | nil => simp
        | cons y ys =>
          refine ⟨by simp, ?_⟩
          simp only [if_true, true_and, reduceCtorEq, if_false]
          rw [getLast_app, getLast_app, List.getLast?_cons_cons]
    · simp [e, this]
  · intro q a c ha hc
    simp only [unlink, Option.map_eq_some_iff] at hc
    obtain ⟨d, hd, rfl⟩ := hc
    have an := ne q a ha
    have s := L.sibling q a d (sub q a ha) hd
    by_cases e : q = p
    · subst e
      rw [A.eq, nextIn_insert l r n a hd' hnn, prevIn_insert l r n a hd' hnn, if_neg an, if_neg an] at s
      simp only [if_neg an, if_pos]
      constructor
      · by_cases e : l.getLast? = some a
        · rw [if_pos e, nextIn_cut l r a hd' e]
        · rw [if_neg e, s.1, if_neg e]
      · by_cases e : r.head? = some a
        · rw [if_pos e, prevIn_cut l r a hd' e]
        · rw [if_neg e, s.2, if_neg e]
    · simp only [if_neg e, if_neg an] at ha ⊢
      have nm : a ∉ kids p := fun hm => e (L.unique ha hm)
      rw [if_neg (fun h => nm (inl a h)), if_neg (fun h => nm (inr a h))]
      exact s
  · intro a c hc hp
    simp only [unlink, Option.map_eq_some_iff] at hc
    obtain ⟨d, hd, rfl⟩ := hc
    dsimp only at hp ⊢
    by_cases e : a = n
    · simp [e]
    · rw [if_neg e] at hp
      rw [if_neg e, if_neg e]
      have nm : a ∉ kids p := by
        intro hm
        obtain ⟨c, hc, h'⟩ := L.parent p a hm
        rw [hd] at hc
        cases hc
        rw [hp] at h'
        cases h'
      rw [if_neg (fun h => nm (inl a h)), if_neg (fun h => nm (inr a h))]
      exact L.root a d hd hp
  · intro q a ha hb
    exact L.acyclic q a (sub q a ha) (below_mono sub hb)
  · obtain ⟨dom, hdom⟩ := L.finite
    exact ⟨dom, fun a ha => hdom a (fun e => ha (unlink_alloc.mpr e))⟩

/-- Descendants after adding the edge from `p` to `n`. -/
theorem below_edge {k k' : Nat → List Nat} {p n : Nat}
    (hk : ∀ b c, c ∈ k' b → c ∈ k b ∨ (b = p ∧ c = n)) {a b : Nat} (h : Below k' a b) :
    Below k a b ∨ (Below k a p ∧ Below k n b) := by
  induction h with
  | self => exact .inl .self
  | step _ hm ih =>
    rcases hk _ _ hm with h | ⟨rfl, rfl⟩
    · rcases ih with i | ⟨i, j⟩
      · exact .inl (i.step h)
      · exact .inr ⟨i, j.step h⟩
    · rcases ih with i | ⟨i, _⟩
      · exact .inr ⟨i, .self⟩
      · exact .inr ⟨i, .self⟩

theorem link_linked {h : Heap} {kids : Nat → List Nat} (L : Linked h kids) {p n : Nat} {c : Cell}
    {l r : List Nat} (hn : h n = some c) (hc : c.parent = none) (hp : h p ≠ none)
    (hb : ¬ Below kids n p) (hk : kids p = l ++ r) :
    Linked (link h p n l r) (fun x => if x = p then l ++ n :: r else kids x) := by
  have hd' := L.nodup p
  rw [hk] at hd'
  have nomem : ∀ q, n ∉ kids q := by
    intro q hm
    obtain ⟨d, hd, h'⟩ := L.parent q n hm
    rw [hn] at hd
    cases hd
    rw [hc] at h'
    cases h'
  have hnn : n ∉ l ++ r := hk ▸ nomem p
  have pn : p ≠ n := fun e => hb (e ▸ .self)
  have sub : ∀ b c, c ∈ (if b = p then l ++ n :: r else kids b) → c ∈ kids b ∨ (b = p ∧ c = n) := by
    intro b c hc
    by_cases e : b = p
    · subst e
      rw [if_pos rfl] at hc
      rw [hk]
      simp only [List.mem_append, List.mem_cons] at hc ⊢
      rcases hc with hc | hc | hc
      · exact .inl (.inl hc)
      · exact .inr ⟨trivial, hc⟩
      · exact .inl (.inr hc)
    · rw [if_neg e] at hc; exact .inl hc
  have inl : ∀ x, l.getLast? = some x → x ∈ kids p := fun x hx => by
    rw [hk]; exact List.mem_append_left _ (List.mem_of_getLast? hx)
  have inr : ∀ x, r.head? = some x → x ∈ kids p := fun x hx => by
    rw [hk]; exact List.mem_append_right _ (List.mem_of_head? hx)
  refine ⟨?_, ?_, ?_, ?_, ?_, ?_, ?_, ?_, ?_⟩
  · intro a ha
    rw [link_alloc] at ha
    by_cases e : a = p
    · subst e; exact absurd ha hp
    · simp [e, L.free a ha]
  · intro a
    by_cases e : a = p
    · simp only [if_pos e]
      rw [List.nodup_append] at hd' ⊢
      simp only [List.mem_append, not_or] at hnn
      refine ⟨hd'.1, List.nodup_cons.mpr ⟨hnn.2, hd'.2.1⟩, ?_⟩
      intro x hx y hy
      rcases List.mem_cons.mp hy with rfl | hy
      · exact fun e => hnn.1 (e ▸ hx)
      · exact hd'.2.2 x hx y hy
    · simpa [e] using L.nodup a
  · intro q a ha
    rcases sub q a ha with h1 | ⟨rfl, rfl⟩
    · obtain ⟨c, hc, hp⟩ := L.parent q a h1
      have : a ≠ n := fun e => nomem q (e ▸ h1)
      exact ⟨_, by rw [link, hc]; rfl, by simp [this, hp]⟩
    · exact ⟨_, by rw [link, hn]; rfl, by simp⟩
  · intro a d q ha hq
    simp only [link, Option.map_eq_some_iff] at ha
    obtain ⟨d, hd, rfl⟩ := ha
    dsimp only at hq
    by_cases e : a = n
    · subst e
      rw [if_pos rfl] at hq
      cases hq
      simp
    · rw [if_neg e] at hq
      have := L.listed a d q hd hq
      by_cases eq : q = p
      · subst eq
        rw [hk] at this
        simp only [List.mem_append] at this
        simp only [if_pos, List.mem_append, List.mem_cons]
        rcases this with h | h
        · exact .inl h
        · exact .inr (.inr h)
      · simpa [eq] using this
  · intro a d ha
    simp only [link, Option.map_eq_some_iff] at ha
    obtain ⟨d, hd, rfl⟩ := ha
    have := L.child a d hd
    by_cases e : a = p
    · subst e
      rw [hk] at this
      rw [this.1, this.2]
      cases l with
      | nil =>
        cases r with
        | nil => simp
        | cons y ys => simp [List.getLast?_cons_cons]
      | cons x xs =>
        cases r with
        | nil =>
          refine ⟨by simp, ?_⟩
          simp only [and_self, if_true]
          rw [getLast_app]
          rfl
        | cons y ys =>
          refine ⟨by simp, ?_⟩
          simp only [if_true, true_and, reduceCtorEq, if_false]
          rw [getLast_app, getLast_app, List.getLast?_cons_cons]
    · simp [e, this]
  · intro q a d ha hd
    simp only [link, Option.map_eq_some_iff] at hd
    obtain ⟨d, hd, rfl⟩ := hd
    by_cases e : q = p
    · subst e
      simp only [if_pos]
      rw [nextIn_insert l r n a hd' hnn, prevIn_insert l r n a hd' hnn]
      by_cases an : a = n
      · simp [an]
      · have hm : a ∈ kids q := by
          rcases sub q a ha with h | ⟨_, h⟩
          · exact h
          · exact absurd h an
        have s := L.sibling q a d hm hd
        rw [hk] at s
        simp only [if_neg an]
        rw [s.1, s.2]
        exact ⟨rfl, rfl⟩
    · simp only [if_neg e] at ha ⊢
      have an : a ≠ n := fun e => nomem q (e ▸ ha)
      have nm : a ∉ kids p := fun hm => e (L.unique ha hm)
      rw [if_neg an, if_neg an, if_neg (fun h => nm (inl a h)), if_neg (fun h => nm (inr a h))]
      exact L.sibling q a d ha hd
  · intro a d hd hp
    simp only [link, Option.map_eq_some_iff] at hd
    obtain ⟨d, hd, rfl⟩ := hd
    dsimp only at hp ⊢
    by_cases e : a = n
    · simp [e] at hp
    · rw [if_neg e] at hp
      rw [if_neg e, if_neg e]
      have nm : a ∉ kids p := by
        intro hm
        obtain ⟨c, hc, h'⟩ := L.parent p a hm
        rw [hd] at hc
        cases hc
        rw [hp] at h'
        cases h'
      rw [if_neg (fun h => nm (inl a h)), if_neg (fun h => nm (inr a h))]
      exact L.root a d hd hp
  · intro q a ha hb'
    rcases sub q a ha with h1 | ⟨rfl, rfl⟩
    · rcases below_edge sub hb' with i | ⟨i, j⟩
      · exact L.acyclic q a h1 i
      · exact hb ((j.step h1).trans i)
    · rcases below_edge sub hb' with i | ⟨i, _⟩ <;> exact hb i
  · obtain ⟨dom, hdom⟩ := L.finite
    exact ⟨dom, fun a ha => hdom a (fun e => ha (link_alloc.mpr e))⟩

end Afs.Links
