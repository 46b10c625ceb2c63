import Verif.Proof.Links4
/-!
# Links: the trees below a node, and `mxmlDelete`
-/
namespace Afs.Links
open Afs Afs.Spec

mutual
/-- Children before parents. -/
def post : T → List Nat
  | .mk a ks => postL ks ++ [a]
def postL : List T → List Nat
  | [] => []
  | t :: ts => post t ++ postL ts
end

theorem shapeL_iff {kids : Nat → List Nat} {ts : List T} :
    ShapeL kids ts ↔ ∀ t ∈ ts, Shape kids t := by
  induction ts with
  | nil => simp [ShapeL]
  | cons t ts ih => simp [ShapeL, ih]

theorem mem_postL {ts : List T} {x : Nat} : x ∈ postL ts ↔ ∃ t ∈ ts, x ∈ post t := by
  induction ts with
  | nil => simp [postL]
  | cons t ts ih => simp [postL, ih]

theorem addr_mem_post (t : T) : t.addr ∈ post t := by
  cases t; simp [post, T.addr]

theorem below_kid {kids : Nat → List Nat} {a x : Nat} :
    Below kids a x ↔ x = a ∨ ∃ b ∈ kids a, Below kids b x := by
  constructor
  · intro h
    induction h with
    | self => exact .inl rfl
    | step _ hm ih =>
      rcases ih with rfl | ⟨b, hb, h⟩
      · exact .inr ⟨_, hm, .self⟩
      · exact .inr ⟨b, hb, h.step hm⟩
  · rintro (rfl | ⟨b, hb, h⟩)
    · exact .self
    · exact (Below.self.step hb).trans h

mutual
theorem mem_post {kids : Nat → List Nat} : ∀ {t : T} {x : Nat}, Shape kids t →
    (x ∈ post t ↔ Below kids t.addr x)
  | .mk a ks, x, h => by
    have hs : kids a = ks.map T.addr ∧ ShapeL kids ks := by simpa only [Shape] using h
    rw [post, List.mem_append, List.mem_singleton, mem_post_list hs.2, T.addr, below_kid, hs.1]
    simp only [List.mem_map]
    constructor
    · rintro (⟨t, ht, hb⟩ | e)
      · exact .inr ⟨_, ⟨t, ht, rfl⟩, hb⟩
      · exact .inl e
    · rintro (e | ⟨_, ⟨t, ht, rfl⟩, hb⟩)
      · exact .inr e
      · exact .inl ⟨t, ht, hb⟩
theorem mem_post_list {kids : Nat → List Nat} : ∀ {ts : List T} {x : Nat}, ShapeL kids ts →
    (x ∈ postL ts ↔ ∃ t ∈ ts, Below kids t.addr x)
  | [], x, _ => by simp [postL]
  | t :: ts, x, h => by
    rw [ShapeL] at h
    rw [postL, List.mem_append, mem_post h.1, mem_post_list h.2]
    simp
end

/-- Two siblings have no common descendant. -/
theorem below_disjoint {h : Heap} {kids : Nat → List Nat} (L : Linked h kids) {p a b x : Nat}
    (ha : a ∈ kids p) (hb : b ∈ kids p) (ne : a ≠ b) (h1 : Below kids a x) (h2 : Below kids b x) :
    False := by
  induction h1 with
  | self =>
    cases h2 with
    | self => exact ne rfl
    | step h2 hm =>
      have := L.unique hm ha
      subst this
      exact L.acyclic _ _ hb h2
  | step h1 hm ih =>
    cases h2 with
    | self =>
      have := L.unique hm hb
      subst this
      exact L.acyclic _ _ ha h1
    | step h2 hm2 =>
      have := L.unique hm hm2
      subst this
      exact ih h2

mutual
theorem nodup_post {h : Heap} {kids : Nat → List Nat} (L : Linked h kids) :
    ∀ {t : T}, Shape kids t → (post t).Nodup
  | .mk a ks, hs => by
    have hs' : kids a = ks.map T.addr ∧ ShapeL kids ks := by simpa only [Shape] using hs
    rw [post, List.nodup_append]
    refine ⟨?_, by simp, ?_⟩
    · refine nodup_postL L (p := a) hs'.2 (fun t ht => ?_) ?_
      · rw [hs'.1]; exact List.mem_map_of_mem ht
      · rw [← hs'.1]; exact L.nodup a
    · intro x hx y hy e
      rw [List.mem_singleton] at hy
      subst e
      subst hy
      rw [mem_post_list hs'.2] at hx
      obtain ⟨t, ht, hb⟩ := hx
      exact L.acyclic x t.addr (by rw [hs'.1]; exact List.mem_map_of_mem ht) hb
theorem nodup_postL {h : Heap} {kids : Nat → List Nat} (L : Linked h kids) {p : Nat} :
    ∀ {ts : List T}, ShapeL kids ts → (∀ t ∈ ts, t.addr ∈ kids p) → (ts.map T.addr).Nodup →
    (postL ts).Nodup
  | [], _, _, _ => by simp [postL]
  | t :: ts, hs, hk, hd => by
    rw [ShapeL] at hs
    rw [List.map_cons, List.nodup_cons] at hd
    rw [postL, List.nodup_append]
    refine ⟨nodup_post L hs.1, nodup_postL L hs.2 (fun t ht => hk t (by simp [ht])) hd.2, ?_⟩
    intro x hx y hy e
    subst e
    rw [mem_post hs.1] at hx
    rw [mem_post_list hs.2] at hy
    obtain ⟨u, hu, hb⟩ := hy
    exact below_disjoint L (hk t (by simp)) (hk u (by simp [hu]))
      (fun e => hd.1 (e ▸ List.mem_map_of_mem hu)) hx hb
end

theorem below_alloc {h : Heap} {kids : Nat → List Nat} (L : Linked h kids) {a x : Nat}
    (ha : h a ≠ none) (hb : Below kids a x) : h x ≠ none := by
  cases hb with
  | self => exact ha
  | step _ hm =>
    obtain ⟨c, hc, _⟩ := L.parent _ _ hm
    simp [hc]

/-- Every node is the root of a finite tree. -/
theorem exists_tree {h : Heap} {kids : Nat → List Nat} (L : Linked h kids) (a : Nat) (ha : h a ≠ none) :
    ∃ t : T, t.addr = a ∧ Shape kids t := by
  classical
  obtain ⟨dom, hdom⟩ := L.finite
  generalize hk : (dom.filter (fun x => decide (Below kids a x))).length = k
  induction k using Nat.strongRecOn generalizing a with
  | _ k ih =>
    have sub : ∀ b ∈ kids a, ∃ t : T, t.addr = b ∧ Shape kids t := by
      intro b hb
      obtain ⟨c, hc, _⟩ := L.parent a b hb
      refine ih _ ?_ b (by simp [hc]) rfl
      rw [← hk]
      have hm : a ∈ dom := hdom a ha
      have hsub : ∀ x, Below kids b x → Below kids a x := fun x hx => (Below.self.step hb).trans hx
      have hna : ¬ Below kids b a := L.acyclic a b hb
      clear hk ih
      revert hm
      clear hdom
      induction dom with
      | nil => intro hm; cases hm
      | cons y ys ihy =>
        intro hm
        have le : (ys.filter (fun x => decide (Below kids b x))).length ≤
            (ys.filter (fun x => decide (Below kids a x))).length := by
          clear ihy hm
          induction ys with
          | nil => simp
          | cons z zs ihz =>
            simp only [List.filter_cons]
            by_cases h1 : Below kids b z
            · simp [h1, hsub z h1]; omega
            · by_cases h2 : Below kids a z
              · simp [h1, h2]; omega
              · simp [h1, h2]; omega
        simp only [List.filter_cons]
        by_cases hy : y = a
        · subst hy
          have : Below kids y y := .self
          simp [hna, this]; omega
        · have hm' : a ∈ ys := by
            rcases List.mem_cons.mp hm with e | h
            · exact absurd e.symm hy
            · exact h
          have := ihy hm'
          by_cases h1 : Below kids b y
          · simp [h1, hsub y h1]; omega
          · by_cases h2 : Below kids a y
            · simp [h1, h2]; omega
            · simp [h1, h2]; omega
    have list : ∀ l : List Nat, (∀ b ∈ l, ∃ t : T, t.addr = b ∧ Shape kids t) →
        ∃ ts : List T, ts.map T.addr = l ∧ ShapeL kids ts := by
      intro l
      induction l with
      | nil => exact fun _ => ⟨[], rfl, by simp [ShapeL]⟩
      | cons b bs ihb =>
        intro hl
        obtain ⟨t, ht, hs⟩ := hl b (by simp)
        obtain ⟨ts, hts, hss⟩ := ihb (fun b hb => hl b (by simp [hb]))
        exact ⟨t :: ts, by simp [ht, hts], by simp [ShapeL, hs, hss]⟩
    obtain ⟨ts, hts, hss⟩ := list (kids a) sub
    exact ⟨.mk a ts, rfl, by rw [Shape]; exact ⟨hts.symm, hss⟩⟩

mutual
/-- What the delete loop and the writer need to know of a subtree in memory. -/
def Tied (h : Heap) : T → Prop
  | .mk a ks => (∃ c, h a = some c ∧ c.child = (ks.map T.addr).head?) ∧ TiedL h a ks
def TiedL (h : Heap) (p : Nat) : List T → Prop
  | [] => True
  | t :: ts => (∃ c, h t.addr = some c ∧ c.parent = some p ∧ c.next = (ts.map T.addr).head?) ∧
      Tied h t ∧ TiedL h p ts
end

mutual
theorem tied_of_linked {h : Heap} {kids : Nat → List Nat} (L : Linked h kids) :
    ∀ {t : T}, h t.addr ≠ none → Shape kids t → Tied h t
  | .mk a ks, ha, hs => by
    have hs' : kids a = ks.map T.addr ∧ ShapeL kids ks := by simpa only [Shape] using hs
    obtain ⟨c, hc⟩ := Option.ne_none_iff_exists'.mp ha
    rw [Tied]
    refine ⟨⟨c, hc, by rw [(L.child a c hc).1, hs'.1]⟩, ?_⟩
    exact tiedL_of_linked L (pre := []) hs'.2 (by simpa using hs'.1)
theorem tiedL_of_linked {h : Heap} {kids : Nat → List Nat} (L : Linked h kids) {p : Nat} :
    ∀ {ts : List T} {pre : List Nat}, ShapeL kids ts → kids p = pre ++ ts.map T.addr → TiedL h p ts
  | [], _, _, _ => by simp [TiedL]
  | t :: ts, pre, hs, hk => by
    rw [ShapeL] at hs
    have hm : t.addr ∈ kids p := by rw [hk]; simp
    obtain ⟨c, hc, hp⟩ := L.parent p t.addr hm
    have hd := L.nodup p
    rw [hk, List.map_cons, List.nodup_append] at hd
    rw [TiedL]
    refine ⟨⟨c, hc, hp, ?_⟩, tied_of_linked L (by simp [hc]) hs.1, ?_⟩
    · rw [(L.sibling p t.addr c hm hc).1, hk, List.map_cons]
      exact nextIn_at (fun h => hd.2.2 _ h t.addr (by simp) rfl)
    · exact tiedL_of_linked L (pre := pre ++ [t.addr]) hs.2 (by rw [hk]; simp)
end

mutual
theorem tied_frame {h h' : Heap} : ∀ {t : T}, (∀ x ∈ post t, h' x = h x) → Tied h t → Tied h' t
  | .mk a ks, hf, ht => by
    rw [Tied] at ht ⊢
    rw [post] at hf
    refine ⟨?_, tiedL_frame (fun x hx => hf x (by simp [hx])) ht.2⟩
    rw [hf a (by simp)]
    exact ht.1
theorem tiedL_frame {h h' : Heap} {p : Nat} : ∀ {ts : List T}, (∀ x ∈ postL ts, h' x = h x) →
    TiedL h p ts → TiedL h' p ts
  | [], _, _ => by simp [TiedL]
  | t :: ts, hf, ht => by
    rw [TiedL] at ht ⊢
    rw [postL] at hf
    refine ⟨?_, tied_frame (fun x hx => hf x (by simp [hx])) ht.2.1,
      tiedL_frame (fun x hx => hf x (by simp [hx])) ht.2.2⟩
    rw [hf t.addr (by simp [addr_mem_post])]
    exact ht.1
end

/-- Memory without some cells. -/
def delAll (h : Heap) (l : List Nat) : Heap := fun x => if x ∈ l then none else h x

theorem delAll_append (h : Heap) (l m : List Nat) : delAll (delAll h l) m = delAll h (l ++ m) := by
  funext x
  by_cases h1 : x ∈ l <;> by_cases h2 : x ∈ m <;> simp [delAll, h1, h2]

/-- Where the delete loop goes after freeing a node. -/
def cont (node : Nat) (c : Cell) : Option Nat :=
  if c.next.isSome then c.next else if c.parent = some node then none else c.parent

mutual
theorem deleteLoop_tree (node : Nat) : ∀ (t : T) (h : Heap) (log : List Nat) (c : Cell),
    Tied h t → (post t).Nodup → node ∉ post t → h t.addr = some c →
    ∃ m, ∀ k, deleteLoop node (k + m) h (some t.addr) log =
      deleteLoop node k (delAll h (post t)) (cont node c) (log ++ post t)
  | .mk a [], h, log, c, ht, _, _, hc => by
    rw [Tied] at ht
    obtain ⟨⟨c', hc', hch⟩, _⟩ := ht
    rw [T.addr] at hc
    rw [hc] at hc'
    cases hc'
    refine ⟨1, fun k => ?_⟩
    have hd : delAll h (post (.mk a [])) = h.del a := by
      funext x; simp [delAll, post, postL, Heap.del]
    rw [deleteLoop, T.addr, hc]
    simp only [hch, List.map_nil, List.head?_nil, Option.isSome_none, Bool.false_eq_true, if_false]
    rw [hd]
    simp [cont, post, postL]
  | .mk a (u :: us), h, log, c, ht, hnd, hno, hc => by
    rw [Tied] at ht
    obtain ⟨⟨c', hc', hch⟩, htl⟩ := ht
    rw [T.addr] at hc
    rw [hc] at hc'
    cases hc'
    rw [post, List.nodup_append] at hnd
    rw [post, List.mem_append, not_or, List.mem_singleton] at hno
    have hna : a ∉ postL (u :: us) := fun hm => hnd.2.2 a hm a (by simp) rfl
    let h1 : Heap := h.set a { c with child := none }
    have htl1 : TiedL h1 a (u :: us) := tiedL_frame (fun x hx => by
      have : x ≠ a := fun e => hna (e ▸ hx)
      simp [h1, Heap.set, this]) htl
    obtain ⟨m, hm⟩ := deleteLoop_list node a (u :: us) h1 log (by simp) htl1 hnd.1 hno.1
    refine ⟨m + 2, fun k => ?_⟩
    have e1 : k + (m + 2) = ((k + 1) + m) + 1 := by omega
    rw [e1, deleteLoop, T.addr, hc]
    have e4 : (((u :: us).map T.addr).head?).isSome = true := by simp
    simp only [hch, e4, if_true]
    rw [show h.set a { c with child := none } = h1 from rfl, hm (k + 1), if_neg (fun e => hno.2 e.symm),
      deleteLoop]
    have e2 : delAll h1 (postL (u :: us)) a = some { c with child := none } := by
      simp [delAll, hna, h1, Heap.set]
    rw [e2]
    simp only [Option.isSome_none, Bool.false_eq_true, if_false]
    have e3 : (delAll h1 (postL (u :: us))).del a = delAll h (post (.mk a (u :: us))) := by
      funext x
      rw [post]
      by_cases e : x = a
      · simp [Heap.del, delAll, e]
      · simp [Heap.del, delAll, e, h1, Heap.set]
    rw [e3, List.append_assoc, post]
    rfl
theorem deleteLoop_list (node : Nat) (p : Nat) : ∀ (ts : List T) (h : Heap) (log : List Nat),
    ts ≠ [] → TiedL h p ts → (postL ts).Nodup → node ∉ postL ts →
    ∃ m, ∀ k, deleteLoop node (k + m) h (ts.map T.addr).head? log =
      deleteLoop node k (delAll h (postL ts)) (if p = node then none else some p)
        (log ++ postL ts)
  | [], _, _, hne, _, _, _ => absurd rfl hne
  | t :: ts, h, log, _, ht, hnd, hno => by
    rw [TiedL] at ht
    obtain ⟨⟨c, hc, hp, hn⟩, ht, htl⟩ := ht
    have e0 : postL (t :: ts) = post t ++ postL ts := by rw [postL]
    rw [e0, List.nodup_append] at hnd
    rw [e0, List.mem_append, not_or] at hno
    obtain ⟨m1, hm1⟩ := deleteLoop_tree node t h log c ht hnd.1 hno.1 hc
    cases ts with
    | nil =>
      refine ⟨m1, fun k => ?_⟩
      have e : cont node c = if p = node then none else some p := by
        simp only [cont, hn, hp, List.map_nil, List.head?_nil, Option.isSome_none, Bool.false_eq_true,
          if_false, Option.some.injEq]
      rw [List.map_cons, List.head?_cons, hm1 k, e0, e]
      simp [postL]
    | cons u us =>
      have htl' : TiedL (delAll h (post t)) p (u :: us) := tiedL_frame (fun x hx => by
        have : x ∉ post t := fun h' => hnd.2.2 x h' x hx rfl
        simp [delAll, this]) htl
      obtain ⟨m2, hm2⟩ := deleteLoop_list node p (u :: us) (delAll h (post t)) (log ++ post t)
        (by simp) htl' hnd.2.1 hno.2
      refine ⟨m2 + m1, fun k => ?_⟩
      have e : cont node c = ((u :: us).map T.addr).head? := by simp [cont, hn]
      rw [List.map_cons, List.head?_cons, ← Nat.add_assoc, hm1 (k + m2), e, hm2 k, delAll_append,
        List.append_assoc, e0]
end

theorem drop_linked {h : Heap} {kids : Nat → List Nat} (L : Linked h kids) {n : Nat} {c : Cell}
    (hn : h n = some c) (hp : c.parent = none) {l : List Nat} (hl : ∀ x, x ∈ l ↔ Below kids n x) :
    Linked (delAll h l) (fun x => if x ∈ l then [] else kids x) := by
  have nk := not_kid_of_root L hn hp
  -- a child of a node is below `n` exactly when the node is
  have up : ∀ q x, x ∈ kids q → (x ∈ l ↔ q ∈ l) := by
    intro q x hx
    rw [hl, hl]
    constructor
    · intro h
      cases h with
      | self => exact absurd hx (nk q)
      | step h hm => rw [L.unique hx hm]; exact h
    · intro h; exact h.step hx
  have mem : ∀ q x, x ∈ (if q ∈ l then [] else kids q) ↔ q ∉ l ∧ x ∈ kids q := by
    intro q x
    by_cases e : q ∈ l <;> simp [e]
  have cell : ∀ x d, delAll h l x = some d ↔ x ∉ l ∧ h x = some d := by
    intro x d
    by_cases e : x ∈ l <;> simp [delAll, e]
  refine ⟨?_, ?_, ?_, ?_, ?_, ?_, ?_, ?_, ?_⟩
  · intro a ha
    by_cases e : a ∈ l
    · simp [e]
    · simp only [e, if_false]
      exact L.free a (by simpa [delAll, e] using ha)
  · intro a
    by_cases e : a ∈ l
    · simp [e]
    · simpa [e] using L.nodup a
  · intro q a ha
    rw [mem] at ha
    obtain ⟨d, hd, hq⟩ := L.parent q a ha.2
    exact ⟨d, (cell a d).mpr ⟨fun h => ha.1 ((up q a ha.2).mp h), hd⟩, hq⟩
  · intro a d q ha hq
    rw [cell] at ha
    rw [mem]
    have := L.listed a d q ha.2 hq
    exact ⟨fun h => ha.1 ((up q a this).mpr h), this⟩
  · intro a d ha
    rw [cell] at ha
    simp only [ha.1, if_false]
    exact L.child a d ha.2
  · intro q a d ha hd
    rw [cell] at hd
    rw [mem] at ha
    simp only [ha.1, if_false]
    exact L.sibling q a d ha.2 hd.2
  · intro a d hd hq
    rw [cell] at hd
    exact L.root a d hd.2 hq
  · intro q a ha hb
    rw [mem] at ha
    exact L.acyclic q a ha.2 (below_mono (fun b c hm => ((mem b c).mp hm).2) hb)
  · obtain ⟨dom, hdom⟩ := L.finite
    refine ⟨dom, fun a ha => hdom a (fun e => ha ?_)⟩
    by_cases e' : a ∈ l <;> simp [delAll, e', e]

theorem below_erase {h : Heap} {kids : Nat → List Nat} (L : Linked h kids) (n x : Nat) :
    Below (fun x => (kids x).erase n) n x ↔ Below kids n x := by
  constructor
  · exact below_mono (fun b c hm => List.mem_of_mem_erase hm)
  · intro h
    induction h with
    | self => exact .self
    | step hb hm ih =>
      refine ih.step ((List.mem_erase_of_ne ?_).mpr hm)
      intro e
      subst e
      exact L.acyclic _ _ hm hb

mutual
theorem post_order {kids : Nat → List Nat} : ∀ {t : T}, Shape kids t → (post t).Nodup →
    ∀ {l r : List Nat} {x y : Nat}, post t = l ++ x :: r → y ∈ kids x → y ∈ l
  | .mk a ks, hs, hnd, l, r, x, y, e, hy => by
    have hs' : kids a = ks.map T.addr ∧ ShapeL kids ks := by simpa only [Shape] using hs
    rw [post] at e hnd
    rw [List.nodup_append] at hnd
    rcases List.append_eq_append_iff.mp e with ⟨m, h1, h2⟩ | ⟨m, h1, h2⟩
    · -- x is at or behind the end of postL ks
      cases m with
      | nil =>
        simp only [List.nil_append, List.cons.injEq] at h2
        obtain ⟨rfl, _⟩ := h2
        rw [h1, List.append_nil, mem_post_list hs'.2]
        rw [hs'.1, List.mem_map] at hy
        obtain ⟨t, ht, rfl⟩ := hy
        exact ⟨t, ht, .self⟩
      | cons z zs => simp at h2
    · cases m with
      | nil =>
        simp only [List.nil_append, List.cons.injEq] at h2
        obtain ⟨rfl, _⟩ := h2
        rw [List.append_nil] at h1
        rw [← h1, mem_post_list hs'.2]
        rw [hs'.1, List.mem_map] at hy
        obtain ⟨t, ht, rfl⟩ := hy
        exact ⟨t, ht, .self⟩
      | cons z zs =>
        simp only [List.cons_append, List.cons.injEq] at h2
        obtain ⟨rfl, _⟩ := h2
        exact post_orderL hs'.2 hnd.1 h1 hy
theorem post_orderL {kids : Nat → List Nat} : ∀ {ts : List T}, ShapeL kids ts → (postL ts).Nodup →
    ∀ {l r : List Nat} {x y : Nat}, postL ts = l ++ x :: r → y ∈ kids x → y ∈ l
  | [], _, _, l, r, x, y, e, _ => by
    rw [postL] at e
    simp at e
  | t :: ts, hs, hnd, l, r, x, y, e, hy => by
    rw [ShapeL] at hs
    rw [postL] at e hnd
    rw [List.nodup_append] at hnd
    rcases List.append_eq_append_iff.mp e with ⟨m, h1, h2⟩ | ⟨m, h1, h2⟩
    · have := post_orderL hs.2 hnd.2.1 h2 hy
      rw [h1]
      exact List.mem_append_right _ this
    · cases m with
      | nil =>
        simp only [List.nil_append] at h2
        rw [List.append_nil] at h1
        have := post_orderL (l := []) hs.2 hnd.2.1 h2.symm hy
        cases this
      | cons z zs =>
        simp only [List.cons_append, List.cons.injEq] at h2
        obtain ⟨rfl, _⟩ := h2
        exact post_order hs.1 hnd.1 h1 hy
end

/-- `mxmlDelete` frees exactly the subtree, each node once and after its children, and leaves the
    rest linked. -/
theorem delete_spec {h : Heap} {kids : Nat → List Nat} (L : Linked h kids) {n : Nat} (hn : h n ≠ none) :
    ∃ h' log, (∃ m, ∀ k, m ≤ k → delete k h (some n) = some (.ok (h', log))) ∧
      Linked h' (fun x => if x ∈ log then [] else (kids x).erase n) ∧
      (∀ x, x ∈ log ↔ Below kids n x) ∧ log.Nodup ∧
      (∀ l r x y, log = l ++ x :: r → y ∈ kids x → y ∈ l) ∧
      (∀ x, (h' x).map (fun c => (c.refs, c.data)) =
        if x ∈ log then none else (h x).map (fun c => (c.refs, c.data))) := by
  obtain ⟨h1, e1, L1, S1, c1, hc1, hp1⟩ := remove_spec L hn
  obtain ⟨t, ht, hs⟩ := exists_tree L1 n (by simp [hc1])
  have hpost : ∀ x, x ∈ post t ↔ Below kids n x := by
    intro x
    rw [mem_post hs, ht, below_erase L]
  have hnd := nodup_post L1 hs
  refine ⟨delAll h1 (post t), post t, ?_, drop_linked L1 hc1 hp1 (fun x => ?_), hpost, hnd, ?_, ?_⟩
  · have hti := tied_of_linked L1 (by rw [ht]; simp [hc1]) hs
    obtain ⟨a, ks⟩ := t
    rw [T.addr] at ht
    subst ht
    rw [Tied] at hti
    obtain ⟨⟨c, hc, hch⟩, htl⟩ := hti
    rw [hc1] at hc
    cases hc
    rw [post, List.nodup_append] at hnd
    have hna : a ∉ postL ks := fun hm => hnd.2.2 a hm a (by simp) rfl
    have fin : (delAll h1 (postL ks)).del a = delAll h1 (post (.mk a ks)) := by
      funext x
      rw [post]
      by_cases e : x = a
      · simp [Heap.del, delAll, e]
      · simp [Heap.del, delAll, e]
    have lst : deleteLast a (some (.ok (delAll h1 (postL ks), postL ks))) =
        some (.ok (delAll h1 (post (.mk a ks)), post (.mk a ks))) := by
      rw [deleteLast, free, get_ok (c := c1) (by simp [delAll, hna, hc1])]
      simp only [Res.ok_bind]
      rw [fin, post]
    cases ks with
    | nil =>
      refine ⟨0, fun k _ => ?_⟩
      rw [delete, e1]
      simp only [hc1, hch, List.map_nil, List.head?_nil]
      rw [← lst]
      congr 1
      have e : delAll h1 (postL []) = h1 := by funext x; simp [delAll, postL]
      rw [e]
      cases k <;> rw [deleteLoop] <;> simp [postL]
    | cons u us =>
      obtain ⟨m, hm⟩ := deleteLoop_list a a (u :: us) h1 [] (by simp) htl hnd.1 hna
      refine ⟨m, fun k hk => ?_⟩
      rw [delete, e1]
      simp only [hc1, hch]
      rw [← lst]
      congr 1
      have := hm (k - m)
      rw [Nat.sub_add_cancel hk] at this
      rw [this, if_pos rfl]
      cases (k - m) <;> rw [deleteLoop] <;> simp
  · rw [mem_post hs, ht]
  · intro l r x y e hy
    by_cases ey : y = n
    · -- the parent of `n` is not freed
      subst ey
      have hx : Below kids y x := (hpost x).mp (by rw [e]; simp)
      exact absurd hx (L.acyclic x y hy)
    · exact post_order hs hnd e ((List.mem_erase_of_ne ey).mpr hy)
  · intro x
    by_cases e : x ∈ post t
    · simp [delAll, e]
    · simpa [delAll, e] using S1 x

end Afs.Links
