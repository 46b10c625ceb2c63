import Verif.Proof.Refs
/-!
# Reference counts: operations that create and link objects
-/
namespace Afs.Refs
open Afs.Spec

/-- Everything allocated stays as it is; new objects have count 1 and refer only to new
    objects. -/
structure Extends (h h' : Heap) : Prop where
  next : h.next ≤ h'.next
  old : ∀ x, x < h.next → h'.cells x = h.cells x
  new : ∀ x c, h.next ≤ x → h'.cells x = some c → c.rc = 1 ∧ ∀ k, k ∈ c.kids → h.next ≤ k

theorem Extends.refl {h : Heap} {L : List Nat} (hi : Inv h L []) : Extends h h :=
  ⟨Nat.le_refl _, fun _ _ => rfl, fun x c hx hc => by rw [hi.bound x hx] at hc; cases hc⟩

theorem Extends.trans {a b c : Heap} (h1 : Extends a b) (h2 : Extends b c) : Extends a c := by
  refine ⟨Nat.le_trans h1.next h2.next, fun x hx => ?_, fun x d hx hd => ?_⟩
  · rw [h2.old x (by have := h1.next; omega), h1.old x hx]
  · by_cases hb : x < b.next
    · rw [h2.old x hb] at hd
      exact h1.new x d hx hd
    · obtain ⟨h3, h4⟩ := h2.new x d (by omega) hd
      exact ⟨h3, fun k hk => Nat.le_trans h1.next (h4 k hk)⟩

theorem Inv.alloc {h : Heap} {parts L : List Nat} {k : Kind} (hi : Inv h (parts ++ L) [])
    (ho : ∀ a, a ∈ parts → ∃ c, h.cells a = some c ∧ k.owns c.kind = true) :
    Inv (h.alloc k parts).1 ((h.alloc k parts).2 :: L) [] := by
  have hcells : ∀ x, (h.alloc k parts).1.cells x =
      if x = h.next then some ⟨k, 1, parts⟩ else h.cells x := fun _ => rfl
  have hne : ∀ x c, h.cells x = some c → x ≠ h.next := fun x c hx => by
    have := hi.lt hx; omega
  have hold : ∀ x c, h.cells x = some c → (h.alloc k parts).1.cells x = some c := by
    intro x c hx
    rw [hcells, if_neg (hne x c hx)]; exact hx
  have hsum : ∀ x, sumTo (ptr (h.alloc k parts).1 [] x) (h.next + 1)
      = sumTo (ptr h [] x) h.next + parts.count x := by
    intro x
    rw [sumTo]
    congr 1
    · apply sumTo_congr
      intro b hb
      unfold ptr pointersIn
      rw [hcells, if_neg (show b ≠ h.next by omega)]
    · simp [ptr, pointersIn, hcells]
  refine ⟨fun x hx => ?_, fun x hx => ?_, fun b d hb _ x hx => ?_, fun x d hx _ => ?_,
    fun x d hx _ => ?_⟩
  · have hx' : h.next + 1 ≤ x := hx
    rw [hcells, if_neg (by omega)]
    exact hi.bound x (by omega)
  · refine ⟨by simp, ?_⟩
    rcases List.mem_cons.mp hx with e | hx
    · subst e
      exact ⟨⟨k, 1, parts⟩, by rw [hcells]; exact if_pos rfl⟩
    · obtain ⟨_, c, hc⟩ := hi.roots x (List.mem_append_right _ hx)
      exact ⟨c, hold x c hc⟩
  · refine ⟨by simp, ?_⟩
    rw [hcells] at hb
    split at hb
    · cases hb
      obtain ⟨c, hc, hk⟩ := ho x hx
      exact ⟨c, hold x c hc, hk⟩
    · obtain ⟨_, c, hc, hk⟩ := hi.kids b d hb (by simp) x hx
      exact ⟨c, hold x c hc, hk⟩
  · show d.rc = ((_ + sumTo _ (h.next + 1) : Nat) : Int)
    rw [hsum]
    rw [hcells] at hx
    split at hx
    · rename_i e
      cases hx
      subst e
      have z1 : ∀ M : List Nat, (∀ y, y ∈ M → ∃ c, h.cells y = some c) → M.count h.next = 0 := by
        intro M hM
        apply List.count_eq_zero.mpr
        intro hm
        obtain ⟨c, hc⟩ := hM _ hm
        exact hne _ c hc rfl
      have zL : L.count h.next = 0 := z1 L fun y hy =>
        (hi.roots y (List.mem_append_right _ hy)).2
      have zP : parts.count h.next = 0 := z1 parts fun y hy =>
        (hi.roots y (List.mem_append_left _ hy)).2
      have zS : sumTo (ptr h [] h.next) h.next = 0 := by
        apply Decidable.byContradiction
        intro hn
        obtain ⟨b, hb, hp⟩ := sumTo_pos (Nat.pos_of_ne_zero hn)
        cases hbc : h.cells b with
        | none => simp [ptr, pointersIn_none hbc] at hp
        | some c =>
          rw [ptr, if_neg (by simp), pointersIn_of hbc,
            z1 c.kids (fun y hy => by
              obtain ⟨_, d, hd, _⟩ := hi.kids b c hbc (by simp) y hy; exact ⟨d, hd⟩)] at hp
          omega
      show (1 : Int) = (((h.next :: L).count h.next + _ : Nat) : Int)
      rw [List.count_cons_self, zL, zS, zP]
      rfl
    · rename_i e
      rw [hi.count x d hx (by simp), List.count_append]
      show _ = (((h.next :: L).count x + _ : Nat) : Int)
      rw [List.count_cons_of_ne (by simpa using fun h => e h.symm)]
      omega
  · rw [hcells] at hx
    split at hx
    · cases hx; show (0 : Int) < 1; decide
    · exact hi.pos x d hx (by simp)

/-- Adding a reference to the count of a live object. -/
theorem newRef_ok {h : Heap} {L : List Nat} {a : Nat} {c : Cell} (hi : Inv h L [])
    (hc : h.cells a = some c) (hb : c.rc < INT_MAX) :
    ∃ h', newRef h a = .ok h' ∧ Inv h' (a :: L) [] ∧
      h' = h.set a { c with rc := c.rc + 1 } := by
  have hpos := hi.pos a c hc (by simp)
  have hck : ckInt (c.rc + 1) = .ok (c.rc + 1) := by
    unfold ckInt
    rw [if_pos]
    simp only [INT_MIN, INT_MAX] at *
    omega
  refine ⟨_, by rw [newRef, hc]; simp only [hck, Res.ok_bind], ?_, rfl⟩
  have hcell : ∀ x d, h.cells x = some d → ∃ d',
      (h.set a { c with rc := c.rc + 1 }).cells x = some d' ∧ d'.kind = d.kind := by
    intro x d hx
    rw [set_cells]
    split
    · rename_i e
      subst e
      rw [hc] at hx
      cases hx
      exact ⟨_, rfl, rfl⟩
    · exact ⟨d, hx, rfl⟩
  refine ⟨fun x hx => ?_, fun x hx => ?_, fun b d hb _ x hx => ?_, fun x d hx _ => ?_,
    fun x d hx _ => ?_⟩
  · have := hi.lt hc
    rw [set_cells, if_neg (by have : h.next ≤ x := hx; omega)]
    exact hi.bound x hx
  · refine ⟨by simp, ?_⟩
    rcases List.mem_cons.mp hx with e | hx
    · subst e
      obtain ⟨d', h1, _⟩ := hcell x c hc
      exact ⟨d', h1⟩
    · obtain ⟨_, d, hd⟩ := hi.roots x hx
      obtain ⟨d', h1, _⟩ := hcell x d hd
      exact ⟨d', h1⟩
  · refine ⟨by simp, ?_⟩
    have key : ∃ d0, h.cells b = some d0 ∧ d0.kind = d.kind ∧ d0.kids = d.kids := by
      rw [set_cells] at hb
      split at hb
      · rename_i e
        subst e
        cases hb
        exact ⟨c, hc, rfl, rfl⟩
      · exact ⟨d, hb, rfl, rfl⟩
    obtain ⟨d0, e0, ek, el⟩ := key
    obtain ⟨_, d', h2, h3⟩ := hi.kids b d0 e0 (by simp) x (el ▸ hx)
    obtain ⟨d'', h4, h5⟩ := hcell x d' h2
    exact ⟨d'', h4, by rw [h5, ← ek]; exact h3⟩
  · show d.rc = ((_ + sumTo _ h.next : Nat) : Int)
    rw [sumTo_congr (g := ptr h [] x) (fun b _ => ptr_set_rc hc _ x b)]
    rw [set_cells] at hx
    split at hx
    · rename_i e
      subst e
      cases hx
      have := hi.count x c hc (by simp)
      rw [List.count_cons_self]
      show c.rc + 1 = _
      omega
    · rename_i e
      rw [List.count_cons_of_ne (by simpa using fun h => e h.symm)]
      exact hi.count x d hx (by simp)
  · rw [set_cells] at hx
    split at hx
    · cases hx
      show 0 < c.rc + 1
      omega
    · exact hi.pos x d hx (by simp)

/-- Replacing the list of parts of one object: references move between the program and the
    object. -/
theorem Inv.relink {h : Heap} {L L' : List Nat} {p : Nat} {d : Cell} {ks : List Nat}
    (hi : Inv h L []) (hd : h.cells p = some d)
    (hcount : ∀ a, L.count a + d.kids.count a = L'.count a + ks.count a)
    (hown : ∀ a, a ∈ ks → ∃ c, h.cells a = some c ∧ d.kind.owns c.kind = true) :
    Inv (h.set p { d with kids := ks }) L' [] := by
  have hcell : ∀ x e, h.cells x = some e → ∃ e',
      (h.set p { d with kids := ks }).cells x = some e' ∧ e'.kind = e.kind := by
    intro x e hx
    rw [set_cells]
    split
    · rename_i he
      subst he
      rw [hd] at hx
      cases hx
      exact ⟨_, rfl, rfl⟩
    · exact ⟨e, hx, rfl⟩
  have hpl := hi.lt hd
  refine ⟨fun x hx => ?_, fun x hx => ?_, fun b e hb _ x hx => ?_, fun x e hx _ => ?_,
    fun x e hx _ => ?_⟩
  · rw [set_cells, if_neg (by have : h.next ≤ x := hx; omega)]
    exact hi.bound x hx
  · refine ⟨by simp, ?_⟩
    have hpos : 0 < L.count x + d.kids.count x := by
      rw [hcount x]
      have := List.count_pos_iff.mpr hx
      omega
    have : ∃ e, h.cells x = some e := by
      by_cases hL : x ∈ L
      · exact (hi.roots x hL).2
      · have : x ∈ d.kids := by
          rw [← List.count_pos_iff]
          have := List.count_eq_zero.mpr hL
          omega
        obtain ⟨_, e, he, _⟩ := hi.kids p d hd (by simp) x this
        exact ⟨e, he⟩
    obtain ⟨e, he⟩ := this
    obtain ⟨e', h1, _⟩ := hcell x e he
    exact ⟨e', h1⟩
  · refine ⟨by simp, ?_⟩
    have : ∃ e', h.cells x = some e' ∧ e.kind.owns e'.kind = true := by
      rw [set_cells] at hb
      split at hb
      · cases hb
        exact hown x hx
      · obtain ⟨_, e', h1, h2⟩ := hi.kids b e hb (by simp) x hx
        exact ⟨e', h1, h2⟩
    obtain ⟨e', h1, h2⟩ := this
    obtain ⟨e'', h3, h4⟩ := hcell x e' h1
    exact ⟨e'', h3, by rw [h4]; exact h2⟩
  · have hsum : sumTo (ptr (h.set p { d with kids := ks }) [] x) h.next + ptr h [] x p
        = sumTo (ptr h [] x) h.next + ptr (h.set p { d with kids := ks }) [] x p := by
      apply sumTo_change hpl
      intro y _ hy
      unfold ptr pointersIn
      rw [set_cells, if_neg hy]
    have h1 : ptr h [] x p = d.kids.count x := by simp [ptr, pointersIn_of hd]
    have h2 : ptr (h.set p { d with kids := ks }) [] x p = ks.count x := by
      simp [ptr, pointersIn, set_cells]
    have hc := hcount x
    have hrc : e.rc = ((L.count x + sumTo (ptr h [] x) h.next : Nat) : Int) := by
      rw [set_cells] at hx
      split at hx
      · rename_i he
        subst he
        cases hx
        exact hi.count x d hd (by simp)
      · exact hi.count x e hx (by simp)
    show e.rc = ((_ + sumTo _ h.next : Nat) : Int)
    omega
  · rw [set_cells] at hx
    split at hx
    · rename_i he
      subst he
      cases hx
      exact hi.pos x d hd (by simp)
    · exact hi.pos x e hx (by simp)

theorem append_ok {h : Heap} {L : List Nat} {p a : Nat} {d c : Cell} (hi : Inv h (a :: L) [])
    (hd : h.cells p = some d) (hc : h.cells a = some c) (ho : d.kind.owns c.kind = true) :
    append h p a = .ok (h.set p { d with kids := d.kids ++ [a] }) ∧
      Inv (h.set p { d with kids := d.kids ++ [a] }) L [] := by
  refine ⟨by rw [append, hd], hi.relink hd (fun x => ?_) (fun x hx => ?_)⟩
  · rw [List.count_cons, List.count_append, List.count_cons, List.count_nil]
    omega
  · rcases List.mem_append.mp hx with hx | hx
    · obtain ⟨_, e, h1, h2⟩ := hi.kids p d hd (by simp) x hx
      exact ⟨e, h1, h2⟩
    · rw [List.mem_singleton] at hx
      subst hx
      exact ⟨c, hc, ho⟩

theorem unlink_ok {h : Heap} {L : List Nat} {f a : Nat} {d : Cell} (hi : Inv h L [])
    (hd : h.cells f = some d) (ha : a ∈ d.kids) :
    Inv (unlink h f a) (a :: L) [] := by
  rw [unlink, hd]
  refine hi.relink hd (fun x => ?_) (fun x hx => ?_)
  · have := List.count_pos_iff.mpr ha
    rw [List.count_cons, List.count_erase]
    by_cases hxa : x = a
    · subst hxa; simp; omega
    · have h1 : (a == x) = false := by simpa using fun e => hxa e.symm
      have h2 : (x == a) = false := by simpa using hxa
      simp [h1]
  · obtain ⟨_, e, h1, h2⟩ := hi.kids f d hd (by simp) x (List.mem_of_mem_erase hx)
    exact ⟨e, h1, h2⟩

/-- The appearance of an object does not depend on what has been added to the heap. -/
theorem appearance_extends {h h' : Heap} {L : List Nat} (hi : Inv h L [])
    (he : ∀ x, x < h.next → h'.cells x = h.cells x) :
    ∀ n a, (∃ c, h.cells a = some c) → appearance n h' a = appearance n h a := by
  intro n
  induction n with
  | zero => intro a _; rfl
  | succ n ih =>
    rintro a ⟨c, hc⟩
    rw [appearance, appearance, he a (hi.lt hc), hc]
    simp only [Tree.node.injEq, true_and]
    apply List.map_congr_left
    intro k hk
    obtain ⟨_, d, hd, _⟩ := hi.kids a c hc (by simp) k hk
    exact ih k ⟨d, hd⟩

/-- Cloning a live object. -/
theorem cloneObj_ok : ∀ (n : Nat) (h : Heap) (a : Nat) (c : Cell) (L : List Nat), Inv h L [] →
    h.cells a = some c → c.kind.level < n →
    ∃ h' m d, cloneObj n h a = .ok (h', m) ∧ Inv h' (m :: L) [] ∧ Extends h h' ∧
      h.next ≤ m ∧ h'.cells m = some d ∧ d.kind = c.kind ∧
      ∀ depth, appearance depth h' m = appearance depth h a := by
  intro n
  induction n with
  | zero => intro h a c L _ _ hl; omega
  | succ n ih =>
    intro h a c L hi hc hl
    have loop : ∀ (ks : List Nat) (g : Heap) (acc : List Nat), Inv g (acc ++ L) [] → Extends h g →
        (∀ k, k ∈ ks → ∃ e, h.cells k = some e ∧ e.kind.level < n ∧ c.kind.owns e.kind = true) →
        (∀ k, k ∈ acc → h.next ≤ k ∧ ∃ e, g.cells k = some e ∧ c.kind.owns e.kind = true) →
        ∃ g' new, ks.foldlM (fun (s : Heap × List Nat) k => do
            let (h, k') ← cloneObj n s.1 k
            .ok (h, s.2 ++ [k'])) (g, acc) = .ok (g', acc ++ new) ∧
          Inv g' (acc ++ new ++ L) [] ∧ Extends h g' ∧ Extends g g' ∧
          (∀ k, k ∈ acc ++ new →
            h.next ≤ k ∧ ∃ e, g'.cells k = some e ∧ c.kind.owns e.kind = true) ∧
          ∀ depth, new.map (appearance depth g') = ks.map (appearance depth h) := by
      intro ks
      induction ks with
      | nil =>
        intro g acc hg heg _ hacc
        exact ⟨g, [], by simp, by simpa using hg, heg, Extends.refl hg, by simpa using hacc,
          fun _ => rfl⟩
      | cons k ks ihk =>
        intro g acc hg heg hks hacc
        obtain ⟨e, he, hel, heo⟩ := hks k (List.mem_cons_self ..)
        have heg' : g.cells k = some e := by rw [heg.old k (hi.lt he)]; exact he
        obtain ⟨g1, m, d, h1, h2, h3, h4, h5, h6, h7⟩ := ih g k e (acc ++ L) hg heg' hel
        have hacc1 : ∀ x, x ∈ acc ++ [m] →
            h.next ≤ x ∧ ∃ e, g1.cells x = some e ∧ c.kind.owns e.kind = true := by
          intro x hx
          rcases List.mem_append.mp hx with hx | hx
          · obtain ⟨hlo, e', h8, h9⟩ := hacc x hx
            exact ⟨hlo, e', by rw [h3.old x (hg.lt h8)]; exact h8, h9⟩
          · rw [List.mem_singleton] at hx
            subst hx
            exact ⟨Nat.le_trans heg.next h4, d, h5, by rw [h6]; exact heo⟩
        obtain ⟨g2, new, i1, i2, i3, i3', i4, i5⟩ := ihk g1 (acc ++ [m])
          (h2.congr fun x => by
            simp only [List.count_cons, List.count_append, List.count_nil]; omega)
          (heg.trans h3) (fun x hx => hks x (List.mem_cons_of_mem _ hx)) hacc1
        refine ⟨g2, m :: new, ?_, ?_, i3, h3.trans i3', ?_, fun depth => ?_⟩
        · rw [List.foldlM_cons]
          simp only [h1, Res.ok_bind]
          rw [i1]
          simp
        · simpa using i2
        · simpa using i4
        · simp only [List.map_cons]
          rw [i5 depth, appearance_extends h2 i3'.old depth m ⟨d, h5⟩, h7 depth,
            appearance_extends hi heg.old depth k ⟨e, he⟩]
    obtain ⟨g, new, e1, e2, e3, _, e4, e5⟩ := loop c.kids h [] (by simpa using hi)
      (Extends.refl hi)
      (fun k hk => by
        obtain ⟨_, e, he, ho⟩ := hi.kids a c hc (by simp) k hk
        exact ⟨e, he, by have := owns_level ho; omega, ho⟩)
      (fun k hk => by simp at hk)
    simp only [List.nil_append] at e1 e2 e4
    refine ⟨(g.alloc c.kind new).1, (g.alloc c.kind new).2, ⟨c.kind, 1, new⟩, ?_,
      Inv.alloc e2 (fun k hk => (e4 k hk).2), ?_, e3.next, ?_, rfl, ?_⟩
    · rw [cloneObj, hc]
      simp only
      rw [e1]
      rfl
    · refine ⟨Nat.le_succ_of_le e3.next, fun x hx => ?_, fun x d hx hd => ?_⟩
      · show (if x = g.next then _ else g.cells x) = _
        rw [if_neg (by have := e3.next; omega)]
        exact e3.old x hx
      · change (if x = g.next then some (⟨c.kind, 1, new⟩ : Cell) else g.cells x) = some d at hd
        split at hd
        · cases hd
          exact ⟨rfl, fun k hk => (e4 k hk).1⟩
        · exact e3.new x d hx hd
    · show (if g.next = g.next then _ else _) = _
      rw [if_pos rfl]
    · intro depth
      cases depth with
      | zero => rfl
      | succ depth =>
        have hx : ∀ x, x < g.next → (g.alloc c.kind new).1.cells x = g.cells x := by
          intro x hx
          show (if x = g.next then _ else g.cells x) = _
          rw [if_neg (by omega)]
        rw [appearance, appearance, hc]
        have : (g.alloc c.kind new).1.cells (g.alloc c.kind new).2 = some ⟨c.kind, 1, new⟩ := by
          show (if g.next = g.next then _ else _) = _
          rw [if_pos rfl]
        rw [this]
        simp only [Tree.node.injEq, true_and]
        rw [← e5 depth]
        apply List.map_congr_left
        intro k hk
        exact appearance_extends e2 hx depth k (by obtain ⟨_, e, he, _⟩ := e4 k hk; exact ⟨e, he⟩)

end Afs.Refs
