import Verif.Proof.ParseMem
import Verif.Proof.Links9
/-!
# The nodes the XML reader has built so far
-/
namespace Afs.ParseMem
open Afs Afs.Xml Afs.Links Afs.Spec

/-! ### Facts about linked heaps -/

theorem filter_less {l : List Nat} {P Q : Nat → Bool} (hpq : ∀ y, P y = true → Q y = true) {z : Nat} (hz : z ∈ l)
    (hq : Q z = true) (hp : P z = false) : (l.filter P).length < (l.filter Q).length := by
  have le : ∀ l : List Nat, (l.filter P).length ≤ (l.filter Q).length := by
    intro l
    induction l with
    | nil => simp
    | cons y ys ih =>
      rw [List.filter_cons, List.filter_cons]
      by_cases h1 : P y = true
      · rw [if_pos h1, if_pos (hpq y h1)]; simpa using ih
      · rw [if_neg h1]
        split
        · simp; omega
        · exact ih
  induction l with
  | nil => cases hz
  | cons y ys ih =>
    rw [List.filter_cons, List.filter_cons]
    by_cases e : y = z
    · subst e
      have := le ys
      simp [hp, hq]; omega
    · have hz' : z ∈ ys := by
        rcases List.mem_cons.mp hz with h | h
        · exact absurd h.symm e
        · exact h
      have := ih hz'
      by_cases h1 : P y = true
      · rw [if_pos h1, if_pos (hpq y h1)]; simpa using this
      · rw [if_neg h1]
        split
        · simp; omega
        · exact this

/-- Every live node is below a root. -/
theorem exists_root {h : Heap} {kids : Nat → List Nat} (L : Linked h kids) (x : Nat) (hx : h x ≠ none) :
    ∃ r, h r ≠ none ∧ Below kids r x ∧ ∀ p, r ∉ kids p := by
  classical
  obtain ⟨dom, hdom⟩ := L.finite
  generalize hk : (dom.filter (fun y => !decide (Below kids x y))).length = k
  induction k using Nat.strongRecOn generalizing x with
  | _ k ih =>
    by_cases e : ∃ p, x ∈ kids p
    · obtain ⟨p, hp⟩ := e
      have hpa := L.alloc_of_kids hp
      have hb : Below kids p x := .step .self hp
      obtain ⟨r, h1, h2, h3⟩ := ih (dom.filter (fun y => !decide (Below kids p y))).length (by
        rw [← hk]
        refine filter_less (z := p) ?_ (hdom p hpa) ?_ ?_
        · intro y hy
          simp only [Bool.not_eq_true', decide_eq_false_iff_not] at hy ⊢
          exact fun h => hy (hb.trans h)
        · simpa using L.acyclic p x hp
        · simpa using Below.self) p hpa rfl
      exact ⟨r, h1, h2.trans hb, h3⟩
    · exact ⟨x, hx, .self, fun p hp => e ⟨p, hp⟩⟩

/-- A cell is given by the lists of children, its value and its count. -/
theorem cell_eq {h h' : Heap} {kids kids' : Nat → List Nat} (L : Linked h kids) (L' : Linked h' kids') {x : Nat}
    (hd : (h' x).map (fun c => (c.refs, c.data)) = (h x).map (fun c => (c.refs, c.data)))
    (hk : kids' x = kids x) (hp : ∀ p, x ∈ kids p ↔ x ∈ kids' p)
    (hpk : ∀ p, x ∈ kids p → kids' p = kids p) : h' x = h x := by
  cases hc : h x with
  | none => rw [hc] at hd; cases hc' : h' x <;> simp_all
  | some c =>
    cases hc' : h' x with
    | none => rw [hc, hc'] at hd; simp at hd
    | some c' =>
      rw [hc, hc'] at hd
      simp only [Option.map_some, Option.some.injEq, Prod.mk.injEq] at hd
      have k1 := L.child x c hc
      have k2 := L'.child x c' hc'
      rw [hk] at k2
      have par : c'.parent = c.parent ∧ c'.next = c.next ∧ c'.prev = c.prev := by
        cases e : c.parent with
        | none =>
          have n1 := not_kid_of_root L hc e
          have e' : c'.parent = none := by
            cases e' : c'.parent with
            | none => rfl
            | some p => exact absurd ((hp p).mpr (L'.listed x c' p hc' e')) (n1 p)
          have r1 := L.root x c hc e
          have r2 := L'.root x c' hc' e'
          exact ⟨e', by rw [r1.1, r2.1], by rw [r1.2, r2.2]⟩
        | some p =>
          have m := L.listed x c p hc e
          have m' := (hp p).mp m
          obtain ⟨c2, hc2, e2⟩ := L'.parent p x m'
          rw [hc'] at hc2
          cases hc2
          have s1 := L.sibling p x c m hc
          have s2 := L'.sibling p x c' m' hc'
          rw [hpk p m] at s2
          exact ⟨e2, by rw [s1.1, s2.1], by rw [s1.2, s2.2]⟩
      cases c; cases c'
      simp only [Option.some.injEq, Cell.mk.injEq]
      simp only at hd k1 k2 par
      exact ⟨par.1, by rw [k1.1, k2.1], by rw [k1.2, k2.2], par.2.2, par.2.1, hd.1, hd.2⟩

/-- Changing the value of a cell keeps the links. -/
theorem data_linked {h : Heap} {kids : Nat → List Nat} (L : Linked h kids) {n : Nat} {c : Cell} (hn : h n = some c)
    (d : Data) : Linked (h.set n { c with data := d }) kids := by
  have cell : ∀ x e, (h.set n { c with data := d }) x = some e → ∃ e', h x = some e' ∧ e'.parent = e.parent ∧
      e'.child = e.child ∧ e'.last = e.last ∧ e'.next = e.next ∧ e'.prev = e.prev := by
    intro x e hx
    by_cases en : x = n
    · subst en
      simp only [Heap.set, if_true, Option.some.injEq] at hx
      subst hx
      exact ⟨c, hn, rfl, rfl, rfl, rfl, rfl⟩
    · exact ⟨e, by simpa [Heap.set, en] using hx, rfl, rfl, rfl, rfl, rfl⟩
  have none_iff : ∀ x, (h.set n { c with data := d }) x = none ↔ h x = none := by
    intro x
    by_cases e : x = n
    · subst e; simp [Heap.set, hn]
    · simp [Heap.set, e]
  refine ⟨fun a ha => L.free a ((none_iff a).mp ha), L.nodup, ?_, ?_, ?_, ?_, ?_, L.acyclic, ?_⟩
  · intro p a ha
    obtain ⟨e, he, hp⟩ := L.parent p a ha
    by_cases en : a = n
    · subst en
      rw [hn] at he
      cases he
      exact ⟨{ c with data := d }, by simp [Heap.set], hp⟩
    · exact ⟨e, by simpa [Heap.set, en] using he, hp⟩
  · intro a e p he hp
    obtain ⟨e', he', e1, _⟩ := cell a e he
    exact L.listed a e' p he' (e1 ▸ hp)
  · intro a e he
    obtain ⟨e', he', _, e2, e3, _⟩ := cell a e he
    rw [← e2, ← e3]; exact L.child a e' he'
  · intro p a e ha he
    obtain ⟨e', he', _, _, _, e4, e5⟩ := cell a e he
    rw [← e4, ← e5]; exact L.sibling p a e' ha he'
  · intro a e he hp
    obtain ⟨e', he', e1, _, _, e4, e5⟩ := cell a e he
    rw [← e4, ← e5]; exact L.root a e' he' (e1 ▸ hp)
  · obtain ⟨l, hl⟩ := L.finite
    exact ⟨l, fun a ha => hl a (fun e => ha ((none_iff a).mpr e))⟩

mutual
theorem shape_congr {kids kids' : Nat → List Nat} : ∀ {t : T}, (∀ x ∈ pre t, kids' x = kids x) → Shape kids t →
    Shape kids' t
  | .mk a ks, hx, hs => by
    rw [Shape] at hs ⊢
    rw [pre] at hx
    exact ⟨by rw [hx a (by simp)]; exact hs.1, shapeL_congr (fun x h => hx x (by simp [h])) hs.2⟩
theorem shapeL_congr {kids kids' : Nat → List Nat} : ∀ {ts : List T}, (∀ x ∈ preL ts, kids' x = kids x) →
    ShapeL kids ts → ShapeL kids' ts
  | [], _, _ => by simp [ShapeL]
  | t :: ts, hx, hs => by
    rw [ShapeL] at hs ⊢
    rw [preL] at hx
    exact ⟨shape_congr (fun x h => hx x (by simp [h])) hs.1, shapeL_congr (fun x h => hx x (by simp [h])) hs.2⟩
end

mutual
theorem isNode_congr {h h' : Heap} : ∀ {t : T} {n : Node}, (∀ x ∈ pre t, (h' x).map Cell.data = (h x).map Cell.data) →
    IsNode h t n → IsNode h' t n
  | .mk a ks, .elem n as cs, hx, hs => by
    rw [IsNode] at hs ⊢
    rw [pre] at hx
    exact ⟨by rw [hx a (by simp)]; exact hs.1, isNodes_congr (fun x h => hx x (by simp [h])) hs.2⟩
  | .mk a ks, .text s, hx, hs => by
    rw [IsNode] at hs ⊢
    rw [pre] at hx
    exact ⟨by rw [hx a (by simp)]; exact hs.1, hs.2⟩
theorem isNodes_congr {h h' : Heap} : ∀ {ts : List T} {ns : List Node},
    (∀ x ∈ preL ts, (h' x).map Cell.data = (h x).map Cell.data) → IsNodes h ts ns → IsNodes h' ts ns
  | [], [], _, _ => by simp [IsNodes]
  | t :: ts, n :: ns, hx, hs => by
    rw [IsNodes] at hs ⊢
    rw [preL] at hx
    exact ⟨isNode_congr (fun x h => hx x (by simp [h])) hs.1, isNodes_congr (fun x h => hx x (by simp [h])) hs.2⟩
  | [], _ :: _, _, hs => by simp [IsNodes] at hs
  | _ :: _, [], _, hs => by simp [IsNodes] at hs
end

theorem isNodes_append {h : Heap} : ∀ {ts us : List T} {ns ms : List Node}, IsNodes h ts ns → IsNodes h us ms →
    IsNodes h (ts ++ us) (ns ++ ms)
  | [], us, [], ms, _, h2 => by simpa using h2
  | t :: ts, us, n :: ns, ms, h1, h2 => by
    rw [IsNodes] at h1
    rw [List.cons_append, List.cons_append, IsNodes]
    exact ⟨h1.1, isNodes_append h1.2 h2⟩
  | [], _, _ :: _, _, h1, _ => by simp [IsNodes] at h1
  | _ :: _, _, [], _, h1, _ => by simp [IsNodes] at h1

/-! ### What belongs to the reader -/

/-- The memory `h` is the memory `h0` from before, untouched, and new nodes; the new nodes without
    parent are `roots`. -/
structure Own (h0 : Heap) (kids0 : Nat → List Nat) (h : Heap) (kids : Nat → List Nat) (roots : List Nat) : Prop where
  L : Linked h kids
  keep : ∀ x, h0 x ≠ none → kids x = kids0 x ∧
    (h x).map (fun c => (c.refs, c.data)) = (h0 x).map (fun c => (c.refs, c.data))
  out : ∀ p, h0 p = none → ∀ a ∈ kids p, h0 a = none
  top : ∀ x, h0 x = none → h x ≠ none → (∃ p, x ∈ kids p) ∨ x ∈ roots
  rooted : ∀ x ∈ roots, h x ≠ none ∧ h0 x = none ∧ ∀ p, x ∉ kids p

theorem own_init {h0 : Heap} {kids0 : Nat → List Nat} (L : Linked h0 kids0) : Own h0 kids0 h0 kids0 [] where
  L := L
  keep := fun _ _ => ⟨rfl, rfl⟩
  out := fun p hp a ha => by rw [L.free p hp] at ha; cases ha
  top := fun x h1 h2 => absurd h1 h2
  rooted := fun x hx => by cases hx

/-- What was there before is still there, unchanged. -/
theorem Own.same {h0 : Heap} {kids0 : Nat → List Nat} {h : Heap} {kids : Nat → List Nat} {roots : List Nat}
    (L0 : Linked h0 kids0) (O : Own h0 kids0 h kids roots) (x : Nat) (hx : h0 x ≠ none) : h x = h0 x := by
  have up : ∀ p, x ∈ kids p → h0 p ≠ none := fun p hp e => hx (O.out p e x hp)
  refine cell_eq L0 O.L (O.keep x hx).2 (O.keep x hx).1 (fun p => ⟨fun hp => ?_, fun hp => ?_⟩) (fun p hp => ?_)
  · rw [(O.keep p (L0.alloc_of_kids hp)).1]; exact hp
  · rw [← (O.keep p (up p hp)).1]; exact hp
  · exact (O.keep p (L0.alloc_of_kids hp)).1

/-- The new nodes are those below the roots. -/
theorem Own.below {h0 : Heap} {kids0 : Nat → List Nat} {h : Heap} {kids : Nat → List Nat} {roots : List Nat}
    (L0 : Linked h0 kids0) (O : Own h0 kids0 h kids roots) {x : Nat} (hx : h0 x = none) :
    h x ≠ none ↔ ∃ r ∈ roots, Below kids r x := by
  constructor
  · intro ha
    obtain ⟨r, h1, h2, h3⟩ := exists_root O.L x ha
    have h0r : h0 r = none := by
      cases e : h0 r with
      | none => rfl
      | some c =>
        exfalso
        have : ∀ y, Below kids r y → h0 y ≠ none := by
          intro y hy
          induction hy with
          | self => simp [e]
          | @step b c _ hc ih =>
            intro e'
            rw [(O.keep b ih).1] at hc
            obtain ⟨d, hd, _⟩ := L0.parent b c hc
            rw [e'] at hd
            cases hd
        exact this x h2 hx
    rcases O.top r h0r h1 with ⟨p, hp⟩ | hr
    · exact absurd hp (h3 p)
    · exact ⟨r, hr, h2⟩
  · rintro ⟨r, hr, hb⟩
    exact below_alloc O.L (O.rooted r hr).1 hb

/-- A new node. -/
theorem Own.new {h0 : Heap} {kids0 : Nat → List Nat} {h : Heap} {kids : Nat → List Nat} {roots : List Nat}
    (O : Own h0 kids0 h kids roots) {a : Nat} (ha : h a = none) (p : Option Nat)
    (hp : ∀ q, p = some q → h q ≠ none ∧ h0 q = none) (d : Data) :
    ∃ h', Links.new h a p d = .ok h' ∧
      Own h0 kids0 h' (fun x => if some x = p then kids x ++ [a] else kids x)
        (if p = none then a :: roots else roots) ∧
      (h' a).map Cell.data = some d ∧ h0 a = none ∧ kids a = [] ∧
      (∀ x, x ≠ a → (h' x).map Cell.data = (h x).map Cell.data) := by
  obtain ⟨h', e, L', S⟩ := new_spec O.L ha p (fun q hq => (hp q hq).1) d
  have h0a : h0 a = none := by
    cases e0 : h0 a with
    | none => rfl
    | some c =>
      have := (O.keep a (by simp [e0])).2
      rw [ha, e0] at this
      simp at this
  have va : (h' a).map (fun c => (c.refs, c.data)) = some (1, d) := by
    rw [S a]; simp [Heap.set, fresh]
  have vx : ∀ x, x ≠ a → (h' x).map (fun c => (c.refs, c.data)) = (h x).map (fun c => (c.refs, c.data)) := by
    intro x hx
    rw [S x]; simp [Heap.set, hx]
  have dx : ∀ x, x ≠ a → (h' x).map Cell.data = (h x).map Cell.data := by
    intro x hx
    have := congrArg (Option.map Prod.snd) (vx x hx)
    simpa [Option.map_map, Function.comp_def] using this
  have al : ∀ x, h x ≠ none → h' x ≠ none := by
    intro x hx e
    by_cases ex : x = a
    · rw [ex] at hx; exact hx ha
    · have := vx x ex
      rw [e] at this
      cases hh : h x with
      | none => exact hx hh
      | some c => rw [hh] at this; simp at this
  have la : ∀ x, h' x ≠ none → x ≠ a → h x ≠ none := by
    intro x hx ex e
    have := vx x ex
    rw [e] at this
    cases hh : h' x with
    | none => exact hx hh
    | some c => rw [hh] at this; simp at this
  have nokid : ∀ q, a ∉ kids q := by
    intro q hq
    obtain ⟨c, hc, _⟩ := O.L.parent q a hq
    rw [ha] at hc; cases hc
  refine ⟨h', e, ⟨L', ?_, ?_, ?_, ?_⟩, ?_, h0a, O.L.free a ha, dx⟩
  · intro x hx
    have hxa : x ≠ a := fun e => hx (e ▸ h0a)
    have hxp : ¬ some x = p := fun e => hx (hp x e.symm).2
    exact ⟨by simp only [hxp, if_false]; exact (O.keep x hx).1, (vx x hxa).trans (O.keep x hx).2⟩
  · intro q hq b hb
    by_cases e : some q = p
    · simp only [e, if_true, List.mem_append, List.mem_singleton] at hb
      rcases hb with hb | hb
      · exact O.out q hq b hb
      · rw [hb]; exact h0a
    · simp only [e, if_false] at hb
      exact O.out q hq b hb
  · intro x h1 h2
    by_cases e : x = a
    · subst e
      cases p with
      | none => right; simp
      | some q => left; exact ⟨q, by simp⟩
    · rcases O.top x h1 (la x h2 e) with ⟨q, hq⟩ | hr
      · left
        refine ⟨q, ?_⟩
        split
        · simp [hq]
        · exact hq
      · right
        split
        · simp [hr]
        · exact hr
  · intro x hx
    have : x ∈ roots ∨ (p = none ∧ x = a) := by
      by_cases e : p = none
      · rw [if_pos e] at hx
        rcases List.mem_cons.mp hx with h | h
        · exact .inr ⟨e, h⟩
        · exact .inl h
      · rw [if_neg e] at hx; exact .inl hx
    rcases this with hr | ⟨rfl, rfl⟩
    · obtain ⟨r1, r2, r3⟩ := O.rooted x hr
      refine ⟨al x r1, r2, fun q hq => ?_⟩
      split at hq
      · rcases List.mem_append.mp hq with h | h
        · exact r3 q h
        · simp only [List.mem_singleton] at h
          rw [h] at r1
          exact r1 ha
      · exact r3 q hq
    · refine ⟨?_, h0a, fun q hq => ?_⟩
      · intro e; rw [e] at va; simp at va
      · simp at hq; exact nokid q hq
  · have := congrArg (Option.map Prod.snd) va
    simpa [Option.map_map, Function.comp_def] using this

/-- A changed value. -/
theorem Own.data {h0 : Heap} {kids0 : Nat → List Nat} {h : Heap} {kids : Nat → List Nat} {roots : List Nat}
    (O : Own h0 kids0 h kids roots) {n : Nat} {c : Cell} (hn : h n = some c) (hn0 : h0 n = none) (d : Data) :
    Own h0 kids0 (h.set n { c with data := d }) kids roots := by
  have al : ∀ x, (h.set n { c with data := d }) x ≠ none ↔ h x ≠ none := by
    intro x
    by_cases e : x = n
    · subst e; simp [Heap.set, hn]
    · simp [Heap.set, e]
  refine ⟨data_linked O.L hn d, ?_, O.out, ?_, ?_⟩
  · intro x hx
    have : x ≠ n := fun e => hx (e ▸ hn0)
    simp only [Heap.set, this, if_false]
    exact O.keep x hx
  · exact fun x h1 h2 => O.top x h1 ((al x).mp h2)
  · exact fun x hx => ⟨(al x).mpr (O.rooted x hx).1, (O.rooted x hx).2⟩

/-- Deleting a new node. -/
theorem Own.delete {h0 : Heap} {kids0 : Nat → List Nat} {h : Heap} {kids : Nat → List Nat} {roots : List Nat}
    (L0 : Linked h0 kids0) (O : Own h0 kids0 h kids roots) {n : Nat} (hn : h n ≠ none) (hn0 : h0 n = none) :
    ∃ h' kids', (∃ m, ∀ k, m ≤ k → del k h (some n) = some (.ok h')) ∧
      Own h0 kids0 h' kids' (roots.filter (fun x => x ≠ n)) ∧
      (∀ x, h x ≠ none → ¬ Below kids n x → h' x ≠ none ∧ (kids x = [] → kids' x = [])) := by
  obtain ⟨h', log, ⟨m, hm⟩, L', hb, _, _, hv⟩ := delete_spec O.L hn
  have below0 : ∀ x, Below kids n x → h0 x = none := by
    intro x hx
    induction hx with
    | self => exact hn0
    | step _ hc ih => exact O.out _ ih _ hc
  have al : ∀ x, h' x ≠ none ↔ h x ≠ none ∧ x ∉ log := by
    intro x
    have := hv x
    by_cases e : x ∈ log
    · rw [if_pos e] at this
      cases hh : h' x <;> simp_all
    · rw [if_neg e] at this
      cases hh : h' x <;> cases hh2 : h x <;> simp_all
  refine ⟨h', _, ⟨m, fun k hk => by rw [del, hm k hk]⟩, ⟨L', ?_, ?_, ?_, ?_⟩, ?_⟩
  · intro x hx
    have e : x ∉ log := fun e => hx (below0 x ((hb x).mp e))
    have e2 : n ∉ kids x := by
      intro e2
      rw [(O.keep x hx).1] at e2
      obtain ⟨c, hc, _⟩ := L0.parent x n e2
      rw [hn0] at hc; cases hc
    refine ⟨?_, ?_⟩
    · simp only [e, if_false]
      rw [List.erase_of_not_mem e2]
      exact (O.keep x hx).1
    · have := hv x
      rw [if_neg e] at this
      exact this.trans (O.keep x hx).2
  · intro p hp a ha
    split at ha
    · cases ha
    · exact O.out p hp a (List.mem_of_mem_erase ha)
  · intro x h1 h2
    obtain ⟨h3, h4⟩ := (al x).mp h2
    have xn : x ≠ n := fun e => h4 ((hb x).mpr (e ▸ .self))
    rcases O.top x h1 h3 with ⟨p, hp⟩ | hr
    · left
      refine ⟨p, ?_⟩
      have : p ∉ log := fun e => h4 ((hb x).mpr (((hb p).mp e).step hp))
      simp only [this, if_false]
      exact (List.mem_erase_of_ne xn).mpr hp
    · right
      simp [hr, xn]
  · intro x hx
    simp only [List.mem_filter, decide_eq_true_eq, ne_eq] at hx
    obtain ⟨r1, r2, r3⟩ := O.rooted x hx.1
    refine ⟨(al x).mpr ⟨r1, fun e => ?_⟩, r2, fun p hp => ?_⟩
    · have := (hb x).mp e
      cases this with
      | self => exact hx.2 rfl
      | step _ hc => exact r3 _ hc
    · split at hp
      · cases hp
      · exact r3 p (List.mem_of_mem_erase hp)
  · intro x hx hnb
    have e : x ∉ log := fun e => hnb ((hb x).mp e)
    refine ⟨(al x).mpr ⟨hx, e⟩, fun hk => ?_⟩
    simp only [e, if_false, hk]
    rfl

end Afs.ParseMem
