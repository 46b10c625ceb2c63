import Verif.Spec.Shape
import Verif.Model.LoadPlan
/-!
# Loading makes the objects of the loaded value: the heap side
-/
namespace Afs.Objects
open Afs Afs.Refs Afs.Spec

/-- Nothing is allocated yet above `next`. -/
def Above (h : Heap) : Prop := ∀ x, h.next ≤ x → h.cells x = none

/-- Objects from `lo` on own only objects from `lo` on. -/
def Up (lo : Nat) (h : Heap) : Prop := ∀ x c, h.cells x = some c → lo ≤ x → ∀ k ∈ c.kids, lo ≤ k

/-- The address of the first objects is not below `lo` - for lists. -/
theorem ownsAll_append {h : Heap} {as bs : List Nat} {ts us : List ObjShape} (h1 : OwnsAll h as ts) (h2 : OwnsAll h bs us) :
    OwnsAll h (as ++ bs) (ts ++ us) := by
  induction as generalizing ts with
  | nil => cases h1; exact h2
  | cons a as ih => cases h1 with | cons h3 h4 => exact .cons h3 (ih h4)

theorem ownsAll_one {h : Heap} {a : Nat} {t : ObjShape} (h1 : Owns h a t) : OwnsAll h [a] [t] := .cons h1 .nil

mutual
/-- What is allocated and not changed stays owned. -/
theorem owns_frame {h h' : Heap} {lo : Nat} (hup : Up lo h) (hsame : ∀ x, lo ≤ x → (∃ c, h.cells x = some c) → h'.cells x = h.cells x)
    {a : Nat} : (t : ObjShape) → Owns h a t → lo ≤ a → Owns h' a t
  | .node k ts, ho, hlo => by
    cases ho with
    | @mk _ _ kids _ hc hk =>
      exact .mk ((hsame a hlo ⟨_, hc⟩).trans hc) (ownsAll_frame hup hsame ts hk (hup a _ hc hlo))
theorem ownsAll_frame {h h' : Heap} {lo : Nat} (hup : Up lo h) (hsame : ∀ x, lo ≤ x → (∃ c, h.cells x = some c) → h'.cells x = h.cells x)
    {as : List Nat} : (ts : List ObjShape) → OwnsAll h as ts → (∀ a ∈ as, lo ≤ a) → OwnsAll h' as ts
  | [], ho, _ => by cases ho; exact .nil
  | t :: ts, ho, hlo => by
    cases ho with
    | cons h1 h2 =>
      exact .cons (owns_frame hup hsame t h1 (hlo _ (List.mem_cons_self ..)))
        (ownsAll_frame hup hsame ts h2 fun b hb => hlo b (List.mem_cons_of_mem _ hb))
end

/-- In the middle of loading into `p`, which had no parts in the heap `h0`: nothing that was there is changed but `p`, which owns these objects. -/
structure Raw (h0 h : Heap) (p : Nat) (k : Kind) (rc : Int) (kids : List Nat) : Prop where
  cell : h.cells p = some ⟨k, rc, kids⟩
  fresh : ∀ a ∈ kids, h0.next ≤ a
  old : p < h0.next
  same : ∀ x, x < h0.next → x ≠ p → h.cells x = h0.cells x
  grows : h0.next ≤ h.next
  above : Above h
  up : Up h0.next h

/-- …, and these have the shapes `ts`. -/
def Mid (h0 h : Heap) (p : Nat) (k : Kind) (rc : Int) (ts : List ObjShape) : Prop := ∃ kids, Raw h0 h p k rc kids ∧ OwnsAll h kids ts

/-- A new object: no parts yet. -/
structure New (h : Heap) (p : Nat) (k : Kind) (rc : Int) : Prop where
  cell : h.cells p = some ⟨k, rc, []⟩
  old : p < h.next
  above : Above h

theorem New.mid {h : Heap} {p : Nat} {k : Kind} {rc : Int} (hn : New h p k rc) : Mid h h p k rc [] :=
  ⟨[], { cell := hn.cell
         fresh := fun a ha => by cases ha
         old := hn.old
         same := fun _ _ _ => rfl
         grows := Nat.le_refl _
         above := hn.above
         up := fun x c hc hx => by rw [hn.above x hx] at hc; cases hc }, .nil⟩

/-- A loading function makes these parts. -/
def Makes {α : Type} (k : Kind) (load : Heap → Nat → α → Res Loaded) (x : α) (ok : Bool) (ts : List ObjShape) : Prop :=
  ∀ h p rc r, New h p k rc → load h p x = .ok r → r.ok = ok ∧ Mid h r.heap p k rc ts

/-! ### Freeing touches nothing below -/

/-- Freeing changes counts and removes objects, nothing else, and only objects from `lo` on if those own nothing below. -/
theorem freeObj_frame {lo : Nat} : ∀ (n : Nat) {h h' : Heap} {a : Nat}, Up lo h → lo ≤ a → freeObj n h a = .ok h' →
    (∀ x, x < lo → h'.cells x = h.cells x) ∧ h'.next = h.next ∧
    ∀ x c', h'.cells x = some c' → ∃ c, h.cells x = some c ∧ c.kids = c'.kids ∧ c.kind = c'.kind
  | 0, _, _, _, _, _, e => by cases e
  | n + 1, h, h', a, hup, hlo, e => by
    rw [freeObj] at e
    cases hc : h.cells a with
    | none => simp only [hc] at e; cases e
    | some c =>
      simp only [hc] at e
      cases hk : ckInt (c.rc - 1) with
      | ub => rw [hk] at e; cases e
      | ok rc =>
        rw [hk, Res.ok_bind] at e
        have s1 : ∀ x, x < lo → (h.set a { c with rc := rc }).cells x = h.cells x := fun x hx => by
          show (if x = a then _ else _) = _
          rw [if_neg (by omega)]
        have s2 : ∀ x c', (h.set a { c with rc := rc }).cells x = some c' → ∃ d, h.cells x = some d ∧ d.kids = c'.kids ∧ d.kind = c'.kind := by
          intro x c' hx
          by_cases hxa : x = a
          · subst hxa
            simp only [Heap.set, if_true] at hx
            injection hx with hx
            subst hx
            exact ⟨c, hc, rfl, rfl⟩
          · simp only [Heap.set, if_neg hxa] at hx
            exact ⟨c', hx, rfl, rfl⟩
        have hup1 : Up lo (h.set a { c with rc := rc }) := by
          intro x c' hx hl k hk
          obtain ⟨d, hd, e1, _⟩ := s2 x c' hx
          exact hup x d hd hl k (e1 ▸ hk)
        split at e
        · have fold : ∀ (l : List Nat) {g g' : Heap}, Up lo g → (∀ k ∈ l, lo ≤ k) → l.foldlM (freeObj n) g = .ok g' →
              (∀ x, x < lo → g'.cells x = g.cells x) ∧ g'.next = g.next ∧
              ∀ x c', g'.cells x = some c' → ∃ c, g.cells x = some c ∧ c.kids = c'.kids ∧ c.kind = c'.kind := by
            intro l
            induction l with
            | nil =>
              intro g g' _ _ e
              cases e
              exact ⟨fun _ _ => rfl, rfl, fun x c' hx => ⟨c', hx, rfl, rfl⟩⟩
            | cons b l ih =>
              intro g g' hg hl e
              rw [List.foldlM_cons] at e
              cases hb : freeObj n g b with
              | ub => rw [hb] at e; cases e
              | ok g1 =>
                rw [hb] at e
                obtain ⟨f1, f2, f3⟩ := freeObj_frame n hg (hl b (List.mem_cons_self ..)) hb
                have hg1 : Up lo g1 := by
                  intro x c' hx hl k hk
                  obtain ⟨d, hd, e1, _⟩ := f3 x c' hx
                  exact hg x d hd hl k (e1 ▸ hk)
                obtain ⟨i1, i2, i3⟩ := ih hg1 (fun k hk => hl k (List.mem_cons_of_mem _ hk)) e
                refine ⟨fun x hx => (i1 x hx).trans (f1 x hx), i2.trans f2, fun x c' hx => ?_⟩
                obtain ⟨d, hd, e1, e2⟩ := i3 x c' hx
                obtain ⟨d', hd', e1', e2'⟩ := f3 x d hd
                exact ⟨d', hd', e1'.trans e1, e2'.trans e2⟩
          cases hf : c.kids.foldlM (freeObj n) (h.set a { c with rc := rc }) with
          | ub => rw [hf] at e; cases e
          | ok g =>
            rw [hf, Res.ok_bind] at e
            obtain ⟨i1, i2, i3⟩ := fold c.kids hup1 (hup a c hc hlo) hf
            cases hg : g.cells a with
            | none => simp only [hg] at e; cases e
            | some d =>
              simp only [hg] at e
              injection e with e
              subst e
              refine ⟨fun x hx => ?_, i2, fun x c' hx => ?_⟩
              · show (if x = a then _ else _) = _
                rw [if_neg (by omega), i1 x hx, s1 x hx]
              · have hxa : x ≠ a := by
                  rintro rfl
                  simp only [Heap.remove, if_true] at hx
                  cases hx
                simp only [Heap.remove, if_neg hxa] at hx
                obtain ⟨d, hd, e1, e2⟩ := i3 x c' hx
                obtain ⟨d', hd', e1', e2'⟩ := s2 x d hd
                exact ⟨d', hd', e1'.trans e1, e2'.trans e2⟩
        · injection e with e
          subst e
          exact ⟨s1, rfl, s2⟩

/-- Freeing keeps what is below, and what was not allocated. -/
theorem free_keeps {lo : Nat} {h h' : Heap} {a : Nat} (hup : Up lo h) (hlo : lo ≤ a) (e : free h a = .ok h') :
    (∀ x, x < lo → h'.cells x = h.cells x) ∧ h'.next = h.next ∧ (∀ m, Up m h → Up m h') ∧ (Above h → Above h') := by
  obtain ⟨f1, f2, f3⟩ := freeObj_frame _ hup hlo e
  refine ⟨f1, f2, fun m hm x c' hx hl k hk => ?_, fun ha x hx => ?_⟩
  · obtain ⟨d, hd, e1, _⟩ := f3 x c' hx
    exact hm x d hd hl k (e1 ▸ hk)
  · cases hc : h'.cells x with
    | none => rfl
    | some c =>
      obtain ⟨d, hd, _⟩ := f3 x c hc
      rw [ha x (by rw [← f2]; exact hx)] at hd
      cases hd

/-! ### Steps of loading -/

variable {h0 h : Heap} {p : Nat} {k : Kind} {rc : Int} {ts : List ObjShape}

theorem owns_live {a : Nat} {t : ObjShape} (ho : Owns h a t) : ∃ c, h.cells a = some c := by
  cases ho with | mk hc _ => exact ⟨_, hc⟩

theorem ownsAll_live : ∀ {as : List Nat} {ts : List ObjShape}, OwnsAll h as ts → ∀ a ∈ as, ∃ c, h.cells a = some c
  | _, [], ho, a, ha => by cases ho; cases ha
  | _, t :: ts, ho, a, ha => by
    cases ho with
    | cons h1 h2 =>
      rcases List.mem_cons.mp ha with rfl | ha
      · exact owns_live h1
      · exact ownsAll_live h2 a ha

theorem alloc_lt (ha : Above h) {a : Nat} (hl : ∃ c, h.cells a = some c) : a < h.next := by
  obtain ⟨c, hc⟩ := hl
  rcases Nat.lt_or_ge a h.next with h1 | h1
  · exact h1
  · rw [ha a h1] at hc; cases hc

/-- The heap is changed above only. -/
theorem Mid.change {h' : Heap} (hm : Mid h0 h p k rc ts) (hsame : ∀ x, x < h.next → h'.cells x = h.cells x)
    (hg : h.next ≤ h'.next) (ha : Above h') (hup : Up h0.next h') : Mid h0 h' p k rc ts := by
  obtain ⟨kids, hr, ho⟩ := hm
  have hgr := hr.grows
  have hold := hr.old
  refine ⟨kids, { cell := ?_, fresh := hr.fresh, old := hold, same := ?_, grows := by omega, above := ha, up := hup }, ?_⟩
  · rw [hsame p (by omega)]; exact hr.cell
  · intro x hx hp
    rw [hsame x (by omega)]
    exact hr.same x hx hp
  · refine ownsAll_frame hr.up ?_ ts ho hr.fresh
    intro x _ hx
    exact hsame x (alloc_lt hr.above hx)

/-- A new object that nobody owns. -/
theorem alloc_new (ha : Above h) (k' : Kind) : New (h.alloc k' []).1 h.next k' 1 where
  cell := by simp only [Heap.alloc, if_true]
  old := Nat.lt_succ_self _
  above := by
    intro x hx
    change h.next + 1 ≤ x at hx
    show (if x = h.next then _ else _) = _
    rw [if_neg (by omega)]
    exact ha x (by omega)

theorem Mid.above (hm : Mid h0 h p k rc ts) : Above h := hm.choose_spec.1.above
theorem Mid.p_lt (hm : Mid h0 h p k rc ts) : p < h.next := Nat.lt_of_lt_of_le hm.choose_spec.1.old hm.choose_spec.1.grows

/-- What is known about the heap after a new object `h.next` was loaded, the rest being as in `h` (`p` aside). -/
structure NewBeside (h h' : Heap) (p : Nat) (k' : Kind) (us : List ObjShape) : Prop where
  same : ∀ x, x < h.next → x ≠ p → h'.cells x = h.cells x
  owned : Owns h' h.next (.node k' us)
  up : Up h.next h'
  above : Above h'
  lt : h.next < h'.next

theorem up_of_mid {h1 h' : Heap} {m : Nat} {k' : Kind} {rc' : Int} {us : List ObjShape} (hm : Mid h1 h' m k' rc' us) (hn : h1.next = m + 1) :
    Up m h' := by
  obtain ⟨kids, hr, _⟩ := hm
  intro x c hx hl b hb
  rcases Nat.eq_or_lt_of_le hl with e | hl'
  · subst e
    rw [hr.cell] at hx
    injection hx with hx
    subst hx
    have := hr.fresh b hb
    omega
  · have := hr.up x c hx (by omega) b hb
    omega

/-- After a new object was made and loaded. -/
theorem made {k' : Kind} {h' : Heap} {us : List ObjShape} (hr : Mid (h.alloc k' []).1 h' h.next k' 1 us) : NewBeside h h' h.next k' us ∧
    ∀ x, x < h.next → h'.cells x = h.cells x := by
  have hup := up_of_mid hr rfl
  obtain ⟨kids, hr, ho⟩ := hr
  have hgr := hr.grows
  change h.next + 1 ≤ h'.next at hgr
  have hsame : ∀ x, x < h.next → h'.cells x = h.cells x := fun x hx => by
    rw [hr.same x (by show x < h.next + 1; omega) (by omega)]
    show (if x = h.next then _ else _) = _
    rw [if_neg (by omega)]
  exact ⟨⟨fun x hx _ => hsame x hx, .mk hr.cell ho, hup, hr.above, by omega⟩, hsame⟩

/-- Up to `lo`, going from a heap that is the same below some higher address. -/
theorem up_below {h' : Heap} {lo m : Nat} (hlo : lo ≤ m) (h1 : Up lo h) (hp : ∀ c, h'.cells p = some c → lo ≤ p → ∀ b ∈ c.kids, lo ≤ b)
    (hsame : ∀ x, x < m → x ≠ p → h'.cells x = h.cells x) (hup : Up m h') : Up lo h' := by
  intro x c hx hl b hb
  by_cases hxp : x = p
  · subst hxp; exact hp c hx hl b hb
  rcases Nat.lt_or_ge x m with h2 | h2
  · rw [hsame x h2 hxp] at hx
    exact h1 x c hx hl b hb
  · have := hup x c hx h2 b hb
    omega

/-- The new object was made and given up: all is as before. -/
theorem Mid.given_up (hm : Mid h0 h p k rc ts) {k' : Kind} {h' : Heap} {us : List ObjShape} (hr : Mid (h.alloc k' []).1 h' h.next k' 1 us) :
    Mid h0 h' p k rc ts := by
  obtain ⟨g, hs⟩ := made hr
  refine hm.change hs (Nat.le_of_lt g.lt) g.above ?_
  obtain ⟨kids, hm, _⟩ := hm
  have := hm.old
  exact up_below (p := p) hm.grows hm.up (fun c _ hl => by omega) (fun x hx _ => hs x hx) g.up

/-- The same after freeing it. -/
theorem Mid.given_back (hm : Mid h0 h p k rc ts) {k' : Kind} {h' h'' : Heap} {us : List ObjShape} (hr : Mid (h.alloc k' []).1 h' h.next k' 1 us)
    (hf : free h' h.next = .ok h'') : Mid h0 h'' p k rc ts := by
  obtain ⟨g, hs⟩ := made hr
  obtain ⟨f1, f2, f3, f4⟩ := free_keeps g.up (Nat.le_refl _) hf
  obtain ⟨_, hm', _⟩ := hm.given_up hr
  refine hm.change (fun x hx => (f1 x hx).trans (hs x hx)) ?_ (f4 g.above) (f3 _ hm'.up)
  rw [f2]
  exact Nat.le_of_lt g.lt

/-- The new object has become a part of `p`. -/
theorem Mid.joined (hm : Mid h0 h p k rc ts) {k' : Kind} {h' : Heap} {us : List ObjShape} (g : NewBeside h h' p k' us)
    (hp : ∀ kids, h.cells p = some ⟨k, rc, kids⟩ → h'.cells p = some ⟨k, rc, kids ++ [h.next]⟩) : Mid h0 h' p k rc (ts ++ [.node k' us]) := by
  obtain ⟨kids, hr, ho⟩ := hm
  have hgr := hr.grows
  have hold := hr.old
  have hlt := g.lt
  refine ⟨kids ++ [h.next], { cell := hp kids hr.cell, fresh := ?_, old := hold, same := ?_, grows := by omega, above := g.above, up := ?_ }, ?_⟩
  · intro a ha
    rcases List.mem_append.mp ha with ha | ha
    · exact hr.fresh a ha
    · rw [List.mem_singleton.mp ha]; exact hgr
  · intro x hx hne
    rw [g.same x (by omega) hne]
    exact hr.same x hx hne
  · exact up_below (p := p) hgr hr.up (fun c _ hl => by omega) g.same g.up
  · refine ownsAll_append (ownsAll_frame hr.up ?_ ts ho hr.fresh) (ownsAll_one g.owned)
    intro x hx hl
    exact g.same x (alloc_lt hr.above hl) (by omega)

/-- Freeing or changing what is not above … `Owns` is kept if everything from an address on is. -/
theorem append_eq_set {a c : Nat} {h' : Heap} {k : Kind} {rc : Int} {kids : List Nat} (hc : h.cells a = some ⟨k, rc, kids⟩) (e : append h a c = .ok h') :
    h' = h.set a ⟨k, rc, kids ++ [c]⟩ := by
  unfold append at e
  simp only [hc] at e
  exact (Res.ok.inj e).symm

/-- Made, loaded, appended. -/
theorem Mid.appended (hm : Mid h0 h p k rc ts) {k' : Kind} {h' h'' : Heap} {us : List ObjShape} (hr : Mid (h.alloc k' []).1 h' h.next k' 1 us)
    (ha : append h' p h.next = .ok h'') : Mid h0 h'' p k rc (ts ++ [.node k' us]) := by
  obtain ⟨g, hs⟩ := made hr
  have hp := hm.p_lt
  obtain ⟨kids, hr0, _⟩ := id hm
  have hc : h'.cells p = some ⟨k, rc, kids⟩ := (hs p hp).trans hr0.cell
  have e := append_eq_set hc ha
  have hne : ∀ x, x ≠ p → h''.cells x = h'.cells x := fun x hx => by
    rw [e]; show (if x = p then _ else _) = _; rw [if_neg hx]
  have hcp : h''.cells p = some ⟨k, rc, kids ++ [h.next]⟩ := by
    rw [e]; show (if p = p then _ else _) = _; rw [if_pos rfl]
  refine hm.joined (h' := h'') ⟨fun x hx hxp => (hne x hxp).trans (hs x hx), ?_, ?_, ?_, ?_⟩ ?_
  · refine owns_frame g.up (fun x hx _ => hne x (by omega)) _ g.owned (Nat.le_refl _)
  · intro x c hx hl
    rw [hne x (by omega)] at hx
    exact g.up x c hx hl
  · intro x hx
    have : h''.next = h'.next := by rw [e]; rfl
    have := g.lt
    rw [hne x (by omega)]
    exact g.above x (by omega)
  · rw [e]; exact g.lt
  · intro kids' hk
    rw [hr0.cell] at hk
    injection hk with hk
    injection hk with _ _ hk
    subst hk
    exact hcp

/-- Made, appended, then loaded. -/
theorem Mid.into (hm : Mid h0 h p k rc ts) {k' : Kind} {h1 : Heap} (ha : append (h.alloc k' []).1 p h.next = .ok h1) :
    New h1 h.next k' 1 ∧ ∀ {h' : Heap} {us : List ObjShape}, Mid h1 h' h.next k' 1 us → Mid h0 h' p k rc (ts ++ [.node k' us]) ∧
      NewBeside h h' p k' us ∧ ∀ kids, h.cells p = some ⟨k, rc, kids⟩ → h'.cells p = some ⟨k, rc, kids ++ [h.next]⟩ := by
  have hp := hm.p_lt
  obtain ⟨kids, hr0, _⟩ := id hm
  have n := alloc_new (h := h) hr0.above k'
  have hc : (h.alloc k' []).1.cells p = some ⟨k, rc, kids⟩ := by
    show (if p = h.next then _ else _) = _
    rw [if_neg (by omega)]
    exact hr0.cell
  have e := append_eq_set hc ha
  have hnext : h1.next = h.next + 1 := by rw [e]; rfl
  have hne : ∀ x, x ≠ p → h1.cells x = (h.alloc k' []).1.cells x := fun x hx => by
    rw [e]; show (if x = p then _ else _) = _; rw [if_neg hx]
  have hcp : h1.cells p = some ⟨k, rc, kids ++ [h.next]⟩ := by
    rw [e]; show (if p = p then _ else _) = _; rw [if_pos rfl]
  refine ⟨⟨by rw [hne _ (by omega)]; exact n.cell, by omega, fun x hx => ?_⟩, fun {h' us} hm' => ?_⟩
  · rw [hne x (by omega)]
    exact n.above x (by show h.next + 1 ≤ x; omega)
  · have hup := up_of_mid hm' hnext
    obtain ⟨ks, hr', ho'⟩ := hm'
    have hgr := hr'.grows
    have hsame : ∀ x, x < h.next → h'.cells x = h1.cells x := fun x hx => hr'.same x (by omega) (by omega)
    have g : NewBeside h h' p k' us := by
      refine ⟨fun x hx hxp => ?_, .mk hr'.cell ho', hup, hr'.above, by omega⟩
      rw [hsame x hx, hne x hxp]
      show (if x = h.next then _ else _) = _
      rw [if_neg (by omega)]
    have hpc : ∀ kids, h.cells p = some ⟨k, rc, kids⟩ → h'.cells p = some ⟨k, rc, kids ++ [h.next]⟩ := by
      intro kids' hk
      rw [hr0.cell] at hk
      injection hk with hk
      injection hk with _ _ hk
      subst hk
      rw [hsame p hp]
      exact hcp
    exact ⟨hm.joined g hpc, g, hpc⟩

/-- Releasing a part. -/
theorem Raw.release {kids : List Nat} (hr : Raw h0 h p k rc kids) {m : Nat} (hm : m ∈ kids) {h' : Heap} (e : release h p m = .ok h') :
    Raw h0 h' p k rc (kids.erase m) ∧ ∀ lo, lo ≤ m → p < lo → Up lo h → ∀ x, x < lo → x ≠ p → h'.cells x = h.cells x := by
  have hu : unlink h p m = h.set p ⟨k, rc, kids.erase m⟩ := by
    unfold unlink
    simp only [hr.cell]
  have hold := hr.old
  unfold Refs.release at e
  rw [hu] at e
  have hne : ∀ x, x ≠ p → (h.set p ⟨k, rc, kids.erase m⟩).cells x = h.cells x := fun x hx => by
    show (if x = p then _ else _) = _; rw [if_neg hx]
  have hup : ∀ lo, p < lo → Up lo h → Up lo (h.set p ⟨k, rc, kids.erase m⟩) := fun lo hlo hu x c hx hl => by
    rw [hne x (by omega)] at hx
    exact hu x c hx hl
  have hm0 := hr.fresh m hm
  obtain ⟨f1, f2, f3, f4⟩ := free_keeps (hup h0.next hold hr.up) hm0 e
  refine ⟨⟨?_, fun a ha => hr.fresh a (List.mem_of_mem_erase ha), hold, fun x hx hxp => ?_, ?_, f4 ?_, f3 _ (hup _ hold hr.up)⟩, ?_⟩
  · rw [f1 p hold]
    show (if p = p then _ else _) = _
    rw [if_pos rfl]
  · rw [f1 x hx, hne x hxp]
    exact hr.same x hx hxp
  · rw [f2]; exact hr.grows
  · intro x hx
    have := hr.grows
    change h.next ≤ x at hx
    rw [hne x (by omega)]
    exact hr.above x hx
  · intro lo hlo hpl hu x hx hxp
    obtain ⟨f1, -, -, -⟩ := free_keeps (hup lo hpl hu) hlo e
    rw [f1 x hx, hne x hxp]

/-- Made, appended, loaded, released. -/
theorem Mid.released (hm : Mid h0 h p k rc ts) {k' : Kind} {h1 h' h'' : Heap} {us : List ObjShape} (ha : append (h.alloc k' []).1 p h.next = .ok h1)
    (hm' : Mid h1 h' h.next k' 1 us) (e : release h' p h.next = .ok h'') : Mid h0 h'' p k rc ts := by
  obtain ⟨-, key⟩ := hm.into ha
  obtain ⟨hj, g, hpc⟩ := key hm'
  obtain ⟨kids, hr, ho⟩ := id hm
  have hpl := hm.p_lt
  have hlt : ∀ a ∈ kids, a < h.next := fun a ha => alloc_lt hr.above (ownsAll_live ho a ha)
  have hcell := hpc kids hr.cell
  obtain ⟨ks, hrj, hoj⟩ := hj
  have hks : ks = kids ++ [h.next] := by
    have := hrj.cell.symm.trans hcell
    injection this with this
    injection this
  subst hks
  obtain ⟨hr2, hk⟩ := hrj.release (List.mem_append.mpr (.inr (List.mem_singleton.mpr rfl))) e
  have her : (kids ++ [h.next]).erase h.next = kids := by
    rw [List.erase_append_right _ (fun hh => Nat.lt_irrefl _ (hlt _ hh))]
    simp
  rw [her] at hr2
  refine ⟨kids, hr2, ownsAll_frame hr.up ?_ ts ho hr.fresh⟩
  intro x hx hl
  have hxl := alloc_lt hr.above hl
  have := hr.old
  rw [hk h.next (Nat.le_refl _) hpl g.up x hxl (by omega), g.same x hxl (by omega)]

/-- No part of this kind. -/
def kindOf : ObjShape → Kind
  | .node k _ => k

theorem owns_kind {a : Nat} {t : ObjShape} (ho : Owns h a t) : ∃ c, h.cells a = some c ∧ c.kind = kindOf t := by
  cases ho with | mk hc _ => exact ⟨_, hc, rfl⟩

theorem ownsAll_find {k' : Kind} : ∀ {as : List Nat} {ts : List ObjShape}, OwnsAll h as ts → (∀ t ∈ ts, kindOf t ≠ k') →
    (as.find? fun a => match h.cells a with | some c => c.kind == k' | none => false) = none
  | _, [], ho, _ => by cases ho; rfl
  | _, t :: ts, ho, hk => by
    cases ho with
    | cons h1 h2 =>
      obtain ⟨c, hc, e⟩ := owns_kind h1
      rw [List.find?_cons_of_neg]
      · exact ownsAll_find h2 fun t ht => hk t (List.mem_cons_of_mem _ ht)
      · simp only [hc, beq_iff_eq]
        rw [e]
        exact hk t (List.mem_cons_self ..)

theorem Mid.no_part (hm : Mid h0 h p k rc ts) {k' : Kind} (hk : ∀ t ∈ ts, kindOf t ≠ k') : part h p k' = none := by
  obtain ⟨kids, hr, ho⟩ := hm
  unfold part
  simp only [hr.cell]
  exact ownsAll_find ho hk

theorem Mid.no_drop (hm : Mid h0 h p k rc ts) {k' : Kind} (hk : ∀ t ∈ ts, kindOf t ≠ k') : dropPart h p k' = .ok h := by
  unfold dropPart
  rw [hm.no_part hk]

end Afs.Objects
