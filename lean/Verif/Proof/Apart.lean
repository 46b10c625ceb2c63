import Verif.Proof.RefsLoad5
import Verif.Spec.Apart
/-!
# Frame lemmas for every operation on the heap
-/
namespace Afs.Apart
open Afs Afs.Spec Afs.Refs

variable {S : Nat → Prop} {h h' h'' : Heap}

/-- The objects of `S` are below the next address, and nothing outside points at them. -/
structure Side (S : Nat → Prop) (h : Heap) : Prop where
  below : ∀ x, S x → x < h.next
  apart : ∀ x c, h.cells x = some c → ¬ S x → ∀ k ∈ c.kids, ¬ S k

structure Stays (S : Nat → Prop) (h h' : Heap) : Prop where
  side : Side S h'
  next : h.next ≤ h'.next
  same : ∀ x, S x → h'.cells x = h.cells x

theorem Stays.refl (hs : Side S h) : Stays S h h := ⟨hs, Nat.le_refl _, fun _ _ => rfl⟩

theorem Stays.trans (h1 : Stays S h h') (h2 : Stays S h' h'') : Stays S h h'' :=
  ⟨h2.side, Nat.le_trans h1.next h2.next, fun x hx => by rw [h2.same x hx, h1.same x hx]⟩

theorem bind_inv {α β : Type} {x : Res α} {f : α → Res β} {y : β} (e : (x >>= f) = .ok y) : ∃ a, x = .ok a ∧ f a = .ok y := by
  cases x with
  | ub => cases e
  | ok a => exact ⟨a, rfl, e⟩

theorem Side.fresh (hs : Side S h) : ¬ S h.next := fun hx => Nat.lt_irrefl _ (hs.below _ hx)

theorem set_stays (hs : Side S h) {a : Nat} {c : Cell} (ha : ¬ S a) (hk : ∀ k ∈ c.kids, ¬ S k) : Stays S h (h.set a c) := by
  refine ⟨⟨hs.below, fun x d hd hx => ?_⟩, Nat.le_refl _, fun x hx => ?_⟩
  · rw [set_cells] at hd
    split at hd
    · cases hd; exact hk
    · exact hs.apart x d hd hx
  · rw [set_cells, if_neg (fun e => ha (by rw [← e]; exact hx))]

theorem alloc_stays (hs : Side S h) (k : Kind) {parts : List Nat} (hk : ∀ k ∈ parts, ¬ S k) : Stays S h (h.alloc k parts).1 := by
  have hcell : ∀ x, (h.alloc k parts).1.cells x = if x = h.next then some ⟨k, 1, parts⟩ else h.cells x := fun _ => rfl
  refine ⟨⟨fun x hx => Nat.lt_succ_of_lt (hs.below x hx), fun x d hd hx => ?_⟩, Nat.le_succ _, fun x hx => ?_⟩
  · rw [hcell] at hd
    split at hd
    · cases hd; exact hk
    · exact hs.apart x d hd hx
  · rw [hcell, if_neg (fun e => hs.fresh (by rw [← e]; exact hx))]

theorem new_stays (hs : Side S h) (k : Kind) : Stays S h (h.alloc k []).1 := alloc_stays hs k (fun _ hk => nomatch hk)

theorem freeObj_next : ∀ (n : Nat) (h : Heap) (a : Nat) (h' : Heap), freeObj n h a = .ok h' → h'.next = h.next := by
  intro n
  induction n with
  | zero => intro h a h' e; rw [freeObj] at e; cases e
  | succ n ih =>
    intro h a h' e
    rw [freeObj] at e
    cases hx : h.cells a with
    | none => rw [hx] at e; cases e
    | some c =>
      rw [hx] at e
      obtain ⟨rc, -, e⟩ := bind_inv e
      have hfold : ∀ (ks : List Nat) (g g' : Heap), ks.foldlM (freeObj n) g = .ok g' → g'.next = g.next := by
        intro ks
        induction ks with
        | nil => intro g g' e; cases e; rfl
        | cons k ks ihk =>
          intro g g' e
          rw [List.foldlM_cons] at e
          obtain ⟨g1, e1, e2⟩ := bind_inv e
          rw [ihk g1 g' e2, ih g k g1 e1]
      dsimp only at e
      split at e
      · obtain ⟨g, e1, e2⟩ := bind_inv e
        have hg := hfold _ _ _ e1
        cases hga : g.cells a with
        | none => rw [hga] at e2; cases e2
        | some z => rw [hga] at e2; cases e2; exact hg
      · cases e; rfl

theorem free_stays (hs : Side S h) {a : Nat} (ha : ¬ S a) (e : free h a = .ok h') : Stays S h h' := by
  have hcl : Closed h (fun x => ¬ S x) := fun x c hc hx => hs.apart x c hc hx
  obtain ⟨h1, h2⟩ := freeObj_frame (fun x => ¬ S x) maxDepth h a h' hcl ha e
  have hn := freeObj_next maxDepth h a h' e
  refine ⟨⟨fun x hx => by rw [hn]; exact hs.below x hx, fun x c hc hx => h1 x c hc hx⟩, by rw [hn]; exact Nat.le_refl _, fun x hx => h2 x (fun hn => hn hx)⟩

theorem append_stays (hs : Side S h) {p c : Nat} (hp : ¬ S p) (hc : ¬ S c) (e : append h p c = .ok h') : Stays S h h' := by
  rw [append] at e
  cases hx : h.cells p with
  | none => rw [hx] at e; cases e
  | some d =>
    rw [hx] at e; cases e
    refine set_stays hs hp fun k hk => ?_
    rcases List.mem_append.mp hk with hk | hk
    · exact hs.apart p d hx hp k hk
    · rw [List.mem_singleton] at hk; rw [hk]; exact hc

theorem unlink_stays (hs : Side S h) {f : Nat} (hf : ¬ S f) (old : Nat) : Stays S h (unlink h f old) := by
  rw [unlink]
  cases hx : h.cells f with
  | none => exact Stays.refl hs
  | some d =>
    exact set_stays hs hf fun k hk => hs.apart f d hx hf k (List.mem_of_mem_erase hk)

theorem part_out (hs : Side S h) {p m : Nat} {k : Kind} (hp : ¬ S p) (e : part h p k = some m) : ¬ S m := by
  rw [part] at e
  cases hx : h.cells p with
  | none => rw [hx] at e; cases e
  | some d =>
    rw [hx] at e
    exact hs.apart p d hx hp m (List.mem_of_find?_eq_some e)

theorem dropPart_stays (hs : Side S h) {p : Nat} {k : Kind} (hp : ¬ S p) (e : dropPart h p k = .ok h') : Stays S h h' := by
  rw [dropPart] at e
  cases hm : part h p k with
  | none => rw [hm] at e; cases e; exact Stays.refl hs
  | some m =>
    rw [hm] at e
    have h1 := unlink_stays hs hp m
    exact h1.trans (free_stays h1.side (part_out hs hp hm) e)

theorem release_stays (hs : Side S h) {p m : Nat} (hp : ¬ S p) (hm : ¬ S m) (e : release h p m = .ok h') : Stays S h h' :=
  have h1 := unlink_stays hs hp m
  h1.trans (free_stays h1.side hm e)

theorem releaseIf_stays (hs : Side S h) {b : Bool} {p m : Nat} (hp : ¬ S p) (hm : ¬ S m) (e : releaseIf b h p m = .ok h') : Stays S h h' := by
  rw [releaseIf] at e
  split at e
  · exact release_stays hs hp hm e
  · cases e; exact Stays.refl hs

theorem overwrite_stays (hs : Side S h) {p m : Nat} {old : Option Nat} {r : Heap × List Nat} (hp : ¬ S p) (hm : ¬ S m)
    (e : overwrite h p old m = .ok r) : Stays S h r.1 := by
  rw [overwrite.eq_def] at e
  cases old with
  | none =>
    obtain ⟨h1, e1, e2⟩ := bind_inv e
    cases e2
    exact append_stays hs hp hm e1
  | some o =>
    obtain ⟨h1, e1, e2⟩ := bind_inv e
    cases e2
    have h2 := unlink_stays hs hp o
    exact h2.trans (append_stays h2.side hp hm e1)

theorem cloneObj_stays : ∀ (n : Nat) (h : Heap) (a : Nat) (r : Heap × Nat), Side S h → cloneObj n h a = .ok r →
    Stays S h r.1 ∧ h.next ≤ r.2 ∧ ¬ S r.2 := by
  intro n
  induction n with
  | zero => intro h a r _ e; rw [cloneObj] at e; cases e
  | succ n ih =>
    intro h a r hs e
    rw [cloneObj] at e
    cases hx : h.cells a with
    | none => rw [hx] at e; cases e
    | some c =>
      rw [hx] at e
      obtain ⟨s, e1, e2⟩ := bind_inv e
      have hfold : ∀ (ks : List Nat) (g g' : Heap × List Nat), Side S g.1 → (∀ k ∈ g.2, ¬ S k) →
          ks.foldlM (fun (s : Heap × List Nat) k => do
            let (h, k') ← cloneObj n s.1 k
            .ok (h, s.2 ++ [k'])) g = .ok g' → Stays S g.1 g'.1 ∧ ∀ k ∈ g'.2, ¬ S k := by
        intro ks
        induction ks with
        | nil => intro g g' hg hk e; cases e; exact ⟨Stays.refl hg, hk⟩
        | cons k ks ihk =>
          intro g g' hg hk e
          rw [List.foldlM_cons] at e
          obtain ⟨g1, e1, e2⟩ := bind_inv e
          obtain ⟨q, e3, e4⟩ := bind_inv e1
          obtain ⟨h1, h2, h3⟩ := ih g.1 k q hg e3
          obtain ⟨q1, q2⟩ := q
          cases e4
          obtain ⟨h4, h5⟩ := ihk _ g' h1.side (fun k' hk' => by
            rcases List.mem_append.mp hk' with hk' | hk'
            · exact hk k' hk'
            · rw [List.mem_singleton] at hk'; rw [hk']; exact h3) e2
          exact ⟨h1.trans h4, h5⟩
      obtain ⟨h1, h2⟩ := hfold c.kids _ _ hs (fun _ hk => absurd hk List.not_mem_nil) e1
      obtain ⟨s1, s2⟩ := s
      cases e2
      exact ⟨h1.trans (alloc_stays h1.side c.kind h2), h1.next, h1.side.fresh⟩

theorem clone_stays (hs : Side S h) {a : Nat} {r : Heap × Nat} (e : clone h a = .ok r) : Stays S h r.1 ∧ ¬ S r.2 :=
  have h1 := cloneObj_stays maxDepth h a r hs e
  ⟨h1.1, h1.2.2⟩

theorem ensurePart_stays (hs : Side S h) {p : Nat} {k : Kind} {r : Heap × Nat} (hp : ¬ S p) (e : ensurePart h p k = .ok r) :
    Stays S h r.1 ∧ ¬ S r.2 := by
  rw [ensurePart] at e
  cases hx : h.cells p with
  | none => rw [hx] at e; cases e
  | some d =>
    rw [hx] at e
    dsimp only at e
    cases hm : part h p k with
    | some m => rw [hm] at e; cases e; exact ⟨Stays.refl hs, part_out hs hp hm⟩
    | none =>
      rw [hm] at e
      cases e
      have h1 := new_stays hs k
      refine ⟨h1.trans (set_stays h1.side hp fun k' hk' => ?_), hs.fresh⟩
      rcases List.mem_append.mp hk' with hk' | hk'
      · exact hs.apart p d hx hp k' hk'
      · rw [List.mem_singleton] at hk'; rw [hk']; exact hs.fresh

theorem addInner_stays (hs : Side S h) {p c : Nat} {k : Kind} {o : Outcome} (hp : ¬ S p) (hc : ¬ S c) (e : addInner h p k c o = .ok h') :
    Stays S h h' := by
  rw [addInner.eq_def] at e
  cases hx : h.cells p with
  | none => rw [hx] at e; cases e
  | some d =>
    cases hy : h.cells c with
    | none => rw [hx, hy] at e; cases e
    | some d' =>
      rw [hx, hy] at e
      cases o with
      | refused => cases e; exact Stays.refl hs
      | refusedByInner =>
        obtain ⟨r, e1, e2⟩ := bind_inv e
        obtain ⟨r1, r2⟩ := r
        cases e2
        exact (ensurePart_stays hs hp e1).1
      | accepted =>
        obtain ⟨r, e1, e2⟩ := bind_inv e
        obtain ⟨r1, r2⟩ := r
        obtain ⟨h1, h2⟩ := ensurePart_stays hs hp e1
        exact h1.trans (append_stays h1.side h2 hc e2)

theorem setPart_stays (hs : Side S h) {f : Nat} {k : Kind} {x : Option Nat} (hf : ¬ S f) (e : setPart h f k x = .ok h') : Stays S h h' := by
  rw [setPart] at e
  cases hx : h.cells f with
  | none => rw [hx] at e; cases e
  | some d =>
    rw [hx] at e
    obtain ⟨h1, e1, e2⟩ := bind_inv e
    have g1 := dropPart_stays hs hf e1
    cases x with
    | none => cases e2; exact g1
    | some x =>
      obtain ⟨r, e3, e4⟩ := bind_inv e2
      obtain ⟨r1, r2⟩ := r
      obtain ⟨g2, g3⟩ := clone_stays g1.side e3
      exact (g1.trans g2).trans (append_stays g2.side hf g3 e4)

theorem addClones_stays {t : Nat} (ht : ¬ S t) : ∀ (ds : List Nat) (h : Heap) (oks : List Bool) (r : Heap × Bool), Side S h →
    addClones h t ds oks = .ok r → Stays S h r.1 := by
  intro ds
  induction ds with
  | nil => intro h oks r hs e; rw [addClones] at e; cases e; exact Stays.refl hs
  | cons d ds ih =>
    intro h oks r hs e
    rw [addClones] at e
    obtain ⟨q, e1, e2⟩ := bind_inv e
    obtain ⟨q1, q2⟩ := q
    obtain ⟨g1, g2⟩ := clone_stays hs e1
    have refused : ∀ {r : Heap × Bool}, (do
        let h ← addInner q1 t .layoutDefs q2 .refusedByInner
        let h ← free h q2
        .ok (h, false)) = Res.ok r → Stays S h r.1 := by
      intro r e
      obtain ⟨h1, e3, e4⟩ := bind_inv e
      obtain ⟨h2, e5, e6⟩ := bind_inv e4
      cases e6
      have g3 := addInner_stays g1.side ht g2 e3
      exact (g1.trans g3).trans (free_stays g3.side g2 e5)
    cases oks with
    | nil => exact refused e2
    | cons ok oks =>
      cases ok with
      | false => exact refused e2
      | true =>
        obtain ⟨h1, e3, e4⟩ := bind_inv e2
        have g3 := addInner_stays g1.side ht g2 e3
        exact (g1.trans g3).trans (ih h1 oks r g3.side e4)

theorem addLayouts_stays (hs : Side S h) {t d : Nat} {oks : List Bool} (ht : ¬ S t) (e : addLayouts h t d oks = .ok h') : Stays S h h' := by
  rw [addLayouts] at e
  cases hx : h.cells t with
  | none => rw [hx] at e; cases e
  | some c =>
    cases hy : h.cells d with
    | none => rw [hx, hy] at e; cases e
    | some c' =>
      rw [hx, hy] at e
      dsimp only at e
      split at e
      · cases e; exact Stays.refl hs
      · obtain ⟨r, e1, e2⟩ := bind_inv e
        obtain ⟨r1, r2⟩ := r
        obtain ⟨q, e3, e4⟩ := bind_inv e2
        obtain ⟨q1, q2⟩ := q
        cases e4
        have g1 := (ensurePart_stays hs ht e1).1
        exact g1.trans (addClones_stays ht c'.kids r1 oks _ g1.side e3)

/-! ## Loading -/

/-- A loader that works on the object it is given and on new objects only. -/
def LoadStays (S : Nat → Prop) {α : Type} (load : Heap → Nat → α → Res Loaded) : Prop :=
  ∀ (h : Heap) (p : Nat) (x : α) (r : Loaded), Side S h → ¬ S p → load h p x = .ok r → Stays S h r.heap

theorem leaf_stays : LoadStays S loadLeaf := by
  intro h p x r hs hp e
  rw [loadLeaf] at e
  cases hx : h.cells p with
  | none => rw [hx] at e; cases e
  | some d => rw [hx] at e; cases e; exact Stays.refl hs

theorem list_stays {α : Type} {k : Kind} {frees : Bool} {load : Heap → Nat → α → Res Loaded} (hl : LoadStays S load) {p : Nat} (hp : ¬ S p) :
    ∀ (l : List (α × Bool)) (h : Heap) (r : Loaded), Side S h → loadList k frees load p h l = .ok r → Stays S h r.heap := by
  intro l
  induction l with
  | nil => intro h r hs e; rw [loadList] at e; cases e; exact Stays.refl hs
  | cons x l ih =>
    intro h r hs e
    obtain ⟨x, accepted⟩ := x
    rw [loadList] at e
    obtain ⟨q, e1, e2⟩ := bind_inv e
    have g1 := new_stays hs k
    have g2 := g1.trans (hl _ _ _ _ g1.side hs.fresh e1)
    split at e2
    · split at e2
      · obtain ⟨h1, e3, e4⟩ := bind_inv e2
        cases e4
        exact g2.trans (free_stays g2.side hs.fresh e3)
      · cases e2; exact g2
    · split at e2
      · obtain ⟨h1, e3, e4⟩ := bind_inv e2
        obtain ⟨s, e5, e6⟩ := bind_inv e4
        cases e6
        have g3 := append_stays g2.side hp hs.fresh e3
        have g4 := ih _ _ g3.side e5
        exact (g2.trans g3).trans g4
      · obtain ⟨h1, e3, e4⟩ := bind_inv e2
        cases e4
        exact g2.trans (free_stays g2.side hs.fresh e3)

theorem container_stays {α : Type} (k : Kind) (frees : Bool) {load : Heap → Nat → α → Res Loaded} (hl : LoadStays S load) :
    LoadStays S (loadContainer k frees load) := by
  intro h p plan r hs hp e
  rw [loadContainer.eq_def] at e
  cases hx : h.cells p with
  | none => rw [hx] at e; cases e
  | some d =>
    rw [hx] at e
    cases plan with
    | none => cases e; exact Stays.refl hs
    | some l => exact list_stays hl hp l h r hs e

theorem preview_stays : LoadStays S loadPreview := container_stays _ _ leaf_stays
theorem fileMeta_stays : LoadStays S loadFileMeta := container_stays _ _ leaf_stays
theorem tocMeta_stays : LoadStays S loadTocMeta := container_stays _ _ leaf_stays
theorem sections_stays : LoadStays S loadSections := container_stays _ _ leaf_stays

theorem part_stays {α : Type} (k : Kind) {load : Heap → Nat → α → Res Loaded} (hl : LoadStays S load) : LoadStays S (loadPart k load) := by
  intro h p plan r hs hp e
  rw [loadPart.eq_def] at e
  cases plan with
  | none => cases e; exact Stays.refl hs
  | some x =>
    obtain ⟨q, e1, e2⟩ := bind_inv e
    have g1 := new_stays hs k
    have g2 := g1.trans (hl _ _ _ _ g1.side hs.fresh e1)
    split at e2
    · obtain ⟨h1, e3, e4⟩ := bind_inv e2
      cases e4
      exact g2.trans (free_stays g2.side hs.fresh e3)
    · obtain ⟨o, e3, e4⟩ := bind_inv e2
      obtain ⟨o1, o2⟩ := o
      cases e4
      exact g2.trans (overwrite_stays (r := (o1, o2)) g2.side hp hs.fresh e3)

theorem file_stays : LoadStays S loadFile := by
  intro h p plan r hs hp e
  rw [loadFile.eq_def] at e
  cases hx : h.cells p with
  | none => rw [hx] at e; cases e
  | some d =>
    rw [hx] at e
    cases plan with
    | none => cases e; exact Stays.refl hs
    | some x =>
      obtain ⟨q, e1, e2⟩ := bind_inv e
      have g1 := part_stays .preview preview_stays _ _ _ _ hs hp e1
      split at e2
      · cases e2; exact g1
      · obtain ⟨s, e3, e4⟩ := bind_inv e2
        have g2 := part_stays .fileMeta fileMeta_stays _ _ _ _ g1.side hp e3
        cases e4
        exact g1.trans g2

theorem files_stays : LoadStays S loadFiles := fun h p x r hs hp e => container_stays .file false file_stays h p (some x) r hs hp e

theorem into_stays {α : Type} {k : Kind} {load : Heap → Nat → α → Res Loaded} (hl : LoadStays S load) {p : Nat} {old : Option Nat} {x : α}
    {r : Loaded} (hs : Side S h) (hp : ¬ S p) (e : loadInto k load h p old x = .ok r) : Stays S h r.heap := by
  rw [loadInto] at e
  obtain ⟨o, e1, e2⟩ := bind_inv e
  obtain ⟨o1, o2⟩ := o
  obtain ⟨q, e3, e4⟩ := bind_inv e2
  have g1 := new_stays hs k
  have g2 := g1.trans (overwrite_stays (r := (o1, o2)) g1.side hp hs.fresh e1)
  have g3 := hl o1 _ _ _ g2.side hs.fresh e3
  cases e4
  exact g2.trans g3

theorem reel_stays : LoadStays S loadReel := by
  intro h p plan r hs hp e
  rw [loadReel.eq_def] at e
  cases hx : h.cells p with
  | none => rw [hx] at e; cases e
  | some d =>
    rw [hx] at e
    cases plan with
    | none => cases e; exact Stays.refl hs
    | some y =>
      cases y with
      | none => cases e; exact Stays.refl hs
      | some l => exact into_stays files_stays hs hp e

theorem reels_stays : LoadStays S loadReels := fun h p x r hs hp e => container_stays .reel false reel_stays h p (some x) r hs hp e

theorem layout_stays : LoadStays S loadLayout := by
  intro h p plan r hs hp e
  rw [loadLayout.eq_def] at e
  cases hx : h.cells p with
  | none => rw [hx] at e; cases e
  | some d =>
    rw [hx] at e
    cases plan with
    | none => cases e; exact Stays.refl hs
    | some l => exact into_stays sections_stays hs hp e

theorem layouts_stays : LoadStays S loadLayouts := fun h p x r hs hp e => container_stays .layoutDef false layout_stays h p x r hs hp e

theorem replace_stays {α : Type} (k : Kind) {load : Heap → Nat → α → Res Loaded} (hl : LoadStays S load) : LoadStays S (loadReplace k load) := by
  intro h p plan r hs hp e
  rw [loadReplace.eq_def] at e
  cases plan with
  | none => cases e; exact Stays.refl hs
  | some x =>
    obtain ⟨q, e1, e2⟩ := bind_inv e
    have g1 := new_stays hs k
    have g2 := g1.trans (hl _ _ _ _ g1.side hs.fresh e1)
    split at e2
    · obtain ⟨h1, e3, e4⟩ := bind_inv e2
      cases e4
      exact g2.trans (free_stays g2.side hs.fresh e3)
    · obtain ⟨h1, e3, e4⟩ := bind_inv e2
      obtain ⟨h2, e5, e6⟩ := bind_inv e4
      cases e6
      have g3 := g2.trans (dropPart_stays g2.side hp e3)
      exact g3.trans (append_stays g3.side hp hs.fresh e5)

theorem dropUnless_stays (hs : Side S h) {b : Bool} {p : Nat} {k : Kind} (hp : ¬ S p) (e : dropUnless b h p k = .ok h') : Stays S h h' := by
  rw [dropUnless] at e
  split at e
  · cases e; exact Stays.refl hs
  · exact dropPart_stays hs hp e

theorem toc_stays : LoadStays S loadToc := by
  intro h p plan r hs hp e
  rw [loadToc.eq_def] at e
  cases hx : h.cells p with
  | none => rw [hx] at e; cases e
  | some d =>
    rw [hx] at e
    cases plan with
    | none => cases e; exact Stays.refl hs
    | some x =>
      obtain ⟨a, e1, e2⟩ := bind_inv e
      have g1 := replace_stays .tocMeta tocMeta_stays _ _ _ _ hs hp e1
      split at e2
      · cases e2; exact g1
      · obtain ⟨b, e3, e4⟩ := bind_inv e2
        have g2 := g1.trans (replace_stays .layoutDefs layouts_stays _ _ _ _ g1.side hp e3)
        split at e4
        · cases e4; exact g2
        · obtain ⟨c, e5, e6⟩ := bind_inv e4
          have g3 := g2.trans (replace_stays .reels reels_stays _ _ _ _ g2.side hp e5)
          split at e6
          · cases e6; exact g3
          · obtain ⟨h1, e7, e8⟩ := bind_inv e6
            obtain ⟨h2, e9, e10⟩ := bind_inv e8
            obtain ⟨h3, e11, e12⟩ := bind_inv e10
            cases e12
            have g4 := g3.trans (dropUnless_stays g3.side hp e7)
            have g5 := g4.trans (dropUnless_stays g4.side hp e9)
            exact g5.trans (dropUnless_stays g5.side hp e11)

theorem apps_stays {x : TechPlan} {lost : List Nat} {p : Nat} {r : Loaded} (hs : Side S h) (hp : ¬ S p)
    (e : loadTech.loadApps x lost h p = .ok r) : Stays S h r.heap := by
  rw [loadTech.loadApps.eq_def] at e
  cases ha : x.apps with
  | none => rw [ha] at e; cases e; exact Stays.refl hs
  | some l =>
    rw [ha] at e
    obtain ⟨s, e1, e2⟩ := bind_inv e
    obtain ⟨h1, e3, e4⟩ := bind_inv e2
    cases e4
    have g1 := into_stays files_stays hs hp e1
    exact g1.trans (releaseIf_stays g1.side hp hs.fresh e3)

theorem tech_stays : LoadStays S loadTech := by
  intro h p plan r hs hp e
  rw [loadTech.eq_def] at e
  cases hx : h.cells p with
  | none => rw [hx] at e; cases e
  | some d =>
    rw [hx] at e
    cases plan with
    | none => cases e; exact Stays.refl hs
    | some x =>
      obtain ⟨a, e1, e2⟩ := bind_inv e
      obtain ⟨h1, e3, e4⟩ := bind_inv e2
      have g1 := into_stays leaf_stays hs hp e1
      have g2 := g1.trans (releaseIf_stays g1.side hp hs.fresh e3)
      cases ht : x.tocs with
      | none => rw [ht] at e4; exact g2.trans (apps_stays g2.side hp e4)
      | some l =>
        rw [ht] at e4
        obtain ⟨b, e5, e6⟩ := bind_inv e4
        have g3 := g2.trans (into_stays files_stays g2.side hp e5)
        split at e6
        · exact g3.trans (apps_stays g3.side hp e6)
        · obtain ⟨h2, e7, e8⟩ := bind_inv e6
          obtain ⟨h3, e9, e10⟩ := bind_inv e8
          cases e10
          have g4 := g3.trans (releaseIf_stays g3.side hp hs.fresh e7)
          exact g4.trans (release_stays g4.side hp g2.side.fresh e9)

theorem fresh_stays {α : Type} (k : Kind) {load : Heap → Nat → α → Res Loaded} (hl : LoadStays S load) : LoadStays S (loadFresh k load) := by
  intro h p x r hs hp e
  rw [loadFresh] at e
  obtain ⟨h1, e1, e2⟩ := bind_inv e
  obtain ⟨h2, e3, e4⟩ := bind_inv e2
  have g1 := dropPart_stays hs hp e1
  have g2 := g1.trans (new_stays g1.side k)
  have g3 := g2.trans (append_stays g2.side hp g1.side.fresh e3)
  exact g3.trans (hl _ _ _ _ g3.side g1.side.fresh e4)

theorem control_stays {a : Bool} {t : Option (Option TechPlan)} {p : Nat} {r : Loaded} (hs : Side S h) (hp : ¬ S p)
    (e : loadControl h p a t = .ok r) : Stays S h r.heap := by
  rw [loadControl.eq_def] at e
  cases hx : h.cells p with
  | none => rw [hx] at e; cases e
  | some d =>
    rw [hx] at e
    dsimp only at e
    split at e
    · cases e; exact Stays.refl hs
    · obtain ⟨q, e1, e2⟩ := bind_inv e
      have g1 := fresh_stays .admin leaf_stays _ _ _ _ hs hp e1
      cases t with
      | none => cases e2; exact g1
      | some x =>
        obtain ⟨s, e3, e4⟩ := bind_inv e2
        have g2 := fresh_stays .tech tech_stays _ _ _ _ g1.side hp e3
        cases e4
        exact g1.trans g2

theorem load_stays (l : Load) {r : Loaded} (hs : Side S h) (hp : ¬ S l.object) (e : l.run h = .ok r) : Stays S h r.heap := by
  cases l with
  | leaf p x => exact leaf_stays _ _ _ _ hs hp e
  | preview p x => exact preview_stays _ _ _ _ hs hp e
  | fileMeta p x => exact fileMeta_stays _ _ _ _ hs hp e
  | tocMeta p x => exact tocMeta_stays _ _ _ _ hs hp e
  | sections p x => exact sections_stays _ _ _ _ hs hp e
  | file p x => exact file_stays _ _ _ _ hs hp e
  | files p x => exact files_stays _ _ _ _ hs hp e
  | reel p x => exact reel_stays _ _ _ _ hs hp e
  | reels p x => exact reels_stays _ _ _ _ hs hp e
  | layout p x => exact layout_stays _ _ _ _ hs hp e
  | layouts p x => exact layouts_stays _ _ _ _ hs hp e
  | toc p x => exact toc_stays _ _ _ _ hs hp e
  | tech p x => exact tech_stays _ _ _ _ hs hp e
  | control p a t => exact control_stays hs hp e

/-! ## Calls and programs -/

theorem call_stays {held : List Nat} {c : Call} {v : World} (hs : Side S h) (ht : ∀ a ∈ c.targets, ¬ S a)
    (e : World.step ⟨h, held⟩ c = .ok v) : Stays S h v.heap := by
  cases c with
  | create k parts => cases e; exact alloc_stays hs k ht
  | newRef a =>
    obtain ⟨h1, e1, e2⟩ := bind_inv e
    cases e2
    rw [newRef] at e1
    dsimp only at e1
    cases hx : h.cells a with
    | none => rw [hx] at e1; cases e1
    | some d =>
      rw [hx] at e1
      obtain ⟨rc, -, e3⟩ := bind_inv e1
      cases e3
      have ha := ht a List.mem_cons_self
      exact set_stays hs ha (fun k hk => hs.apart a d hx ha k hk)
  | free a =>
    obtain ⟨h1, e1, e2⟩ := bind_inv e
    cases e2
    exact free_stays hs (ht a List.mem_cons_self) e1
  | clone a =>
    obtain ⟨r, e1, e2⟩ := bind_inv e
    cases e2
    exact (clone_stays hs e1).1
  | add p c accepted =>
    obtain ⟨h1, e1, e2⟩ := bind_inv e
    cases e2
    rw [add] at e1
    dsimp only at e1
    cases hx : h.cells p with
    | none => rw [hx] at e1; cases e1
    | some d =>
      cases hy : h.cells c with
      | none => rw [hx, hy] at e1; cases e1
      | some d' =>
        rw [hx, hy] at e1
        dsimp only at e1
        split at e1
        · exact append_stays hs (ht p List.mem_cons_self) (ht c (List.mem_cons_of_mem _ List.mem_cons_self)) e1
        · cases e1; exact Stays.refl hs
  | addInner p k c o =>
    obtain ⟨h1, e1, e2⟩ := bind_inv e
    cases e2
    exact addInner_stays hs (ht p List.mem_cons_self) (ht c (List.mem_cons_of_mem _ List.mem_cons_self)) e1
  | setPart f k x =>
    obtain ⟨h1, e1, e2⟩ := bind_inv e
    cases e2
    exact setPart_stays hs (ht f List.mem_cons_self) e1
  | addLayouts t d oks =>
    obtain ⟨h1, e1, e2⟩ := bind_inv e
    cases e2
    exact addLayouts_stays hs (ht t List.mem_cons_self) e1

theorem step_stays {w v : LWorld} {c : LCall} (hs : Side S w.heap) (ht : ∀ a ∈ c.targets, ¬ S a) (e : w.step c = .ok v) :
    Stays S w.heap v.heap := by
  cases c with
  | base c =>
    obtain ⟨u, e1, e2⟩ := bind_inv e
    cases e2
    exact call_stays hs ht e1
  | load l =>
    obtain ⟨r, e1, e2⟩ := bind_inv e
    cases e2
    exact load_stays l hs (ht _ List.mem_cons_self) e1

theorem run_stays : ∀ (cs : List LCall) (w v : LWorld), Side S w.heap → Outside S cs → w.run cs = .ok v → Stays S w.heap v.heap := by
  intro cs
  induction cs with
  | nil => intro w v hs _ e; cases e; exact Stays.refl hs
  | cons c cs ih =>
    intro w v hs ho e
    obtain ⟨u, e1, e2⟩ := bind_inv e
    have g1 := step_stays hs (ho c List.mem_cons_self) e1
    exact g1.trans (ih u v g1.side (fun d hd => ho d (List.mem_cons_of_mem _ hd)) e2)

end Afs.Apart
