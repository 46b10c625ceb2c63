import Verif.Proof.RefsStep
import Verif.Spec.RefsLoad
/-!
# Loading keeps the reference counts right
-/
namespace Afs.Refs
open Afs.Spec

/-! ## Freeing touches nothing else -/

/-- `P` holds of the parts of whatever it holds of. -/
def Closed (h : Heap) (P : Nat → Prop) : Prop := ∀ x c, h.cells x = some c → P x → ∀ k ∈ c.kids, P k

theorem freeObj_frame (P : Nat → Prop) : ∀ (n : Nat) (h : Heap) (a : Nat) (h' : Heap), Closed h P → P a → freeObj n h a = .ok h' →
    Closed h' P ∧ (∀ x, ¬ P x → h'.cells x = h.cells x) := by
  intro n
  induction n with
  | zero => intro h a h' _ _ e; rw [freeObj] at e; cases e
  | succ n ih =>
    intro h a h' hc ha e
    rw [freeObj] at e
    cases hx : h.cells a with
    | none => rw [hx] at e; cases e
    | some c =>
      rw [hx] at e
      dsimp only at e
      cases hr : ckInt (c.rc - 1) with
      | ub => rw [hr] at e; cases e
      | ok rc =>
        rw [hr, Res.ok_bind] at e
        have hset : Closed (h.set a { c with rc := rc }) P := by
          intro x d hd hp k hk
          rw [set_cells] at hd
          split at hd
          · injection hd with hd; subst hd; rename_i ex; subst ex
            exact hc _ c hx hp k hk
          · exact hc x d hd hp k hk
        have hout : ∀ x, ¬ P x → (h.set a { c with rc := rc }).cells x = h.cells x := by
          intro x hp
          rw [set_cells, if_neg (fun ex => hp (by rw [ex]; exact ha))]
        have hfold : ∀ (ks : List Nat), (∀ k ∈ ks, P k) → ∀ (g g' : Heap), Closed g P → ks.foldlM (freeObj n) g = .ok g' →
            Closed g' P ∧ ∀ x, ¬ P x → g'.cells x = g.cells x := by
          intro ks
          induction ks with
          | nil => intro _ g g' hg e; cases e; exact ⟨hg, fun _ _ => rfl⟩
          | cons k ks ihk =>
            intro hks g g' hg e
            rw [List.foldlM_cons] at e
            cases hf : freeObj n g k with
            | ub => rw [hf] at e; cases e
            | ok g1 =>
              rw [hf] at e
              change List.foldlM (freeObj n) g1 ks = .ok g' at e
              obtain ⟨h1, h2⟩ := ih g k g1 hg (hks k List.mem_cons_self) hf
              obtain ⟨h3, h4⟩ := ihk (fun k hk => hks k (List.mem_cons_of_mem _ hk)) g1 g' h1 e
              exact ⟨h3, fun x hp => by rw [h4 x hp, h2 x hp]⟩
        split at e
        · cases hk : List.foldlM (freeObj n) (h.set a { c with rc := rc }) c.kids with
          | ub => rw [hk] at e; cases e
          | ok g =>
            rw [hk, Res.ok_bind] at e
            obtain ⟨h1, h2⟩ := hfold c.kids (hc a c hx ha) _ g hset hk
            cases hga : g.cells a with
            | none => rw [hga] at e; cases e
            | some z =>
              rw [hga] at e
              cases e
              refine ⟨fun x d hd hp => ?_, fun x hp => ?_⟩
              · rw [remove_cells] at hd
                split at hd
                · cases hd
                · exact h1 x d hd hp
              · rw [remove_cells, if_neg (fun ex => hp (by rw [ex]; exact ha)), h2 x hp, hout x hp]
        · cases e
          exact ⟨hset, hout⟩

/-! ## Objects that are added -/

/-- Everything but `p` is as before, or new; new objects have one reference each. -/
structure Grown (h : Heap) (p : Nat) (h' : Heap) : Prop where
  next : h.next ≤ h'.next
  old : ∀ x, x < h.next → x ≠ p → h'.cells x = h.cells x
  new : ∀ x c, h.next ≤ x → h'.cells x = some c → c.rc = 1 ∧ ∀ k ∈ c.kids, h.next ≤ k
  self : ∀ d, h.cells p = some d → ∃ ks, h'.cells p = some { d with kids := ks } ∧ ∀ k ∈ ks, k ∈ d.kids ∨ h.next ≤ k

theorem Grown.refl {h : Heap} {L : List Nat} (hi : Inv h L []) (p : Nat) : Grown h p h :=
  ⟨Nat.le_refl _, fun _ _ _ => rfl, fun x c hx hc => (by rw [hi.bound x hx] at hc; cases hc), fun d hd => ⟨d.kids, hd, fun _ => .inl⟩⟩

theorem Grown.trans {a b c : Heap} {p : Nat} (hp : p < a.next) (h1 : Grown a p b) (h2 : Grown b p c) : Grown a p c := by
  refine ⟨Nat.le_trans h1.next h2.next, fun x hx hn => ?_, fun x d hx hd => ?_, fun d hd => ?_⟩
  · rw [h2.old x (by have := h1.next; omega) hn, h1.old x hx hn]
  · by_cases hb : x < b.next
    · rw [h2.old x hb (by omega)] at hd
      exact h1.new x d hx hd
    · obtain ⟨h3, h4⟩ := h2.new x d (by omega) hd
      exact ⟨h3, fun k hk => by have := h4 k hk; have := h1.next; omega⟩
  · obtain ⟨ks, e1, k1⟩ := h1.self d hd
    obtain ⟨ks', e2, k2⟩ := h2.self _ e1
    refine ⟨ks', e2, fun k hk => ?_⟩
    rcases k2 k hk with h | h
    · exact k1 k h
    · have := h1.next; exact .inr (by omega)

theorem alloc_new (h : Heap) (k : Kind) (parts : List Nat) : (h.alloc k parts).1.cells h.next = some ⟨k, 1, parts⟩ := by
  show (if h.next = h.next then _ else _) = _
  rw [if_pos rfl]

theorem alloc_old (h : Heap) (k : Kind) (parts : List Nat) {x : Nat} (hx : x < h.next) : (h.alloc k parts).1.cells x = h.cells x := by
  show (if x = h.next then _ else _) = _
  rw [if_neg (by omega)]

/-- Loading a new object leaves all others as they are. -/
theorem Grown.child {h h' : Heap} {p : Nat} (hp : p < h.next) {k : Kind} (hg : Grown (h.alloc k []).1 h.next h') : Grown h p h' := by
  have hn : (h.alloc k []).1.next = h.next + 1 := rfl
  have h1 := hg.next
  refine ⟨by omega, fun x hx _ => ?_, fun x c hx hc => ?_, fun d hd => ⟨d.kids, ?_, fun _ => .inl⟩⟩
  · rw [hg.old x (by omega) (by omega), alloc_old _ _ _ hx]
  · by_cases e : x = h.next
    · subst e
      obtain ⟨ks, e1, k1⟩ := hg.self _ (alloc_new h k [])
      rw [e1] at hc
      injection hc with hc
      subst hc
      refine ⟨rfl, fun a ha => ?_⟩
      rcases k1 a ha with h | h
      · cases h
      · omega
    · obtain ⟨h2, h3⟩ := hg.new x c (by omega) hc
      exact ⟨h2, fun a ha => by have := h3 a ha; omega⟩
  · rw [hg.old p (by omega) (by omega), alloc_old _ _ _ hp, hd]

theorem Grown.setKids {h h' : Heap} {p : Nat} (hp : p < h.next) (hg : Grown h p h') {d' : Cell} (hd : h'.cells p = some d') {ks : List Nat}
    (hk : ∀ a ∈ ks, a ∈ d'.kids ∨ h.next ≤ a) : Grown h p (h'.set p { d' with kids := ks }) := by
  refine ⟨hg.next, fun x hx hn => ?_, fun x c hx hc => ?_, fun d0 hd0 => ?_⟩
  · rw [set_cells, if_neg hn, hg.old x hx hn]
  · rw [set_cells, if_neg (by omega)] at hc
    exact hg.new x c hx hc
  · obtain ⟨ks', e1, k1⟩ := hg.self d0 hd0
    rw [e1] at hd
    injection hd with hd
    subst hd
    refine ⟨ks, by rw [set_cells, if_pos rfl], fun a ha => ?_⟩
    rcases hk a ha with h | h
    · exact k1 a h
    · exact .inr h

theorem free_shrinks {h : Heap} {L : List Nat} {a : Nat} (hi : Inv h (a :: L) []) (hs : Small h) :
    ∃ h', free h a = .ok h' ∧ Inv h' L [] ∧ Shrinks h h' := free_ok hi hs

/-- Freeing a new object leaves the old ones as they are. -/
theorem Grown.freed {h h' h'' : Heap} {L : List Nat} {p c : Nat} (hp : p < h.next) (hg : Grown h p h') (hc : h.next ≤ c)
    (hf : free h' c = .ok h'') (hi : Inv h'' L []) (hs : Shrinks h' h'') : Grown h p h'' := by
  have hcl : Closed h' (fun x => h.next ≤ x) := fun x d hd hx => (hg.new x d hx hd).2
  obtain ⟨_, hout⟩ := freeObj_frame (fun x => h.next ≤ x) maxDepth h' c h'' hcl hc hf
  refine ⟨by rw [hs.next]; exact hg.next, fun x hx hn => ?_, fun x d hx hd => ?_, fun d hd => ?_⟩
  · rw [hout x (by omega), hg.old x hx hn]
  · obtain ⟨d0, e0, -, k0, r0⟩ := hs.cells x d hd
    obtain ⟨h1, h2⟩ := hg.new x d0 hx e0
    have := hi.pos x d hd (by simp)
    exact ⟨by omega, fun k hk => h2 k (k0 ▸ hk)⟩
  · rw [hout p (by omega)]
    exact hg.self d hd

theorem Grown.small {h h' : Heap} {p : Nat} {d : Cell} (hg : Grown h p h') (hs : Small h) (hd : h.cells p = some d) : Small h' := by
  intro x c hc
  by_cases hx : x < h.next
  · by_cases e : x = p
    · subst e
      obtain ⟨ks, e1, -⟩ := hg.self d hd
      rw [e1] at hc
      injection hc with hc
      subst hc
      exact hs _ d hd
    · rw [hg.old x hx e] at hc
      exact hs x c hc
  · have := (hg.new x c (by omega) hc).1
    rw [this]
    decide

theorem small_alloc {h : Heap} (hs : Small h) (k : Kind) (parts : List Nat) : Small (h.alloc k parts).1 := by
  intro x c hc
  change (if x = h.next then some (⟨k, 1, parts⟩ : Cell) else h.cells x) = some c at hc
  split at hc
  · injection hc with hc; subst hc; show (1 : Int) ≤ INT_MAX; decide
  · exact hs x c hc

/-! ## Loaders -/

/-- `load` of `x` into an object of type `k` ends, keeps the books, touches only the object, and
    returns `ok` and `lost h p` lost references. -/
def Loads {α : Type} (k : Kind) (load : Heap → Nat → α → Res Loaded) (x : α) (ok : Bool) (lost : Heap → Nat → Nat) : Prop :=
  ∀ (h : Heap) (L : List Nat) (p : Nat) (d : Cell), Inv h L [] → Small h → h.cells p = some d → d.kind = k →
    ∃ r, load h p x = .ok r ∧ Inv r.heap (r.lost ++ L) [] ∧ Grown h p r.heap ∧ r.ok = ok ∧ r.lost.length = lost h p

/-- The same for a new object. -/
def LoadsNew {α : Type} (k : Kind) (load : Heap → Nat → α → Res Loaded) (x : α) (ok : Bool) (n : Nat) : Prop :=
  ∀ (h : Heap) (L : List Nat) (p : Nat), Inv h L [] → Small h → h.cells p = some ⟨k, 1, []⟩ →
    ∃ r, load h p x = .ok r ∧ Inv r.heap (r.lost ++ L) [] ∧ Grown h p r.heap ∧ r.ok = ok ∧ r.lost.length = n

theorem Loads.toNew {α : Type} {k : Kind} {load : Heap → Nat → α → Res Loaded} {x : α} {ok : Bool} {lost : Heap → Nat → Nat} {n : Nat}
    (hl : Loads k load x ok lost) (hn : ∀ h p, h.cells p = some ⟨k, 1, []⟩ → lost h p = n) : LoadsNew k load x ok n := by
  intro h L p hi hs hp
  obtain ⟨r, h1, h2, h3, h4, h5⟩ := hl h L p _ hi hs hp rfl
  exact ⟨r, h1, h2, h3, h4, by rw [h5, hn h p hp]⟩

theorem part_fresh {h : Heap} {p : Nat} {k : Kind} (hp : h.cells p = some ⟨k, 1, []⟩) (k' : Kind) : part h p k' = none := by
  unfold part; rw [hp]; rfl

theorem has_fresh {h : Heap} {p : Nat} {k : Kind} (hp : h.cells p = some ⟨k, 1, []⟩) (k' : Kind) : has h p k' = 0 := by
  unfold has; rw [part_fresh hp]; rfl

theorem leaf_loads (k : Kind) (ok : Bool) : Loads k loadLeaf ok ok fun _ _ => 0 := by
  intro h L p d hi _ hd _
  refine ⟨⟨h, ok, []⟩, ?_, hi, Grown.refl hi p, rfl, rfl⟩
  unfold loadLeaf; rw [hd]

theorem Inv.swap {h : Heap} {a : Nat} {l L : List Nat} (hi : Inv h (l ++ a :: L) []) : Inv h (a :: (l ++ L)) [] :=
  hi.congr fun x => by simp only [List.count_append, List.count_cons]; omega

/-- Create a child and load it. -/
theorem child_loads {α : Type} {kc : Kind} {load : Heap → Nat → α → Res Loaded} {x : α} {ok : Bool} {n : Nat}
    (hl : LoadsNew kc load x ok n) {h : Heap} {L : List Nat} {p : Nat} {d : Cell} (hi : Inv h L []) (hs : Small h) (hd : h.cells p = some d) :
    ∃ r c, load (h.alloc kc []).1 h.next x = .ok r ∧ Inv r.heap (h.next :: (r.lost ++ L)) [] ∧ Grown h p r.heap ∧ Small r.heap ∧ r.ok = ok ∧
      r.lost.length = n ∧ r.heap.cells h.next = some c ∧ c.kind = kc ∧ r.heap.cells p = some d := by
  have hp := hi.lt hd
  have hi1 : Inv (h.alloc kc []).1 (h.next :: L) [] := Inv.alloc (parts := []) hi (by simp)
  obtain ⟨r, h1, h2, h3, h4, h5⟩ := hl _ _ h.next hi1 (small_alloc hs _ _) (alloc_new h kc [])
  obtain ⟨ks, e1, -⟩ := h3.self _ (alloc_new h kc [])
  refine ⟨r, _, h1, h2.swap, h3.child hp, h3.small (small_alloc hs _ _) (alloc_new h kc []), h4, h5, e1, rfl, ?_⟩
  have : (h.alloc kc []).1.next = h.next + 1 := rfl
  rw [h3.old p (by omega) (by omega), alloc_old _ _ _ hp, hd]

theorem list_loads {α : Type} {k kc : Kind} (hown : k.owns kc = true) (frees : Bool) {load : Heap → Nat → α → Res Loaded} {ok : α → Bool} {n : α → Nat}
    (hl : ∀ x, LoadsNew kc load x (ok x) (n x)) (l : List (α × Bool)) :
    Loads k (fun h p => loadList kc frees load p h) l (allLoad ok l) (fun _ _ => lostIn frees ok n l) := by
  induction l with
  | nil =>
    intro h L p d hi _ _ _
    exact ⟨⟨h, true, []⟩, rfl, hi, Grown.refl hi p, rfl, rfl⟩
  | cons y l ih =>
    obtain ⟨x, accepted⟩ := y
    intro h L p d hi hs hd hk
    have hp := hi.lt hd
    obtain ⟨r, c, h1, h2, h3, h4, h5, h6, h7, h8, h9⟩ := child_loads (hl x) hi hs hd
    have hfree := free_shrinks h2 h4
    obtain ⟨hf, hf1, hf2, hf3⟩ := hfree
    dsimp only
    rw [loadList.eq_def]
    dsimp only
    rw [h1, Res.ok_bind]
    have e1 : allLoad ok ((x, accepted) :: l) = (ok x && accepted && allLoad ok l) := by simp [allLoad]
    rw [e1]
    have e2 : lostIn frees ok n ((x, accepted) :: l) = n x + if ok x = false then (if frees then 0 else 1) else if accepted then lostIn frees ok n l else 0 := rfl
    rw [e2]
    cases hok : ok x with
    | false =>
      rw [if_pos (h5.trans hok)]
      cases frees with
      | true =>
        rw [if_pos rfl, hf1, Res.ok_bind]
        exact ⟨_, rfl, hf2, h3.freed hp (Nat.le_refl _) hf1 hf2 hf3, by simp, by simp [h6]⟩
      | false =>
        rw [if_neg (by simp)]
        exact ⟨_, rfl, h2, h3, by simp, by simp [h6]⟩
    | true =>
      rw [if_neg (by rw [h5, hok]; simp)]
      cases accepted with
      | false =>
        rw [if_neg (by simp), hf1, Res.ok_bind]
        exact ⟨_, rfl, hf2, h3.freed hp (Nat.le_refl _) hf1 hf2 hf3, by simp, by simp [h6]⟩
      | true =>
        rw [if_pos rfl]
        obtain ⟨a1, a2⟩ := append_ok h2 h9 h7 (by rw [hk, h8]; exact hown)
        rw [a1, Res.ok_bind]
        have g2 : Grown h p (r.heap.set p { d with kids := d.kids ++ [h.next] }) := h3.setKids hp h9 fun a ha => by
          rcases List.mem_append.mp ha with h | h
          · exact .inl h
          · rw [List.mem_singleton] at h; exact .inr (by omega)
        have e3 : (r.heap.set p { d with kids := d.kids ++ [h.next] }).cells p = some { d with kids := d.kids ++ [h.next] } := by
          rw [set_cells, if_pos rfl]
        obtain ⟨s, s1, s2, s3, s4, s5⟩ := ih _ _ p _ a2 (g2.small hs hd) e3 hk
        dsimp only at s1
        rw [s1, Res.ok_bind]
        refine ⟨_, rfl, ?_, g2.trans hp s3, by simp [s4], by simp [h6, s5]⟩
        exact s2.congr fun a => by simp only [List.count_append]; omega

theorem container_loads {α : Type} {k kc : Kind} (hown : k.owns kc = true) (frees : Bool) {load : Heap → Nat → α → Res Loaded} {ok : α → Bool} {n : α → Nat}
    (hl : ∀ x, LoadsNew kc load x (ok x) (n x)) (plan : Option (List (α × Bool))) :
    Loads k (loadContainer kc frees load) plan (match plan with | none => false | some l => allLoad ok l)
      (fun _ _ => match plan with | none => 0 | some l => lostIn frees ok n l) := by
  intro h L p d hi hs hd hk
  unfold loadContainer
  rw [hd]
  cases plan with
  | none => exact ⟨_, rfl, hi, Grown.refl hi p, rfl, rfl⟩
  | some l => exact list_loads hown frees hl l h L p d hi hs hd hk

theorem leaf_new (k : Kind) (ok : Bool) : LoadsNew k loadLeaf ok ok 0 := (leaf_loads k ok).toNew fun _ _ _ => rfl

theorem preview_loads (plan : Leaves) : Loads .preview loadPreview plan (leavesOk plan) (fun _ _ => leavesLost false plan) :=
  by cases plan <;> exact container_loads (ok := id) (n := fun _ => 0) rfl false (leaf_new .page) _
theorem fileMeta_loads (plan : Leaves) : Loads .fileMeta loadFileMeta plan (leavesOk plan) (fun _ _ => leavesLost true plan) :=
  by cases plan <;> exact container_loads (ok := id) (n := fun _ => 0) rfl true (leaf_new .fileMetaSource) _
theorem tocMeta_loads (plan : Leaves) : Loads .tocMeta loadTocMeta plan (leavesOk plan) (fun _ _ => leavesLost true plan) :=
  by cases plan <;> exact container_loads (ok := id) (n := fun _ => 0) rfl true (leaf_new .metaSource) _
theorem sections_loads (plan : Leaves) : Loads .sections loadSections plan (leavesOk plan) (fun _ _ => leavesLost false plan) :=
  by cases plan <;> exact container_loads (ok := id) (n := fun _ => 0) rfl false (leaf_new .section_) _

theorem leavesLost_true (l : Leaves) : leavesLost true l = 0 := by
  cases l with
  | none => rfl
  | some l =>
    unfold leavesLost
    dsimp only
    induction l with
    | nil => rfl
    | cons x l ih =>
      obtain ⟨x, a⟩ := x
      unfold lostIn
      rw [ih]
      cases x <;> cases a <;> simp

end Afs.Refs
