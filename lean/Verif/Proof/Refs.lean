import Verif.Spec.Refs
/-!
# The reference-count invariant

`Inv h L Z`: the counts in `h` are the numbers of references when the program holds `L` and
the objects in `Z` are being torn down (their pointers are already accounted for in `L`).
-/
namespace Afs.Refs
open Afs.Spec

theorem sumTo_congr {f g : Nat → Nat} {n : Nat} (h : ∀ b, b < n → f b = g b) :
    sumTo f n = sumTo g n := by
  induction n with
  | zero => rfl
  | succ n ih =>
    simp only [sumTo]
    rw [ih (fun b hb => h b (by omega)), h n (by omega)]

theorem sumTo_change {f g : Nat → Nat} {n b : Nat} (hb : b < n)
    (h : ∀ x, x < n → x ≠ b → f x = g x) : sumTo f n + g b = sumTo g n + f b := by
  induction n with
  | zero => omega
  | succ n ih =>
    simp only [sumTo]
    by_cases hbn : b = n
    · subst hbn
      rw [sumTo_congr (g := g) (fun x hx => h x (by omega) (by omega))]
      omega
    · have := ih (by omega) (fun x hx hxb => h x (by omega) hxb)
      have := h n (by omega) (by omega)
      omega

theorem sumTo_le {f : Nat → Nat} {n b : Nat} (hb : b < n) : f b ≤ sumTo f n := by
  induction n with
  | zero => omega
  | succ n ih =>
    simp only [sumTo]
    by_cases hbn : b = n
    · subst hbn; omega
    · have := ih (by omega); omega

theorem sumTo_pos {f : Nat → Nat} {n : Nat} (h : 0 < sumTo f n) : ∃ b, b < n ∧ 0 < f b := by
  induction n with
  | zero => simp [sumTo] at h
  | succ n ih =>
    simp only [sumTo] at h
    by_cases hf : 0 < f n
    · exact ⟨n, by omega, hf⟩
    · obtain ⟨b, hb, hp⟩ := ih (by omega)
      exact ⟨b, by omega, hp⟩

/-- Height of an object type in the ownership order. -/
def Kind.level : Kind → Nat
  | .frameRange | .page | .fileMetaSource | .metaSource | .section_ | .admin | .boxing => 0
  | .frameRanges | .preview | .fileMeta | .tocMeta | .sections => 1
  | .file | .layoutDef => 2
  | .files | .layoutDefs => 3
  | .reel | .tech => 4
  | .reels | .control => 5
  | .tocData => 6

theorem owns_level {k k' : Kind} (h : k.owns k' = true) : k'.level < k.level := by
  cases k <;> cases k' <;> first | (cases h; done) | decide

theorem level_lt (k : Kind) : k.level < maxDepth := by cases k <;> decide

/-- Pointers to `a` inside `b`, not counting objects being torn down. -/
def ptr (h : Heap) (Z : List Nat) (a b : Nat) : Nat := if b ∈ Z then 0 else pointersIn h a b

structure Inv (h : Heap) (L Z : List Nat) : Prop where
  bound : ∀ a, h.next ≤ a → h.cells a = none
  roots : ∀ a, a ∈ L → a ∉ Z ∧ ∃ c, h.cells a = some c
  kids : ∀ b c, h.cells b = some c → b ∉ Z → ∀ a, a ∈ c.kids →
    a ∉ Z ∧ ∃ c', h.cells a = some c' ∧ c.kind.owns c'.kind = true
  count : ∀ a c, h.cells a = some c → a ∉ Z →
    c.rc = ((L.count a + sumTo (ptr h Z a) h.next : Nat) : Int)
  pos : ∀ a c, h.cells a = some c → a ∉ Z → 0 < c.rc

/-- No count is beyond the range of `int`. -/
def Small (h : Heap) : Prop := ∀ a c, h.cells a = some c → c.rc ≤ INT_MAX

/-- `h'` is `h` with some objects gone and some counts lower. -/
structure Shrinks (h h' : Heap) : Prop where
  next : h'.next = h.next
  cells : ∀ x c', h'.cells x = some c' →
    ∃ c, h.cells x = some c ∧ c'.kind = c.kind ∧ c'.kids = c.kids ∧ c'.rc ≤ c.rc

theorem Shrinks.refl (h : Heap) : Shrinks h h := ⟨rfl, fun _ c hc => ⟨c, hc, rfl, rfl, by omega⟩⟩

theorem Shrinks.trans {a b c : Heap} (h1 : Shrinks a b) (h2 : Shrinks b c) : Shrinks a c := by
  refine ⟨by rw [h2.next, h1.next], fun x c' hc => ?_⟩
  obtain ⟨c1, e1, k1, l1, r1⟩ := h2.cells x c' hc
  obtain ⟨c2, e2, k2, l2, r2⟩ := h1.cells x c1 e1
  exact ⟨c2, e2, by rw [k1, k2], by rw [l1, l2], by omega⟩

theorem Shrinks.small {a b : Heap} (h : Shrinks a b) (hs : Small a) : Small b := by
  intro x c hc
  obtain ⟨c', e, _, _, r⟩ := h.cells x c hc
  have := hs x c' e
  omega

theorem Inv.congr {h : Heap} {L L' Z : List Nat} (hi : Inv h L Z)
    (hc : ∀ a, L.count a = L'.count a) : Inv h L' Z := by
  refine ⟨hi.bound, fun a ha => hi.roots a ?_, hi.kids, fun a c h1 h2 => ?_, hi.pos⟩
  · rw [← List.count_pos_iff, hc a, List.count_pos_iff]; exact ha
  · rw [← hc a]; exact hi.count a c h1 h2

theorem set_cells (h : Heap) (a : Nat) (c : Cell) (x : Nat) :
    (h.set a c).cells x = if x = a then some c else h.cells x := rfl

theorem remove_cells (h : Heap) (a x : Nat) :
    (h.remove a).cells x = if x = a then none else h.cells x := rfl

theorem pointersIn_of {h : Heap} {b : Nat} {c : Cell} (hc : h.cells b = some c) (a : Nat) :
    pointersIn h a b = c.kids.count a := by simp [pointersIn, hc]

theorem pointersIn_none {h : Heap} {b : Nat} (hc : h.cells b = none) (a : Nat) :
    pointersIn h a b = 0 := by simp [pointersIn, hc]

/-- Changing only a count leaves the pointers as they are. -/
theorem ptr_set_rc {h : Heap} {Z : List Nat} {a : Nat} {c : Cell} (hc : h.cells a = some c)
    (r : Int) (x b : Nat) : ptr (h.set a { c with rc := r }) Z x b = ptr h Z x b := by
  unfold ptr pointersIn
  rw [set_cells]
  by_cases hb : b = a
  · subst hb; simp [hc]
  · simp [hb]

theorem Inv.lt {h : Heap} {L Z : List Nat} (hi : Inv h L Z) {a : Nat} {c : Cell}
    (hc : h.cells a = some c) : a < h.next := by
  apply Decidable.byContradiction
  intro hn
  rw [hi.bound a (by omega)] at hc
  cases hc

/-- The state after lowering a count that stays positive. -/
theorem Inv.lower {h : Heap} {L Z : List Nat} {a : Nat} {c : Cell} (hi : Inv h (a :: L) Z)
    (hc : h.cells a = some c) (hp : 0 < c.rc - 1) :
    Inv (h.set a { c with rc := c.rc - 1 }) L Z := by
  refine ⟨fun x hx => ?_, fun x hx => ?_, fun b d hb hz x hx => ?_, fun x d hx hz => ?_,
    fun x d hx hz => ?_⟩
  · have := hi.lt hc
    rw [set_cells, if_neg (by have : h.next ≤ x := hx; omega)]
    exact hi.bound x hx
  · obtain ⟨h1, d, h2⟩ := hi.roots x (List.mem_cons_of_mem _ hx)
    refine ⟨h1, ?_⟩
    rw [set_cells]
    split
    · exact ⟨_, rfl⟩
    · exact ⟨d, h2⟩
  · have key : ∃ d0, h.cells b = some d0 ∧ d0.kind = d.kind ∧ d0.kids = d.kids := by
      rw [set_cells] at hb
      split at hb
      · rename_i e
        subst e
        cases hb
        exact ⟨c, hc, rfl, rfl⟩
      · exact ⟨d, hb, rfl, rfl⟩
    obtain ⟨d0, e0, ek, el⟩ := key
    obtain ⟨h1, d', h2, h3⟩ := hi.kids b d0 e0 hz x (el ▸ hx)
    refine ⟨h1, ?_⟩
    rw [set_cells]
    split
    · rename_i e
      subst e
      rw [hc] at h2
      cases h2
      exact ⟨_, rfl, ek ▸ h3⟩
    · exact ⟨d', h2, ek ▸ h3⟩
  · rw [sumTo_congr (g := ptr h Z x) (fun b _ => ptr_set_rc hc _ x b)]
    show d.rc = _
    rw [set_cells] at hx
    split at hx
    · rename_i e
      subst e
      cases hx
      have := hi.count x c hc hz
      simp only [List.count_cons_self] at this
      show c.rc - 1 = ((L.count x + sumTo (ptr h Z x) h.next : Nat) : Int)
      omega
    · rename_i e
      have := hi.count x d hx hz
      rw [List.count_cons_of_ne (by simpa using fun h => e h.symm)] at this
      exact this
  · rw [set_cells] at hx
    split at hx
    · cases hx; exact hp
    · exact hi.pos x d hx hz

/-- The state after a count has reached zero: the object moves to `Z`, its pointers to `L`. -/
theorem Inv.condemn {h : Heap} {L Z : List Nat} {a : Nat} {c : Cell} (hi : Inv h (a :: L) Z)
    (hc : h.cells a = some c) (hp : c.rc = 1) :
    Inv (h.set a { c with rc := c.rc - 1 }) (c.kids ++ L) (a :: Z) := by
  have haZ : a ∉ Z := (hi.roots a (List.mem_cons_self ..)).1
  have hcnt := hi.count a c hc haZ
  rw [List.count_cons_self] at hcnt
  have hLa : L.count a = 0 := by omega
  have hSa : sumTo (ptr h Z a) h.next = 0 := by omega
  have hnotL : ∀ x, x ∈ L → x ≠ a := by
    intro x hx e
    subst e
    rw [← List.count_pos_iff] at hx
    omega
  have hnotkid : ∀ b d, h.cells b = some d → b ∉ Z → a ∉ d.kids := by
    intro b d hb hz hm
    have h1 : ptr h Z a b ≤ sumTo (ptr h Z a) h.next := sumTo_le (hi.lt hb)
    have h2 : ptr h Z a b = d.kids.count a := by
      simp [ptr, hz, pointersIn_of hb]
    have h3 := List.count_pos_iff.mpr hm
    omega
  have hal := hi.lt hc
  refine ⟨fun x hx => ?_, fun x hx => ?_, fun b d hb hz x hx => ?_, fun x d hx hz => ?_,
    fun x d hx hz => ?_⟩
  · rw [set_cells, if_neg (by have : h.next ≤ x := hx; omega)]
    exact hi.bound x hx
  · rcases List.mem_append.mp hx with hx | hx
    · obtain ⟨h1, d, h2, h3⟩ := hi.kids a c hc haZ x hx
      have hne : x ≠ a := fun e => hnotkid a c hc haZ (e ▸ hx)
      refine ⟨by simp [hne, h1], ?_⟩
      rw [set_cells, if_neg hne]
      exact ⟨d, h2⟩
    · have hne := hnotL x hx
      obtain ⟨h1, d, h2⟩ := hi.roots x (List.mem_cons_of_mem _ hx)
      refine ⟨by simp [hne, h1], ?_⟩
      rw [set_cells, if_neg hne]
      exact ⟨d, h2⟩
  · have hba : b ≠ a := fun e => hz (e ▸ List.mem_cons_self ..)
    have hbZ : b ∉ Z := fun e => hz (List.mem_cons_of_mem _ e)
    rw [set_cells, if_neg hba] at hb
    obtain ⟨h1, d', h2, h3⟩ := hi.kids b d hb hbZ x hx
    have hne : x ≠ a := fun e => hnotkid b d hb hbZ (e ▸ hx)
    refine ⟨by simp [hne, h1], d', ?_, h3⟩
    rw [set_cells, if_neg hne]
    exact h2
  · have hxa : x ≠ a := fun e => hz (e ▸ List.mem_cons_self ..)
    have hxZ : x ∉ Z := fun e => hz (List.mem_cons_of_mem _ e)
    rw [set_cells, if_neg hxa] at hx
    have h1 := hi.count x d hx hxZ
    rw [List.count_cons_of_ne (by simpa using fun h => hxa h.symm)] at h1
    have h2 : sumTo (ptr (h.set a { c with rc := c.rc - 1 }) (a :: Z) x) h.next + ptr h Z x a
        = sumTo (ptr h Z x) h.next + ptr (h.set a { c with rc := c.rc - 1 }) (a :: Z) x a := by
      apply sumTo_change hal
      intro y _ hya
      have : ptr (h.set a { c with rc := c.rc - 1 }) (a :: Z) x y
          = ptr (h.set a { c with rc := c.rc - 1 }) Z x y := by
        simp [ptr, hya]
      rw [this, ptr_set_rc hc]
    have h3 : ptr h Z x a = c.kids.count x := by simp [ptr, haZ, pointersIn_of hc]
    have h4 : ptr (h.set a { c with rc := c.rc - 1 }) (a :: Z) x a = 0 := by simp [ptr]
    rw [List.count_append]
    show d.rc = ((_ + sumTo _ h.next : Nat) : Int)
    omega
  · have hxa : x ≠ a := fun e => hz (e ▸ List.mem_cons_self ..)
    have hxZ : x ∉ Z := fun e => hz (List.mem_cons_of_mem _ e)
    rw [set_cells, if_neg hxa] at hx
    exact hi.pos x d hx hxZ

/-- The state after the memory of a torn-down object has been given back. -/
theorem Inv.bury {h : Heap} {L Z : List Nat} {a : Nat} (hi : Inv h L (a :: Z)) (haZ : a ∉ Z) :
    Inv (h.remove a) L Z := by
  refine ⟨fun x hx => ?_, fun x hx => ?_, fun b d hb hz x hx => ?_, fun x d hx hz => ?_,
    fun x d hx hz => ?_⟩
  · rw [remove_cells]
    split
    · rfl
    · exact hi.bound x hx
  · obtain ⟨h1, d, h2⟩ := hi.roots x hx
    have hne : x ≠ a := fun e => h1 (e ▸ List.mem_cons_self ..)
    refine ⟨fun e => h1 (List.mem_cons_of_mem _ e), d, ?_⟩
    rw [remove_cells, if_neg hne]
    exact h2
  · rw [remove_cells] at hb
    split at hb
    · cases hb
    · rename_i hba
      obtain ⟨h1, d', h2, h3⟩ := hi.kids b d hb (by simp [hba, hz]) x hx
      have hne : x ≠ a := fun e => h1 (e ▸ List.mem_cons_self ..)
      refine ⟨fun e => h1 (List.mem_cons_of_mem _ e), d', ?_, h3⟩
      rw [remove_cells, if_neg hne]
      exact h2
  · rw [remove_cells] at hx
    split at hx
    · cases hx
    · rename_i hxa
      rw [hi.count x d hx (by simp [hxa, hz])]
      congr 2
      apply sumTo_congr
      intro b _
      unfold ptr pointersIn
      rw [remove_cells]
      by_cases hb : b = a
      · subst hb; simp [haZ]
      · simp [hb]
  · rw [remove_cells] at hx
    split at hx
    · cases hx
    · rename_i hxa
      exact hi.pos x d hx (by simp [hxa, hz])

theorem dies_iff {k : Kind} {r : Int} (hr : 0 ≤ r) : dies k r = true ↔ r = 0 := by
  cases k <;> simp [dies] <;> omega

/-- Freeing one of the references held. -/
theorem freeObj_ok : ∀ (n : Nat) (h : Heap) (a : Nat) (L Z : List Nat), Inv h (a :: L) Z →
    Small h → (∀ c, h.cells a = some c → c.kind.level < n) →
    ∃ h', freeObj n h a = .ok h' ∧ Inv h' L Z ∧ Shrinks h h' ∧
      ∀ z, z ∈ Z → h'.cells z = h.cells z := by
  intro n
  induction n with
  | zero =>
    intro h a L Z hi _ hl
    obtain ⟨_, c, hc⟩ := hi.roots a (List.mem_cons_self ..)
    exact absurd (hl c hc) (by omega)
  | succ n ih =>
    intro h a L Z hi hs hl
    obtain ⟨haZ, c, hc⟩ := hi.roots a (List.mem_cons_self ..)
    have hpos := hi.pos a c hc haZ
    have hck : ckInt (c.rc - 1) = .ok (c.rc - 1) := by
      have := hs a c hc
      unfold ckInt
      rw [if_pos]
      simp only [INT_MIN, INT_MAX] at *
      omega
    rw [freeObj, hc]
    simp only [hck, Res.ok_bind]
    by_cases hd : c.rc = 1
    · rw [if_pos ((dies_iff (by omega)).mpr (by omega))]
      have hi1 := hi.condemn hc hd
      -- all the parts
      have all : ∀ (as : List Nat) (g : Heap), Inv g (as ++ L) (a :: Z) → Small g →
          (∀ x d, x ∈ as → g.cells x = some d → d.kind.level < n) →
          ∃ g', as.foldlM (freeObj n) g = .ok g' ∧ Inv g' L (a :: Z) ∧ Shrinks g g' ∧
            ∀ z, z ∈ a :: Z → g'.cells z = g.cells z := by
        intro as
        induction as with
        | nil => intro g hg _ _; exact ⟨g, rfl, hg, Shrinks.refl g, fun _ _ => rfl⟩
        | cons x xs ihx =>
          intro g hg hsg hlg
          obtain ⟨g1, e1, i1, s1, f1⟩ := ih g x (xs ++ L) (a :: Z) hg hsg
            (fun d hd => hlg x d (List.mem_cons_self ..) hd)
          obtain ⟨g2, e2, i2, s2, f2⟩ := ihx g1 i1 (s1.small hsg) (fun y d hy hd => by
            obtain ⟨d0, e0, k0, _, _⟩ := s1.cells y d hd
            rw [k0]
            exact hlg y d0 (List.mem_cons_of_mem _ hy) e0)
          refine ⟨g2, ?_, i2, s1.trans s2, fun z hz => by rw [f2 z hz, f1 z hz]⟩
          rw [List.foldlM_cons, e1]
          exact e2
      have hs1 : Small (h.set a { c with rc := c.rc - 1 }) := by
        intro x d hx
        rw [set_cells] at hx
        split at hx
        · cases hx
          have := hs a c hc
          show c.rc - 1 ≤ INT_MAX
          omega
        · exact hs x d hx
      obtain ⟨g, eg, ig, sg, fg⟩ := all c.kids _ hi1 hs1 (fun x d hx hd => by
        obtain ⟨_, d', hd', ho⟩ := hi.kids a c hc haZ x hx
        have h1 := owns_level ho
        have h2 := hl c hc
        have : d.kind = d'.kind := by
          rw [set_cells] at hd
          split at hd
          · rename_i e
            subst e
            cases hd
            rw [hc] at hd'
            cases hd'
            rfl
          · rw [hd'] at hd
            cases hd
            rfl
        rw [this]
        omega)
      rw [eg]
      have hga : g.cells a = some { c with rc := c.rc - 1 } := by
        rw [fg a (List.mem_cons_self ..), set_cells, if_pos rfl]
      simp only [Res.ok_bind, hga]
      refine ⟨_, rfl, ig.bury haZ, ⟨by show g.next = h.next; rw [sg.next]; rfl, ?_⟩, ?_⟩
      · intro x d hx
        rw [remove_cells] at hx
        split at hx
        · cases hx
        · rename_i hxa
          obtain ⟨d0, e0, k0, l0, r0⟩ := sg.cells x d hx
          rw [set_cells, if_neg hxa] at e0
          exact ⟨d0, e0, k0, l0, r0⟩
      · intro z hz
        have hza : z ≠ a := fun e => haZ (e ▸ hz)
        rw [remove_cells, if_neg hza, fg z (List.mem_cons_of_mem _ hz), set_cells, if_neg hza]
    · rw [if_neg (by rw [dies_iff (by omega)]; omega)]
      refine ⟨_, rfl, hi.lower hc (by omega), ⟨rfl, ?_⟩, ?_⟩
      · intro x d hx
        rw [set_cells] at hx
        split at hx
        · rename_i e
          subst e
          cases hx
          exact ⟨c, hc, rfl, rfl, by show c.rc - 1 ≤ c.rc; omega⟩
        · exact ⟨d, hx, rfl, rfl, by omega⟩
      · intro z hz
        have hza : z ≠ a := fun e => haZ (e ▸ hz)
        rw [set_cells, if_neg hza]

theorem free_ok {h : Heap} {a : Nat} {L : List Nat} (hi : Inv h (a :: L) []) (hs : Small h) :
    ∃ h', free h a = .ok h' ∧ Inv h' L [] ∧ Shrinks h h' := by
  obtain ⟨h', e, i, s, _⟩ := freeObj_ok maxDepth h a L [] hi hs (fun c _ => level_lt c.kind)
  exact ⟨h', e, i, s⟩

end Afs.Refs
