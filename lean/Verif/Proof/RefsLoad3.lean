import Verif.Proof.RefsLoad2
/-!
# Loading: reels, layouts, technical metadata
-/
namespace Afs.Refs
open Afs.Spec

theorem part_mem {h : Heap} {p : Nat} {d : Cell} (hd : h.cells p = some d) (k : Kind) : ∀ o, part h p k = some o → o ∈ d.kids :=
  fun _ ho => (part_isKind hd ho).1

theorem has_eq (h : Heap) (p : Nat) (k : Kind) : (if (part h p k).isSome then 1 else 0) = has h p k := rfl

theorem reel_loads (plan : Option (Option FilesPlan)) : Loads .reel loadReel plan (reelOk plan) (reelLostAt plan) := by
  intro h L p d hi hs hd hk
  unfold loadReel
  rw [hd]
  cases plan with
  | none => exact ⟨_, rfl, hi, Grown.refl hi p, rfl, rfl⟩
  | some plan =>
    cases plan with
    | none => exact ⟨_, rfl, hi, Grown.refl hi p, rfl, rfl⟩
    | some l =>
      obtain ⟨r, r1, r2, r3, r4, r5, -, -⟩ := into_loads (k := .reel) (kc := .files) rfl (fun l => (files_loads l).toNew fun _ _ _ => rfl) l
        (part h p .files) hi hs hd hk (part_mem hd _)
      exact ⟨r, r1, r2, r3, r4, r5⟩

theorem reel_new (plan : Option (Option FilesPlan)) : LoadsNew .reel loadReel plan (reelOk plan) (reelLost plan) :=
  (reel_loads plan).toNew fun h p hp => by
    cases plan with
    | none => rfl
    | some plan =>
      cases plan with
      | none => rfl
      | some l => unfold reelLostAt reelLost; dsimp only [ifThere]; rw [has_fresh hp]; rfl

theorem reels_loads (plan : ReelsPlan) : Loads .reels loadReels plan (reelsOk plan) (fun _ _ => reelsLost plan) := by
  intro h L p d hi hs hd hk
  exact container_loads rfl false reel_new (some plan) h L p d hi hs hd hk

theorem layout_loads (plan : Option Leaves) : Loads .layoutDef loadLayout plan (layoutOk plan) (layoutLostAt plan) := by
  intro h L p d hi hs hd hk
  unfold loadLayout
  rw [hd]
  cases plan with
  | none => exact ⟨_, rfl, hi, Grown.refl hi p, rfl, rfl⟩
  | some l =>
    obtain ⟨r, r1, r2, r3, r4, r5, -, -⟩ := into_loads (k := .layoutDef) (kc := .sections) rfl (fun l => (sections_loads l).toNew fun _ _ _ => rfl) l
      (part h p .sections) hi hs hd hk (part_mem hd _)
    exact ⟨r, r1, r2, r3, r4, r5⟩

theorem layout_new (plan : Option Leaves) : LoadsNew .layoutDef loadLayout plan (layoutOk plan) (layoutLost plan) :=
  (layout_loads plan).toNew fun h p hp => by
    cases plan with
    | none => rfl
    | some l => unfold layoutLostAt layoutLost; dsimp only; rw [has_fresh hp]; rfl

theorem layouts_loads (plan : LayoutsPlan) : Loads .layoutDefs loadLayouts plan (layoutsOk plan) (fun _ _ => layoutsLost plan) := by
  intro h L p d hi hs hd hk
  unfold layoutsOk layoutsLost loadLayouts
  cases plan with
  | none => exact container_loads (k := .layoutDefs) rfl false layout_new none h L p d hi hs hd hk
  | some l => exact container_loads rfl false layout_new (some l) h L p d hi hs hd hk

/-! ## Technical metadata -/

/-- A moment in the loading of `p`. -/
structure Mid (h0 : Heap) (L0 : List Nat) (p : Nat) (d0 : Cell) (h : Heap) (ks lost : List Nat) : Prop where
  inv : Inv h (lost ++ L0) []
  grown : Grown h0 p h
  cell : h.cells p = some { d0 with kids := ks }

theorem Mid.start {h : Heap} {L : List Nat} {p : Nat} {d : Cell} (hi : Inv h L []) (hd : h.cells p = some d) : Mid h L p d h d.kids [] :=
  ⟨hi, Grown.refl hi p, hd⟩

theorem Mid.into {h0 : Heap} {L0 : List Nat} {p : Nat} {d0 : Cell} {h : Heap} {ks lost : List Nat} (hm : Mid h0 L0 p d0 h ks lost) (hs : Small h0)
    (hd : h0.cells p = some d0) {α : Type} {kc : Kind} (hown : d0.kind.owns kc = true) {load : Heap → Nat → α → Res Loaded} {ok : α → Bool} {n : α → Nat}
    (hl : ∀ x, LoadsNew kc load x (ok x) (n x)) (x : α) (old : Option Nat) (hold : ∀ o, old = some o → o ∈ ks) :
    ∃ r, loadInto kc load h p old x = .ok r ∧ Mid h0 L0 p d0 r.heap (without ks old ++ [h.next]) (lost ++ r.lost) ∧ r.ok = ok x ∧
      r.lost.length = (n x + if old.isSome then 1 else 0) ∧ h0.next ≤ h.next ∧ h.next < r.heap.next := by
  obtain ⟨r, r1, r2, r3, r4, r5, r6, ⟨ks, r7⟩⟩ := into_loads hown hl x old hm.inv (hm.grown.small hs hd) hm.cell rfl hold
  refine ⟨r, r1, ⟨r2.congr fun a => by simp only [List.count_append]; omega, ?_, r6⟩, r4, r5, hm.grown.next, r2.lt r7⟩
  by_cases hlt : p < h0.next
  · exact hm.grown.trans hlt r3
  · have := (hm.grown).new p _ (by omega) hm.cell
    exact ⟨Nat.le_trans hm.grown.next r3.next, fun x hx hne => by rw [r3.old x (by have := hm.grown.next; omega) hne, hm.grown.old x hx hne],
      fun x c hx hc => by
        by_cases hb : x < h.next
        · by_cases e : x = p
          · subst e
            rw [r6] at hc
            injection hc with hc
            subst hc
            refine ⟨this.1, fun k hk => ?_⟩
            rcases List.mem_append.mp hk with h1 | h1
            · exact this.2 k (mem_without h1)
            · rw [List.mem_singleton] at h1; have := hm.grown.next; omega
          · rw [r3.old x hb e] at hc
            exact hm.grown.new x c hx hc
        · obtain ⟨h3, h4⟩ := r3.new x c (by omega) hc
          exact ⟨h3, fun k hk => by have := h4 k hk; have := hm.grown.next; omega⟩,
      fun d1 hd1 => by
        obtain ⟨ks1, e1, k1⟩ := hm.grown.self d1 hd1
        obtain ⟨ks2, e2, k2⟩ := r3.self _ e1
        refine ⟨ks2, e2, fun k hk => ?_⟩
        rcases k2 k hk with h | h
        · exact k1 k h
        · have := hm.grown.next; exact .inr (by omega)⟩

theorem Mid.release {h0 : Heap} {L0 : List Nat} {p : Nat} {d0 : Cell} {h : Heap} {ks lost : List Nat} (hm : Mid h0 L0 p d0 h ks lost) (hs : Small h0)
    (hd : h0.cells p = some d0) (hp : p < h0.next) {m : Nat} (hmk : m ∈ ks) (hn : h0.next ≤ m) :
    ∃ h', release h p m = .ok h' ∧ Mid h0 L0 p d0 h' (ks.erase m) lost := by
  have hu := unlink_ok hm.inv hm.cell hmk
  have e1 : unlink h p m = h.set p { d0 with kids := ks.erase m } := by unfold unlink; rw [hm.cell]
  have g : Grown h0 p (unlink h p m) := by
    rw [e1]
    exact hm.grown.setKids hp hm.cell fun a ha => .inl (List.mem_of_mem_erase ha)
  obtain ⟨h', f1, f2, f3⟩ := free_shrinks hu (g.small hs hd)
  have hcl : Closed (unlink h p m) (fun x => h0.next ≤ x) := fun x d hd hx => (g.new x d hx hd).2
  obtain ⟨-, hout⟩ := freeObj_frame (fun x => h0.next ≤ x) maxDepth _ m h' hcl hn f1
  refine ⟨h', f1, f2, g.freed hp hn f1 f2 f3, ?_⟩
  rw [hout p (by omega), e1, set_cells, if_pos rfl]

theorem count_without (l : List Nat) (old : Option Nat) (a : Nat) : (without l old).count a = l.count a - old.toList.count a := by
  unfold without
  cases old with
  | none => simp
  | some o =>
    dsimp only
    rw [List.count_erase]
    have : (some o).toList.count a = if a == o then 1 else 0 := by
      simp only [Option.toList, List.count_cons, List.count_nil, Nat.zero_add, beq_iff_eq]
      by_cases e : o = a
      · rw [if_pos e, if_pos e.symm]
      · rw [if_neg e, if_neg (Ne.symm e)]
    rw [this]
    split <;> simp_all

theorem tech_loads (plan : Option TechPlan) (h : Heap) (L : List Nat) (p : Nat) (d : Cell) (hi : Inv h L []) (hs : Small h) (hd : h.cells p = some d)
    (hk : d.kind = .tech) (hfit : techFits plan h p) :
    ∃ r, loadTech h p plan = .ok r ∧ Inv r.heap (r.lost ++ L) [] ∧ Grown h p r.heap ∧ r.ok = techOk plan ∧ r.lost.length = techLostAt plan h p := by
  unfold loadTech
  rw [hd]
  cases plan with
  | none => exact ⟨_, rfl, hi, Grown.refl hi p, rfl, rfl⟩
  | some x =>
    dsimp only
    obtain ⟨hcount, hkind⟩ := hfit d hd
    have hp := hi.lt hd
    have hbox : d.kind.owns .boxing = true := by rw [hk]; rfl
    have hfil : d.kind.owns .files = true := by rw [hk]; rfl
    -- the boxing format is not one of the two lists
    have hne : ∀ a, a ∈ x.oldTocs.toList ++ x.oldApps.toList → part h p .boxing ≠ some a := by
      intro a ha e
      have h1 := (part_isKind hd e).2
      obtain ⟨c, hc, hck⟩ := hkind a ha
      unfold isKind at h1
      rw [hc] at h1
      simp [hck] at h1
    have hlt : ∀ a, a ∈ x.oldTocs.toList ++ x.oldApps.toList → a < h.next := by
      intro a ha
      obtain ⟨c, hc, -⟩ := hkind a ha
      exact hi.lt hc
    obtain ⟨r, r1, r2, r3, r4, r5, r6⟩ := (Mid.start hi hd).into hs hd hbox (leaf_new .boxing) x.format (part h p .boxing) (part_mem hd _)
    rw [r1, Res.ok_bind]
    have hf : h.next ∈ without d.kids (part h p .boxing) ++ [h.next] := by simp
    -- the format is kept or released
    obtain ⟨h1, ks1, e1, m1, c1, cf⟩ : ∃ h1 ks1, releaseIf (!r.ok) r.heap p h.next = .ok h1 ∧
        Mid h L p d h1 ks1 r.lost ∧ (∀ a ∈ x.oldTocs.toList ++ x.oldApps.toList, ks1.count a = d.kids.count a) ∧ (r.ok = true → h.next ∈ ks1) := by
      have hc : ∀ a ∈ x.oldTocs.toList ++ x.oldApps.toList, (without d.kids (part h p .boxing) ++ [h.next]).count a = d.kids.count a := by
        intro a ha
        have h1 := hne a ha
        have h2 := hlt a ha
        rw [List.count_append, count_without]
        have h3 : (part h p .boxing).toList.count a = 0 := by
          rw [List.count_eq_zero]
          intro hm
          rw [Option.mem_toList] at hm
          exact h1 hm
        have h4 : ([h.next] : List Nat).count a = 0 := by
          rw [List.count_eq_zero]
          intro hm
          rw [List.mem_singleton] at hm
          omega
        omega
      cases hr : r.ok with
      | true => exact ⟨_, _, rfl, by simpa using r2, hc, fun _ => hf⟩
      | false =>
        obtain ⟨h', f1, f2⟩ := r2.release hs hd hp hf (Nat.le_refl _)
        refine ⟨h', _, f1, by simpa using f2, fun a ha => ?_, fun h => nomatch h⟩
        have h2 := hlt a ha
        rw [List.count_erase_of_ne (by omega), hc a ha]
    rw [e1, Res.ok_bind]
    have hmem : ∀ {ks : List Nat} {a : Nat}, 0 < ks.count a → a ∈ ks := fun h => List.count_pos_iff.mp h
    -- the applications
    have happs : ∀ (g : Heap) (ks lost : List Nat), Mid h L p d g ks lost → (∀ a ∈ x.oldApps.toList, 0 < ks.count a) →
        ∃ s, loadTech.loadApps x lost g p = .ok s ∧ Inv s.heap (s.lost ++ L) [] ∧ Grown h p s.heap ∧ s.ok = true ∧
          s.lost.length = lost.length + ifThere 0 (fun l => filesLost l + if x.oldApps.isSome then 1 else 0) x.apps := by
      intro g ks lost hm hc
      unfold loadTech.loadApps
      cases hx : x.apps with
      | none => exact ⟨_, rfl, hm.inv, hm.grown, rfl, rfl⟩
      | some l =>
        dsimp only
        obtain ⟨s, s1, s2, s3, s4, s5, s6⟩ := hm.into hs hd hfil (fun l => (files_loads l).toNew fun _ _ _ => rfl) l x.oldApps
          (fun o ho => hmem (hc o (by rw [ho]; simp)))
        rw [s1, Res.ok_bind]
        cases hr : s.ok with
        | true =>
          have f0 : releaseIf (!true) s.heap p g.next = .ok s.heap := rfl
          rw [f0, Res.ok_bind]
          exact ⟨_, rfl, s2.inv, s2.grown, rfl, by dsimp only [ifThere]; rw [List.length_append, s4]⟩
        | false =>
          obtain ⟨h', f1, f2⟩ := s2.release hs hd hp (m := g.next) (by simp) s5
          have f0 : releaseIf (!false) s.heap p g.next = .ok h' := f1
          rw [f0, Res.ok_bind]
          exact ⟨_, rfl, f2.inv, f2.grown, rfl, by dsimp only [ifThere]; rw [List.length_append, s4]⟩
    unfold techLostAt techOk techLost
    dsimp only
    have hlen : r.lost.length = has h p .boxing := by rw [r4, Nat.zero_add, has_eq]
    cases hx : x.tocs with
    | none =>
      dsimp only
      obtain ⟨s, s1, s2, s3, s4, s5⟩ := happs h1 ks1 r.lost m1 fun a ha => by
        have hm : a ∈ x.oldTocs.toList ++ x.oldApps.toList := List.mem_append.mpr (.inr ha)
        rw [c1 a hm]
        have h1 := hcount a
        rw [List.count_append] at h1
        have h2 := List.count_pos_iff.mpr ha
        omega
      refine ⟨s, s1, s2, s3, s4, ?_⟩
      rw [s5, hlen]
      cases x.apps <;> simp [ifThere] <;> omega
    | some l =>
      dsimp only
      obtain ⟨s, s1, s2, s3, s4, s5, s6⟩ := m1.into hs hd hfil (fun l => (files_loads l).toNew fun _ _ _ => rfl) l x.oldTocs
        (fun o ho => hmem (by
          have hm : o ∈ x.oldTocs.toList ++ x.oldApps.toList := List.mem_append.mpr (.inl (by rw [ho]; simp))
          rw [c1 o hm]
          have h1 := hcount o
          have h2 := List.count_pos_iff.mpr hm
          omega))
      rw [s1, Res.ok_bind]
      cases hr : s.ok with
      | true =>
        rw [if_pos rfl]
        have hfo : filesOk l = true := by rw [← s3, hr]
        obtain ⟨t, t1, t2, t3, t4, t5⟩ := happs s.heap _ (r.lost ++ s.lost) s2 fun a ha => by
          have hm : a ∈ x.oldTocs.toList ++ x.oldApps.toList := List.mem_append.mpr (.inr ha)
          rw [List.count_append, count_without, c1 a hm]
          have h1 := hcount a
          rw [List.count_append] at h1
          have h2 := List.count_pos_iff.mpr ha
          omega
        refine ⟨t, t1, t2, t3, by rw [t4]; dsimp only [ifThere]; rw [hfo], ?_⟩
        rw [t5, List.length_append, s4, hlen]
        have hf2 : ifThere true filesOk (some l) = true := hfo
        have hf3 : ¬ ifThere true filesOk (some l) = false := by rw [hf2]; simp
        rw [if_neg hf3, if_neg hf3]
        cases x.apps <;> simp [ifThere] <;> omega
      | false =>
        rw [if_neg (by simp)]
        have hfo : filesOk l = false := by rw [← s3, hr]
        obtain ⟨h2, ks2, e2, m2, c2⟩ : ∃ h2 ks2, releaseIf r.ok s.heap p h.next = .ok h2 ∧
            Mid h L p d h2 ks2 (r.lost ++ s.lost) ∧ h1.next ∈ ks2 := by
          cases hr1 : r.ok with
          | true =>
            have hh : h.next ≠ h1.next := by
              have := m1.inv.kids p _ m1.cell (by simp) h.next (cf hr1)
              obtain ⟨-, c', hc', -⟩ := this
              have := m1.inv.lt hc'
              omega
            have hw : h.next ∈ without ks1 x.oldTocs := by
              unfold without
              cases ho : x.oldTocs with
              | none => exact cf hr1
              | some o =>
                dsimp only
                have := hlt o (by rw [ho]; simp)
                rw [List.mem_erase_of_ne (by omega)]
                exact cf hr1
            obtain ⟨h', f1, f2⟩ := s2.release hs hd hp (m := h.next) (List.mem_append.mpr (.inl hw)) (Nat.le_refl _)
            exact ⟨h', _, f1, f2, by rw [List.mem_erase_of_ne (Ne.symm hh)]; simp⟩
          | false => exact ⟨_, _, rfl, s2, by simp⟩
        rw [e2, Res.ok_bind]
        obtain ⟨h3, f1, f2⟩ := m2.release hs hd hp c2 s5
        rw [f1, Res.ok_bind]
        refine ⟨_, rfl, f2.inv, f2.grown, by dsimp only [ifThere]; rw [hfo], ?_⟩
        dsimp only
        have hf2 : ifThere true filesOk (some l) = false := hfo
        rw [List.length_append, s4, hlen, if_pos hf2, if_pos hf2]
        cases x.oldTocs <;> simp [ifThere] <;> omega

end Afs.Refs
