import Verif.Proof.RefsLoad3
/-!
# Loading: tables of contents and control data
-/
namespace Afs.Refs
open Afs.Spec

/-- `p` stays; no count is higher than before, but for new objects. -/
structure Weak (h : Heap) (p : Nat) (h' : Heap) : Prop where
  self : ∀ d, h.cells p = some d → ∃ d', h'.cells p = some d' ∧ d'.kind = d.kind
  rcs : ∀ x c', h'.cells x = some c' → c'.rc ≤ 1 ∨ ∃ c, h.cells x = some c ∧ c'.rc ≤ c.rc

theorem Weak.refl (h : Heap) (p : Nat) : Weak h p h := ⟨fun d hd => ⟨d, hd, rfl⟩, fun _ c hc => .inr ⟨c, hc, Int.le_refl _⟩⟩

theorem Weak.trans {a b c : Heap} {p : Nat} (h1 : Weak a p b) (h2 : Weak b p c) : Weak a p c := by
  refine ⟨fun d hd => ?_, fun x d hd => ?_⟩
  · obtain ⟨d1, e1, k1⟩ := h1.self d hd
    obtain ⟨d2, e2, k2⟩ := h2.self d1 e1
    exact ⟨d2, e2, k2.trans k1⟩
  · rcases h2.rcs x d hd with h | ⟨d1, e1, r1⟩
    · exact .inl h
    · rcases h1.rcs x d1 e1 with h | ⟨d2, e2, r2⟩
      · exact .inl (by omega)
      · exact .inr ⟨d2, e2, by omega⟩

theorem Weak.small {h h' : Heap} {p : Nat} (hw : Weak h p h') (hs : Small h) : Small h' := by
  intro x c hc
  rcases hw.rcs x c hc with hr | ⟨c0, hc0, hr⟩
  · exact Int.le_trans hr (by decide)
  · exact Int.le_trans hr (hs x c0 hc0)

theorem Grown.weak {h h' : Heap} {p : Nat} {d : Cell} (hg : Grown h p h') (hd : h.cells p = some d) : Weak h p h' := by
  refine ⟨fun d hd => ?_, fun x c hc => ?_⟩
  · obtain ⟨ks, e, -⟩ := hg.self d hd
    exact ⟨_, e, rfl⟩
  · by_cases hx : x < h.next
    · by_cases e : x = p
      · subst e
        obtain ⟨ks, e1, -⟩ := hg.self d hd
        rw [e1] at hc
        injection hc with hc
        subst hc
        exact .inr ⟨d, hd, Int.le_refl _⟩
      · rw [hg.old x hx e] at hc
        exact .inr ⟨c, hc, Int.le_refl _⟩
    · exact .inl (by rw [(hg.new x c (by omega) hc).1]; exact Int.le_refl _)

theorem Keeps.weak {h h' : Heap} (hk : Keeps h h') (p : Nat) : Weak h p h' := by
  refine ⟨fun d hd => hk.live p d hd, fun x c hc => ?_⟩
  rcases hk.rcs x c hc with hr | ⟨c0, hc0, hr⟩
  · exact .inl (by omega)
  · exact .inr ⟨c0, hc0, by omega⟩

/-- Dropping a part of `p`; what `l` holds stays as well, if it is not below `p`. -/
theorem drop_weak {h : Heap} {L : List Nat} {p : Nat} {d : Cell} (hi : Inv h L []) (hs : Small h) (hd : h.cells p = some d) (k : Kind) :
    ∃ h', dropPart h p k = .ok h' ∧ Inv h' L [] ∧ Weak h p h' ∧ ∀ m ∈ L, ∀ c, h.cells m = some c → ∃ c', h'.cells m = some c' ∧ c'.kind = c.kind := by
  obtain ⟨h', e, i, s⟩ := dropPart_ok (k := k) hi hs hd
  have hkind : ∀ x c c', h.cells x = some c → h'.cells x = some c' → c'.kind = c.kind := by
    intro x c c' hc hc'
    obtain ⟨c2, h2, k2, -, -⟩ := s.cells x c' hc'
    obtain ⟨c3, h3, k3, -⟩ := withoutPart_cells h2
    rw [hc] at h3
    cases h3
    rw [k2, k3]
  refine ⟨h', e, i, ⟨fun d1 hd1 => ?_, fun x c' hc' => ?_⟩, fun m hm c hc => ?_⟩
  · have hr := (live_iff_reach hi p).mp ⟨d, hd⟩
    obtain ⟨d', hd'⟩ := reach_live i (reach_shrinks i s (reach_withoutPart (k := k) hi hd hr hd (Nat.le_refl _)))
    exact ⟨d', hd', hkind p d1 d' hd1 hd'⟩
  · obtain ⟨c2, hc2, _, _, r2⟩ := s.cells x c' hc'
    obtain ⟨c3, hc3, _, r3⟩ := withoutPart_cells hc2
    exact .inr ⟨c3, hc3, by omega⟩
  · obtain ⟨c', hc'⟩ := (i.roots m hm).2
    exact ⟨c', hc', hkind m c c' hc hc'⟩

theorem replace_loads {α : Type} {k kc : Kind} (hown : k.owns kc = true) {load : Heap → Nat → α → Res Loaded} {ok : α → Bool} {n : α → Nat}
    (hl : ∀ x, LoadsNew kc load x (ok x) (n x)) (plan : Option α) {h : Heap} {L : List Nat} {p : Nat} (hi : Inv h L []) (hs : Small h)
    (hp : Is h p k) :
    ∃ r, loadReplace kc load h p plan = .ok r ∧ Inv r.heap (r.lost ++ L) [] ∧ Weak h p r.heap ∧ r.ok = ifThere true ok plan ∧
      r.lost.length = ifThere 0 n plan := by
  obtain ⟨d, hd, hk⟩ := hp
  cases plan with
  | none => exact ⟨⟨h, true, []⟩, rfl, hi, Weak.refl h p, rfl, rfl⟩
  | some x =>
    obtain ⟨r, c, h1, h2, h3, h4, h5, h6, h7, h8, h9⟩ := child_loads (hl x) hi hs hd
    unfold loadReplace ifThere
    dsimp only
    rw [h1, Res.ok_bind]
    cases hok : ok x with
    | false =>
      rw [if_pos (h5.trans hok)]
      obtain ⟨hf, hf1, hf2, hf3⟩ := free_shrinks h2 h4
      rw [hf1, Res.ok_bind]
      exact ⟨_, rfl, hf2, (h3.freed (hi.lt hd) (Nat.le_refl _) hf1 hf2 hf3).weak hd, rfl, h6⟩
    | true =>
      rw [if_neg (by rw [h5, hok]; simp)]
      obtain ⟨g, g1, g2, g3, g4⟩ := drop_weak h2 h4 h9 kc
      rw [g1, Res.ok_bind]
      obtain ⟨d', hd', hk'⟩ := g3.self d h9
      obtain ⟨c', hc', hck⟩ := g4 h.next List.mem_cons_self c h7
      obtain ⟨a1, a2⟩ := append_ok g2 hd' hc' (by rw [hk', hk, hck, h8]; exact hown)
      rw [a1, Res.ok_bind]
      exact ⟨_, rfl, a2, ((h3.weak hd).trans g3).trans ((keeps_set hd' _).weak p), rfl, h6⟩

theorem dropUnless_ok {h : Heap} {L : List Nat} {p : Nat} {k0 : Kind} (hi : Inv h L []) (hs : Small h) (hp : Is h p k0) (b : Bool) (k : Kind) :
    ∃ h', dropUnless b h p k = .ok h' ∧ Inv h' L [] ∧ Weak h p h' := by
  obtain ⟨d, hd, -⟩ := hp
  cases b with
  | true => exact ⟨h, rfl, hi, Weak.refl h p⟩
  | false =>
    obtain ⟨h', h1, h2, h3, -⟩ := drop_weak hi hs hd k
    exact ⟨h', h1, h2, h3⟩

theorem Weak.is {h h' : Heap} {p : Nat} {k : Kind} (hw : Weak h p h') (hp : Is h p k) : Is h' p k := by
  obtain ⟨d, hd, hk⟩ := hp
  obtain ⟨d', hd', hk'⟩ := hw.self d hd
  exact ⟨d', hd', hk'.trans hk⟩

theorem toc_loads (plan : Option TocPlan) {h : Heap} {L : List Nat} {p : Nat} (hi : Inv h L []) (hs : Small h) (hp : Is h p .tocData) :
    ∃ r, loadToc h p plan = .ok r ∧ Inv r.heap (r.lost ++ L) [] ∧ Weak h p r.heap ∧ r.ok = tocOk plan ∧ r.lost.length = tocLost plan := by
  obtain ⟨d, hd, hk⟩ := hp
  have hp : Is h p .tocData := ⟨d, hd, hk⟩
  unfold loadToc
  rw [hd]
  cases plan with
  | none => exact ⟨_, rfl, hi, Weak.refl h p, rfl, rfl⟩
  | some x =>
    dsimp only
    obtain ⟨r, r1, r2, r3, r4, r5⟩ := replace_loads (kc := .tocMeta) rfl (fun l => (tocMeta_loads l).toNew fun _ _ _ => leavesLost_true l) x.metadata hi hs hp
    rw [r1, Res.ok_bind]
    have r5' : r.lost.length = 0 := by rw [r5]; cases x.metadata <;> rfl
    unfold tocOk tocLost
    dsimp only
    cases hv : ifThere true leavesOk x.metadata with
    | false =>
      rw [if_pos (r4.trans hv)]
      exact ⟨r, rfl, r2, r3, by rw [r4, hv]; rfl, by rw [r5']; rfl⟩
    | true =>
      rw [if_neg (by rw [r4, hv]; simp), if_neg (by simp)]
      obtain ⟨s, s1, s2, s3, s4, s5⟩ := replace_loads (kc := .layoutDefs) rfl (fun l => (layouts_loads l).toNew fun _ _ _ => rfl) x.layouts r2
        (r3.small hs) (r3.is hp)
      rw [s1, Res.ok_bind]
      have w2 := r3.trans s3
      cases hv2 : ifThere true layoutsOk x.layouts with
      | false =>
        rw [if_pos (s4.trans hv2)]
        refine ⟨_, rfl, s2.congr fun a => by simp only [List.count_append]; omega, w2, rfl, ?_⟩
        dsimp only
        rw [List.length_append, r5', s5]
        simp
      | true =>
        rw [if_neg (by rw [s4, hv2]; simp)]
        obtain ⟨t, t1, t2, t3, t4, t5⟩ := replace_loads (kc := .reels) rfl (fun l => (reels_loads l).toNew fun _ _ _ => rfl) x.reels s2
          (w2.small hs) (w2.is hp)
        rw [t1, Res.ok_bind]
        have w3 := w2.trans t3
        have hlen : (r.lost ++ s.lost ++ t.lost).length = ifThere 0 layoutsLost x.layouts + ifThere 0 reelsLost x.reels := by
          rw [List.length_append, List.length_append, r5', s5, t5, Nat.zero_add]
        have hinv : Inv t.heap (r.lost ++ s.lost ++ t.lost ++ L) [] := t2.congr fun a => by simp only [List.count_append]; omega
        cases hv3 : ifThere true reelsOk x.reels with
        | false =>
          rw [if_pos (t4.trans hv3)]
          exact ⟨_, rfl, hinv, w3, rfl, by dsimp only; rw [hlen]; simp⟩
        | true =>
          rw [if_neg (by rw [t4, hv3]; simp)]
          obtain ⟨h1, u1, u2, u3⟩ := dropUnless_ok hinv (w3.small hs) (w3.is hp) x.metadata.isSome .tocMeta
          have w4 := w3.trans u3
          obtain ⟨h2, v1, v2, v3⟩ := dropUnless_ok u2 (w4.small hs) (w4.is hp) x.layouts.isSome .layoutDefs
          have w5 := w4.trans v3
          obtain ⟨h3, y1, y2, y3⟩ := dropUnless_ok v2 (w5.small hs) (w5.is hp) x.reels.isSome .reels
          rw [u1, Res.ok_bind, v1, Res.ok_bind, y1, Res.ok_bind]
          exact ⟨_, rfl, y2, w5.trans y3, rfl, by dsimp only; rw [hlen]; simp⟩

/-- A part of control data. -/
theorem fresh_loads {α : Type} {k kc : Kind} (hown : k.owns kc = true) {load : Heap → Nat → α → Res Loaded} {x : α} {ok : Bool} {n : Nat}
    (hl : LoadsNew kc load x ok n) {h : Heap} {L : List Nat} {p : Nat} (hi : Inv h L []) (hs : Small h) (hp : Is h p k) :
    ∃ r, loadFresh kc load h p x = .ok r ∧ Inv r.heap (r.lost ++ L) [] ∧ Weak h p r.heap ∧ r.ok = ok ∧ r.lost.length = n := by
  obtain ⟨d, hd, hk⟩ := hp
  obtain ⟨g, g1, g2, g3, -⟩ := drop_weak hi hs hd kc
  unfold loadFresh
  rw [g1, Res.ok_bind]
  dsimp only
  obtain ⟨d1, hd1, hk1⟩ := g3.self d hd
  have hpn := g2.lt hd1
  have hi1 : Inv (g.alloc kc []).1 (g.next :: L) [] := Inv.alloc (parts := []) g2 (by simp)
  have hd2 : (g.alloc kc []).1.cells p = some d1 := by rw [alloc_old _ _ _ hpn, hd1]
  obtain ⟨a1, a2⟩ := append_ok hi1 hd2 (alloc_new g kc []) (by rw [hk1, hk]; exact hown)
  rw [a1, Res.ok_bind]
  have hw : Weak h p ((g.alloc kc []).1.set p { d1 with kids := d1.kids ++ [g.next] }) :=
    (g3.trans ((keeps_alloc g2 kc []).weak p)).trans ((keeps_set hd2 _).weak p)
  have hm : ((g.alloc kc []).1.set p { d1 with kids := d1.kids ++ [g.next] }).cells g.next = some ⟨kc, 1, []⟩ := by
    rw [set_cells, if_neg (by omega), alloc_new]
  obtain ⟨r, r1, r2, r3, r4, r5⟩ := hl _ L g.next a2 (hw.small hs) hm
  refine ⟨r, r1, r2, ?_, r4, r5⟩
  have hw2 := r3.weak hm
  refine ⟨fun d0 hd0 => ?_, (hw.trans ⟨fun d0 hd0 => ?_, hw2.rcs⟩).rcs⟩
  · obtain ⟨d3, hd3, hk3⟩ := hw.self d0 hd0
    exact ⟨d3, by rw [r3.old p (by change p < g.next + 1; omega) (by omega)]; exact hd3, hk3⟩
  · exact ⟨d0, by rw [r3.old p (by change p < g.next + 1; omega) (by omega)]; exact hd0, rfl⟩

theorem tech_new (plan : Option TechPlan) (hold : ∀ x, plan = some x → x.oldTocs = none ∧ x.oldApps = none) :
    LoadsNew .tech loadTech plan (techOk plan) (techLost plan) := by
  intro h L p hi hs hp
  obtain ⟨r, r1, r2, r3, r4, r5⟩ := tech_loads plan h L p _ hi hs hp rfl (by
    cases plan with
    | none => trivial
    | some x =>
      obtain ⟨e1, e2⟩ := hold x rfl
      intro d hd
      rw [e1, e2]
      exact ⟨fun a => by simp, fun a ha => by simp at ha⟩)
  refine ⟨r, r1, r2, r3, r4, ?_⟩
  rw [r5]
  cases plan with
  | none => rfl
  | some x =>
    obtain ⟨e1, e2⟩ := hold x rfl
    unfold techLostAt
    dsimp only
    rw [has_fresh hp, e1, e2]
    cases ht : x.tocs with
    | none => cases x.apps <;> simp [ifThere]
    | some l => cases x.apps <;> cases hl : filesOk l <;> simp [ifThere, hl]

theorem control_loads (admin : Bool) (tech : Option (Option TechPlan))
    {h : Heap} {L : List Nat} {p : Nat} (hi : Inv h L []) (hs : Small h) (hp : Is h p .control) :
    ∃ r, loadControl h p admin tech = .ok r ∧ Inv r.heap (r.lost ++ L) [] ∧ Weak h p r.heap ∧ r.ok = controlOk admin tech ∧
      r.lost.length = controlLost admin tech := by
  obtain ⟨d, hd, hk⟩ := hp
  have hp : Is h p .control := ⟨d, hd, hk⟩
  unfold loadControl
  rw [hd]
  dsimp only
  cases admin with
  | false => exact ⟨_, rfl, hi, Weak.refl h p, rfl, rfl⟩
  | true =>
    rw [if_neg (by simp)]
    obtain ⟨r, r1, r2, r3, r4, r5⟩ := fresh_loads rfl (leaf_new .admin true) hi hs hp
    rw [r1, Res.ok_bind]
    cases tech with
    | none => exact ⟨_, rfl, r2, r3, rfl, r5⟩
    | some x =>
      dsimp only
      obtain ⟨s, s1, s2, s3, s4, s5⟩ := fresh_loads rfl (tech_new (x.map TechPlan.fresh) fun y hy => by
        cases x with
        | none => cases hy
        | some x => cases hy; exact ⟨rfl, rfl⟩) r2 (r3.small hs) (r3.is hp)
      rw [s1, Res.ok_bind]
      refine ⟨_, rfl, s2.congr fun a => by simp only [List.count_append]; omega, r3.trans s3, rfl, ?_⟩
      dsimp only
      rw [List.length_append, r5, s5, Nat.zero_add]
      cases x <;> rfl

end Afs.Refs
