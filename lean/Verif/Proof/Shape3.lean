import Verif.Proof.Shape2
/-!
# Loading makes the objects of the loaded value: tables of contents, technical metadata, control data
-/
namespace Afs.Objects
open Afs Afs.Refs Afs.Spec Afs.Xml

section toc
variable {α : Type} {k k' : Kind} {load : Heap → Nat → α → Res Loaded} {ok : Bool} {ts : List ObjShape} {h0 h : Heap} {p : Nat} {rc : Int} {r : Loaded}

/-- An optional part of a table of contents. -/
theorem replaces {β : Type} {x : Option α} {v : Option β} {parts : β → List ObjShape} (hno : x = none → v = none ∧ ok = true)
    (hx : ∀ y, x = some y → ∃ b, v = some b ∧ Makes k' load y ok (parts b)) (hm : Mid h0 h p k rc ts) (hk : ∀ t ∈ ts, kindOf t ≠ k')
    (e : loadReplace k' load h p x = .ok r) :
    r.ok = ok ∧ Mid h0 r.heap p k rc (if ok then ts ++ v.toList.map (fun b => .node k' (parts b)) else ts) := by
  cases x with
  | none =>
    obtain ⟨rfl, rfl⟩ := hno rfl
    cases e
    refine ⟨rfl, ?_⟩
    simpa using hm
  | some y =>
    obtain ⟨b, rfl, hb⟩ := hx y rfl
    exact replace_makes hb hm hk e

theorem dropUnless_none {loaded : Bool} (hm : Mid h0 h p k rc ts) (hk : loaded = false → ∀ t ∈ ts, kindOf t ≠ k') :
    dropUnless loaded h p k' = .ok h := by
  unfold dropUnless
  cases loaded with
  | true => rfl
  | false => exact hm.no_drop (hk rfl)
end toc

theorem kind_parts {β : Type} {v : Option β} {k k' : Kind} {parts : β → List ObjShape} (hk : k ≠ k' ∨ v = none) :
    ∀ t ∈ v.toList.map (fun b => ObjShape.node k (parts b)), kindOf t ≠ k' := by
  intro t ht
  obtain ⟨b, hb, rfl⟩ := List.mem_map.mp ht
  rcases hk with hk | rfl
  · exact hk
  · cases hb

theorem toc_makes (node : Node) (v : Bool × TocData) (hv : TocData.create.loadXml node = .ok v) :
    Makes .tocData loadToc (tocPlan node) v.1 (tocParts v.2) := by
  intro h p rc r hn e
  unfold loadToc tocPlan at e
  unfold TocData.loadXml at hv
  simp only [hn.cell] at e
  cases hf : selfOrFind node (b! "Index") with
  | none =>
    rw [hf] at e hv
    cases e
    cases hv
    exact ⟨rfl, hn.mid⟩
  | some n =>
    rw [hf] at e hv
    rw [Option.map_some] at e
    dsimp only at e hv
    generalize hF : TocData.create.loadFields n = F at *
    have hf1 : F.metadata = none := by rw [← hF]; rfl
    have hf2 : F.layouts = none := by rw [← hF]; rfl
    have hf3 : F.reels = none := by rw [← hF]; rfl
    obtain ⟨q, hq, e⟩ := bind_ok_inv e
    -- metadata
    have h1 := replaces (v := (TocData.loadMeta n).2) (ok := (TocData.loadMeta n).1) (parts := tocMetaParts)
      (by
        intro hx
        unfold TocData.loadMeta
        cases hy : findUnder n (b! "Index") (b! "metadata") with
        | none => exact ⟨rfl, rfl⟩
        | some m => rw [hy] at hx; cases hx)
      (by
        intro y hx
        unfold TocData.loadMeta
        cases hy : findUnder n (b! "Index") (b! "metadata") with
        | none => rw [hy] at hx; cases hx
        | some m => rw [hy] at hx; cases hx; exact ⟨_, rfl, tocMeta_makes m⟩)
      hn.mid (fun t ht => by cases ht) hq
    have i1 : (findUnder n (b! "Index") (b! "metadata")).map tocMetaPlan = none → (TocData.loadMeta n).2 = none := by
      intro hx
      unfold TocData.loadMeta
      cases hy : findUnder n (b! "Index") (b! "metadata") with
      | none => rfl
      | some m => rw [hy] at hx; cases hx
    have i2 : (find n (b! "layoutDefinitions")).map layoutsPlan = none → TocData.loadLayouts n = .ok (true, none) := by
      intro hx
      unfold TocData.loadLayouts
      cases hy : find n (b! "layoutDefinitions") with
      | none => rfl
      | some m => rw [hy] at hx; cases hx
    have i3 : (find n (b! "reels")).map reelsPlan = none → (TocData.loadReels n) = (true, none) := by
      intro hx
      unfold TocData.loadReels
      cases hy : find n (b! "reels") with
      | none => rfl
      | some m => rw [hy] at hx; cases hx
    have j2 : ∀ y l, (find n (b! "layoutDefinitions")).map layoutsPlan = some y → TocData.loadLayouts n = .ok l →
        ∃ b, l.2 = some b ∧ Makes .layoutDefs loadLayouts y l.1 (layoutsParts b) := by
      intro y l hx hl
      unfold TocData.loadLayouts at hl
      cases hy : find n (b! "layoutDefinitions") with
      | none => rw [hy] at hx; cases hx
      | some m =>
        rw [hy] at hx hl
        cases hx
        obtain ⟨w, hw, hl⟩ := bind_ok_inv hl
        cases hl
        exact ⟨_, rfl, layouts_makes m w hw⟩
    have j3 : ∀ y, (find n (b! "reels")).map reelsPlan = some y →
        ∃ b, (TocData.loadReels n).2 = some b ∧ Makes .reels loadReels y (TocData.loadReels n).1 (reelsParts b) := by
      intro y hx
      unfold TocData.loadReels
      cases hy : find n (b! "reels") with
      | none => rw [hy] at hx; cases hx
      | some m => rw [hy] at hx; cases hx; exact ⟨_, rfl, reels_makes m⟩
    generalize (findUnder n (b! "Index") (b! "metadata")).map tocMetaPlan = pm at *
    generalize (find n (b! "layoutDefinitions")).map layoutsPlan = pl at *
    generalize (find n (b! "reels")).map reelsPlan = pr at *
    generalize hM : TocData.loadMeta n = M at *
    generalize hR : TocData.loadReels n = R at *
    obtain ⟨m1, m2⟩ := M
    obtain ⟨r1, r2⟩ := R
    dsimp only at h1 hv i1 i3 j3
    cases m1 with
    | false =>
      rw [if_pos h1.1] at e
      rw [if_pos rfl] at hv
      cases e
      cases hv
      refine ⟨h1.1, ?_⟩
      have : tocParts F = [] := by unfold tocParts; rw [hf1, hf2, hf3]; rfl
      rw [this]
      exact h1.2
    | true =>
      rw [if_neg (by rw [h1.1]; decide)] at e
      rw [if_neg (by decide)] at hv
      obtain ⟨l, hl, hv⟩ := bind_ok_inv hv
      obtain ⟨s, hs, e⟩ := bind_ok_inv e
      have h1' : Mid h q.heap p .tocData rc (m2.toList.map fun b => .node .tocMeta (tocMetaParts b)) := h1.2
      have h2 := replaces (v := l.2) (ok := l.1) (parts := layoutsParts)
        (fun hx => by have := (i2 hx).symm.trans hl; cases this; exact ⟨rfl, rfl⟩) (fun y hx => j2 y l hx hl) h1' (kind_parts (.inl (by decide))) hs
      obtain ⟨l1, l2⟩ := l
      dsimp only at h2 hv
      have k1 : TocData.keepOld m2 F.metadata = m2 := by rw [hf1]; cases m2 <;> rfl
      have k2 : TocData.keepOld l2 F.layouts = l2 := by rw [hf2]; cases l2 <;> rfl
      rw [k1, k2] at hv
      cases l1 with
      | false =>
        rw [if_pos h2.1] at e
        rw [if_pos rfl] at hv
        cases e
        cases hv
        refine ⟨rfl, ?_⟩
        have : tocParts { F with metadata := m2 } = m2.toList.map fun b => .node .tocMeta (tocMetaParts b) := by
          unfold tocParts; dsimp only; rw [hf2, hf3]; simp
        rw [this]
        exact h2.2
      | true =>
        rw [if_neg (by rw [h2.1]; decide)] at e
        rw [if_neg (by decide)] at hv
        obtain ⟨t, ht, e⟩ := bind_ok_inv e
        have hk3 : ∀ t ∈ m2.toList.map (fun b => ObjShape.node .tocMeta (tocMetaParts b)) ++ l2.toList.map (fun b => ObjShape.node .layoutDefs (layoutsParts b)),
            kindOf t ≠ .reels := fun t ht =>
          (List.mem_append.mp ht).elim (kind_parts (.inl (by decide)) t) (kind_parts (.inl (by decide)) t)
        have h3 := replaces (v := r2) (ok := r1) (parts := reelsParts) (fun hx => by have := i3 hx; cases this; exact ⟨rfl, rfl⟩) j3 h2.2 hk3 ht
        cases r1 with
        | false =>
          rw [if_pos h3.1] at e
          rw [if_pos rfl] at hv
          cases e
          cases hv
          refine ⟨rfl, ?_⟩
          have : tocParts { F with metadata := m2, layouts := l2 } = m2.toList.map (fun b => .node .tocMeta (tocMetaParts b)) ++
              l2.toList.map fun b => .node .layoutDefs (layoutsParts b) := by
            unfold tocParts; dsimp only; rw [hf3]; simp
          rw [this]
          exact h3.2
        | true =>
          rw [if_neg (by rw [h3.1]; decide)] at e
          rw [if_neg (by decide)] at hv
          cases hv
          have h3' := h3.2
          rw [if_pos rfl] at h3'
          have all : ∀ (k' : Kind), (k' = .tocMeta → m2 = none) → (k' = .layoutDefs → l2 = none) → (k' = .reels → r2 = none) →
              ∀ t ∈ m2.toList.map (fun b => ObjShape.node .tocMeta (tocMetaParts b)) ++ l2.toList.map (fun b => ObjShape.node .layoutDefs (layoutsParts b)) ++
                r2.toList.map (fun b => ObjShape.node .reels (reelsParts b)), kindOf t ≠ k' := by
            intro k' a1 a2 a3 t ht
            rcases List.mem_append.mp ht with ht | ht
            · rcases List.mem_append.mp ht with ht | ht
              · exact kind_parts (by by_cases hk : k' = .tocMeta; exact .inr (a1 hk); exact .inl fun h => hk h.symm) t ht
              · exact kind_parts (by by_cases hk : k' = .layoutDefs; exact .inr (a2 hk); exact .inl fun h => hk h.symm) t ht
            · exact kind_parts (by by_cases hk : k' = .reels; exact .inr (a3 hk); exact .inl fun h => hk h.symm) t ht
          rw [dropUnless_none h3' (fun hn => all _ (fun _ => i1 (by cases pm; rfl; cases hn)) (fun h => by cases h) (fun h => by cases h))] at e
          obtain ⟨d1, hd1, e⟩ := bind_ok_inv e
          cases hd1
          rw [dropUnless_none h3' (fun hn => all _ (fun h => by cases h) (fun _ => by
            have := (i2 (by cases pl; rfl; cases hn)).symm.trans hl; cases this; rfl) (fun h => by cases h))] at e
          obtain ⟨d2, hd2, e⟩ := bind_ok_inv e
          cases hd2
          rw [dropUnless_none h3' (fun hn => all _ (fun h => by cases h) (fun h => by cases h) (fun _ => by
            have := i3 (by cases pr; rfl; cases hn); cases this; rfl))] at e
          obtain ⟨d3, hd3, e⟩ := bind_ok_inv e
          cases hd3
          cases e
          exact ⟨rfl, h3'⟩

/-! ### Technical metadata and control data -/

theorem releaseIf_ok {h h' : Heap} {p m : Nat} {b : Bool} (e : releaseIf b h p m = .ok h') : if b then release h p m = .ok h' else h' = h := by
  unfold releaseIf at e
  cases b with
  | true => exact e
  | false => cases e; rfl

/-- The applications, after all the rest. -/
theorem apps_makes {L : ConfigLib} (t : TechMeta L) (ha : t.apps = none) (x : Option Node) (plan : TechPlan) (hpl : plan.apps = x.map filesPlan) (hold : plan.oldApps = none)
    {h0 h : Heap} {p : Nat} {rc : Int} {r : Loaded} {lost : List Nat} (hm : Mid h0 h p .tech rc (techParts t)) (e : loadTech.loadApps plan lost h p = .ok r) :
    r.ok = true ∧ Mid h0 r.heap p .tech rc (techParts (TechMeta.loadApps t x)) := by
  unfold loadTech.loadApps at e
  unfold TechMeta.loadApps
  rw [hpl] at e
  cases x with
  | none => cases e; exact ⟨rfl, hm⟩
  | some n =>
    dsimp only [Option.map] at e ⊢
    rw [hold] at e
    obtain ⟨s, hs, e⟩ := bind_ok_inv e
    obtain ⟨h2, hh, e⟩ := bind_ok_inv e
    cases e
    obtain ⟨a1, a2, a3⟩ := into_makes (files_makes n) hm hs
    have hh := releaseIf_ok hh
    refine ⟨rfl, ?_⟩
    dsimp only
    generalize hq : Files.create.loadXml n = q at *
    obtain ⟨q1, q2⟩ := q
    cases q1 with
    | false =>
      rw [a1] at hh
      dsimp only
      have : techParts { t with apps := none } = techParts t := by unfold techParts; rw [ha]
      rw [this]
      exact a3 _ hh
    | true =>
      rw [a1] at hh
      change h2 = s.heap at hh
      dsimp only
      have : techParts { t with apps := some q2 } = techParts t ++ [.node .files (filesParts q2)] := by
        unfold techParts; dsimp only; rw [ha]; simp
      rw [this, hh]
      exact a2

theorem loadTocs_some {L : ConfigLib} (T : TechMeta L) (fn : Node) : T.loadTocs (some fn) =
    if (Files.create.loadXml fn).1 then (true, { T with tocs := some (Files.create.loadXml fn).2 }) else (false, { T with format := none, tocs := none }) := by
  unfold TechMeta.loadTocs
  rw [Option.map_some]
  generalize Files.create.loadXml fn = q
  obtain ⟨q1, q2⟩ := q
  cases q1 <;> rfl

theorem tech_makes (L : ConfigLib) (node : Node) :
    Makes .tech loadTech (techPlan L node) ((TechMeta.create : TechMeta L).loadXml node).1 (techParts ((TechMeta.create : TechMeta L).loadXml node).2) := by
  intro h p rc r hn e
  unfold loadTech techPlan at e
  unfold TechMeta.loadXml
  simp only [hn.cell] at e
  cases hf : find node (b! "TechnicalMetadata") with
  | none =>
    rw [hf] at e
    cases e
    exact ⟨rfl, hn.mid⟩
  | some n =>
    rw [hf] at e
    dsimp only at e ⊢
    cases hb : find n (b! "BoxerFormat") with
    | none =>
      rw [hb] at e
      cases e
      exact ⟨rfl, hn.mid⟩
    | some b =>
      rw [hb] at e
      dsimp only at e ⊢
      rw [hn.mid.no_part (fun t ht => by cases ht)] at e
      obtain ⟨q, hq, e⟩ := bind_ok_inv e
      obtain ⟨h2, hh, e⟩ := bind_ok_inv e
      obtain ⟨a1, a2, a3⟩ := into_makes (leaf_makes .boxing _) hn.mid hq
      have hh := releaseIf_ok hh
      generalize hT : ({ (TechMeta.create : TechMeta L) with format := TechMeta.loadFormat b } : TechMeta L) = T
      have t2 : T.tocs = none := by rw [← hT]; rfl
      have t3 : T.apps = none := by rw [← hT]; rfl
      have tf : T.format = TechMeta.loadFormat b := by rw [← hT]
      have hm : Mid h h2 p .tech rc (techParts T) ∧ (q.ok = true → ∃ fm, Raw h h2 p .tech rc [h.next] ∧ T.format = some fm) ∧ (q.ok = false → T.format = none) := by
        unfold TechMeta.loadFormat at tf
        dsimp only at tf
        rw [a1] at hh ⊢
        generalize hF : (Format.create : Format L).loadXml b = F at *
        obtain ⟨f1, f2⟩ := F
        cases f1 with
        | false =>
          rw [if_pos rfl] at tf
          have : techParts T = [] := by unfold techParts; rw [tf, t2, t3]; rfl
          rw [this]
          exact ⟨a3 _ hh, fun h => (by cases h), fun _ => tf⟩
        | true =>
          dsimp only at tf
          rw [if_neg (by decide)] at tf
          have : techParts T = [.node .boxing []] := by unfold techParts; rw [tf, t2, t3]; rfl
          change h2 = q.heap at hh
          rw [this, hh]
          refine ⟨a2, fun _ => ⟨f2, ?_, tf⟩, fun h => (by cases h)⟩
          -- the only part is the new object
          unfold loadInto at hq
          obtain ⟨⟨g1, o⟩, hg, hq⟩ := bind_ok_inv hq
          unfold overwrite at hg
          obtain ⟨g3, hg3, hg⟩ := bind_ok_inv hg
          cases hg
          obtain ⟨w, hw, hq⟩ := bind_ok_inv hq
          obtain ⟨hnw, key⟩ := hn.mid.into hg3
          obtain ⟨-, hmw⟩ := leaf_makes .boxing true _ _ _ _ hnw hw
          obtain ⟨-, -, k3⟩ := key hmw
          cases hq
          obtain ⟨ks, hr, _⟩ := a2
          have hc := k3 [] hn.cell
          have := hr.cell.symm.trans hc
          injection this with this
          injection this with _ _ this
          subst this
          exact hr
      generalize hX : find n (b! "Tocs") = X at *
      obtain ⟨hm1, hm2, hm3⟩ := hm
      cases X with
      | none =>
        have hl : T.loadTocs none = (true, T) := rfl
        rw [hl]
        dsimp only [Option.map] at e ⊢
        rw [if_neg (by decide)]
        exact apps_makes T t3 (find n (b! "Applications")) _ (by rfl) rfl hm1 e
      | some fn =>
        rw [loadTocs_some]
        dsimp only [Option.map] at e
        obtain ⟨s, hs, e⟩ := bind_ok_inv e
        obtain ⟨b1, b2, b3⟩ := into_makes (files_makes fn) hm1 hs
        generalize hq : Files.create.loadXml fn = F at *
        obtain ⟨f1, f2⟩ := F
        cases f1 with
        | true =>
          rw [b1, if_pos rfl] at e
          rw [if_pos rfl]
          dsimp only
          rw [if_neg (by decide)]
          have : techParts { T with tocs := some f2 } = techParts T ++ [.node .files (filesParts f2)] := by
            unfold techParts; dsimp only; rw [t2, t3]; simp
          dsimp only at b2
          rw [← this] at b2
          exact apps_makes { T with tocs := some f2 } t3 (find n (b! "Applications")) _ (by rfl) rfl b2 e
        | false =>
          rw [b1, if_neg (by simp)] at e
          rw [if_neg (by simp : ¬ ((false, f2).1 = true))]
          dsimp only
          rw [if_pos rfl]
          obtain ⟨h4, hh4, e⟩ := bind_ok_inv e
          obtain ⟨h5, hh5, e⟩ := bind_ok_inv e
          cases e
          refine ⟨rfl, ?_⟩
          have : techParts ({ T with format := none, tocs := none } : TechMeta L) = [] := by unfold techParts; dsimp only; rw [t3]; rfl
          rw [this]
          dsimp only
          have hh4 := releaseIf_ok hh4
          cases ho : q.ok with
          | false =>
            rw [ho] at hh4
            change h4 = s.heap at hh4
            rw [hh4] at hh5
            have := b3 _ hh5
            have e0 : techParts T = [] := by unfold techParts; rw [hm3 ho, t2, t3]; rfl
            rw [e0] at this
            exact this
          | true =>
            rw [ho] at hh4
            change release s.heap p h.next = .ok h4 at hh4
            obtain ⟨fm, hraw, hfm⟩ := hm2 ho
            -- both parts are released
            have hcell : s.heap.cells p = some ⟨.tech, rc, [h.next, h2.next]⟩ := by
              unfold loadInto at hs
              obtain ⟨⟨g1, o⟩, hg, hs⟩ := bind_ok_inv hs
              unfold overwrite at hg
              obtain ⟨g3, hg3, hg⟩ := bind_ok_inv hg
              cases hg
              obtain ⟨w, hw, hs⟩ := bind_ok_inv hs
              obtain ⟨hnw, key⟩ := hm1.into hg3
              obtain ⟨-, hmw⟩ := files_makes fn _ _ _ _ hnw hw
              obtain ⟨-, -, k3⟩ := key hmw
              cases hs
              exact k3 _ hraw.cell
            obtain ⟨ks, hr, _⟩ := b2
            have hks : ks = [h.next, h2.next] := by
              have := hr.cell.symm.trans hcell
              injection this with this
              injection this
            subst hks
            have hlt : h.next < h2.next := alloc_lt hraw.above (by
              obtain ⟨ks, hr1, ho1⟩ := hm1
              have hks : ks = [h.next] := by
                have := hr1.cell.symm.trans hraw.cell
                injection this with this
                injection this
              subst hks
              exact ownsAll_live ho1 _ (List.mem_singleton.mpr rfl))
            obtain ⟨r1, -⟩ := hr.release (List.mem_cons_self ..) hh4
            have e1 : [h.next, h2.next].erase h.next = [h2.next] := by simp
            rw [e1] at r1
            obtain ⟨r2, -⟩ := r1.release (List.mem_cons_self ..) hh5
            have e2 : [h2.next].erase h2.next = [] := by simp
            rw [e2] at r2
            exact ⟨[], r2, .nil⟩

/-- Control data: two parts. -/
theorem control_makes (L : ConfigLib) (node : Node) {h : Heap} {p : Nat} {rc : Int} {r : Loaded} (hn : New h p .control rc)
    (e : loadControl h p (controlPlan L node).1 (controlPlan L node).2 = .ok r) :
    r.ok = ((ControlData.create : ControlData L).loadXml node).1 ∧
    Mid h r.heap p .control rc (controlParts ((ControlData.create : ControlData L).loadXml node).2) := by
  unfold loadControl controlPlan at e
  unfold ControlData.loadXml
  simp only [hn.cell] at e
  cases ha : find node (b! "AdministrativeMetadata") with
  | none =>
    rw [ha] at e
    cases e
    exact ⟨rfl, hn.mid⟩
  | some a =>
    rw [ha] at e
    dsimp only [Option.isSome] at e ⊢
    rw [if_neg (by decide)] at e
    obtain ⟨q, hq, e⟩ := bind_ok_inv e
    obtain ⟨-, a2⟩ := fresh_makes (leaf_makes .admin true) hn.mid (fun t ht => by cases ht) hq
    cases ht : find node (b! "TechnicalMetadata") with
    | none =>
      rw [ht] at e
      cases e
      exact ⟨rfl, a2⟩
    | some t =>
      rw [ht] at e
      rw [Option.map_some] at e
      dsimp only at e ⊢
      obtain ⟨s, hs, e⟩ := bind_ok_inv e
      cases e
      have hfr : (techPlan L node).map TechPlan.fresh = techPlan L node := by
        unfold techPlan
        rw [ht]
        dsimp only
        cases find t (b! "BoxerFormat") <;> rfl
      rw [hfr] at hs
      obtain ⟨-, b2⟩ := fresh_makes (tech_makes L node) a2 (by
        intro t ht
        simp only [List.nil_append, List.mem_singleton] at ht
        subst ht
        simp [kindOf]) hs
      exact ⟨rfl, b2⟩

end Afs.Objects
