import Verif.Props.C07_C08_Layouts
import Verif.Props.C12_FrameBounds
/-!
# C14: the used layout definitions are exactly the referenced ones, sorted by id
-/
namespace Afs
open Spec

/-- The file refers to layout `k`: it is previewed, not a parent entry, and the first page of its
    preview names `k`. -/
def Spec.Refers (f : File) (k : Bytes) : Prop :=
  previewed f = true ∧ f.parentId ≠ -1 ∧
  ∃ p q qs, f.preview = some p ∧ p.pages = some (q :: qs) ∧ q.layoutId = some k

/-- Lexicographic order of byte strings. -/
def Spec.BytesLt : Bytes → Bytes → Prop
  | _, [] => False
  | [], _ :: _ => True
  | a :: as, b :: bs => a < b ∨ (a = b ∧ BytesLt as bs)

theorem strcmpGt_iff (a b : Bytes) : strcmpGt a b = true ↔ BytesLt b a := by
  induction a generalizing b with
  | nil => cases b <;> simp [strcmpGt, BytesLt]
  | cons x xs ih =>
    cases b with
    | nil => simp [strcmpGt, BytesLt]
    | cons y ys =>
      unfold strcmpGt BytesLt
      by_cases h : x = y
      · subst h
        simp only [if_true, ih, true_and]
        constructor
        · exact Or.inr
        · rintro (h | h)
          · exact absurd h (UInt8.lt_irrefl x)
          · exact h
      · have h' : ¬ y = x := fun e => h e.symm
        simp [h, h']

theorem bytesLt_trans {a b c : Bytes} (h1 : BytesLt a b) (h2 : BytesLt b c) : BytesLt a c := by
  induction a generalizing b c with
  | nil =>
    cases c with
    | nil => cases b <;> simp [BytesLt] at h2
    | cons z zs => simp [BytesLt]
  | cons x xs ih =>
    cases b with
    | nil => simp [BytesLt] at h1
    | cons y ys =>
      cases c with
      | nil => simp [BytesLt] at h2
      | cons z zs =>
        unfold BytesLt at h1 h2 ⊢
        rcases h1 with h1 | ⟨h1, h1'⟩ <;> rcases h2 with h2 | ⟨h2, h2'⟩
        · exact Or.inl (UInt8.lt_trans h1 h2)
        · subst h2; exact Or.inl h1
        · subst h1; exact Or.inl h2
        · subst h1; subst h2; exact Or.inr ⟨rfl, ih h1' h2'⟩

theorem bytesLt_total (a b : Bytes) : BytesLt a b ∨ a = b ∨ BytesLt b a := by
  induction a generalizing b with
  | nil => cases b <;> simp [BytesLt]
  | cons x xs ih =>
    cases b with
    | nil => simp [BytesLt]
    | cons y ys =>
      unfold BytesLt
      have tri : x < y ∨ x = y ∨ y < x := by
        rw [UInt8.lt_iff_toNat_lt, UInt8.lt_iff_toNat_lt, ← UInt8.toNat_inj]; omega
      rcases tri with h | h | h
      · exact Or.inl (Or.inl h)
      · subst h
        rcases ih ys with h | h | h
        · exact Or.inl (Or.inr ⟨rfl, h⟩)
        · subst h; exact Or.inr (Or.inl rfl)
        · exact Or.inr (Or.inr (Or.inr ⟨rfl, h⟩))
      · exact Or.inr (Or.inr (Or.inl h))

/-! ### The sort -/

/-- Sort key of a definition. -/
def key (d : LayoutDef) : Bytes := d.id.getD []

theorem insertDefRev_ok (x : LayoutDef) (l : List LayoutDef) (hx : x.id ≠ none)
    (hl : ∀ d ∈ l, d.id ≠ none) (hs : l.Pairwise fun a b => ¬ BytesLt (key a) (key b)) :
    ∃ r, TocData.insertDefRev x l = .ok r ∧ r.Perm (x :: l) ∧
      r.Pairwise fun a b => ¬ BytesLt (key a) (key b) := by
  induction l with
  | nil => exact ⟨[x], rfl, List.Perm.refl _, by simp⟩
  | cons p ps ih =>
    have hp := hl p (by simp)
    cases hpi : p.id with
    | none => exact absurd hpi hp
    | some pi =>
      cases hxi : x.id with
      | none => exact absurd hxi hx
      | some xi =>
        have kp : key p = pi := by simp [key, hpi]
        have kx : key x = xi := by simp [key, hxi]
        unfold TocData.insertDefRev
        simp only [hpi, hxi]
        cases hgt : strcmpGt pi xi with
        | true =>
          obtain ⟨r, h1, h2, h3⟩ := ih (fun d hd => hl d (by simp [hd])) (List.pairwise_cons.mp hs).2
          refine ⟨p :: r, by simp [h1], ?_, ?_⟩
          · exact (List.Perm.cons p h2).trans (List.Perm.swap x p ps)
          · rw [List.pairwise_cons]
            refine ⟨?_, h3⟩
            intro b hb
            rcases List.mem_cons.mp (h2.mem_iff.mp hb) with rfl | hb
            · rw [kp, kx]
              have := (strcmpGt_iff pi xi).mp hgt
              intro hc
              have hxx := bytesLt_trans this hc
              rw [← strcmpGt_iff] at hxx
              clear hs h3 h2 h1 hc this
              have irr : ∀ b : Bytes, strcmpGt b b = false := by
                intro b; induction b with
                | nil => rfl
                | cons c cs ih => simp [strcmpGt, ih]
              rw [irr] at hxx; cases hxx
            · exact (List.pairwise_cons.mp hs).1 b hb
        | false =>
          refine ⟨x :: p :: ps, by simp, List.Perm.refl _, ?_⟩
          rw [List.pairwise_cons]
          refine ⟨?_, hs⟩
          have hnp : ¬ BytesLt (key x) (key p) := by
            rw [kx, kp, ← strcmpGt_iff, hgt]; simp
          intro b hb
          rcases List.mem_cons.mp hb with rfl | hb
          · exact hnp
          · intro hc
            have hpb := (List.pairwise_cons.mp hs).1 b hb
            rcases bytesLt_total (key p) (key b) with h | h | h
            · exact hpb h
            · rw [← h] at hc; exact hnp hc
            · exact hnp (bytesLt_trans hc h)

theorem sortDefsLoop_ok (xs rev : List LayoutDef) (hx : ∀ d ∈ xs, d.id ≠ none)
    (hl : ∀ d ∈ rev, d.id ≠ none) (hs : rev.Pairwise fun a b => ¬ BytesLt (key a) (key b)) :
    ∃ r, TocData.sortDefsLoop rev xs = .ok r ∧ r.Perm (rev ++ xs) ∧
      r.Pairwise fun a b => ¬ BytesLt (key b) (key a) := by
  induction xs generalizing rev with
  | nil =>
    refine ⟨rev.reverse, rfl, by simp, ?_⟩
    rw [List.pairwise_reverse]; exact hs
  | cons x xs ih =>
    obtain ⟨r, h1, h2, h3⟩ := insertDefRev_ok x rev (hx x (by simp)) hl hs
    obtain ⟨r', h1', h2', h3'⟩ := ih r (fun d hd => hx d (by simp [hd]))
      (fun d hd => by
        rcases List.mem_cons.mp (h2.mem_iff.mp hd) with rfl | hd
        · exact hx d (by simp)
        · exact hl d hd) h3
    refine ⟨r', by simp [TocData.sortDefsLoop, h1, h1'], ?_, h3'⟩
    refine h2'.trans ?_
    exact (List.Perm.append_right xs h2).trans (by simpa using List.perm_middle.symm)

theorem sortDefs_ok (l : List LayoutDef) (h : ∀ d ∈ l, d.id ≠ none) :
    ∃ r, TocData.sortDefs l = .ok r ∧ r.Perm l ∧
      r.Pairwise fun a b => ¬ BytesLt (key b) (key a) := by
  cases l with
  | nil => exact ⟨[], rfl, List.Perm.refl _, by simp⟩
  | cons x xs =>
    obtain ⟨r, h1, h2, h3⟩ := sortDefsLoop_ok xs [x] (fun d hd => h d (by simp [hd]))
      (fun d hd => by simp at hd; subst hd; exact h d (by simp)) (by simp)
    exact ⟨r, h1, by simpa using h2, h3⟩

/-! ### The selection -/

theorem usedLayoutId_iff (f : File) (k : Bytes) :
    TocData.usedLayoutId f = some (some k) ↔ Refers f k := by
  unfold TocData.usedLayoutId Refers
  rw [← isPreview_eq]
  have hp : f.isParent = false ↔ f.parentId ≠ -1 := by simp [File.isParent, FILE_PARENT]
  by_cases h : f.isPreview = true ∧ f.isParent = false
  · rw [if_pos h]
    simp only [h.1, hp.mp h.2, true_and, ne_eq, not_false_eq_true]
    cases hpr : f.preview with
    | none => simp
    | some p =>
      cases hpg : p.pages with
      | none => simp [hpg]
      | some l =>
        cases l with
        | nil => simp [hpg]
        | cons q qs => simp [hpg]
  · rw [if_neg h]
    simp only [reduceCtorEq, false_iff, not_and]
    intro h1 h2
    exact absurd ⟨h1, hp.mpr h2⟩ h

theorem usedLoop_ok (defs : LayoutDefs) (hd : DefsInv (defs.defs.getD [])) (fs : List File)
    (used : LayoutDefs) (hu : DefsInv (used.defs.getD []))
    (hsub : ∀ d ∈ used.defs.getD [], d ∈ defs.defs.getD []) :
    ∃ r, TocData.usedLoop defs used fs = .ok (some r) ∧ DefsInv (r.defs.getD []) ∧
      ∀ d, d ∈ r.defs.getD [] ↔ d ∈ used.defs.getD [] ∨
        (d ∈ defs.defs.getD [] ∧ ∃ f ∈ fs, ∃ k, d.id = some k ∧ Refers f k) := by
  induction fs generalizing used with
  | nil => exact ⟨used, rfl, hu, by simp⟩
  | cons f fs ih =>
    -- the uniform way to skip a file
    have skip : (∀ d ∈ defs.defs.getD [], (∃ k, d.id = some k ∧ Refers f k) → d ∈ used.defs.getD []) →
        TocData.usedLoop defs used (f :: fs) = TocData.usedLoop defs used fs →
        ∃ r, TocData.usedLoop defs used (f :: fs) = .ok (some r) ∧ DefsInv (r.defs.getD []) ∧
          ∀ d, d ∈ r.defs.getD [] ↔ d ∈ used.defs.getD [] ∨
            (d ∈ defs.defs.getD [] ∧ ∃ g ∈ f :: fs, ∃ k, d.id = some k ∧ Refers g k) := by
      intro hskip heq
      obtain ⟨r, h1, h2, h3⟩ := ih used hu hsub
      refine ⟨r, by rw [heq, h1], h2, ?_⟩
      intro d
      rw [h3]
      constructor
      · rintro (h | ⟨h, g, hg, hk⟩)
        · exact Or.inl h
        · exact Or.inr ⟨h, g, by simp [hg], hk⟩
      · rintro (h | ⟨h, g, hg, hk⟩)
        · exact Or.inl h
        · rcases List.mem_cons.mp hg with rfl | hg
          · exact Or.inl (hskip d h hk)
          · exact Or.inr ⟨h, g, hg, hk⟩
    cases hul : TocData.usedLayoutId f with
    | none =>
      apply skip
      · rintro d _ ⟨k, _, hk⟩
        rw [← usedLayoutId_iff, hul] at hk; cases hk
      · simp [TocData.usedLoop, hul]
    | some lid =>
      have empty_case : (lid = none ∨ lid = some []) →
          LayoutDefs.has (some used) lid = .ok false ∧ LayoutDefs.byId (some defs) lid = .ok none := by
        rintro (rfl | rfl) <;> exact ⟨rfl, rfl⟩
      by_cases hne : lid = none ∨ lid = some []
      · obtain ⟨e1, e2⟩ := empty_case hne
        apply skip
        · rintro d hdm ⟨k, hdk, hk⟩
          rw [← usedLayoutId_iff, hul] at hk
          obtain ⟨k', hk', hk0⟩ := layout_valid_id (hd.1 d hdm)
          rw [hdk] at hk'
          injection hk' with hk'
          injection hk with hk
          rcases hne with rfl | rfl
          · cases hk
          · injection hk with hk; subst hk'; exact absurd hk.symm hk0
        · simp [TocData.usedLoop, hul, e1, e2]
      · obtain ⟨k, rfl⟩ : ∃ k, lid = some k := by
          cases lid with
          | none => exact absurd (Or.inl rfl) hne
          | some k => exact ⟨k, rfl⟩
        have hk0 : ¬ k.length = 0 := by
          intro h; exact hne (Or.inr (by rw [List.length_eq_zero_iff.mp h]))
        have hhas : LayoutDefs.has (some used) (some k) =
            .ok (((used.defs.getD []).find? fun d => decide (d.id = some k)).isSome) := by
          simp only [LayoutDefs.has, hk0, if_false, findKey_ok _ _ _ (defsInv_ids hu), Res.ok_bind,
            Res.pure_eq]
        have hby : LayoutDefs.byId (some defs) (some k) =
            .ok ((defs.defs.getD []).find? fun d => decide (d.id = some k)) := by
          simp only [LayoutDefs.byId, hk0, if_false, findKey_ok _ _ _ (defsInv_ids hd)]
        have huniq : ∀ d e, d ∈ defs.defs.getD [] → e ∈ defs.defs.getD [] → d.id = e.id → d = e := by
          intro d e h1 h2 hde
          have hp := hd.2
          rw [List.Nodup, List.pairwise_map] at hp
          obtain ⟨i, hi, rfl⟩ := List.getElem_of_mem h1
          obtain ⟨j, hj, rfl⟩ := List.getElem_of_mem h2
          rcases Nat.lt_trichotomy i j with h | h | h
          · exact absurd hde (List.pairwise_iff_getElem.mp hp i j hi hj h)
          · subst h; rfl
          · exact absurd hde.symm (List.pairwise_iff_getElem.mp hp j i hj hi h)
        cases hfu : (used.defs.getD []).find? fun d => decide (d.id = some k) with
        | some e =>
          have hem := List.mem_of_find?_eq_some hfu
          have hek : e.id = some k := by simpa using List.find?_some hfu
          apply skip
          · rintro d hdm ⟨k', hdk, hk'⟩
            rw [← usedLayoutId_iff, hul] at hk'
            have : k = k' := by simpa using hk'
            subst this
            rw [huniq d e hdm (hsub e hem) (by rw [hdk, hek])]; exact hem
          · simp [TocData.usedLoop, hul, hhas, hfu]
        | none =>
          cases hfd : (defs.defs.getD []).find? fun d => decide (d.id = some k) with
          | none =>
            apply skip
            · rintro d hdm ⟨k', hdk, hk'⟩
              rw [← usedLayoutId_iff, hul] at hk'
              have : k = k' := by simpa using hk'
              subst this
              have := List.find?_eq_none.mp hfd d hdm
              simp [hdk] at this
            · simp [TocData.usedLoop, hul, hhas, hfu, hby, hfd]
          | some e =>
            have hem := List.mem_of_find?_eq_some hfd
            have hek : e.id = some k := by simpa using List.find?_some hfd
            have hok : layoutOk (used.defs.getD []) e = true := by
              unfold layoutOk
              rw [hd.1 e hem, Bool.true_and]
              rw [List.find?_eq_none] at hfu
              simp only [Bool.not_eq_true', List.any_eq_false, decide_eq_true_eq]
              intro d hdm
              have := hfu d hdm
              rw [hek]; simpa using this
            have hadd := layouts_add_ok (defsInv_ids hu) e
            rw [hok] at hadd
            simp only [if_true] at hadd
            obtain ⟨r, h1, h2, h3⟩ := ih ⟨vecAppend used.defs e⟩
              (by rw [vecAppend_getD]; exact defsInv_step _ _ hu hok)
              (by
                rw [vecAppend_getD]
                intro d hdm
                rcases List.mem_append.mp hdm with h | h
                · exact hsub d h
                · simp at h; subst h; exact hem)
            refine ⟨r, ?_, h2, ?_⟩
            · simp [TocData.usedLoop, hul, hhas, hfu, hby, hfd, layout_clone, hadd, h1]
            · intro d
              rw [h3, vecAppend_getD, List.mem_append, List.mem_singleton]
              constructor
              · rintro ((h | rfl) | ⟨h, g, hg, hkk⟩)
                · exact Or.inl h
                · exact Or.inr ⟨hem, f, by simp, k, hek, (usedLayoutId_iff f k).mp hul⟩
                · exact Or.inr ⟨h, g, by simp [hg], hkk⟩
              · rintro (h | ⟨h, g, hg, k', hdk, hkk⟩)
                · exact Or.inl (Or.inl h)
                · rcases List.mem_cons.mp hg with rfl | hg
                  · rw [← usedLayoutId_iff, hul] at hkk
                    have : k = k' := by simpa using hkk
                    subst this
                    exact Or.inl (Or.inr (huniq d e h hem (by rw [hdk, hek])))
                  · exact Or.inr ⟨h, g, hg, k', hdk, hkk⟩

/-- For a TOC whose layout definitions are valid with distinct ids (as every add sequence guarantees,
    C08) and which has reels: no undefined behaviour, the result is strictly sorted by id, and a
    definition is returned iff it is stored in the TOC and some file refers to it. -/
theorem C14_used_layouts_exact (t : TocData) (defs : LayoutDefs) (hl : t.layouts = some defs)
    (hv : ∀ d ∈ defs.defs.getD [], d.isValid = true) (hn : ((defs.defs.getD []).map LayoutDef.id).Nodup)
    (hc : defs.defs.getD [] ≠ []) (hr : (t.reels.bind Reels.reels).getD [] ≠ []) :
    ∃ r, TocData.usedLayouts (some t) = .ok (some r) ∧
      (r.defs.getD []).Pairwise (fun a b => BytesLt (a.id.getD []) (b.id.getD [])) ∧
      ∀ d, d ∈ r.defs.getD [] ↔
        d ∈ defs.defs.getD [] ∧ ∃ f ∈ allFiles t, ∃ k, d.id = some k ∧ Refers f k := by
  have h1 : ¬ LayoutDefs.getCount (some defs) = 0 := by
    intro h; exact hc (List.length_eq_zero_iff.mp h)
  have h2 : ¬ t.reelCount = 0 := by
    intro h
    apply hr
    unfold TocData.reelCount Reels.count vecSize at h
    cases hrs : t.reels with
    | none => rfl
    | some x => rw [hrs] at h; exact List.length_eq_zero_iff.mp h
  obtain ⟨u, e1, e2, e3⟩ := usedLoop_ok defs ⟨hv, hn⟩ (t.reelList.flatMap Reel.list) LayoutDefs.create
    ⟨by simp [LayoutDefs.create], by simp [LayoutDefs.create]⟩ (by simp [LayoutDefs.create])
  have e3' : ∀ d, d ∈ u.defs.getD [] ↔
      d ∈ defs.defs.getD [] ∧ ∃ f ∈ allFiles t, ∃ k, d.id = some k ∧ Refers f k := by
    intro d; rw [e3, allFiles_eq]; simp [LayoutDefs.create]
  unfold TocData.usedLayouts
  simp only [hl, h1, h2, if_false, e1, Res.ok_bind]
  cases hu : u.defs with
  | none =>
    refine ⟨u, by simp, by simp [hu], e3'⟩
  | some l =>
    rw [hu] at e2 e3'
    obtain ⟨l', s1, s2, s3⟩ := sortDefs_ok l (defsInv_ids e2)
    refine ⟨⟨some l'⟩, by simp [s1], ?_, fun d => by
      rw [← e3']; exact s2.mem_iff⟩
    have hnd : (l'.map LayoutDef.id).Nodup := (s2.map LayoutDef.id).nodup_iff.mpr e2.2
    have hids : ∀ d ∈ l', d.id ≠ none := fun d hd => defsInv_ids e2 d (s2.mem_iff.mp hd)
    rw [List.Nodup, List.pairwise_map] at hnd
    have := List.Pairwise.and_mem.mp (s3.and hnd)
    refine this.imp ?_
    rintro a b ⟨ha, hb, h3, h4⟩
    rcases bytesLt_total (key a) (key b) with h | h | h
    · exact h
    · exfalso
      apply h4
      have ia := hids a ha; have ib := hids b hb
      cases hai : a.id with
      | none => exact absurd hai ia
      | some x =>
        cases hbi : b.id with
        | none => exact absurd hbi ib
        | some y => simp [key, hai, hbi] at h; rw [h]
    · exact absurd h h3

/-- Nothing to return: no TOC, no definitions, or no reels give NULL. -/
theorem C14_used_layouts_null (t : TocData)
    (h : t.layouts = none ∨ (t.layouts.bind LayoutDefs.defs).getD [] = [] ∨
      (t.reels.bind Reels.reels).getD [] = []) :
    TocData.usedLayouts (some t) = .ok none := by
  cases hl : t.layouts with
  | none => simp [TocData.usedLayouts, hl]
  | some d =>
    rw [hl] at h
    have e1 : LayoutDefs.getCount (some d) = (d.defs.getD []).length := rfl
    have e2 : t.reelCount = ((t.reels.bind Reels.reels).getD []).length := by
      unfold TocData.reelCount Reels.count vecSize
      cases t.reels <;> rfl
    rcases h with h | h | h
    · cases h
    · have h' : d.defs.getD [] = [] := h
      simp [TocData.usedLayouts, hl, e1, h']
    · simp [TocData.usedLayouts, hl, e2, h]

/-- A previewed file whose first page names layout `k`. -/
def refFile (k : Bytes) : File :=
  { okFile 1 2 with types := 2, preview := some ⟨some [Page.create2 (some k) 0 0 1 0 0 0 0], -1⟩ }

/-- Non-vacuity: definitions c, a, b; files refer to c, a, c and an unknown id: result a, c. -/
def usedToc : TocData :=
  { TocData.create with
    layouts := some ⟨some [okLayout (b! "c"), okLayout (b! "a"), okLayout (b! "b")]⟩
    reels := some ⟨some [⟨some (b! "r"), some ⟨some [refFile (b! "c"), refFile (b! "a"), okFile 1 2,
      refFile (b! "c"), refFile (b! "zz")]⟩⟩]⟩ }

example : TocData.usedLayouts (some usedToc) =
    .ok (some ⟨some [okLayout (b! "a"), okLayout (b! "c")]⟩) := by decide

end Afs
