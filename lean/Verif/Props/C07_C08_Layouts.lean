import Verif.Props.C06_Containers
/-!
# C07 layout sections are disjoint with distinct ids; C08 layout definition ids are unique and
lookups exact (and the layout part of C06)
-/
namespace Afs
open Spec

/-- Two sections have no pixel in common. -/
def Spec.PixelDisjoint (a b : Section) : Prop := ∀ px py, ¬ (HasPixel a px py ∧ HasPixel b px py)

theorem sectionsInv_spec {l : List Section} (h : SectionsInv l) (hf : ∀ s ∈ l, Fits s) :
    (l.map Section.id).Nodup ∧ l.Pairwise PixelDisjoint := by
  refine ⟨?_, ?_⟩
  · rw [List.Nodup, List.pairwise_map]
    exact h.2.imp (fun hab => hab.1)
  · have : l.Pairwise (fun a b => a ∈ l ∧ b ∈ l ∧ Section.isOverlap a b = false) := by
      have h2 := List.Pairwise.and_mem.mp h.2
      exact h2.imp (fun hab => ⟨hab.1, hab.2.1, hab.2.2.2⟩)
    refine this.imp ?_
    rintro a b ⟨ha, hb, hab⟩ px py hc
    have := (isOverlap_iff (h.1 a ha) (h.1 b hb) (hf a ha) (hf b hb)).mpr ⟨px, py, hc⟩
    rw [hab] at this; cases this

theorem accepted_mem {A : Type} {ok : List A → A → Bool} (l : List A) (ops : List (Option A)) (x : A)
    (h : x ∈ accepted ok l ops) : x ∈ l ∨ some x ∈ ops := by
  induction ops generalizing l with
  | nil => exact Or.inl h
  | cons y ops ih =>
    cases y with
    | none => rcases ih l h with h | h <;> simp [h]
    | some y =>
      have h' : x ∈ accepted ok (if ok l y then l ++ [y] else l) ops := h
      rcases ih _ h' with h | h
      · split at h
        · rcases List.mem_append.mp h with h | h
          · exact Or.inl h
          · rw [List.mem_singleton] at h; subst h; right; simp
        · exact Or.inl h
      · right; simp [h]

/-! ### C06 for layouts: add result, list behaviour, validity -/

/-- An add is accepted exactly when the section is valid, its id is new and it shares no pixel
    with a stored section (all sections fitting the 32-bit coordinate space and valid). -/
theorem C06_sections_add_result (s : Sections) (x : Section) (hx : Fits x)
    (hs : ∀ c ∈ s.sections.getD [], Fits c ∧ c.isValid = true) :
    ((Sections.append s (some x)).1 = true ↔
      x.isValid = true ∧ ∀ c ∈ s.sections.getD [], c.id ≠ x.id ∧ PixelDisjoint c x) ∧
    ((Sections.append s (some x)).1 = false → (Sections.append s (some x)).2 = s) ∧
    Sections.append s none = (false, s) := by
  refine ⟨?_, ?_, rfl⟩
  · rw [sections_container.result, sectionOk, Bool.and_eq_true, admissible_iff]
    refine and_congr_right fun hv => forall_congr' fun c => ?_
    refine forall_congr' fun hc => and_congr_right fun _ => ?_
    obtain ⟨hf, hcv⟩ := hs c hc
    have := isOverlap_iff hcv hv hf hx
    constructor
    · intro h px py hp
      rw [h] at this
      exact absurd (this.mpr ⟨px, py, hp⟩) (by simp)
    · intro h
      cases ho : Section.isOverlap c x
      · rfl
      · obtain ⟨px, py, hp⟩ := this.mp ho
        exact absurd hp (h px py)
  · unfold Sections.append
    cases h1 : x.isValid
    · simp [h1]
    · cases h2 : Sections.admissible x (s.sections.getD []) <;> simp [h1, h2]

theorem C06_sections (ops : List (Option Section)) :
    let s := run Sections.append Sections.create ops
    let kept := accepted sectionOk [] ops
    Sections.size (some s) = kept.length ∧ (∀ i, Sections.get (some s) i = kept[i]?) ∧
    (Sections.isValid (some s) = true ↔ kept ≠ []) := by
  have e := run_items sections_container Sections.create ops
  have e0 : (Sections.create.sections.getD [] : List Section) = [] := rfl
  rw [e0] at e
  refine ⟨by rw [sections_container.count_eq, e], fun i => by rw [sections_container.get_eq, e], ?_⟩
  have inv : SectionsInv (accepted sectionOk [] ops) :=
    accepted_forall sectionsInv_step [] ⟨by simp, by simp⟩ ops
  have hv : Sections.validLoop (accepted sectionOk [] ops) = true := by
    rw [validLoop_iff]; exact ⟨inv.1, inv.2.imp fun h => h.2⟩
  cases hs : run Sections.append Sections.create ops with
  | mk v =>
    rw [hs] at e
    cases v with
    | none =>
      have e' : accepted sectionOk [] ops = [] := e.symm
      simp [Sections.isValid, e']
    | some l =>
      simp only [Option.getD_some] at e; subst e
      simp only [Sections.isValid, hv]
      cases accepted sectionOk [] ops <;> simp

/-! ### C07 -/

/-- Accepted sections of any add sequence: distinct ids and no common pixel. -/
theorem C07_sections_disjoint (ops : List (Option Section)) (hf : ∀ s, some s ∈ ops → Fits s) :
    let l := (run Sections.append Sections.create ops).sections.getD []
    (l.map Section.id).Nodup ∧ l.Pairwise PixelDisjoint ∧ (∀ s ∈ l, s.isValid = true ∧ some s ∈ ops) := by
  have e := run_items sections_container Sections.create ops
  have e0 : (Sections.create.sections.getD [] : List Section) = [] := rfl
  rw [e0] at e
  have inv : SectionsInv (accepted sectionOk [] ops) :=
    accepted_forall sectionsInv_step [] ⟨by simp, by simp⟩ ops
  have mem : ∀ s ∈ accepted sectionOk [] ops, some s ∈ ops := fun s hs =>
    (accepted_mem [] ops s hs).resolve_left (by simp)
  have h := sectionsInv_spec inv (fun s hs => hf s (mem s hs))
  simp only [e]
  exact ⟨h.1, h.2, fun s hs => ⟨inv.1 s hs, mem s hs⟩⟩

/-- The same for sections added through a layout definition, read back by index. -/
theorem C07_layout_definition_disjoint (id name : Option Bytes) (ops : List (Option Section))
    (hf : ∀ s, some s ∈ ops → Fits s) :
    let d := run LayoutDef.addSection (LayoutDef.create2 id name) ops
    ∀ i j a b, i < j → d.getSection i = some a → d.getSection j = some b →
      a.id ≠ b.id ∧ PixelDisjoint a b := by
  intro d i j a b hij ha hb
  have e := run_items layoutDef_container (LayoutDef.create2 id name) ops
  have e0 : (LayoutDef.create2 id name).sectionList = [] := rfl
  rw [e0] at e
  have inv : SectionsInv (accepted sectionOk [] ops) :=
    accepted_forall sectionsInv_step [] ⟨by simp, by simp⟩ ops
  have mem : ∀ s ∈ accepted sectionOk [] ops, some s ∈ ops := fun s hs =>
    (accepted_mem [] ops s hs).resolve_left (by simp)
  have h := sectionsInv_spec inv (fun s hs => hf s (mem s hs))
  rw [layoutDef_container.get_eq, e] at ha hb
  obtain ⟨hi, rfl⟩ := List.getElem?_eq_some_iff.mp ha
  obtain ⟨hj, rfl⟩ := List.getElem?_eq_some_iff.mp hb
  refine ⟨?_, List.pairwise_iff_getElem.mp h.2 i j hi hj hij⟩
  have := List.pairwise_iff_getElem.mp inv.2 i j hi hj hij
  exact this.1

/-- Without `Fits` the claim is false: the unsigned sum in the overlap test wraps, and two
    sections occupying the same pixels are both accepted. -/
theorem C07_wraparound_overlap_accepted :
    let a : Section := ⟨1, 4294967295, 0, 2, 1, 0⟩
    let b : Section := ⟨2, 4294967295, 0, 2, 1, 0⟩
    (run Sections.append Sections.create [some a, some b]).sections = some [a, b] ∧
    HasPixel a 4294967295 0 ∧ HasPixel b 4294967295 0 := by
  refine ⟨by decide, ?_, ?_⟩ <;> simp [HasPixel]

/-- `is_valid` of a section list does not check ids: a list with a duplicate id (as a caller can
    build through the vector field) is reported valid. -/
theorem C07_validity_ignores_duplicate_ids :
    Sections.isValid (some ⟨some [⟨1, 0, 0, 1, 1, 0⟩, ⟨1, 5, 5, 1, 1, 0⟩]⟩) = true := by decide

/-- Validity of an arbitrary section list: non-empty, all valid, pairwise disjoint. -/
theorem C07_sections_valid_iff (l : List Section) (hf : ∀ s ∈ l, Fits s) :
    Sections.isValid (some ⟨some l⟩) = true ↔
      l ≠ [] ∧ (∀ s ∈ l, s.isValid = true) ∧ l.Pairwise PixelDisjoint := by
  have key : ((∀ s ∈ l, s.isValid = true) ∧ l.Pairwise (fun a b => Section.isOverlap a b = false)) ↔
      ((∀ s ∈ l, s.isValid = true) ∧ l.Pairwise PixelDisjoint) := by
    refine and_congr_right fun hv => ?_
    rw [List.Pairwise.and_mem, List.Pairwise.and_mem (R := PixelDisjoint)]
    constructor <;> intro h <;> refine h.imp ?_ <;> rintro a b ⟨ha, hb, hab⟩ <;> refine ⟨ha, hb, ?_⟩
    · intro px py hp
      have := (isOverlap_iff (hv a ha) (hv b hb) (hf a ha) (hf b hb)).mpr ⟨px, py, hp⟩
      rw [hab] at this; cases this
    · cases ho : Section.isOverlap a b
      · rfl
      · obtain ⟨px, py, hp⟩ := (isOverlap_iff (hv a ha) (hv b hb) (hf a ha) (hf b hb)).mp ho
        exact absurd hp (hab px py)
  cases l with
  | nil => simp [Sections.isValid]
  | cons x xs =>
    simp only [Sections.isValid, List.length_cons, Nat.succ_ne_zero, if_false, validLoop_iff, key,
      ne_eq, reduceCtorEq, not_false_eq_true, true_and]

/-- Non-vacuity: a 2x1 grid is accepted whole, an overlapping and a same-id section are refused. -/
example : (run Sections.append Sections.create
    [some ⟨1, 0, 0, 10, 10, 0⟩, some ⟨2, 10, 0, 10, 10, 90⟩, some ⟨3, 5, 5, 10, 10, 0⟩,
     some ⟨2, 100, 100, 1, 1, 0⟩]).sections =
    some [⟨1, 0, 0, 10, 10, 0⟩, ⟨2, 10, 0, 10, 10, 90⟩] := by decide

/-! ### C08 -/

/-- Add a sequence of definitions (NULL offers are `none`). -/
def Spec.addAllLayouts (ds : LayoutDefs) : List (Option LayoutDef) → Res LayoutDefs
  | [] => .ok ds
  | x :: xs => do
    let r ← LayoutDefs.add ds x
    addAllLayouts r.2 xs

/-- Invariant: all stored definitions are valid and ids are pairwise distinct. -/
def DefsInv (l : List LayoutDef) : Prop :=
  (∀ d ∈ l, d.isValid = true) ∧ (l.map LayoutDef.id).Nodup

theorem defsInv_step (l : List LayoutDef) (x : LayoutDef) (h : DefsInv l) (hok : layoutOk l x = true) :
    DefsInv (l ++ [x]) := by
  simp only [layoutOk, Bool.and_eq_true, Bool.not_eq_true', List.any_eq_false, decide_eq_true_eq] at hok
  refine ⟨?_, ?_⟩
  · intro d hd
    rcases List.mem_append.mp hd with hd | hd
    · exact h.1 d hd
    · rw [List.mem_singleton] at hd; subst hd; exact hok.1
  · rw [List.map_append, List.nodup_append]
    refine ⟨h.2, by simp, ?_⟩
    intro a ha b hb
    obtain ⟨d, hd, rfl⟩ := List.mem_map.mp ha
    simp at hb; subst hb
    exact hok.2 d hd

theorem defsInv_ids {l : List LayoutDef} (h : DefsInv l) : ∀ d ∈ l, d.id ≠ none := by
  intro d hd
  obtain ⟨k, hk, _⟩ := layout_valid_id (h.1 d hd)
  rw [hk]; simp

theorem addAllLayouts_ok (ds : LayoutDefs) (h : DefsInv (ds.defs.getD []))
    (ops : List (Option LayoutDef)) :
    ∃ r, addAllLayouts ds ops = .ok r ∧
      r.defs.getD [] = accepted layoutOk (ds.defs.getD []) ops := by
  induction ops generalizing ds with
  | nil => exact ⟨ds, rfl, rfl⟩
  | cons x ops ih =>
    cases x with
    | none => exact ih ds h
    | some x =>
      have hadd := layouts_add_ok (defsInv_ids h) x
      unfold addAllLayouts
      rw [hadd, Res.ok_bind]
      have : accepted layoutOk (ds.defs.getD []) (some x :: ops) =
        accepted layoutOk (if layoutOk (ds.defs.getD []) x then ds.defs.getD [] ++ [x] else ds.defs.getD []) ops := rfl
      rw [this]
      cases hok : layoutOk (ds.defs.getD []) x with
      | false => simpa using ih ds h
      | true =>
        have := ih ⟨vecAppend ds.defs x⟩ (by rw [vecAppend_getD]; exact defsInv_step _ _ h hok)
        rw [vecAppend_getD] at this
        simpa using this

/-- What an add answers (stored definitions valid): accepted iff valid with a new id; a refused
    add changes nothing; never undefined behaviour. -/
theorem C08_add_result (ds : LayoutDefs) (h : ∀ d ∈ ds.defs.getD [], d.isValid = true)
    (x : Option LayoutDef) :
    ∃ b ds', LayoutDefs.add ds x = .ok (b, ds') ∧
      (b = true ↔ ∃ d, x = some d ∧ d.isValid = true ∧ ∀ e ∈ ds.defs.getD [], e.id ≠ d.id) ∧
      (b = true → ∃ d, x = some d ∧ ds'.defs = some (ds.defs.getD [] ++ [d])) ∧
      (b = false → ds' = ds) := by
  cases x with
  | none => exact ⟨false, ds, rfl, by simp, by simp, fun _ => rfl⟩
  | some x =>
    have hadd := layouts_add_ok (ds := ds)
      (fun d hd => by obtain ⟨k, hk, _⟩ := layout_valid_id (h d hd); rw [hk]; simp) x
    cases hok : layoutOk (ds.defs.getD []) x with
    | false =>
      rw [hok] at hadd
      refine ⟨false, ds, by simpa using hadd, ?_, by simp, fun _ => rfl⟩
      simp only [Bool.false_eq_true, false_iff]
      rintro ⟨d, hd, hv, hn⟩
      cases hd
      simp only [layoutOk, hv, Bool.true_and, Bool.not_eq_false', List.any_eq_true,
        decide_eq_true_eq] at hok
      obtain ⟨e, he, heq⟩ := hok
      exact hn e he heq
    | true =>
      rw [hok] at hadd
      refine ⟨true, ⟨vecAppend ds.defs x⟩, by simpa using hadd, ?_, ?_, by simp⟩
      · simp only [layoutOk, Bool.and_eq_true, Bool.not_eq_true', List.any_eq_false,
          decide_eq_true_eq] at hok
        simp only [true_iff]
        exact ⟨x, rfl, hok.1, hok.2⟩
      · intro _
        refine ⟨x, rfl, ?_⟩
        cases ds.defs <;> rfl

/-- After any sequence of adds (no undefined behaviour on the way): ids pairwise distinct, and
    lookup by id returns exactly the stored definition with that id, or NULL when there is none;
    `has` agrees; all stored definitions are valid offers. -/
theorem C08_unique_ids_exact_lookup (ops : List (Option LayoutDef)) :
    ∃ r, addAllLayouts LayoutDefs.create ops = .ok r ∧
      ((r.defs.getD []).map LayoutDef.id).Nodup ∧
      LayoutDefs.isValid (some r) = true ∧
      (∀ d ∈ r.defs.getD [], some d ∈ ops) ∧
      (∀ k : Bytes, ∃ found, LayoutDefs.byId (some r) (some k) = .ok found ∧
        (∀ d, found = some d ↔ (d ∈ r.defs.getD [] ∧ d.id = some k)) ∧
        (found = none ↔ ∀ d ∈ r.defs.getD [], d.id ≠ some k) ∧
        LayoutDefs.has (some r) (some k) = .ok found.isSome) ∧
      LayoutDefs.byId (some r) none = .ok none := by
  have h0 : DefsInv (LayoutDefs.create.defs.getD []) :=
    ⟨by simp [LayoutDefs.create], by simp [LayoutDefs.create]⟩
  obtain ⟨r, hr, hl⟩ := addAllLayouts_ok LayoutDefs.create h0 ops
  have inv : DefsInv (r.defs.getD []) := by
    rw [hl]; exact accepted_forall defsInv_step _ h0 ops
  refine ⟨r, hr, inv.2, ?_, ?_, ?_, rfl⟩
  · unfold LayoutDefs.isValid
    cases r with
    | mk v => cases v with
      | none => rfl
      | some l => simpa using inv.1
  · intro d hd
    rw [hl] at hd
    exact (accepted_mem _ _ _ hd).resolve_left (by simp [LayoutDefs.create])
  · intro k
    have uniq : ∀ d e, d ∈ r.defs.getD [] → e ∈ r.defs.getD [] → d.id = e.id → d = e := by
      intro d e hd he hde
      have hp := inv.2
      rw [List.Nodup, List.pairwise_map] at hp
      obtain ⟨i, hi, rfl⟩ := List.getElem_of_mem hd
      obtain ⟨j, hj, rfl⟩ := List.getElem_of_mem he
      rcases Nat.lt_trichotomy i j with h | h | h
      · exact absurd hde (List.pairwise_iff_getElem.mp hp i j hi hj h)
      · subst h; rfl
      · exact absurd hde.symm (List.pairwise_iff_getElem.mp hp j i hj hi h)
    by_cases hk : k.length = 0
    · have hk0 : k = [] := List.length_eq_zero_iff.mp hk
      have hno : ∀ d ∈ r.defs.getD [], d.id ≠ some k := by
        intro d hd he
        obtain ⟨k', h1, h2⟩ := layout_valid_id (inv.1 d hd)
        rw [he] at h1; cases h1; exact h2 hk0
      refine ⟨none, by simp [LayoutDefs.byId, hk], ?_, by simpa using hno, by simp [LayoutDefs.has, hk]⟩
      intro d
      simp only [reduceCtorEq, false_iff, not_and]
      exact hno d
    · have hf := findKey_ok LayoutDef.id k (r.defs.getD []) (defsInv_ids inv)
      refine ⟨_, by simp only [LayoutDefs.byId, hk, if_false]; exact hf, ?_, ?_, ?_⟩
      · intro d
        constructor
        · intro h
          exact ⟨List.mem_of_find?_eq_some h, by simpa using List.find?_some h⟩
        · rintro ⟨hd, hdk⟩
          cases hfind : (r.defs.getD []).find? fun d => decide (d.id = some k) with
          | none =>
            have := List.find?_eq_none.mp hfind d hd
            simp [hdk] at this
          | some e =>
            have he := List.mem_of_find?_eq_some hfind
            have hek : e.id = some k := by simpa using List.find?_some hfind
            rw [uniq e d he hd (by rw [hek, hdk])]
      · rw [List.find?_eq_none]; simp
      · simp only [LayoutDefs.has, hk, if_false, hf, Res.ok_bind, Res.pure_eq]

/-- A valid layout definition. -/
def okLayout (id : Bytes) : LayoutDef :=
  ⟨some id, some (b! "n"), some ⟨some [⟨1, 0, 0, 10, 10, 0⟩]⟩⟩

/-- Non-vacuity: the second "a" is refused. -/
example : addAllLayouts LayoutDefs.create
    [some (okLayout (b! "a")), none, some (okLayout (b! "b")), some (okLayout (b! "a")), some LayoutDef.create] =
    .ok ⟨some [okLayout (b! "a"), okLayout (b! "b")]⟩ := by decide

example : LayoutDefs.byId (some ⟨some [okLayout (b! "a"), okLayout (b! "b")]⟩) (some (b! "b")) =
    .ok (some (okLayout (b! "b"))) := by decide

theorem addLayoutsLoop_spec (l : List LayoutDef) (hl : ∀ d ∈ l, d.clone.isValid = true) : ∀ (t : TocData) (ds : LayoutDefs),
    t.layouts = some ds → DefsInv (ds.defs.getD []) →
    ∃ b ds' k, TocData.addLayoutsLoop t l = .ok (b, { t with layouts := some ds' }) ∧ k ≤ l.length ∧
      ds'.defs.getD [] = ds.defs.getD [] ++ (l.take k).map LayoutDef.clone ∧ (b = true ↔ k = l.length) ∧
      (∀ d, l[k]? = some d → ∃ e ∈ ds'.defs.getD [], e.id = d.id) := by
  induction l with
  | nil =>
    intro t ds ht _
    obtain ⟨v, x, j, r, m, ly, rs⟩ := t
    cases ht
    exact ⟨true, ds, 0, rfl, by simp, by simp, by simp, by simp⟩
  | cons d l ih =>
    intro t ds ht hinv
    have hadd := layouts_add_ok (defsInv_ids hinv) d.clone
    have hid : d.clone.id = d.id := rfl
    rw [TocData.addLayoutsLoop, TocData.addLayout]
    simp only [ht, hadd, Res.ok_bind, Res.pure_eq]
    cases hok : layoutOk (ds.defs.getD []) d.clone with
    | false =>
      refine ⟨false, ds, 0, by simp, by simp, by simp, by simp, ?_⟩
      intro x hx
      simp at hx
      subst hx
      rw [layoutOk, hl d (by simp)] at hok
      simp only [Bool.true_and, Bool.not_eq_false', List.any_eq_true, decide_eq_true_eq] at hok
      obtain ⟨e, he, heq⟩ := hok
      exact ⟨e, he, heq⟩
    | true =>
      obtain ⟨b, ds', k, e, hk, e', hb, hn⟩ := ih (fun x hx => hl x (by simp [hx]))
        { t with layouts := some ⟨vecAppend ds.defs d.clone⟩ } ⟨vecAppend ds.defs d.clone⟩ rfl
        (by rw [vecAppend_getD]; exact defsInv_step _ _ hinv hok)
      refine ⟨b, ds', k + 1, by simpa using e, by simp [hk], ?_, by rw [hb]; simp, ?_⟩
      · rw [e', vecAppend_getD]; simp
      · intro x hx
        exact hn x (by simpa using hx)

/-- Adding a whole list of definitions to an index (whose stored definitions are valid with
    distinct ids): they are copied in order up to the first one whose id is already taken; the
    result is success exactly if all were copied; nothing else in the index changes. -/
theorem C08_add_list (t : TocData) (ds : LayoutDefs) (l : List LayoutDef) (hl : ds.defs = some l) (hne : l ≠ [])
    (hv : ∀ d ∈ l, d.isValid = true)
    (hs : ∀ old, t.layouts = some old → (∀ d ∈ old.defs.getD [], d.isValid = true) ∧ ((old.defs.getD []).map LayoutDef.id).Nodup) :
    ∃ b t' k, TocData.addLayouts t (some ds) = .ok (b, t') ∧ k ≤ l.length ∧
      (t'.layouts.bind LayoutDefs.defs).getD [] = (t.layouts.bind LayoutDefs.defs).getD [] ++ l.take k ∧
      (b = true ↔ k = l.length) ∧
      (∀ d, l[k]? = some d → ∃ e ∈ (t'.layouts.bind LayoutDefs.defs).getD [], e.id = d.id) ∧
      { t' with layouts := t.layouts } = t := by
  have hcl : ∀ d : LayoutDef, d.clone = d := by
    intro d
    obtain ⟨i, n, s⟩ := d
    cases s with
    | none => rfl
    | some s =>
      obtain ⟨s⟩ := s
      cases s with
      | none => rfl
      | some s =>
        have : s.map Section.clone = s := by
          conv => rhs; rw [← List.map_id s]
          apply List.map_congr_left; intro x _; rfl
        simp only [LayoutDef.clone, LayoutDef.create2, strClone, Option.map_some, Sections.clone, vecClone, this]
  have hcl' : l.map LayoutDef.clone = l := by
    conv => rhs; rw [← List.map_id l]
    apply List.map_congr_left; intro x _; exact hcl x
  have hvalid : LayoutDefs.isValid (some ds) = true := by
    unfold LayoutDefs.isValid
    obtain ⟨d⟩ := ds
    cases hl
    simpa using hv
  have hcount : LayoutDefs.getCount (some ds) ≠ 0 := by
    simp only [LayoutDefs.getCount, hl]
    simpa [vecSize] using hne
  unfold TocData.addLayouts
  dsimp only
  rw [if_neg (by simp [hvalid]), if_neg hcount, hl]
  have hlc : ∀ d ∈ l, d.clone.isValid = true := fun d hd => by rw [hcl]; exact hv d hd
  have hid : LayoutDef.clone = id := funext hcl
  cases ht : t.layouts with
  | none =>
    obtain ⟨b, ds', k, e, hk, e', hb, hn⟩ := addLayoutsLoop_spec l hlc { t with layouts := some LayoutDefs.create }
      LayoutDefs.create rfl ⟨by simp [LayoutDefs.create], by simp [LayoutDefs.create]⟩
    refine ⟨b, _, k, e, hk, ?_, hb, hn, ?_⟩
    · simpa [LayoutDefs.create, hid] using e'
    · obtain ⟨v, x, j, r, m, ly, rs⟩ := t
      cases ht; rfl
  | some old =>
    obtain ⟨b, ds', k, e, hk, e', hb, hn⟩ := addLayoutsLoop_spec l hlc t old ht (hs old ht)
    refine ⟨b, _, k, e, hk, ?_, hb, hn, ?_⟩
    · simpa [hid] using e'
    · obtain ⟨v, x, j, r, m, ly, rs⟩ := t
      cases ht; rfl

/-- NULL, an empty list and a list with an invalid definition are refused and change nothing. -/
theorem C08_add_list_refused (t : TocData) (ds : Option LayoutDefs)
    (h : ds = none ∨ ∃ d, ds = some d ∧ ((d.defs.getD []) = [] ∨ ∃ x ∈ d.defs.getD [], x.isValid = false)) :
    TocData.addLayouts t ds = .ok (false, t) := by
  rcases h with rfl | ⟨d, rfl, h⟩
  · rfl
  · unfold TocData.addLayouts
    dsimp only
    split
    · rfl
    · rename_i hv
      obtain ⟨d⟩ := d
      rcases h with h | ⟨x, hx, hxv⟩
      · rw [if_pos (by unfold LayoutDefs.getCount vecSize; simp [h])]
      · exfalso
        cases d with
        | none => simp at hx
        | some l =>
          apply hv
          unfold LayoutDefs.isValid
          have : l.all LayoutDef.isValid = false := by
            rw [List.all_eq_false]; exact ⟨x, hx, by simp [hxv]⟩
          simp [this]

/-- Non-vacuity: two definitions, the second one's id is taken. -/
example :
    let t : TocData := { TocData.create with layouts := some ⟨some [okLayout (b! "b")]⟩ }
    (TocData.addLayouts t (some ⟨some [okLayout (b! "a"), okLayout (b! "b")]⟩) =
      .ok (false, { t with layouts := some ⟨some [okLayout (b! "b"), okLayout (b! "a")]⟩ })) := by decide

end Afs
