import Verif.Proof.Equal
/-!
# Queries do not see the difference between NULL and the empty string

For every query `q`: `q` of the content of an object is `q` of the object (or, where the query can be undefined, it is defined with the same answer whenever `q` of the
object is defined).
-/
namespace Afs.Canon
open Afs Spec

theorem ok_inj {α : Type} {x y : α} (h : Res.ok x = Res.ok y) : x = y := by cases h; rfl

theorem bind_ok {α β : Type} {r : Res α} {k : α → Res β} {v : β} (h : (r >>= k) = .ok v) : ∃ x, r = .ok x ∧ k x = .ok v := by
  cases r with
  | ub => cases h
  | ok x => exact ⟨x, rfl, h⟩

theorem ok_bind {α β : Type} (x : α) (k : α → Res β) : (Res.ok x >>= k) = k x := rfl

@[simp] theorem nullOrEmpty_str (s : Option Bytes) : nullOrEmpty (str s) = nullOrEmpty s := by
  cases s <;> rfl

@[simp] theorem orEmpty_str (s : Option Bytes) : orEmpty (str s) = orEmpty s := by
  cases s <;> rfl

theorem strcmp_str {a : Option Bytes} {k : Bytes} {v : Bool} (h : strcmpEq a (some k) = .ok v) : strcmpEq (str a) (some k) = .ok v := by
  cases a with
  | none => cases h
  | some a => exact h

theorem vecSize_map {α : Type} (g : α → α) (v : Option (List α)) : vecSize (v.map (·.map g)) = vecSize v := by
  cases v with
  | none => rfl
  | some l => exact List.length_map ..

theorem vecGet_map {α : Type} (g : α → α) (v : Option (List α)) (i : Nat) : vecGet (v.map (·.map g)) i = (vecGet v i).map g := by
  cases v with
  | none => rfl
  | some l =>
    rw [Option.map_some, vecGet, vecGet, List.length_map, List.getElem?_map]
    split <;> rfl

theorem vecAppend_map {α : Type} (g : α → α) (v : Option (List α)) (x : α) :
    vecAppend (v.map (·.map g)) (g x) = (vecAppend v x).map (·.map g) := by
  cases v with
  | none => rfl
  | some l => simp [vecAppend]

theorem all_map {α : Type} (g : α → α) (p : α → Bool) (h : ∀ x, p (g x) = p x) (l : List α) : (l.map g).all p = l.all p := by
  induction l with
  | nil => rfl
  | cons x l ih => rw [List.map_cons, List.all_cons, List.all_cons, ih, h]

/-! ### Layout definitions -/

theorem layout_valid (d : LayoutDef) : (layoutContent d).isValid = d.isValid := by
  rw [LayoutDef.isValid, LayoutDef.isValid, layoutContent]
  dsimp only
  rw [nullOrEmpty_str, nullOrEmpty_str]

theorem layouts_valid (d : Option LayoutDefs) : LayoutDefs.isValid (d.map layoutsContent) = LayoutDefs.isValid d := by
  rcases d with _ | ⟨_ | l⟩
  · rfl
  · rfl
  · exact all_map _ _ layout_valid l

theorem findKey_content {key : LayoutDef → Option Bytes} (hk : ∀ d, key (layoutContent d) = str (key d)) (k : Bytes) (l : List LayoutDef)
    {v : Option LayoutDef} (h : LayoutDefs.findKey key k l = .ok v) :
    LayoutDefs.findKey key k (l.map layoutContent) = .ok (v.map layoutContent) := by
  induction l with
  | nil => cases h; rfl
  | cons d l ih =>
    rw [LayoutDefs.findKey] at h
    obtain ⟨b, hb, h⟩ := bind_ok h
    rw [List.map_cons, LayoutDefs.findKey, hk, strcmp_str hb, ok_bind]
    cases b with
    | true => cases h; rfl
    | false => exact ih h

theorem byId_content (d : Option LayoutDefs) (id : Option Bytes) {v : Option LayoutDef} (h : LayoutDefs.byId d id = .ok v) :
    LayoutDefs.byId (d.map layoutsContent) id = .ok (v.map layoutContent) := by
  rcases d with _ | ⟨_ | l⟩
  · cases id <;> cases h <;> rfl
  · cases id with
    | none => cases h; rfl
    | some k =>
      rw [LayoutDefs.byId.eq_def] at h ⊢
      dsimp only [Option.map_some, layoutsContent] at h ⊢
      split at h
      · rename_i e; cases h; rw [if_pos e]; rfl
      · rename_i e; cases h; rw [if_neg e]; rfl
  · cases id with
    | none => cases h; rfl
    | some k =>
      rw [LayoutDefs.byId.eq_def] at h ⊢
      dsimp only [Option.map_some, layoutsContent] at h ⊢
      split at h
      · rename_i e; cases h; rw [if_pos e]; rfl
      · rename_i e; rw [if_neg e]; exact findKey_content (fun _ => rfl) k l h

theorem byName_content (d : Option LayoutDefs) (id : Option Bytes) {v : Option LayoutDef} (h : LayoutDefs.byName d id = .ok v) :
    LayoutDefs.byName (d.map layoutsContent) id = .ok (v.map layoutContent) := by
  rcases d with _ | ⟨_ | l⟩
  · cases id <;> cases h <;> rfl
  · cases id with
    | none => cases h; rfl
    | some k =>
      rw [LayoutDefs.byName.eq_def] at h ⊢
      dsimp only [Option.map_some, layoutsContent] at h ⊢
      split at h
      · rename_i e; cases h; rw [if_pos e]; rfl
      · rename_i e; cases h; rw [if_neg e]; rfl
  · cases id with
    | none => cases h; rfl
    | some k =>
      rw [LayoutDefs.byName.eq_def] at h ⊢
      dsimp only [Option.map_some, layoutsContent] at h ⊢
      split at h
      · rename_i e; cases h; rw [if_pos e]; rfl
      · rename_i e; rw [if_neg e]; exact findKey_content (fun _ => rfl) k l h

theorem has_byId (d : Option LayoutDefs) (id : Option Bytes) :
    LayoutDefs.has d id = (LayoutDefs.byId d id >>= fun r => .ok r.isSome) := by
  cases d with
  | none => cases id <;> rfl
  | some d =>
    cases id with
    | none => rfl
    | some k =>
      rw [LayoutDefs.has, LayoutDefs.byId]
      by_cases e : k.length = 0
      · rw [if_pos e]; simp only [e]; rfl
      · rw [if_neg e]; simp only [e]; rfl

/-- A NULL key finds nothing, as an empty one. -/
theorem byId_str (d : Option LayoutDefs) (id : Option Bytes) : LayoutDefs.byId d (str id) = LayoutDefs.byId d id := by
  cases d <;> cases id <;> rfl

theorem byName_str (d : Option LayoutDefs) (id : Option Bytes) : LayoutDefs.byName d (str id) = LayoutDefs.byName d id := by
  cases d <;> cases id <;> rfl

theorem has_content (d : Option LayoutDefs) (id : Option Bytes) {v : Bool} (h : LayoutDefs.has d id = .ok v) :
    LayoutDefs.has (d.map layoutsContent) (str id) = .ok v := by
  rw [has_byId] at h ⊢
  obtain ⟨x, hx, h⟩ := bind_ok h
  rw [byId_str, byId_content d id hx, ok_bind, ← h]
  cases x <;> rfl

theorem layouts_add (d : LayoutDefs) (x : Option LayoutDef) {v : Bool × LayoutDefs} (h : d.add x = .ok v) :
    (layoutsContent d).add (x.map layoutContent) = .ok (v.1, layoutsContent v.2) := by
  cases x with
  | none => cases h; rfl
  | some x =>
    rw [Option.map_some, LayoutDefs.add.eq_def]
    rw [LayoutDefs.add.eq_def] at h
    dsimp only at h ⊢
    rw [layout_valid]
    split at h
    · rename_i e; rw [if_pos e]; cases h; rfl
    · rename_i e
      rw [if_neg e]
      obtain ⟨b, hb, h⟩ := bind_ok h
      have := has_content (some d) x.id hb
      rw [Option.map_some] at this
      show (LayoutDefs.has (some (layoutsContent d)) (str x.id) >>= _) = _
      rw [this, ok_bind]
      cases b with
      | true => cases h; rfl
      | false =>
        cases h
        refine congrArg Res.ok (Prod.ext rfl ?_)
        rcases d with ⟨v⟩
        exact congrArg LayoutDefs.mk (vecAppend_map layoutContent v x)

/-! ### Pages and previews -/

theorem page_valid (p : Page) : (pageContent p).isValid = p.isValid := by
  rw [Page.isValid, Page.isValid, pageContent]
  dsimp only
  rw [nullOrEmpty_str]

theorem page_frames (p : Option Page) (d : Option LayoutDefs) {v : Bool × Nat} (h : Page.framesCount p d = .ok v) :
    Page.framesCount (p.map pageContent) (d.map layoutsContent) = .ok v := by
  cases p with
  | none => cases h; rfl
  | some p =>
    cases d with
    | none => cases h; rfl
    | some d =>
      rw [Page.framesCount.eq_def] at h ⊢
      dsimp only [Option.map_some] at h ⊢
      cases hl : p.layoutId with
      | none =>
        rw [hl] at h
        cases h
        rw [pageContent, hl]
        rfl
      | some k =>
        rw [hl] at h
        dsimp only at h
        obtain ⟨x, hx, h⟩ := bind_ok h
        have := byId_content (some d) (some k) hx
        rw [Option.map_some] at this
        rw [pageContent, hl]
        show (LayoutDefs.byId (some (layoutsContent d)) (some k) >>= _) = _
        rw [this, ok_bind]
        cases x with
        | none => exact h
        | some x => exact h

theorem page_sections (p : Option Page) (frame : Nat) (d : Option LayoutDefs) {v : Option Nat} (h : Page.sectionsOnFrame p frame d = .ok v) :
    Page.sectionsOnFrame (p.map pageContent) frame (d.map layoutsContent) = .ok v := by
  cases p with
  | none => cases h; rfl
  | some p =>
    cases d with
    | none => cases h; rfl
    | some d =>
      rw [Page.sectionsOnFrame.eq_def] at h ⊢
      dsimp only [Option.map_some] at h ⊢
      cases hl : p.layoutId with
      | none =>
        rw [hl] at h
        cases h
        rw [pageContent, hl]
        rfl
      | some k =>
        rw [hl] at h
        dsimp only at h
        obtain ⟨x, hx, h⟩ := bind_ok h
        have := byId_content (some d) (some k) hx
        rw [Option.map_some] at this
        rw [pageContent, hl]
        show (LayoutDefs.byId (some (layoutsContent d)) (some k) >>= _) = _
        rw [this, ok_bind]
        cases x with
        | none => exact h
        | some x => exact h

theorem preview_valid (p : Option Preview) : Preview.isValid (p.map previewContent) = Preview.isValid p := by
  rcases p with _ | ⟨_ | l, d⟩
  · rfl
  · rfl
  · show (if (l.map pageContent).length = 0 then false else (l.map pageContent).all Page.isValid) = _
    rw [List.length_map, all_map _ _ page_valid]
    rfl

theorem preview_start (p : Option Preview) : Preview.startFrame (p.map previewContent) = Preview.startFrame p := by
  rcases p with _ | ⟨_ | l, d⟩
  · rfl
  · rfl
  · cases l <;> rfl

theorem framesLoop_content (d : LayoutDefs) (l : List Page) (a b : Nat) {v : Option (Nat × Nat)} (h : Preview.framesLoop d l a b = .ok v) :
    Preview.framesLoop (layoutsContent d) (l.map pageContent) a b = .ok v := by
  induction l generalizing a b with
  | nil => exact h
  | cons q l ih =>
    rw [Preview.framesLoop] at h
    obtain ⟨r, hr, h⟩ := bind_ok h
    have := page_frames (some q) (some d) hr
    rw [Option.map_some, Option.map_some] at this
    rw [List.map_cons, Preview.framesLoop, this, ok_bind]
    split at h
    · rename_i e; rw [if_pos e]; exact h
    · rename_i e
      rw [if_neg e]
      split at h
      · rename_i e; rw [if_pos e]; exact ih _ _ h
      · rename_i e; rw [if_neg e]; exact ih _ _ h

theorem getD_map {α : Type} (g : α → α) (v : Option (List α)) : (v.map (·.map g)).getD [] = (v.getD []).map g := by
  cases v <;> rfl

theorem preview_frames (p : Option Preview) (d : Option LayoutDefs) {v : Bool × Nat} (h : Preview.framesCount p d = .ok v) :
    Preview.framesCount (p.map previewContent) (d.map layoutsContent) = .ok v := by
  cases p with
  | none => cases h; rfl
  | some p =>
    cases d with
    | none => cases h; rfl
    | some d =>
      rw [Preview.framesCount.eq_def] at h ⊢
      dsimp only [Option.map_some] at h ⊢
      obtain ⟨x, hx, h⟩ := bind_ok h
      have := framesLoop_content d _ _ _ hx
      rw [← getD_map] at this
      show (Preview.framesLoop (layoutsContent d) ((p.pages.map (·.map pageContent)).getD []) 2147483647 0 >>= _) = _
      rw [this, ok_bind]
      exact h

theorem preview_shift (p : Preview) (k : Nat) : (previewContent p).addFrameOffset k = previewContent (p.addFrameOffset k) := by
  rcases p with ⟨_ | l, d⟩
  · rfl
  · simp [previewContent, Preview.addFrameOffset, pageContent, Function.comp_def]

end Afs.Canon
