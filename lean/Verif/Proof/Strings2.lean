import Verif.Proof.Strings
/-!
# The loaders and memory (C72)
-/
namespace Afs.Strings
open Afs Afs.Xml Afs.Spec.Strings

/-- The lost blocks of some members. -/
def lostOf (t : Field → Option Bytes) (fs : List Field) : Multiset Block := ↑((fs.filterMap t).map Block.text)

@[simp] theorem lostOf_nil (t : Field → Option Bytes) : lostOf t [] = 0 := rfl

@[simp] theorem lostOf_cons (t : Field → Option Bytes) (f : Field) (fs : List Field) :
    lostOf t (f :: fs) = blk (t f) + lostOf t fs := by
  unfold lostOf
  cases h : t f with
  | none => simp [h, blk]
  | some b => simp [h, blk]

@[simp] theorem lostOf_append (t : Field → Option Bytes) (fs gs : List Field) :
    lostOf t (fs ++ gs) = lostOf t fs + lostOf t gs := by
  unfold lostOf
  simp

theorem St.cast {s : Strs} {t t' : Field → Option Bytes} {tg tg' : Option (List Bytes)} {l l' : Multiset Block} {Q : Blocks}
    (h : St s t tg l Q) (ht : t = t') (hg : tg = tg') (hl : l = l') : St s t' tg' l' Q := by
  subst ht hg hl
  exact h

/-- A loader does with memory what it should: the answer and the members are those of the value, and only what is listed is lost. -/
def Loads (p : M (Bool × Strs)) (s : Strs) (v : Val) (node : Node) : Prop :=
  ∀ lost Q, St s v.text v.tags lost Q → ∀ b v', v.load node = .ok (b, v') →
    Does p Q (fun r Q' => r.1 = b ∧ St r.2 v'.text v'.tags (lost + lostOf v.text (overwrites v.kind node)) Q')

/-! ### Administrative metadata -/

theorem loadTag_does {s : Strs} {t : Field → Option Bytes} {tg : Option (List Bytes)} {lost : Multiset Block} {Q : Blocks}
    (f : Field) (n : Node) (tag : Bytes) (h : St s t tg lost Q) :
    Does (loadTag s f n tag) Q (fun s' Q' => St s' (upd t f (Admin.tagText n tag)) tg (lost + blk (t f)) Q') := by
  unfold loadTag Admin.tagText
  cases hf : find n tag with
  | none =>
    have h' := h.assign f (q := none) (x := none) rfl
    rw [cell_none_left, zero_add] at h'
    exact Does.pure h'
  | some x =>
    refine Does.bind ((nodeText_does (some x)).anywhere Q) ?_
    rintro p _ ⟨_, ⟨hp, rfl⟩, rfl⟩
    dsimp only
    cases hn : nodeText (some x) with
    | none =>
      rw [hn] at hp
      cases p with
      | some p => cases hp
      | none =>
        rw [cell_none_left, zero_add]
        refine Does.bind ((cloneText_does (some [])).anywhere Q) ?_
        rintro q _ ⟨_, ⟨hq, rfl⟩, rfl⟩
        exact Does.pure (h.assign f hq)
    | some b =>
      rw [hn] at hp
      cases p with
      | none => cases hp
      | some p => exact Does.pure (h.assign f hp)

/-- The texts behind the loop over the tags. -/
def tagTexts (n : Node) : List (Field × Bytes) → (Field → Option Bytes) → (Field → Option Bytes)
  | [], t => t
  | (f, tag) :: l, t => tagTexts n l (upd t f (Admin.tagText n tag))

/-- What the loop loses. -/
def tagLost (n : Node) : List (Field × Bytes) → (Field → Option Bytes) → Multiset Block
  | [], _ => 0
  | (f, tag) :: l, t => blk (t f) + tagLost n l (upd t f (Admin.tagText n tag))

theorem loadTags_does (n : Node) (tg : Option (List Bytes)) : ∀ (l : List (Field × Bytes)) (s : Strs) (t : Field → Option Bytes)
    (lost : Multiset Block) (Q : Blocks), St s t tg lost Q →
    Does (loadTags n l s) Q (fun s' Q' => St s' (tagTexts n l t) tg (lost + tagLost n l t) Q')
  | [], s, t, lost, Q, h => Does.pure (h.cast rfl rfl (add_zero _).symm)
  | (f, tag) :: l, s, t, lost, Q, h => by
    refine Does.bind (loadTag_does f n tag h) ?_
    intro s' Q' h'
    refine (loadTags_does n tg l s' _ _ Q' h').mono ?_
    intro s'' Q'' h''
    exact h''.cast rfl rfl (add_assoc _ _ _)

theorem loadAdmin_loads (s : Strs) (x : Admin) (node : Node) : Loads (loadAdmin s node) s (.admin x) node := by
  rintro lost Q h b v' hv
  simp only [Val.load, Res.ok.injEq, Prod.mk.injEq] at hv
  obtain ⟨rfl, rfl⟩ := hv
  unfold loadAdmin Admin.loadXml
  cases hf : find node (b! "AdministrativeMetadata") with
  | none => exact Does.pure ⟨rfl, h.cast rfl rfl (by simp [overwrites, Val.kind, hf])⟩
  | some n =>
    dsimp only
    refine Does.bind (alloc_does .other Q) ?_
    rintro a _ rfl
    rw [← Multiset.singleton_add, add_comm]
    refine Does.bind ((loadTags_does n _ adminTags s _ lost Q h).frame _) ?_
    rintro s' _ ⟨Q', h', rfl⟩
    rw [add_comm, Multiset.singleton_add]
    refine Does.bind (free_does a .other Q') ?_
    rintro _ _ rfl
    refine Does.pure ⟨rfl, h'.cast ?_ rfl ?_⟩
    · funext f
      cases f <;> rfl
    · simp [overwrites, Val.kind, hf, adminTags, tagLost, upd, Val.text]

/-! ### Pages, layouts, reels -/

theorem loadPage_loads (s : Strs) (x : Page) (node : Node) : Loads (loadPage s node) s (.page x) node := by
  rintro lost Q h b v' hv
  simp only [Val.load, Res.ok.injEq, Prod.mk.injEq] at hv
  obtain ⟨rfl, rfl⟩ := hv
  unfold loadPage Page.loadXml
  cases hf : selfOrFind node (b! "pages") with
  | none => exact Does.pure ⟨rfl, h.cast rfl rfl (by simp [overwrites, Val.kind, hf])⟩
  | some n =>
    dsimp only
    refine Does.bind (assign .pageLayoutId (cloneText_does _) h) ?_
    intro q Q' h'
    refine Does.pure ⟨?_, h'.cast ?_ ?_ ?_⟩
    · cases h1 : Page.extractXY (n.getAttr (b! "dimension")) with
      | none => rfl
      | some a =>
        cases h2 : Page.extractXY (n.getAttr (b! "overlap")) with
        | none => simp
        | some b => simp
    · funext f
      cases h1 : Page.extractXY (n.getAttr (b! "dimension")) with
      | none => cases f <;> rfl
      | some a =>
        cases h2 : Page.extractXY (n.getAttr (b! "overlap")) with
        | none => cases f <;> rfl
        | some b => cases f <;> rfl
    · cases h1 : Page.extractXY (n.getAttr (b! "dimension")) with
      | none => rfl
      | some a =>
        cases h2 : Page.extractXY (n.getAttr (b! "overlap")) with
        | none => rfl
        | some b => rfl
    · simp [overwrites, Val.kind, hf, Val.text]

theorem loadLayout_loads (s : Strs) (x : LayoutDef) (node : Node) : Loads (loadLayout s node) s (.layout x) node := by
  rintro lost Q h b v' hv
  simp only [Val.load, Res.ok.injEq, Prod.mk.injEq] at hv
  obtain ⟨rfl, rfl⟩ := hv
  unfold loadLayout LayoutDef.loadXml
  cases hf : selfOrFind node (b! "previewLayout") with
  | none => exact Does.pure ⟨rfl, h.cast rfl rfl (by simp [overwrites, Val.kind, hf])⟩
  | some n =>
    dsimp only
    refine Does.bind (assign .layoutId (nodeText_does _) h) ?_
    intro q Q' h'
    refine Does.bind (assign .layoutName (nodeText_does _) h') ?_
    intro q2 Q2 h2
    refine Does.pure ⟨rfl, h2.cast ?_ rfl ?_⟩
    · funext f
      cases f <;> rfl
    · simp [overwrites, Val.kind, hf, Val.text, upd, add_assoc]

theorem loadReel_loads (s : Strs) (x : Reel) (node : Node) : Loads (loadReel s node) s (.reel x) node := by
  rintro lost Q h b v' hv
  simp only [Val.load, Res.ok.injEq, Prod.mk.injEq] at hv
  obtain ⟨rfl, rfl⟩ := hv
  unfold loadReel Reel.loadXml
  cases hf : selfOrFind node (b! "reel") with
  | none => exact Does.pure ⟨rfl, h.cast rfl rfl (by simp [overwrites, Val.kind, hf])⟩
  | some n =>
    dsimp only
    cases hi : find n (b! "id") with
    | none => exact Does.pure ⟨rfl, h.cast rfl rfl (by simp [overwrites, Val.kind, hf, ifThere, hi])⟩
    | some i =>
      refine Does.bind (assign .reelId (nodeText_does _) h) ?_
      intro q Q' h'
      unfold partLoads
      refine Does.pure ⟨?_, h'.cast ?_ ?_ ?_⟩
      · cases find n (b! "files") <;> rfl
      · funext f
        cases find n (b! "files") <;> cases f <;> rfl
      · cases find n (b! "files") <;> rfl
      · simp [overwrites, Val.kind, hf, ifThere, hi, Val.text]

/-! ### Tables of contents -/

theorem loadTocText_does {s : Strs} {t : Field → Option Bytes} {tg : Option (List Bytes)} {lost : Multiset Block} {Q : Blocks}
    (f : Field) (n : Node) (name : Bytes) (h : St s t tg lost Q) :
    Does (loadTocText s f n name) Q (fun s' Q' => St s' (upd t f (match find n name with
      | none => t f
      | some x => nodeText (some x))) tg lost Q') := by
  unfold loadTocText
  cases hf : find n name with
  | none =>
    refine Does.pure (h.cast ?_ rfl rfl)
    funext g
    by_cases hg : g = f
    · simp [upd, hg]
    · simp [upd, hg]
  | some x => exact replace f (nodeText_does (some x)) h (fun q Q' hq => Does.pure hq)

theorem loadTocFields_does {s : Strs} {x : TocData} {lost : Multiset Block} {Q : Blocks} (n : Node)
    (h : St s (Val.text (.toc x)) none lost Q) :
    Does (loadTocFields s n) Q (fun s' Q' => St s' (Val.text (.toc (x.loadFields n))) none lost Q') := by
  unfold loadTocFields
  refine replace .tocVersion (cloneText_does _) h ?_
  intro q Q' h1
  refine Does.bind (loadTocText_does .tocIndexType n (b! "indexType") h1) ?_
  intro s2 Q2 h2
  refine Does.bind (loadTocText_does .tocJobId n (b! "jobId") h2) ?_
  intro s3 Q3 h3
  refine (loadTocText_does .tocReelId n (b! "reelId") h3).mono ?_
  intro s4 Q4 h4
  refine h4.cast ?_ rfl rfl
  funext f
  unfold TocData.loadFields
  cases f <;> rfl

/-- The texts of a table of contents after loading are those read first, and the answer does not depend on the old parts. -/
theorem toc_load {x x' : TocData} {node n : Node} {b : Bool} (hf : selfOrFind node (b! "Index") = some n)
    (h : x.loadXml node = .ok (b, x')) :
    Val.text (.toc x') = Val.text (.toc (x.loadFields n)) ∧ ∃ y, TocData.create.loadXml node = .ok (b, y) := by
  unfold TocData.loadXml at h ⊢
  rw [hf] at h ⊢
  dsimp only at h ⊢
  cases hm : TocData.loadMeta n with
  | mk ok m =>
    rw [hm] at h
    cases ok with
    | false =>
      simp only [if_true] at h
      cases h
      exact ⟨rfl, TocData.create.loadFields n, by simp only [if_true]⟩
    | true =>
      simp only [Bool.true_eq_false, if_false] at h ⊢
      cases hl : TocData.loadLayouts n with
      | ub => rw [hl] at h; cases h
      | ok l =>
        rw [hl] at h
        obtain ⟨okl, l⟩ := l
        simp only [Res.ok_bind] at h ⊢
        cases okl with
        | false =>
          simp only [if_true] at h ⊢
          cases h
          refine ⟨?_, _, rfl⟩
          funext f
          cases f <;> rfl
        | true =>
          simp only [Bool.true_eq_false, if_false] at h ⊢
          cases hr : TocData.loadReels n with
          | mk okr r =>
            rw [hr] at h
            cases okr with
            | false =>
              simp only [if_true] at h ⊢
              cases h
              refine ⟨?_, _, rfl⟩
              funext f
              cases f <;> rfl
            | true =>
              simp only [Bool.true_eq_false, if_false] at h ⊢
              cases h
              refine ⟨?_, _, rfl⟩
              funext f
              cases f <;> rfl

theorem loadToc_loads (s : Strs) (x : TocData) (node : Node) : Loads (loadToc s node) s (.toc x) node := by
  rintro lost Q h b v' hv
  simp only [Val.load] at hv
  cases hx : x.loadXml node with
  | ub => rw [hx] at hv; cases hv
  | ok r =>
    rw [hx] at hv
    obtain ⟨b', x'⟩ := r
    cases hv
    unfold loadToc
    cases hf : selfOrFind node (b! "Index") with
    | none =>
      unfold TocData.loadXml at hx
      rw [hf] at hx
      cases hx
      exact Does.pure ⟨rfl, h.cast rfl rfl (by simp [overwrites, Val.kind])⟩
    | some n =>
      dsimp only
      obtain ⟨ht, y, hy⟩ := toc_load hf hx
      refine Does.bind (loadTocFields_does n h) ?_
      intro s' Q' h'
      rw [hy]
      exact Does.pure ⟨rfl, h'.cast ht.symm rfl (by simp [overwrites, Val.kind])⟩

end Afs.Strings
