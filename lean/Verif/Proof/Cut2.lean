import Verif.Proof.Cut
/-!
# Documents cut short: where the input ends
-/
namespace Afs.Xml
open Afs Afs.Spec Afs.Spec.Grammar

theorem eof_tag {s : PS} (h : kindOf s.pc = .tag) : eofs s = none := by
  obtain ⟨pc, st, ro, oq⟩ := s
  cases pc with
  | slash _ => exact eofs_of_done rfl
  | attr _ => exact eofs_of_done rfl
  | attrSlash _ _ => exact eofs_of_done rfl
  | qname e q an =>
    apply eofs_of_done
    simp only [step, PS.afterAttrName]
    split <;> rfl
  | aname e an =>
    apply eofs_of_done
    simp only [step, PS.afterAttrName]
    split <;> rfl
  | aeq _ _ => exact eofs_of_done rfl
  | vskip _ _ => exact eofs_of_done rfl
  | qval _ _ _ _ => exact eofs_step rfl
  | uval _ _ _ => exact eofs_step rfl
  | valSlash _ _ => exact eofs_of_done rfl
  | ent _ _ => exact eofs_of_done rfl
  | _ => cases h

/-- Behind the name of an end tag that fits the open element. -/
def Closes (f : Frame) (s : PS) : Prop := (∃ g, s.stack = [f, g]) ∧ (s.pc = .close ∨ s.pc = .name (47 :: f.name))

theorem step_pop_none {s : PS} {D ks} (h : Kids D s ks) (hne : s.stack ≠ []) :
    (step s.pop none).pc = .done none ∨
    (s.stack.length = 1 ∧ (step s.pop none).pc = .done (some (.elem D [] ks))) ∨
    (∃ f g, s.stack = [f, g] ∧ (step s.pop none).pc = .done (some (.elem D [] (ks ++ [f.node])))) := by
  have hs : step s.pop none = s.pop.finish := by
    unfold step
    rw [pop_main hne]
  rw [hs]
  obtain ⟨h1, h2, h3⟩ := kids_pop (s' := s.pop) h ⟨rfl, rfl, hne⟩
  by_cases e : s.stack.length = 2
  · match hst : s.stack with
    | [] => exact absurd hst hne
    | [f] => rw [hst] at e; simp at e
    | f :: g :: x :: xs => rw [hst] at e; simp at e
    | [f, g] =>
      rcases kids_finish (h3 f [g] hst rfl) with h4 | ⟨_, h4⟩
      · exact .inl h4
      · exact .inr (.inr ⟨f, g, rfl, h4⟩)
  · rcases kids_finish (h2 e) with h4 | ⟨h5, h4⟩
    · exact .inl h4
    · refine .inr (.inl ⟨?_, h4⟩)
      omega

/-- What is returned at the end of the input. -/
theorem eof_form {D s ks u} (h : Grown D s ks) (hu : eofs s = some u) :
    (u = .elem D [] ks ∧ (kindOf s.pc = .done ∨ s.stack.length ≤ 1)) ∨
    (∃ b, s.pc = .name b ∧ s.stack.length = 1 ∧ u = .elem D [] (ks ++ [.elem b [] []])) ∨
    (∃ f, Closes f s ∧ u = .elem D [] (ks ++ [f.node])) := by
  cases hk : kindOf s.pc with
  | done =>
    refine .inl ⟨?_, .inl rfl⟩
    have := class_done hk none
    unfold eofs PS.result at hu
    split at hu
    · rename_i r e
      subst hu
      apply h.done
      have hp : ∀ l : List (Option Nat), (run s l).pc = s.pc := by
        intro l
        cases hpc : s.pc with
        | done r => rw [run_done hpc]
        | ent k a => rw [hpc] at hk; cases k <;> cases hk
        | _ => rw [hpc] at hk; cases hk
      rw [← hp, e]
    · cases hu
  | tag => rw [eof_tag hk] at hu; cases hu
  | main =>
    have hl := h.live (by rw [hk]; simp)
    rcases class_main hk none with h1 | ⟨_, _, h1⟩ | ⟨h1, h2⟩
    · rw [eofs_of_done h1] at hu; cases hu
    · rcases kids_finish hl with h2 | ⟨h3, h2⟩
      · rw [eofs_of_done (h1 ▸ h2)] at hu; cases hu
      · rw [eofs_of_done (h1 ▸ h2)] at hu
        injection hu with hu
        exact .inl ⟨hu.symm, .inr h3⟩
    · exfalso
      cases hpc : s.pc with
      | main b =>
        have e : step s none = s.finish := by unfold step; rw [hpc]
        rw [e] at h1
        rcases kids_finish hl with h2 | ⟨_, h2⟩ <;> (rw [h2] at h1; simp [kindOf] at h1)
      | ent k a =>
        have e : step s none = s.error := by unfold step; rw [hpc]
        rw [e] at h1
        simp [PS.error, kindOf] at h1
      | _ => rw [hpc] at hk; cases hk
  | opening =>
    have hl := h.live (by rw [hk]; simp)
    have close : ∀ pcOk : (s.pc = .close ∨ s.pc = .name (47 :: (s.stack.head?.getD ⟨[], [], []⟩).name)), step s none = s.pop →
        (u = .elem D [] ks ∧ (kindOf s.pc = .done ∨ s.stack.length ≤ 1)) ∨
          (∃ f, Closes f s ∧ u = .elem D [] (ks ++ [f.node])) := by
      intro pcOk hst
      by_cases hne : s.stack = []
      · have : s.pop.pc = .done none := by unfold PS.pop; rw [hne]; rfl
        rw [eofs_of_done (hst ▸ this)] at hu; cases hu
      rcases step_pop_none hl hne with h2 | ⟨h3, h2⟩ | ⟨f, g, h3, h2⟩
      · rw [eofs_step (by rw [hst]; exact h2)] at hu; cases hu
      · rw [eofs_step (by rw [hst]; exact h2)] at hu
        injection hu with hu
        exact .inl ⟨hu.symm, .inr (by omega)⟩
      · rw [eofs_step (by rw [hst]; exact h2)] at hu
        injection hu with hu
        refine .inr ⟨f, ⟨⟨g, h3⟩, ?_⟩, hu.symm⟩
        rw [h3] at pcOk
        exact pcOk
    cases hpc : s.pc with
    | name b =>
      have hst : step s none = s.afterName b none := by unfold step; rw [hpc]
      unfold PS.afterName at hst
      split at hst
      · rw [eofs_step (r := none) (by rw [hst]; rfl)] at hu; cases hu
      split at hst
      · rw [eofs_step (r := none) (by rw [hst]; rfl)] at hu; cases hu
      split at hst
      · rw [eofs_step (r := none) (by rw [hst]; rfl)] at hu; cases hu
      split at hst
      · rw [eofs_step (r := none) (by rw [hst]; rfl)] at hu; cases hu
      split at hst
      · rename_i h47
        split at hst
        · rw [eofs_of_done (r := none) (by rw [hst]; rfl)] at hu; cases hu
        · rename_i f fs hstk
          split at hst
          · rename_i hname
            have hb : b = 47 :: f.name := by
              cases b with
              | nil => cases h47
              | cons x r => simp at h47 hname; rw [h47, hname]
            rcases close (.inr (by rw [hpc, hstk, hb]; rfl)) hst with ⟨e1, e2⟩ | ⟨f', e1, e2⟩
            · exact .inl ⟨e1, by rcases e2 with e2 | e2; · rw [hpc] at e2; cases e2
                                 · exact .inr e2⟩
            · exact .inr (.inr ⟨f', e1, e2⟩)
          · rw [eofs_of_done (r := none) (by rw [hst]; rfl)] at hu; cases hu
      split at hst
      · rw [eofs_of_done (r := none) (by rw [hst]; rfl)] at hu; cases hu
      · dsimp only at hst
        obtain ⟨h0, ks', h3, h4, h5⟩ := kids_adds (s' := s.addNode (.elem b [] [])) hl ⟨rfl, rfl⟩
        rcases kids_finish h3 with h2 | ⟨h6, h2⟩
        · rw [eofs_of_done (hst ▸ h2)] at hu; cases hu
        · rw [eofs_of_done (hst ▸ h2)] at hu
          injection hu with hu
          by_cases e : s.stack.length = 1
          · rw [h4 e] at hu
            exact .inr (.inl ⟨b, rfl, e, hu.symm⟩)
          · rw [h5 e] at hu
            exact .inl ⟨hu.symm, .inr (by omega)⟩
    | close =>
      have hst : step s none = s.pop := by unfold step; rw [hpc]; rfl
      rcases close (.inl hpc) hst with ⟨e1, e2⟩ | ⟨f', e1, e2⟩
      · exact .inl ⟨e1, by rcases e2 with e2 | e2; · rw [hpc] at e2; cases e2
                           · exact .inr e2⟩
      · exact .inr (.inr ⟨f', e1, e2⟩)
    | comment b => rw [eofs_of_done (r := none) (by unfold step; rw [hpc]; rfl)] at hu; cases hu
    | cdata b => rw [eofs_of_done (r := none) (by unfold step; rw [hpc]; rfl)] at hu; cases hu
    | pi b => rw [eofs_of_done (r := none) (by unfold step; rw [hpc]; rfl)] at hu; cases hu
    | decl b => rw [eofs_of_done (r := none) (by unfold step; rw [hpc]; rfl)] at hu; cases hu
    | ent k a => rw [eofs_of_done (r := none) (by unfold step; rw [hpc]; rfl)] at hu; cases hu
    | _ => rw [hpc] at hk; cases hk

/-! ### Continuing behind an end tag's name -/

def Closed (D : Bytes) (ks : List Node) (f : Frame) (s : PS) : Prop :=
  s.pc = .done none ∨
  (Kids D s ks ∧ (∃ g, s.stack = [f, g]) ∧
    (s.pc = .close ∨ (∃ m, s.pc = .name (47 :: (f.name ++ m))) ∨ ∃ m a, s.pc = .ent (.name (47 :: (f.name ++ m))) a)) ∨
  ∃ ks', (ks ++ [f.node]) <+: ks' ∧ Grown D s ks'

theorem closed_pop {D ks f} {s : PS} (h : Kids D s ks) (hs : ∃ g, s.stack = [f, g]) : Closed D ks f s.pop := by
  obtain ⟨g, hg⟩ := hs
  have hne : s.stack ≠ [] := by rw [hg]; simp
  obtain ⟨_, _, h3⟩ := kids_pop (s' := s.pop) h ⟨rfl, rfl, hne⟩
  refine .inr (.inr ⟨_, List.prefix_refl _, ?_⟩)
  exact grown_of (h3 f [g] hg rfl) (by rw [pop_main hne]; simp [kindOf]) (by rw [pop_main hne]; simp [kindOf])

theorem closed_body {D ks f} {s : PS} (h : Kids D s ks) (hs : ∃ g, s.stack = [f, g]) (c : Option Nat) :
    Closed D ks f (s.closeBody c) := by
  unfold PS.closeBody
  split
  · exact closed_pop h hs
  · split
    · exact closed_pop h hs
    · exact .inr (.inl ⟨h, hs, .inl rfl⟩)

theorem closed_name {D ks f} {s : PS} (h : Kids D s ks) (hs : ∃ g, s.stack = [f, g]) (r : Bytes) (c : Option Nat) :
    Closed D ks f (s.afterName (47 :: r) c) := by
  obtain ⟨g, hg⟩ := hs
  unfold PS.afterName
  rw [if_neg (by intro e; injection e with e _; exact absurd e (by decide)),
    if_neg (by unfold Node.cdataOpen; intro e; injection e with e _; exact absurd e (by decide)),
    if_neg (by rw [List.head?_cons]; decide), if_neg (by rw [List.head?_cons]; decide), if_pos (by rw [List.head?_cons]), hg]
  dsimp only
  split
  · exact closed_body h ⟨g, hg⟩ c
  · exact .inl rfl

theorem closed_step {D ks f} {s : PS} (h : Closed D ks f s) (c : Option Nat) : Closed D ks f (step s c) := by
  rcases h with h | ⟨hk, hs, h⟩ | ⟨ks', h1, h2⟩
  · exact .inl (by unfold step; rw [h])
  · rcases h with h | ⟨m, h⟩ | ⟨m, a, h⟩
    · have e : step s c = s.closeBody c := by unfold step; rw [h]
      rw [e]; exact closed_body hk hs c
    · unfold step
      rw [h]
      cases c with
      | none => exact closed_name hk hs _ _
      | some c =>
        dsimp only
        split
        · exact closed_name hk hs _ _
        split
        · exact .inl rfl
        split
        · exact .inr (.inl ⟨hk, hs, .inr (.inr ⟨m, _, rfl⟩)⟩)
        split
        · exact .inl rfl
        split
        · exact closed_name hk hs (f.name ++ m ++ addChar c) _
        · exact .inr (.inl ⟨hk, hs, .inr (.inl ⟨m ++ addChar c, by simp⟩)⟩)
    · unfold step
      rw [h]
      cases c with
      | none => exact .inl rfl
      | some c =>
        dsimp only
        split
        · split
          · exact .inr (.inl ⟨hk, hs, .inr (.inr ⟨m, _, rfl⟩)⟩)
          · exact .inl rfl
        · split
          · split
            · exact .inl rfl
            · rename_i v _
              exact .inr (.inl ⟨hk, hs, .inr (.inl ⟨m ++ addChar v, by simp [resume]⟩)⟩)
          · exact .inl rfl
  · obtain ⟨k2, h3, h4⟩ := grown_step h2 c
    exact .inr (.inr ⟨k2, h1.trans h3, h4⟩)

theorem closed_run {D ks f} {s : PS} (h : Closed D ks f s) (l : List (Option Nat)) : Closed D ks f (run s l) := by
  induction l generalizing s with
  | nil => exact h
  | cons c l ih => exact ih (closed_step h c)

theorem closed_of {D ks f} {s : PS} (h : Grown D s ks) (hc : Closes f s) : Closed D ks f s := by
  refine .inr (.inl ⟨h.live ?_, hc.1, ?_⟩)
  · rcases hc.2 with e | e <;> (rw [e]; simp [kindOf])
  · rcases hc.2 with e | e
    · exact .inl e
    · exact .inr (.inl ⟨[], by simpa using e⟩)

theorem closed_eofs {D ks f v} {s : PS} (h : Closed D ks f s) (hv : eofs s = some v) :
    ∃ ks', (ks ++ [f.node]) <+: ks' ∧ v = .elem D [] ks' := by
  unfold eofs PS.result at hv
  have := closed_run h [none, none, none]
  split at hv
  · rename_i r e
    subst hv
    rcases this with h1 | ⟨_, _, h1⟩ | ⟨ks', h1, h2⟩
    · rw [e] at h1; cases h1
    · rcases h1 with h1 | ⟨m, h1⟩ | ⟨m, a, h1⟩ <;> (rw [e] at h1; cases h1)
    · exact ⟨ks', h1, h2.done v e⟩
  · cases hv

/-- Whatever the reader accepts: cut behind the declaration, it is refused, or read with the first
    few children of the declaration, to which an empty element may be added. -/
theorem cut_any {D s ks l v u} (h : Grown D s ks) (hv : eofs (run s l) = some v) (hu : eofs s = some u) :
    ∃ kids, v = .elem D [] kids ∧ ∃ k, k <+: kids ∧ (u = .elem D [] k ∨ ∃ b, u = .elem D [] (k ++ [.elem b [] []])) := by
  obtain ⟨k1, h1, h2⟩ := grown_run h l
  obtain ⟨k2, h3, rfl⟩ := grown_eofs h2 hv
  refine ⟨k2, rfl, ?_⟩
  rcases eof_form h hu with ⟨e, _⟩ | ⟨b, _, _, e⟩ | ⟨f, hc, e⟩
  · exact ⟨ks, h1.trans h3, .inl e⟩
  · exact ⟨ks, h1.trans h3, .inr ⟨b, e⟩⟩
  · obtain ⟨k3, h4, h5⟩ := closed_eofs (closed_run (closed_of h hc) l) hv
    injection h5 with _ _ h5
    subst h5
    exact ⟨_, h4, .inl e⟩


/-! ### Where the declaration's last child is still to come -/

def Longer (D : Bytes) (base : List Node) (s : PS) : Prop := ∃ x ks, Grown D s (base ++ x :: ks)

theorem longer_step {D base s} (h : Longer D base s) (c : Option Nat) : Longer D base (step s c) := by
  obtain ⟨x, ks, h⟩ := h
  obtain ⟨k, ⟨r, rfl⟩, h2⟩ := grown_step h c
  exact ⟨x, ks ++ r, by simpa using h2⟩

/-- Inside a child of the declaration. -/
def Deep (D : Bytes) (base : List Node) (s : PS) : Prop :=
  s.pc = .done none ∨ Longer D base s ∨ (Kids D s base ∧ kindOf s.pc ≠ .done ∧ 2 ≤ s.stack.length)

theorem grown_deep {D base s} (h : Kids D s base) (hk : kindOf s.pc ≠ .done) (hl : 2 ≤ s.stack.length) : Grown D s base :=
  grown_of h hk fun e => by rw [e] at hl; simp at hl

theorem deep_step {D base s} (h : Deep D base s) (c : Option Nat) : Deep D base (step s c) := by
  rcases h with h | h | ⟨hk, hn, hl⟩
  · exact .inl (by unfold step; rw [h])
  · exact .inr (.inl (longer_step h c))
  have hne : s.stack ≠ [] := by intro e; rw [e] at hl; simp at hl
  have fin : ∀ t : PS, Kids D t base → 2 ≤ t.stack.length → t.finish.pc = .done none := by
    intro t h1 h2
    rcases kids_finish h1 with h3 | ⟨h3, _⟩
    · exact h3
    · omega
  have adds : ∀ n, Adds n s (step s c) → kindOf (step s c).pc ≠ .done → Deep D base (step s c) := by
    intro n h1 h2
    obtain ⟨h3, k, h4, _, h5⟩ := kids_adds hk h1
    rw [h5 (by omega)] at h4
    exact .inr (.inr ⟨h4, h2, by omega⟩)
  cases hkind : kindOf s.pc with
  | done => exact absurd hkind hn
  | tag =>
    rcases class_tag hkind c with h1 | ⟨h1, h2⟩ | ⟨h1, ⟨n, h2⟩ | h2⟩
    · exact .inl h1
    · exact .inr (.inr ⟨kids_keep hk h1, by rw [h2]; simp, by rw [h1.1]; exact hl⟩)
    · exact adds n h2 (by rw [h1]; simp)
    · obtain ⟨h3, h4⟩ := kids_push hk hne h2
      exact .inr (.inr ⟨h4, by rw [h1]; simp, by omega⟩)
  | main =>
    rcases class_main hkind c with h1 | ⟨rfl, _, h1⟩ | ⟨h1, h2⟩
    · exact .inl h1
    · exact .inl (by rw [h1]; exact fin s hk hl)
    · have hk' : kindOf (step s c).pc ≠ .done := by
        rcases h1 with h1 | h1
        · rw [h1]; simp
        · rw [h1]; simp [kindOf]
      rcases h2 with h2 | ⟨n, h2⟩
      · exact .inr (.inr ⟨kids_keep hk h2, hk', by rw [h2.1]; exact hl⟩)
      · exact adds n h2 hk'
  | opening =>
    rcases class_open hkind c with h1 | ⟨h1, h2⟩ | ⟨h1, h2, h3⟩ | ⟨h1, ⟨n, h2⟩ | ⟨h2, h3⟩⟩ | ⟨h1, h2⟩ | ⟨rfl, b, hb, h2, h1⟩
    · exact .inl h1
    · exact .inr (.inr ⟨kids_keep hk h1, by rw [h2]; simp, by rw [h1.1]; exact hl⟩)
    · exact .inr (.inr ⟨kids_keep hk h1, by rw [h2]; simp, by rw [h1.1]; exact hl⟩)
    · exact adds n h2 (by rw [h1]; simp)
    · obtain ⟨h4, h5⟩ := kids_push hk hne h2
      exact .inr (.inr ⟨h5, by rw [h1]; simp, by omega⟩)
    · obtain ⟨h3, h4, h5⟩ := kids_pop hk h2
      by_cases e : s.stack.length = 2
      · cases hst : s.stack with
        | nil => exact absurd hst hne
        | cons f fs =>
          refine .inr (.inl ⟨f.node, [], ?_⟩)
          exact grown_of (h5 f fs hst (by rw [hst] at e; simpa using e)) (by rw [h1]; simp) (by rw [h1]; simp)
      · exact .inr (.inr ⟨h4 e, by rw [h1]; simp, by omega⟩)
    · obtain ⟨h3, k, h4, _, h5⟩ := kids_adds (s' := s.addNode (.elem b [] [])) hk ⟨rfl, rfl⟩
      rw [h5 (by omega)] at h4
      exact .inl (by rw [h1]; exact fin _ h4 (by omega))

/-- In the start tag of a child of the declaration, or inside it. -/
def PastTag (D : Bytes) (base : List Node) (s : PS) : Prop :=
  Deep D base s ∨ (Kids D s base ∧ kindOf s.pc = .tag ∧ s.stack.length = 1)

theorem pastTag_step {D base s} (h : PastTag D base s) (c : Option Nat) : PastTag D base (step s c) := by
  rcases h with h | ⟨hk, hkind, hl⟩
  · exact .inl (deep_step h c)
  have hne : s.stack ≠ [] := by intro e; rw [e] at hl; simp at hl
  rcases class_tag hkind c with h1 | ⟨h1, h2⟩ | ⟨h1, ⟨n, h2⟩ | h2⟩
  · exact .inl (.inl h1)
  · exact .inr ⟨kids_keep hk h1, h2, by rw [h1.1]; exact hl⟩
  · obtain ⟨h3, k, h4, h5, _⟩ := kids_adds hk h2
    rw [h5 hl] at h4
    exact .inl (.inr (.inl ⟨n, [], grown_of h4 (by rw [h1]; simp) (by rw [h1]; simp)⟩))
  · obtain ⟨h3, h4⟩ := kids_push hk hne h2
    exact .inl (.inr (.inr ⟨h4, by rw [h1]; simp, by omega⟩))

theorem pastTag_run {D base s} (h : PastTag D base s) (l : List (Option Nat)) : PastTag D base (run s l) := by
  induction l generalizing s with
  | nil => exact h
  | cons c l ih => exact ih (pastTag_step h c)

/-- In markup that adds a child to the declaration, or ends it. -/
def PastOpen (D : Bytes) (base : List Node) (s : PS) : Prop :=
  PastTag D base s ∨ (Kids D s base ∧ kindOf s.pc = .opening ∧ s.stack.length = 1) ∨ (Grown D s base ∧ kindOf s.pc ≠ .done ∧ s.stack = [])

theorem pastOpen_step {D base s} (h : PastOpen D base s) (c : Nat) : PastOpen D base (step s (some c)) := by
  rcases h with h | ⟨hk, hkind, hl⟩ | ⟨hg, hn, hs⟩
  · exact .inl (pastTag_step h _)
  · have hne : s.stack ≠ [] := by intro e; rw [e] at hl; simp at hl
    rcases class_open hkind (some c) with h1 | ⟨h1, h2⟩ | ⟨h1, h2, h3⟩ | ⟨h1, ⟨n, h2⟩ | ⟨h2, h3⟩⟩ | ⟨h1, h2⟩ | ⟨e, _⟩
    · exact .inl (.inl (.inl h1))
    · exact .inr (.inl ⟨kids_keep hk h1, h2, by rw [h1.1]; exact hl⟩)
    · exact .inl (.inr ⟨kids_keep hk h1, h2, by rw [h1.1]; exact hl⟩)
    · obtain ⟨h3, k, h4, h5, _⟩ := kids_adds hk h2
      rw [h5 hl] at h4
      exact .inl (.inl (.inr (.inl ⟨n, [], grown_of h4 (by rw [h1]; simp) (by rw [h1]; simp)⟩)))
    · obtain ⟨h4, h5⟩ := kids_push hk hne h2
      exact .inl (.inl (.inr (.inr ⟨h5, by rw [h1]; simp, by omega⟩)))
    · obtain ⟨h3, h4, _⟩ := kids_pop hk h2
      refine .inr (.inr ⟨grown_of (h4 (by omega)) (by rw [h1]; simp) (by rw [h1]; simp), by rw [h1]; simp, ?_⟩)
      exact List.length_eq_zero_iff.mp (by omega)
    · cases e
  · have hk := hg.live hn
    have adds : ∀ n, Adds n s (step s (some c)) → (kindOf (step s (some c)).pc ≠ .done ∧ kindOf (step s (some c)).pc ≠ .tag) →
        PastOpen D base (step s (some c)) := by
      intro n h1 h2
      obtain ⟨h3, k, h4, _, h5⟩ := kids_adds hk h1
      rw [h5 (by rw [hs]; simp)] at h4
      exact .inr (.inr ⟨grown_of h4 h2.1 fun _ => h2.2, h2.1, List.length_eq_zero_iff.mp (by rw [h3, hs]; rfl)⟩)
    have second : s.secondRoot = false → False := fun e => second_nil hk e hs
    cases hkind : kindOf s.pc with
    | done => exact absurd hkind hn
    | tag => exact absurd hkind (hg.tag hs)
    | main =>
      rcases class_main hkind (some c) with h1 | ⟨e, _⟩ | ⟨h1, h2⟩
      · exact .inl (.inl (.inl h1))
      · cases e
      · have hk' : kindOf (step s (some c)).pc ≠ .done ∧ kindOf (step s (some c)).pc ≠ .tag := by
          rcases h1 with h1 | h1
          · rw [h1]; simp
          · rw [h1]; simp [kindOf]
        rcases h2 with h2 | ⟨n, h2⟩
        · exact .inr (.inr ⟨grown_of (kids_keep hk h2) hk'.1 fun _ => hk'.2, hk'.1, by rw [h2.1]; exact hs⟩)
        · exact adds n h2 hk'
    | opening =>
      rcases class_open hkind (some c) with h1 | ⟨h1, h2⟩ | ⟨h1, h2, h3⟩ | ⟨h1, ⟨n, h2⟩ | ⟨h2, h3⟩⟩ | ⟨h1, h2⟩ | ⟨e, _⟩
      · exact .inl (.inl (.inl h1))
      · exact .inr (.inr ⟨grown_of (kids_keep hk h1) (by rw [h2]; simp) (by rw [h2]; simp), by rw [h2]; simp, by rw [h1.1]; exact hs⟩)
      · exact (second h3).elim
      · exact adds n h2 (by rw [h1]; simp)
      · exact (second h3).elim
      · exact absurd hs h2.2.2
      · cases e

theorem pastOpen_run {D base s} (h : PastOpen D base s) (l : List Nat) : PastOpen D base (run s (l.map some)) := by
  induction l generalizing s with
  | nil => exact h
  | cons c l ih => exact ih (pastOpen_step h c)

/-- Where a document with a declaration ends. -/
def Final (D : Bytes) (kids : List Node) (s : PS) : Prop := (∃ b, s.pc = .main b) ∧ s.stack = [⟨D, [], kids.reverse⟩]

theorem final_kids {D kids s ks} (h : Final D kids s) (hk : Kids D s ks) : ks = kids := by
  rcases hk with hk | ⟨hk, _⟩
  · rw [h.2] at hk; simpa using hk.symm
  · rw [h.2] at hk; cases hk

theorem final_grown {D kids s ks} (h : Final D kids s) (hk : Grown D s ks) : ks = kids := by
  obtain ⟨b, hb⟩ := h.1
  exact final_kids h (hk.live (by rw [hb]; simp [kindOf]))

theorem final_not_open {D kids s} (h : Final D kids s) : ¬ PastOpen D kids s := by
  obtain ⟨b, hb⟩ := h.1
  have hst := h.2
  rintro (((h1 | ⟨x, ks, h1⟩ | ⟨_, _, h1⟩) | ⟨_, h1, _⟩) | ⟨_, h1, _⟩ | ⟨_, _, h1⟩)
  · rw [hb] at h1; cases h1
  · have := congrArg List.length (final_grown h h1)
    simp at this
  · rw [hst] at h1; simp at h1
  · rw [hb] at h1; cases h1
  · rw [hb] at h1; cases h1
  · rw [hst] at h1; cases h1

theorem final_eofs {D kids s} (h : Final D kids s) : eofs s = some (.elem D [] kids) := by
  obtain ⟨b, hb⟩ := h.1
  apply eofs_of_done
  unfold step
  rw [hb]
  dsimp only
  unfold PS.finish
  rw [h.2]
  simp [Frame.node]

/-- Cut in or behind the start tag of the last child of the declaration, a document is refused or
    read as a whole. -/
theorem cut_past {D base r s u} {l : List Nat} (h : PastTag D base s) (hf : Final D (base ++ [r]) (run s (l.map some)))
    (hu : eofs s = some u) : u = .elem D [] (base ++ [r]) := by
  have hdone : kindOf s.pc = .done → False := by
    intro hk
    obtain ⟨b, hb⟩ := hf.1
    cases hpc : s.pc with
    | done x => rw [run_done hpc] at hb; cases hb
    | ent k a => rw [hpc] at hk; cases k <;> cases hk
    | _ => rw [hpc] at hk; cases hk
  rcases h with (h | ⟨x, ks, h⟩ | ⟨hk, hn, hl⟩) | ⟨_, h, _⟩
  · exact (hdone (by rw [h]; rfl)).elim
  · obtain ⟨k, hk, h2⟩ := grown_run h (l.map some)
    have hk' := final_grown hf h2
    subst hk'
    have e : x = r ∧ ks = [] := by
      obtain ⟨z, hz⟩ := hk
      rw [List.append_assoc, List.append_cancel_left_eq] at hz
      simp at hz
      exact ⟨hz.1, hz.2.1⟩
    obtain ⟨rfl, rfl⟩ := e
    have hno : ¬ PastOpen D (base ++ [x]) s := fun e => final_not_open hf (pastOpen_run e l)
    have hlive : kindOf s.pc ≠ .done := fun e => hdone e
    have hkids := h.live hlive
    rcases eof_form h hu with ⟨e, _⟩ | ⟨b, hb, hlen, e⟩ | ⟨f, ⟨⟨g, hc⟩, _⟩, e⟩
    · exact e
    · exact absurd (.inr (.inl ⟨hkids, by rw [hb]; rfl, hlen⟩)) hno
    · exact absurd (.inl (.inl (.inr (.inr ⟨hkids, hlive, by rw [hc]; simp⟩)))) hno
  · rcases eof_form (grown_deep hk hn hl) hu with ⟨e, e2 | e2⟩ | ⟨b, hb, hlen, e⟩ | ⟨f, hc, e⟩
    · exact absurd e2 hn
    · omega
    · omega
    · rcases closed_run (closed_of (grown_deep hk hn hl) hc) (l.map some) with h1 | ⟨h0, ⟨g, h1⟩, _⟩ | ⟨ks', h1, h2⟩
      · obtain ⟨b, hb⟩ := hf.1
        rw [hb] at h1; cases h1
      · rw [hf.2] at h1; simp at h1
      · have hk' := final_grown hf h2
        subst hk'
        obtain ⟨z, hz⟩ := h1
        rw [List.append_assoc, List.append_cancel_left_eq] at hz
        simp at hz
        rw [e, hz.1]
  · rw [eof_tag h] at hu; cases hu

end Afs.Xml
