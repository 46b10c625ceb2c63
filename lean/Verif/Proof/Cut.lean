import Verif.Proof.XmlDoc
import Verif.Proof.XmlSecond
import Verif.Proof.Grammar5
/-!
# Documents cut short

What the reader makes of a prefix of a document it accepts.
-/
namespace Afs.Xml
open Afs Afs.Spec Afs.Spec.Grammar

/-- What is returned when the input ends here. -/
def eofs (s : PS) : Option Node := (run s [none, none, none]).result

theorem result_done {s : PS} {r : Option Node} (h : s.pc = .done r) : s.result = r := by
  unfold PS.result; rw [h]

theorem eofs_of_done {s : PS} {r : Option Node} (h : (step s none).pc = .done r) : eofs s = r := by
  unfold eofs
  rw [show run s [none, none, none] = run (step s none) [none, none] from rfl]
  exact result_done (run_done h _)

theorem eofs_step {s : PS} {r : Option Node} (h : (step (step s none) none).pc = .done r) : eofs s = r := by
  unfold eofs
  rw [show run s [none, none, none] = run (step (step s none) none) [none] from rfl]
  exact result_done (run_done h _)

/-- Where in the grammar the reader is. -/
inductive Kind | main | opening | tag | done
deriving DecidableEq

def kindOf : PC → Kind
  | .main _ => .main
  | .name _ => .opening
  | .comment _ => .opening
  | .cdata _ => .opening
  | .pi _ => .opening
  | .decl _ => .opening
  | .close => .opening
  | .done _ => .done
  | .ent (.main _) _ => .main
  | .ent (.slash _) _ => .tag
  | .ent (.attr _) _ => .tag
  | .ent (.attrSlash _ _) _ => .tag
  | .ent (.qname _ _ _) _ => .tag
  | .ent (.aname _ _) _ => .tag
  | .ent (.aeq _ _) _ => .tag
  | .ent (.vskip _ _) _ => .tag
  | .ent (.qval _ _ _ _) _ => .tag
  | .ent (.uval _ _ _) _ => .tag
  | .ent (.valSlash _ _) _ => .tag
  | .ent _ _ => .opening
  | _ => .tag

def Keep (s s' : PS) : Prop := s'.stack = s.stack ∧ s'.root = s.root
def Adds (n : Node) (s s' : PS) : Prop := s'.stack = (s.addNode n).stack ∧ s'.root = (s.addNode n).root
def Pushes (s s' : PS) : Prop := (∃ e : Head, s'.stack = ⟨e.1, e.2, []⟩ :: s.stack) ∧ s'.root = s.root
def Pops (s s' : PS) : Prop := s'.stack = s.pop.stack ∧ s'.root = s.pop.root ∧ s.stack ≠ []

theorem keep_rfl (s : PS) (pc : PC) : Keep s { s with pc := pc } := ⟨rfl, rfl⟩

theorem class_done {s : PS} (h : kindOf s.pc = .done) (c : Option Nat) : (step s c).pc = s.pc := by
  cases hpc : s.pc with
  | done r => unfold step; rw [hpc]
  | ent k a => rw [hpc] at h; cases k <;> cases h
  | _ => rw [hpc] at h; cases h

def TagNext (s s' : PS) : Prop :=
  s'.pc = .done none ∨ (Keep s s' ∧ kindOf s'.pc = .tag) ∨ (kindOf s'.pc = .main ∧ ((∃ n, Adds n s s') ∨ Pushes s s'))

theorem tag_error {s s' : PS} (h : s'.pc = .done none) : TagNext s s' := .inl h
theorem tag_same (s : PS) {pc : PC} (h : kindOf pc = .tag) : TagNext s { s with pc := pc } := .inr (.inl ⟨⟨rfl, rfl⟩, h⟩)

theorem tag_head (s : PS) (e : Head) (c : Nat) : TagNext s (s.afterHead e c) := by
  unfold PS.afterHead
  split
  · exact .inr (.inr ⟨rfl, .inl ⟨_, rfl, rfl⟩⟩)
  · exact .inr (.inr ⟨rfl, .inr ⟨⟨e, rfl⟩, rfl⟩⟩)

theorem tag_attrName (s : PS) (e : Head) (an : Bytes) (c : Option Nat) : TagNext s (s.afterAttrName e an c) := by
  unfold PS.afterAttrName
  dsimp only
  split
  · exact tag_error rfl
  · split
    · exact tag_error rfl
    · split
      · exact tag_same s rfl
      · split
        · exact tag_same s rfl
        · exact tag_error rfl

theorem tag_value (s : PS) (e : Head) (an av : Bytes) (c : Option Nat) : TagNext s (s.afterValue e an av c) := by
  unfold PS.afterValue
  dsimp only
  split
  · exact tag_same s rfl
  · split
    · exact tag_same s rfl
    · split
      · exact tag_head s _ _
      · exact tag_same s rfl

theorem class_tag {s : PS} (h : kindOf s.pc = .tag) (c : Option Nat) : TagNext s (step s c) := by
  unfold step
  cases hpc : s.pc with
  | main _ => rw [hpc] at h; cases h
  | name _ => rw [hpc] at h; cases h
  | comment _ => rw [hpc] at h; cases h
  | cdata _ => rw [hpc] at h; cases h
  | pi _ => rw [hpc] at h; cases h
  | decl _ => rw [hpc] at h; cases h
  | close => rw [hpc] at h; cases h
  | done _ => rw [hpc] at h; cases h
  | slash n =>
    dsimp only
    split
    · exact tag_head s _ _
    · exact tag_error rfl
  | attr e =>
    cases c with
    | none => exact tag_error rfl
    | some c =>
      dsimp only
      repeat' split
      all_goals first | exact tag_error rfl | exact tag_same s rfl | exact tag_head s _ _
  | attrSlash e x =>
    dsimp only
    split
    · exact tag_head s _ _
    · exact tag_error rfl
  | qname e q an =>
    cases c with
    | none => exact tag_attrName s _ _ _
    | some c =>
      dsimp only
      repeat' split
      all_goals first | exact tag_error rfl | exact tag_same s rfl | exact tag_attrName s _ _ _
  | aname e an =>
    cases c with
    | none => exact tag_attrName s _ _ _
    | some c =>
      dsimp only
      repeat' split
      all_goals first | exact tag_error rfl | exact tag_same s rfl | exact tag_attrName s _ _ _
  | aeq e an =>
    cases c with
    | none => exact tag_error rfl
    | some c =>
      dsimp only
      repeat' split
      all_goals first | exact tag_error rfl | exact tag_same s rfl
  | vskip e an =>
    cases c with
    | none => exact tag_error rfl
    | some c =>
      dsimp only
      repeat' split
      all_goals first | exact tag_error rfl | exact tag_same s rfl
  | qval e an q av =>
    cases c with
    | none => exact tag_value s _ _ _ _
    | some c =>
      dsimp only
      repeat' split
      all_goals first | exact tag_error rfl | exact tag_same s rfl | exact tag_value s _ _ _ _
  | uval e an av =>
    cases c with
    | none => exact tag_value s _ _ _ _
    | some c =>
      dsimp only
      repeat' split
      all_goals first | exact tag_error rfl | exact tag_same s rfl | exact tag_value s _ _ _ _
  | valSlash e x =>
    dsimp only
    split
    · exact tag_head s _ _
    · exact tag_error rfl
  | ent k acc =>
    rw [hpc] at h
    cases c with
    | none => exact tag_error rfl
    | some c =>
      dsimp only
      split
      · split
        · exact tag_same s (by cases k <;> first | rfl | cases h)
        · exact tag_error rfl
      · split
        · split
          · exact tag_error rfl
          · unfold resume
            cases k with
            | main _ => cases h
            | name _ => cases h
            | comment _ => cases h
            | cdata _ => cases h
            | pi _ => cases h
            | decl _ => cases h
            | close => cases h
            | done _ => cases h
            | ent _ _ => cases h
            | qname e q an =>
              dsimp only
              split
              · exact tag_attrName s _ _ _
              · exact tag_same s rfl
            | aname e an => exact tag_same s rfl
            | qval e an q av => exact tag_same s rfl
            | uval e an av => exact tag_same s rfl
            | _ => exact tag_error rfl
        · exact tag_error rfl

def MainNext (c : Option Nat) (s s' : PS) : Prop :=
  s'.pc = .done none ∨ (c = none ∧ (∃ b, s.pc = .main b) ∧ s' = s.finish) ∨
    ((kindOf s'.pc = .main ∨ s'.pc = .name []) ∧ (Keep s s' ∨ ∃ n, Adds n s s'))

theorem flush_or (s : PS) (b : Bytes) : s.flush b = s ∨ s.flush b = s.addNode (.text b) := by
  unfold PS.flush
  split
  · exact .inl rfl
  · split
    · exact .inr rfl
    · exact .inl rfl

theorem flush_next (s : PS) (b : Bytes) (pc : PC) : Keep s { s.flush b with pc := pc } ∨ ∃ n, Adds n s { s.flush b with pc := pc } := by
  rcases flush_or s b with e | e
  · rw [e]; exact .inl ⟨rfl, rfl⟩
  · rw [e]; exact .inr ⟨_, rfl, rfl⟩

theorem class_main {s : PS} (h : kindOf s.pc = .main) (c : Option Nat) : MainNext c s (step s c) := by
  unfold step
  cases hpc : s.pc with
  | main b =>
    cases c with
    | none => exact .inr (.inl ⟨rfl, ⟨b, hpc⟩, rfl⟩)
    | some c =>
      dsimp only
      split
      · exact .inr (.inr ⟨.inr rfl, flush_next s b _⟩)
      · split
        · refine .inr (.inr ⟨.inl rfl, ?_⟩)
          split
          · exact flush_next s b _
          · exact .inl ⟨rfl, rfl⟩
        · split
          · refine .inr (.inr ⟨.inl rfl, ?_⟩)
            split
            · exact flush_next s b _
            · exact .inl ⟨rfl, rfl⟩
          · refine .inr (.inr ⟨.inl rfl, ?_⟩)
            split
            · exact flush_next s b _
            · exact .inl ⟨rfl, rfl⟩
  | ent k acc =>
    rw [hpc] at h
    cases k with
    | main b =>
      cases c with
      | none => exact .inl rfl
      | some c =>
        dsimp only
        split
        · split
          · exact .inr (.inr ⟨.inl rfl, .inl ⟨rfl, rfl⟩⟩)
          · exact .inl rfl
        · split
          · split
            · exact .inl rfl
            · exact .inr (.inr ⟨.inl rfl, .inl ⟨rfl, rfl⟩⟩)
          · exact .inl rfl
    | _ => cases h
  | _ => rw [hpc] at h; cases h

def OpenNext (c : Option Nat) (s s' : PS) : Prop :=
  s'.pc = .done none ∨ (Keep s s' ∧ kindOf s'.pc = .opening) ∨ (Keep s s' ∧ kindOf s'.pc = .tag ∧ s.secondRoot = false) ∨
    (kindOf s'.pc = .main ∧ ((∃ n, Adds n s s') ∨ (Pushes s s' ∧ s.secondRoot = false))) ∨ (kindOf s'.pc = .main ∧ Pops s s') ∨
    (c = none ∧ ∃ b, s.pc = .name b ∧ b.head? ≠ some 47 ∧ s' = (s.addNode (.elem b [] [])).finish)

theorem open_error {c} {s s' : PS} (h : s'.pc = .done none) : OpenNext c s s' := .inl h
theorem open_same {c} (s : PS) {pc : PC} (h : kindOf pc = .opening) : OpenNext c s { s with pc := pc } := .inr (.inl ⟨⟨rfl, rfl⟩, h⟩)

theorem open_special (c) (s : PS) (b : Bytes) : OpenNext c s (s.addSpecial b) := by
  unfold PS.addSpecial
  split
  · exact open_error rfl
  · exact .inr (.inr (.inr (.inl ⟨rfl, .inl ⟨_, rfl, rfl⟩⟩)))

theorem open_directive (c) (s : PS) (b : Bytes) : OpenNext c s (s.addDirective b) := by
  unfold PS.addDirective
  split
  · exact open_error rfl
  · rename_i h
    split
    · exact .inr (.inr (.inr (.inl ⟨rfl, .inr ⟨⟨⟨(b, []), rfl⟩, rfl⟩, by simpa using h⟩⟩)))
    · exact .inr (.inr (.inr (.inl ⟨rfl, .inl ⟨_, rfl, rfl⟩⟩)))

theorem open_decl (c) (s : PS) (b : Bytes) (d : Option Nat) : OpenNext c s (s.declBody b d) := by
  unfold PS.declBody
  split
  · exact open_same s rfl
  · split
    · exact open_directive c s b
    · split
      · exact open_same s rfl
      · exact open_same s rfl

theorem pop_main {s : PS} (h : s.stack ≠ []) : s.pop.pc = .main [] := by
  unfold PS.pop
  split
  · rename_i e; exact absurd e h
  · rfl
  · rfl

theorem open_pop (c) {s : PS} (h : s.stack ≠ []) : OpenNext c s s.pop :=
  .inr (.inr (.inr (.inr (.inl ⟨by rw [pop_main h]; rfl, rfl, rfl, h⟩))))

theorem open_pop' (c) (s : PS) : OpenNext c s s.pop := by
  by_cases h : s.stack = []
  · refine open_error ?_
    unfold PS.pop; rw [h]; rfl
  · exact open_pop c h

theorem open_close (c) (s : PS) (d : Option Nat) : OpenNext c s (s.closeBody d) := by
  unfold PS.closeBody
  split
  · exact open_pop' c s
  · split
    · exact open_pop' c s
    · exact open_same s rfl

theorem open_name (s : PS) (b : Bytes) (c : Option Nat) (hb : c = none → s.pc = .name b) : OpenNext c s (s.afterName b c) := by
  unfold PS.afterName
  split
  · exact open_same s rfl
  split
  · exact open_same s rfl
  split
  · exact open_same s rfl
  split
  · exact open_decl c s _ _
  split
  · split
    · exact open_error rfl
    · split
      · exact open_close c s _
      · exact open_error rfl
  rename_i h47
  split
  · exact open_error rfl
  rename_i h2
  split
  · exact .inr (.inr (.inr (.inr (.inr ⟨rfl, b, hb rfl, h47, rfl⟩))))
  · have h2' : s.secondRoot = false := by simpa using h2
    split
    · exact .inr (.inr (.inl ⟨⟨rfl, rfl⟩, rfl, h2'⟩))
    · split
      · exact .inr (.inr (.inl ⟨⟨rfl, rfl⟩, rfl, h2'⟩))
      · unfold PS.afterHead
        split
        · exact .inr (.inr (.inr (.inl ⟨rfl, .inl ⟨_, rfl, rfl⟩⟩)))
        · exact .inr (.inr (.inr (.inl ⟨rfl, .inr ⟨⟨⟨(b, []), rfl⟩, rfl⟩, h2'⟩⟩)))

theorem class_open {s : PS} (h : kindOf s.pc = .opening) (c : Option Nat) : OpenNext c s (step s c) := by
  unfold step
  cases hpc : s.pc with
  | name b =>
    cases c with
    | none => exact open_name s b none fun _ => hpc
    | some c =>
      dsimp only
      split
      · exact open_name s b (some c) (fun e => nomatch e)
      split
      · exact open_error rfl
      split
      · exact open_same s rfl
      split
      · exact open_error rfl
      split
      · exact open_name s _ (some c) (fun e => nomatch e)
      · exact open_same s rfl
  | comment b =>
    cases c with
    | none => exact open_error rfl
    | some c =>
      dsimp only
      split
      · exact open_special _ s b
      · exact open_same s rfl
  | cdata b =>
    cases c with
    | none => exact open_error rfl
    | some c =>
      dsimp only
      split
      · exact open_special _ s b
      · exact open_same s rfl
  | pi b =>
    cases c with
    | none => exact open_error rfl
    | some c =>
      dsimp only
      split
      · exact open_directive _ s b
      · exact open_same s rfl
  | decl b =>
    cases c with
    | none => exact open_error rfl
    | some c => exact open_decl _ s b _
  | close => exact open_close _ s c
  | ent k acc =>
    rw [hpc] at h
    cases c with
    | none => exact open_error rfl
    | some c =>
      dsimp only
      split
      · split
        · exact open_same s (by cases k <;> first | rfl | cases h)
        · exact open_error rfl
      · split
        · split
          · exact open_error rfl
          · cases k with
            | name b => exact open_same s rfl
            | decl b => exact open_same s rfl
            | comment _ => exact open_error rfl
            | cdata _ => exact open_error rfl
            | pi _ => exact open_error rfl
            | close => exact open_error rfl
            | done _ => exact open_error rfl
            | ent _ _ => exact open_error rfl
            | _ => cases h
        · exact open_error rfl
  | _ => rw [hpc] at h; cases h


/-! ### The children of the declaration -/

/-- The children of the declaration `D` so far. -/
def Kids (D : Bytes) (s : PS) (ks : List Node) : Prop :=
  s.stack.getLast? = some ⟨D, [], ks.reverse⟩ ∨ (s.stack = [] ∧ s.root = some (.elem D [] ks))

theorem kids_keep {D s s' ks} (h : Kids D s ks) (hs : Keep s s') : Kids D s' ks := by
  unfold Kids; rw [hs.1, hs.2]; exact h

theorem kids_adds {D n s s' ks} (h : Kids D s ks) (hs : Adds n s s') : s'.stack.length = s.stack.length ∧
    ∃ ks', Kids D s' ks' ∧ (s.stack.length = 1 → ks' = ks ++ [n]) ∧ (s.stack.length ≠ 1 → ks' = ks) := by
  obtain ⟨h1, h2⟩ := hs
  unfold PS.addNode at h1 h2
  rcases h with h | ⟨h, hr⟩
  · cases hst : s.stack with
    | nil => rw [hst] at h; cases h
    | cons f fs =>
      rw [hst] at h1 h2 h
      dsimp only at h1 h2
      refine ⟨by rw [h1]; simp, ?_⟩
      cases fs with
      | nil =>
        simp at h
        refine ⟨ks ++ [n], .inl ?_, fun _ => rfl, fun e => absurd rfl e⟩
        rw [h1, h]; simp
      | cons g gs =>
        refine ⟨ks, .inl ?_, fun e => by simp at e, fun _ => rfl⟩
        rw [h1]
        simpa using h
  · rw [h] at h1 h2
    dsimp only at h1 h2
    rw [hr] at h1 h2
    refine ⟨by rw [h1, h], ks, .inr ⟨by rw [h1, h], by rw [h2, hr]⟩, (fun e => by rw [h] at e; cases e), fun _ => rfl⟩

theorem kids_push {D s s' ks} (h : Kids D s ks) (hne : s.stack ≠ []) (hs : Pushes s s') :
    s'.stack.length = s.stack.length + 1 ∧ Kids D s' ks := by
  obtain ⟨⟨e, h1⟩, h2⟩ := hs
  refine ⟨by rw [h1]; simp, ?_⟩
  rcases h with h | ⟨h, _⟩
  · refine .inl ?_
    rw [h1]
    cases hst : s.stack with
    | nil => exact absurd hst hne
    | cons f fs => rw [hst] at h; simpa using h
  · exact absurd h hne

theorem kids_pop {D s s' ks} (h : Kids D s ks) (hs : Pops s s') : s'.stack.length + 1 = s.stack.length ∧
    (s.stack.length ≠ 2 → Kids D s' ks) ∧ (∀ f fs, s.stack = f :: fs → fs.length = 1 → Kids D s' (ks ++ [f.node])) := by
  obtain ⟨h1, h2, h3⟩ := hs
  unfold PS.pop at h1 h2
  rcases h with h | ⟨h, _⟩
  · cases hst : s.stack with
    | nil => exact absurd hst h3
    | cons f fs =>
      rw [hst] at h1 h2 h
      cases fs with
      | nil =>
        dsimp only at h1 h2
        simp at h
        refine ⟨by rw [h1]; rfl, fun _ => .inr ⟨h1, ?_⟩, ?_⟩
        · rw [h2, h]; simp [Frame.node]
        · intro f' fs' e1 e2; injection e1 with _ e1; subst e1; cases e2
      | cons g gs =>
        dsimp only at h1 h2
        refine ⟨by rw [h1]; simp, ?_, ?_⟩
        · intro hl
          cases gs with
          | nil => exact absurd rfl hl
          | cons x xs => refine .inl ?_; rw [h1]; simpa using h
        · intro f' fs' e1 e2
          injection e1 with e0 e1
          subst e0; subst e1
          cases gs with
          | cons x xs => simp at e2
          | nil =>
            simp at h
            refine .inl ?_
            rw [h1, h]; simp
  · exact absurd h h3

theorem kids_finish {D s ks} (h : Kids D s ks) : s.finish.pc = .done none ∨
    (s.stack.length ≤ 1 ∧ s.finish.pc = .done (some (.elem D [] ks))) := by
  unfold PS.finish
  rcases h with h | ⟨h, hr⟩
  · split
    · rename_i e; rw [e] at h; cases h
    · rename_i f e
      rw [e] at h
      simp at h
      exact .inr ⟨by rw [e]; simp, by rw [h]; simp [Frame.node]⟩
    · exact .inl rfl
  · rw [h]
    exact .inr ⟨by simp, by dsimp only; rw [hr]⟩

structure Grown (D : Bytes) (s : PS) (ks : List Node) : Prop where
  done : ∀ n, s.pc = .done (some n) → n = .elem D [] ks
  live : kindOf s.pc ≠ .done → Kids D s ks
  tag : s.stack = [] → kindOf s.pc ≠ .tag

theorem grown_of {D s ks} (h : Kids D s ks) (hd : kindOf s.pc ≠ .done) (ht : s.stack = [] → kindOf s.pc ≠ .tag) : Grown D s ks :=
  ⟨fun n e => by rw [e] at hd; exact absurd rfl hd, fun _ => h, ht⟩

theorem grown_dead {D s} (ks) (h : s.pc = .done none) : Grown D s ks :=
  ⟨(fun n e => by rw [h] at e; cases e), (fun e => by rw [h] at e; exact absurd rfl e), (fun _ e => by rw [h] at e; cases e)⟩

theorem grown_end {D s ks} (h : s.pc = .done (some (.elem D [] ks))) : Grown D s ks :=
  ⟨(fun n e => by rw [h] at e; cases e; rfl), (fun e => by rw [h] at e; exact absurd rfl e), (fun _ e => by rw [h] at e; cases e)⟩

theorem second_nil {D s ks} (h : Kids D s ks) (hs : s.secondRoot = false) : s.stack ≠ [] := by
  intro e
  rcases h with h | ⟨_, hr⟩
  · rw [e] at h; cases h
  · unfold PS.secondRoot at hs
    rw [e, hr] at hs
    cases hs

/-- What one step does to the children of the declaration. -/
theorem grown_step {D s ks} (h : Grown D s ks) (c : Option Nat) : ∃ ks', ks <+: ks' ∧ Grown D (step s c) ks' := by
  cases hk : kindOf s.pc with
  | done =>
    have hp := class_done hk c
    refine ⟨ks, List.prefix_refl _, fun n e => h.done n (hp ▸ e), fun e => ?_, fun _ e => ?_⟩
    · rw [hp] at e; exact absurd hk e
    · rw [hp, hk] at e; cases e
  | tag =>
    have hl := h.live (by rw [hk]; simp)
    have hne : s.stack ≠ [] := fun e => h.tag e hk
    rcases class_tag hk c with h1 | ⟨h1, h2⟩ | ⟨h1, ⟨n, h2⟩ | h2⟩
    · exact ⟨ks, List.prefix_refl _, grown_dead _ h1⟩
    · exact ⟨ks, List.prefix_refl _, grown_of (kids_keep hl h1) (by rw [h2]; simp) (fun e => absurd (h1.1 ▸ e) hne)⟩
    · obtain ⟨_, ks', h3, h4, h5⟩ := kids_adds hl h2
      refine ⟨ks', ?_, grown_of h3 (by rw [h1]; simp) (by rw [h1]; simp)⟩
      by_cases e : s.stack.length = 1
      · rw [h4 e]; exact List.prefix_append _ _
      · rw [h5 e]; exact List.prefix_refl _
    · exact ⟨ks, List.prefix_refl _, grown_of (kids_push hl hne h2).2 (by rw [h1]; simp) (by rw [h1]; simp)⟩
  | main =>
    have hl := h.live (by rw [hk]; simp)
    rcases class_main hk c with h1 | ⟨rfl, _, h1⟩ | ⟨h1, h2⟩
    · exact ⟨ks, List.prefix_refl _, grown_dead _ h1⟩
    · rw [h1]
      refine ⟨ks, List.prefix_refl _, ?_⟩
      rcases kids_finish hl with h2 | ⟨_, h2⟩
      · exact grown_dead _ h2
      · exact grown_end h2
    · have hk' : kindOf (step s c).pc ≠ .done ∧ kindOf (step s c).pc ≠ .tag := by
        rcases h1 with h1 | h1
        · rw [h1]; simp
        · rw [h1]; simp [kindOf]
      rcases h2 with h2 | ⟨n, h2⟩
      · exact ⟨ks, List.prefix_refl _, grown_of (kids_keep hl h2) hk'.1 fun _ => hk'.2⟩
      · obtain ⟨_, ks', h3, h4, h5⟩ := kids_adds hl h2
        refine ⟨ks', ?_, grown_of h3 hk'.1 fun _ => hk'.2⟩
        by_cases e : s.stack.length = 1
        · rw [h4 e]; exact List.prefix_append _ _
        · rw [h5 e]; exact List.prefix_refl _
  | opening =>
    have hl := h.live (by rw [hk]; simp)
    rcases class_open hk c with h1 | ⟨h1, h2⟩ | ⟨h1, h2, h3⟩ | ⟨h1, ⟨n, h2⟩ | ⟨h2, h3⟩⟩ | ⟨h1, h2⟩ | ⟨rfl, b, hb, h2, h1⟩
    · exact ⟨ks, List.prefix_refl _, grown_dead _ h1⟩
    · exact ⟨ks, List.prefix_refl _, grown_of (kids_keep hl h1) (by rw [h2]; simp) (by rw [h2]; simp)⟩
    · exact ⟨ks, List.prefix_refl _, grown_of (kids_keep hl h1) (by rw [h2]; simp) (fun e => absurd (h1.1 ▸ e) (second_nil hl h3))⟩
    · obtain ⟨_, ks', h3, h4, h5⟩ := kids_adds hl h2
      refine ⟨ks', ?_, grown_of h3 (by rw [h1]; simp) (by rw [h1]; simp)⟩
      by_cases e : s.stack.length = 1
      · rw [h4 e]; exact List.prefix_append _ _
      · rw [h5 e]; exact List.prefix_refl _
    · exact ⟨ks, List.prefix_refl _, grown_of (kids_push hl (second_nil hl h3) h2).2 (by rw [h1]; simp) (by rw [h1]; simp)⟩
    · obtain ⟨_, h3, h4⟩ := kids_pop hl h2
      by_cases e : s.stack.length = 2
      · cases hst : s.stack with
        | nil => rw [hst] at e; cases e
        | cons f fs =>
          exact ⟨_, List.prefix_append _ _, grown_of (h4 f fs hst (by rw [hst] at e; simpa using e)) (by rw [h1]; simp) (by rw [h1]; simp)⟩
      · exact ⟨ks, List.prefix_refl _, grown_of (h3 e) (by rw [h1]; simp) (by rw [h1]; simp)⟩
    · rw [h1]
      obtain ⟨_, ks', h3, h4, h5⟩ := kids_adds (s' := s.addNode (.elem b [] [])) hl ⟨rfl, rfl⟩
      refine ⟨ks', ?_, ?_⟩
      · by_cases e : s.stack.length = 1
        · rw [h4 e]; exact List.prefix_append _ _
        · rw [h5 e]; exact List.prefix_refl _
      · rcases kids_finish h3 with h2 | ⟨_, h2⟩
        · exact grown_dead _ h2
        · exact grown_end h2

theorem grown_run {D s ks} (h : Grown D s ks) (l : List (Option Nat)) : ∃ ks', ks <+: ks' ∧ Grown D (run s l) ks' := by
  induction l generalizing s ks with
  | nil => exact ⟨ks, List.prefix_refl _, h⟩
  | cons c l ih =>
    obtain ⟨k1, h1, h2⟩ := grown_step h c
    obtain ⟨k2, h3, h4⟩ := ih h2
    exact ⟨k2, h1.trans h3, h4⟩

/-- The tree read has the children read so far, and maybe more. -/
theorem grown_eofs {D s ks v} (h : Grown D s ks) (hv : eofs s = some v) : ∃ ks', ks <+: ks' ∧ v = .elem D [] ks' := by
  obtain ⟨ks', h1, h2⟩ := grown_run h [none, none, none]
  refine ⟨ks', h1, ?_⟩
  unfold eofs PS.result at hv
  split at hv
  · rename_i r e; subst hv; exact h2.done v e
  · cases hv

end Afs.Xml
