import Verif.Proof.ParseOom3
/-!
# The reader when memory is refused: the end of the text, and refusals that are noticed
-/
namespace Afs.ParseMem
open Afs Afs.Xml Afs.Links Afs.Spec

/-! ### The end of the text -/

/-- Where a piece of code goes to. -/
def Goes (Q : MPC → Prop) (r : Res MS) : Prop := ∀ m, r = .ok m → Q m.pc

theorem Goes.bind {α : Type} {Q : MPC → Prop} {r : Res α} {k : α → Res MS} (h : ∀ x, r = .ok x → Goes Q (k x)) : Goes Q (r >>= k) := by
  cases r with
  | ub => intro m e; cases e
  | ok x => exact h x rfl

theorem Goes.ite {Q : MPC → Prop} {p : Prop} [Decidable p] {a b : Res MS} (h1 : Goes Q a) (h2 : Goes Q b) : Goes Q (if p then a else b) := by
  split <;> assumption

theorem Goes.go {Q : MPC → Prop} {k : MPC} (h : Q k) (s : MS) : Goes Q (s.go k) := by
  intro m e
  cases e
  exact h

theorem Goes.again {Q : MPC → Prop} (h : Q .main) (s : MS) : Goes Q s.again := Goes.bind fun s _ => .go h s

theorem Goes.attrError {Q : MPC → Prop} (h : Q (.fail none)) (s : MS) : Goes Q s.attrError := Goes.bind fun s _ => .go h s

theorem Goes.afterHead {Q : MPC → Prop} (h : Q .main) (s : MS) (n c : Nat) : Goes Q (s.afterHead n c) := Goes.ite (.again h _) (.again h _)

theorem Goes.attrEnd {Q : MPC → Prop} (h : Q .main) (s : MS) (n c : Nat) : Goes Q (s.attrEnd n c) := Goes.bind fun s _ => .afterHead h s n c

theorem Goes.addBuf {Q : MPC → Prop} {no : Refusals} {f : CBuf → Res CBuf} {k : MPC} (h1 : Q (.fail none)) (h2 : Q k) (s : MS) :
    Goes Q (s.addBuf no f (·.go k)) :=
  Goes.bind fun _ _ => Goes.ite (.go h1 _) (Goes.bind fun s _ => .go h2 s)

/-- How many more calls of `getc` there can be, when they answer `EOF`. -/
def rank : MPC → Nat
  | .eof => 0
  | .fail _ => 0
  | .name => 2
  | .close => 2
  | .slash _ => 2
  | .attrSlash _ _ => 2
  | .qval _ _ => 2
  | .uval _ => 2
  | .valSlash _ _ => 2
  | _ => 1

local macro "rk" : tactic => `(tactic| first | exact Nat.zero_le _ | exact Nat.le_refl _)

theorem eof_goes (A : Heap → Nat) (no : Refusals) (m : MS) : Goes (fun k => rank k ≤ rank m.pc - 1) (m.stepNo A no none) := by
  obtain ⟨pc, h, p, f, o, b, a, v⟩ := m
  unfold MS.stepNo
  cases pc with
  | main => exact .go (by rk) _
  | name =>
    refine Goes.bind fun s _ => Goes.bind fun b _ => Goes.bind fun t _ => Goes.bind fun c0 _ => ?_
    refine Goes.ite (.go (by rk) _) (Goes.ite (.go (by rk) _) (Goes.ite (.go (by rk) _) (Goes.ite (.addBuf (by rk) (by rk) _)
      (Goes.ite (Goes.ite (.go (by rk) _) ?_) (Goes.ite (.go (by rk) _) ?_)))))
    · exact Goes.bind fun c _ => Goes.ite (Goes.bind fun c _ => .again (by rk) _) (.go (by rk) _)
    · exact Goes.ite (.go (by rk) _) (Goes.bind fun r _ => .go (by rk) _)
  | comment => exact .go (by rk) _
  | cdata => exact .go (by rk) _
  | pi => exact .go (by rk) _
  | decl => exact .go (by rk) _
  | close => exact Goes.bind fun c _ => .again (by rk) _
  | slash n =>
    have : Goes (fun k => rank k ≤ 1) (MS.step A ⟨.slash n, h, p, f, o, b, a, v⟩ none) := by
      unfold MS.step
      dsimp only
      split
      · exact .afterHead (by rk) _ _ _
      · exact .go (by rk) _
    exact this
  | attr n => exact .attrError (by rk) _
  | attrSlash n c =>
    have : Goes (fun k => rank k ≤ 1) (MS.step A ⟨.attrSlash n c, h, p, f, o, b, a, v⟩ none) := by
      unfold MS.step
      dsimp only
      split
      · exact .attrEnd (by rk) _ _ _
      · exact .attrError (by rk) _
    exact this
  | qname n q =>
    exact Goes.bind fun s _ => Goes.bind fun b _ => Goes.bind fun t _ => Goes.bind fun f _ => Goes.ite (.attrError (by rk) _) (.attrError (by rk) _)
  | aname n =>
    exact Goes.bind fun s _ => Goes.bind fun b _ => Goes.bind fun t _ => Goes.bind fun f _ => Goes.ite (.attrError (by rk) _) (.attrError (by rk) _)
  | aeq n => exact .attrError (by rk) _
  | vskip n => exact .attrError (by rk) _
  | qval n q =>
    have : Goes (fun k => rank k ≤ 1) (MS.afterValueNo no ⟨.qval n q, h, p, f, o, b, a, v⟩ n none) := by
      unfold MS.afterValueNo
      refine Goes.bind fun s _ => Goes.bind fun b _ => Goes.bind fun t _ => Goes.bind fun f _ => Goes.bind fun av _ => ?_
      dsimp only
      split
      · exact Goes.bind fun s _ => .go (by rk) _
      · exact Goes.bind fun s _ => .go (by rk) _
    exact this
  | uval n =>
    have : Goes (fun k => rank k ≤ 1) (MS.afterValueNo no ⟨.uval n, h, p, f, o, b, a, v⟩ n none) := by
      unfold MS.afterValueNo
      refine Goes.bind fun s _ => Goes.bind fun b _ => Goes.bind fun t _ => Goes.bind fun f _ => Goes.bind fun av _ => ?_
      dsimp only
      split
      · exact Goes.bind fun s _ => .go (by rk) _
      · exact Goes.bind fun s _ => .go (by rk) _
    exact this
  | valSlash n c =>
    have : Goes (fun k => rank k ≤ 1) (MS.step A ⟨.valSlash n c, h, p, f, o, b, a, v⟩ none) := by
      unfold MS.step
      dsimp only
      split
      · exact .attrEnd (by rk) _ _ _
      · exact .attrError (by rk) _
    exact this
  | ent k e =>
    refine Goes.bind fun e _ => ?_
    unfold MS.entError
    split
    · exact .go (by rk) _
    · exact .go (by rk) _
    · exact .go (by rk) _
    · exact .attrError (by rk) _
  | eof => intro m e; cases e; exact Nat.le_refl _
  | fail d => intro m e; cases e; exact Nat.le_refl _

theorem rank_le (k : MPC) : rank k ≤ 2 := by cases k <;> simp [rank]

/-- After `EOF` twice the function is left. -/
theorem eof_ends (A : Heap → Nat) {m m' : MS} {l : List (Option Nat × Refusals)} (hl : ∀ c ∈ l, c.1 = none) (h2 : 2 ≤ l.length)
    (h : m.runNo A l = .ok m') : rank m'.pc = 0 := by
  have aux : ∀ (l : List (Option Nat × Refusals)) (m m' : MS), (∀ c ∈ l, c.1 = none) → m.runNo A l = .ok m' → rank m'.pc ≤ rank m.pc - l.length := by
    intro l
    induction l with
    | nil => intro m m' _ e; cases e; exact Nat.le_refl _
    | cons c l ih =>
      intro m m' hl e
      rw [MS.runNo] at e
      cases hs : m.stepNo A c.2 c.1 with
      | ub => rw [hs] at e; cases e
      | ok m1 =>
        rw [hs, Res.ok_bind] at e
        have h1 := ih m1 m' (fun d hd => hl d (by simp [hd])) e
        rw [hl c (by simp)] at hs
        have h2 : rank m1.pc ≤ rank m.pc - 1 := eof_goes A c.2 m m1 hs
        simp only [List.length_cons]
        omega
  have := aux l m m' hl h
  have := rank_le m.pc
  omega

/-! ### Refusals that are noticed -/

/-- Only a node or one of the two buffers of the attributes is refused. -/
def Kinds (no : Refusals) : Prop := no .grow = false ∧ no .attr = false

/-- Either nothing was asked for that is refused, or the outcome is in `Q`. -/
def Ez (Q : MPC → Prop) (r r' : Res MS) : Prop := r = r' ∨ ∃ m, r = .ok m ∧ Q m.pc

theorem Ez.refl {Q : MPC → Prop} (r : Res MS) : Ez Q r r := .inl rfl

theorem Ez.bind {α : Type} {Q : MPC → Prop} {r : Res α} {k k' : α → Res MS} (h : ∀ x, r = .ok x → Ez Q (k x) (k' x)) : Ez Q (r >>= k) (r >>= k') := by
  cases r with
  | ub => exact .inl rfl
  | ok x => exact h x rfl

theorem Ez.ite {Q : MPC → Prop} {p : Prop} [Decidable p] {a a' b b' : Res MS} (h1 : Ez Q a a') (h2 : Ez Q b b') :
    Ez Q (if p then a else b) (if p then a' else b') := by split <;> assumption

theorem Ez.go {Q : MPC → Prop} {k : MPC} (h : Q k) (s : MS) (r : Res MS) : Ez Q (s.go k) r := .inr ⟨_, rfl, h⟩

section
variable {A : Heap → Nat} {no : Refusals}

/-- The error exit. -/
def Fails (k : MPC) : Prop := k = .fail none

theorem flush_ez (s : MS) {k k' : MS → Res MS} (hk : ∀ s, k s = k' s) : Ez Fails (s.flushNo A no k) (s.flush A >>= k') := by
  rw [← funext hk]
  cases hn : no .node with
  | false => exact .inl (flush_granted hn s k)
  | true =>
    unfold MS.flushNo MS.flush
    cases s.buf with
    | none => exact .inl rfl
    | some b =>
      show Ez Fails (if b.ptr = 0 then k s else _) ((if b.ptr = 0 then Res.ok s else _) >>= k)
      split
      · exact .inl rfl
      · simp only [Res.bind_assoc']
        refine Ez.bind fun b _ => Ez.bind fun _ _ => ?_
        split
        · simp only [Res.bind_assoc']
          refine Ez.bind fun t _ => ?_
          exact .inr ⟨_, rfl, rfl⟩
        · exact .inl rfl

theorem addSpecial_ez (s : MS) : Ez (fun k => k = .eof) (s.addSpecialNo A no true) (s.addSpecial A) ∧ Ez Fails (s.addSpecialNo A no false) (s.addSpecial A) := by
  unfold MS.addSpecialNo MS.addSpecial
  refine ⟨Ez.bind fun s _ => Ez.ite (.refl _) (Ez.bind fun b _ => Ez.bind fun t _ => ?_), Ez.bind fun s _ => Ez.ite (.refl _) (Ez.bind fun b _ => Ez.bind fun t _ => ?_)⟩
  · split
    · exact .inr ⟨_, rfl, rfl⟩
    · exact .refl _
  · split
    · exact .inr ⟨_, rfl, rfl⟩
    · exact .refl _

theorem addDirective_ez (s : MS) : Ez Fails (s.addDirectiveNo A no) (s.addDirective A) := by
  unfold MS.addDirectiveNo MS.addDirective
  refine Ez.bind fun s _ => Ez.ite (.refl _) (Ez.bind fun b _ => Ez.bind fun t _ => ?_)
  split
  · exact .inr ⟨_, rfl, rfl⟩
  · exact .refl _

theorem declBody_ez (hg : no .grow = false) (s : MS) (ch : Option Nat) : Ez Fails (s.declBodyNo A no ch) (s.declBody A ch) := by
  unfold MS.declBodyNo MS.declBody
  cases ch with
  | none => exact .inl (addBuf_granted hg _ _ _)
  | some c => exact Ez.ite (addDirective_ez s) (Ez.ite (.refl _) (.inl (addBuf_granted hg _ _ _)))

theorem element_ez (s : MS) (t : Bytes) (ch : Option Nat) : Ez Fails (s.elementNo A no t ch) (s.element A t ch) := by
  unfold MS.elementNo MS.element
  split
  · exact .inr ⟨_, rfl, rfl⟩
  · refine Ez.bind fun r _ => ?_
    cases ch with
    | none => exact .refl _
    | some c =>
      refine Ez.ite ?_ (.refl _)
      split
      · exact .inr ⟨_, rfl, rfl⟩
      · exact .refl _

theorem afterName_ez (hg : no .grow = false) (s : MS) (ch : Option Nat) : Ez Fails (s.afterNameNo A no ch) (s.afterName A ch) := by
  unfold MS.afterNameNo MS.afterName
  refine Ez.bind fun s _ => Ez.bind fun b _ => Ez.bind fun t _ => Ez.bind fun c0 _ => ?_
  exact Ez.ite (.refl _) (Ez.ite (.refl _) (Ez.ite (.refl _) (Ez.ite (declBody_ez hg s ch) (Ez.ite (.refl _) (Ez.ite (.refl _) (element_ez s t ch))))))

theorem nameChar_ez (hg : no .grow = false) (s : MS) (c : Nat) : Ez Fails (s.nameCharNo A no c) (s.nameChar A c) := by
  unfold MS.nameCharNo MS.nameChar
  rw [addBuf_granted hg]
  exact Ez.bind fun s _ => Ez.bind fun b _ => Ez.bind fun st _ => Ez.ite (afterName_ez hg s _) (.refl _)

theorem mainChar_ez (hg : no .grow = false) (s : MS) (c : Nat) : Ez Fails (s.mainCharNo A no c) (s.mainChar A c) := by
  unfold MS.mainCharNo MS.mainChar
  have ht : ∀ s : MS, s.mainTailNo no c = (if c = 38 then s.go (.ent .main .alloc)
      else if s.opq || !isSpace c then s.onBuf (·.add c) >>= (·.go .main) else s.go .main) := by
    intro s
    unfold MS.mainTailNo
    rw [addBuf_granted hg]
  split
  · exact flush_ez s ht
  · exact .inl (ht s)

/-- A refused node or buffer leads to the error exit, except for the node of a comment, which ends the main loop. -/
theorem step_ez (hk : Kinds no) (m : MS) (ch : Option Nat) :
    m.stepNo A no ch = m.step A ch ∨ ∃ m', m.stepNo A no ch = .ok m' ∧ (m'.pc = .fail none ∨ m.pc = .comment ∧ m'.pc = .eof) := by
  obtain ⟨hg, ha⟩ := hk
  have fin : ∀ {r r' : Res MS}, Ez Fails r r' → r = r' ∨ ∃ m', r = .ok m' ∧ (m'.pc = .fail none ∨ m.pc = .comment ∧ m'.pc = .eof) := by
    intro r r' h
    rcases h with h | ⟨m', h, q⟩
    · exact .inl h
    · exact .inr ⟨m', h, .inl q⟩
  have hv : ∀ (s : MS) n ch, s.afterValueNo no n ch = s.afterValue n ch := by
    intro s n ch
    unfold MS.afterValueNo
    rw [ha]
    rfl
  obtain ⟨pc, h, p, f, o, b, a, v⟩ := m
  unfold MS.stepNo MS.step
  cases pc with
  | main =>
    cases ch with
    | none => exact .inl rfl
    | some c => exact fin (Ez.ite (flush_ez _ fun _ => rfl) (mainChar_ez hg _ c))
  | name =>
    cases ch with
    | none => exact fin (afterName_ez hg _ _)
    | some c => exact fin (Ez.bind fun b _ => Ez.ite (afterName_ez hg _ _) (Ez.ite (.refl _) (Ez.ite (.refl _) (Ez.ite (.refl _) (nameChar_ez hg _ c)))))
  | comment =>
    cases ch with
    | none => exact .inl rfl
    | some c =>
      have : Ez (fun k => k = .eof) (MS.stepNo A no ⟨.comment, h, p, f, o, b, a, v⟩ (some c)) (MS.step A ⟨.comment, h, p, f, o, b, a, v⟩ (some c)) :=
        Ez.bind fun b _ => Ez.bind fun e _ => Ez.ite (addSpecial_ez _).1 (.inl (addBuf_granted hg _ _ _))
      rcases this with e | ⟨m', e, q⟩
      · exact .inl e
      · exact .inr ⟨m', e, .inr ⟨rfl, q⟩⟩
  | cdata =>
    cases ch with
    | none => exact .inl rfl
    | some c => exact fin (Ez.bind fun b _ => Ez.bind fun e _ => Ez.ite (addSpecial_ez _).2 (.inl (addBuf_granted hg _ _ _)))
  | pi =>
    cases ch with
    | none => exact .inl rfl
    | some c => exact fin (Ez.bind fun b _ => Ez.bind fun e _ => Ez.ite (addDirective_ez _) (.inl (addBuf_granted hg _ _ _)))
  | decl =>
    cases ch with
    | none => exact .inl rfl
    | some c => exact fin (declBody_ez hg _ _)
  | qname n q => cases ch with
    | none => exact .inl rfl
    | some c => left; dsimp only; simp only [addName_granted hg]
  | aname n => cases ch with
    | none => exact .inl rfl
    | some c => left; dsimp only; simp only [addName_granted hg]
  | qval n q => cases ch with
    | none => exact .inl (hv _ _ _)
    | some c => left; dsimp only; simp only [addValue_granted hg, hv]
  | uval n => cases ch with
    | none => exact .inl (hv _ _ _)
    | some c => left; dsimp only; simp only [addValue_granted hg, hv]
  | ent k e => exact .inl (entity_granted hg _ k e ch)
  | close => exact .inl rfl
  | slash n => exact .inl rfl
  | attr n => left; cases ch <;> rfl
  | attrSlash n c => exact .inl rfl
  | aeq n => left; cases ch <;> rfl
  | vskip n => left; cases ch <;> rfl
  | valSlash n c => exact .inl rfl
  | eof => exact .inl rfl
  | fail d => exact .inl rfl

theorem run_fail (l : List (Option Nat × Refusals)) (m : MS) (h : m.pc = .fail none) : m.runNo A l = .ok m := by
  induction l with
  | nil => rfl
  | cons c l ih =>
    have : m.stepNo A c.2 c.1 = .ok m := by
      obtain ⟨pc, h', p, f, o, b, a, v⟩ := m
      cases h
      rfl
    rw [MS.runNo, this, Res.ok_bind, ih]

end

end Afs.ParseMem
