import Verif.Proof.ParseOom2
/-!
# The reader when memory is refused: runs
-/
namespace Afs.ParseMem
open Afs Afs.Xml Afs.Links Afs.Spec

section
variable {h0 : Heap} {kids0 : Nat → List Nat} {N : Nat} {A : Heap → Nat} {no : Refusals}

theorem mainTail_safe (hg : no .grow = false) {h : Heap} {p f : Option Nat} {o : Bool}
    {b : CBuf} {st : List Frame} {root : Option Node} {s : Bytes}
    (hb : Rep b s N) (hz : (0 : UInt8) ∉ s) (C : Core True h0 kids0 h p f st root none none) (hN : N + 1100 ≤ 2147483647)
    (c : Nat) (hc : c ≠ 0) :
    Safe h0 kids0 (N + 4) (MS.mainTailNo no ⟨.main, h, p, f, o, some b, none, none⟩ c) := by
  have hm : N ≤ N + 4 := by omega
  unfold MS.mainTailNo
  split
  · exact ⟨_, next_ok (.run (.ent (.main (hb.mono hm) hz) trivial ent_alloc (by simp)) C)⟩
  · split
    · rw [addBuf_granted hg]
      obtain ⟨b', e, hb'⟩ := rep_add c hb hN
      simp only [MS.onBuf, live, Res.ok_bind, e]
      exact ⟨_, next_ok (.run (.main hb' (nz_add hz hc)) C)⟩
    · exact ⟨_, next_ok (.run (.main (hb.mono hm) hz) C)⟩

theorem mainChar_safe (hA : ∀ h kids, Linked h kids → h (A h) = none) (hg : no .grow = false) {h : Heap} {p f : Option Nat} {o : Bool}
    {b : CBuf} {st : List Frame} {root : Option Node} {s : Bytes}
    (hb : Rep b s N) (hz : (0 : UInt8) ∉ s) (C : Core True h0 kids0 h p f st root none none) (hN : N + 1100 ≤ 2147483647)
    (c : Nat) (hc : c ≠ 0) :
    Safe h0 kids0 (N + 4) (MS.mainCharNo A no ⟨.main, h, p, f, o, some b, none, none⟩ c) := by
  unfold MS.mainCharNo
  split
  · rename_i e
    have ho : o = false := by
      cases o with
      | false => rfl
      | true => simp at e
    refine flush_safe hA hb hz C fun h' f' b' lk st' root' hb' C' hl => ?_
    rw [hl ho] at C'
    exact mainTail_safe hg hb' (by simp) C' hN c hc
  · exact mainTail_safe hg hb hz C hN c hc

/-- One character, growths granted. -/
theorem step_safe (hA : ∀ h kids, Linked h kids → h (A h) = none) (hg : no .grow = false) (hN : N + 1104 ≤ 2147483647) (hN1 : 1 ≤ N)
    {m : MS} {s : PS} (S : Sim True h0 kids0 N m s) (ch : Option Nat) (hch : ch ≠ some 0) :
    Safe h0 kids0 (N + 8) (m.stepNo A no ch) := by
  have hm : N + 4 ≤ N + 8 := by omega
  have key : Safe h0 kids0 (N + 8) (m.step A ch) := Safe.mono hm ⟨_, step_next hA (by omega) hN1 S ch (fun _ => trivial) hch⟩
  cases S with
  | eof C => exact key
  | close => exact key
  | fail => exact key
  | @run pc h p f o b a v ppc st root hd lk R C =>
    cases R with
    | @main b s h1 h2 =>
      cases ch with
      | none => exact key
      | some c =>
        have hc : c ≠ 0 := fun e => hch (by rw [e])
        unfold MS.stepNo
        dsimp only
        split
        · refine flush_safe hA h1 h2 C fun h' f' b' lk st' root' hb' C' _ => ?_
          simp only [Res.ok_bind, MS.onBuf, live]
          exact ⟨_, next_ok (.run (.name (rep_reset (hb'.toAny.mono (by omega))) (by simp)) C')⟩
        · exact (mainChar_safe hA hg h1 h2 C (by omega) c hc).mono hm
    | @name b s _ h1 h2 =>
      cases ch with
      | none => exact (afterName_safe hA hg h1 h2 C none hch (by omega)).mono hm
      | some c =>
        have hc : c ≠ 0 := fun e => hch (by rw [e])
        unfold MS.stepNo
        unfold MS.step at key
        simp only [live, Res.ok_bind] at key ⊢
        split
        · exact (afterName_safe hA hg h1 h2 C _ hch (by omega)).mono hm
        · rename_i e1
          rw [if_neg e1] at key
          split
          · rename_i e2; rw [if_pos e2] at key; exact key
          · rename_i e2
            rw [if_neg e2] at key
            split
            · rename_i e3; rw [if_pos e3] at key; exact key
            · rename_i e3
              rw [if_neg e3] at key
              split
              · rename_i e4; rw [if_pos e4] at key; exact key
              · exact nameChar_safe hA hg h1 h2 C hN c hc
    | @comment b s _ h1 h2 =>
      cases ch with
      | none => exact key
      | some c =>
        unfold MS.stepNo
        unfold MS.step at key
        simp only [live, Res.ok_bind] at key ⊢
        rw [commentEnd_eq h1, Res.ok_bind] at key ⊢
        split
        · exact (addSpecial_safe hA true h1 h2 C).mono (by omega)
        · rename_i e; rw [if_neg e] at key; rw [addBuf_granted hg]; exact key
    | @cdata b s _ h1 h2 h3 =>
      cases ch with
      | none => exact key
      | some c =>
        unfold MS.stepNo
        unfold MS.step at key
        simp only [live, Res.ok_bind] at key ⊢
        rw [cdataEnd_eq h1 h3, Res.ok_bind] at key ⊢
        split
        · exact (addSpecial_safe hA false h1 h2 C).mono (by omega)
        · rename_i e; rw [if_neg e] at key; rw [addBuf_granted hg]; exact key
    | @pi b s _ h1 h2 =>
      cases ch with
      | none => exact key
      | some c =>
        unfold MS.stepNo
        unfold MS.step at key
        simp only [live, Res.ok_bind] at key ⊢
        rw [piEnd_eq h1, Res.ok_bind] at key ⊢
        split
        · exact (addDirective_safe hA h1 h2 C).mono (by omega)
        · rename_i e; rw [if_neg e] at key; rw [addBuf_granted hg]; exact key
    | @decl b s _ h1 h2 =>
      cases ch with
      | none => exact key
      | some c => exact (declBody_safe hA (by omega) hg h1 h2 C _ hch).mono hm
    | slash => exact key
    | attr => exact key
    | attrSlash => exact key
    | aeq => exact key
    | vskip => exact key
    | valSlash => exact key
    | qname h1 h2 h3 =>
      cases ch with
      | none => exact key
      | some c =>
        unfold MS.stepNo
        unfold MS.step at key
        dsimp only at key ⊢
        rw [addName_granted hg]
        exact key
    | aname h1 h2 h3 =>
      cases ch with
      | none => exact key
      | some c =>
        unfold MS.stepNo
        unfold MS.step at key
        dsimp only at key ⊢
        rw [addName_granted hg]
        exact key
    | qval h1 h2 h3 =>
      cases ch with
      | none => exact (afterValue_safe h1 h2 h3 C none).mono (by omega)
      | some c =>
        unfold MS.stepNo
        unfold MS.step at key
        dsimp only at key ⊢
        split
        · exact (afterValue_safe h1 h2 h3 C _).mono (by omega)
        · rename_i e; rw [if_neg e] at key; rw [addValue_granted hg]; exact key
    | uval h1 h2 h3 =>
      cases ch with
      | none => exact (afterValue_safe h1 h2 h3 C none).mono (by omega)
      | some c =>
        unfold MS.stepNo
        unfold MS.step at key
        dsimp only at key ⊢
        split
        · exact (afterValue_safe h1 h2 h3 C _).mono (by omega)
        · rename_i e; rw [if_neg e] at key; rw [addValue_granted hg]; exact key
    | ent R hr he hz =>
      unfold MS.stepNo
      dsimp only
      rw [entity_granted hg]
      exact key

/-- Nothing refused: the step of `ParseMem`. -/
theorem _root_.Afs.ParseMem.MS.stepNo_none (s : MS) (ch : Option Nat) : s.stepNo A nothing ch = s.step A ch := by
  have hg : nothing .grow = false := rfl
  have hn : nothing .node = false := rfl
  have hd : ∀ (s : MS) ch, s.declBodyNo A nothing ch = s.declBody A ch := by
    intro s ch
    unfold MS.declBodyNo MS.declBody
    simp only [addBuf_granted hg, addDirective_granted hn]
    rfl
  have he : ∀ (s : MS) t ch, s.elementNo A nothing t ch = s.element A t ch := fun _ _ _ => rfl
  have ha : ∀ (s : MS) ch, s.afterNameNo A nothing ch = s.afterName A ch := by
    intro s ch
    unfold MS.afterNameNo MS.afterName
    simp only [hd, he]
  have hv : ∀ (s : MS) n ch, s.afterValueNo nothing n ch = s.afterValue n ch := fun _ _ _ => rfl
  obtain ⟨pc, h, p, f, o, b, a, v⟩ := s
  unfold MS.stepNo MS.step
  cases pc with
  | main =>
    cases ch with
    | none => rfl
    | some c =>
      dsimp only
      rw [flush_granted hn]
      split
      · rfl
      · unfold MS.mainCharNo MS.mainChar MS.mainTailNo
        simp only [flush_granted hn, addBuf_granted hg]
        split <;> rfl
  | name =>
    cases ch with
    | none => exact ha _ _
    | some c =>
      dsimp only
      simp only [ha]
      unfold MS.nameCharNo MS.nameChar
      simp only [ha, addBuf_granted hg]
  | comment => cases ch with
    | none => rfl
    | some c => dsimp only; simp only [addSpecial_granted hn, addBuf_granted hg]
  | cdata => cases ch with
    | none => rfl
    | some c => dsimp only; simp only [addSpecial_granted hn, addBuf_granted hg]
  | pi => cases ch with
    | none => rfl
    | some c => dsimp only; simp only [addDirective_granted hn, addBuf_granted hg]
  | decl => cases ch with
    | none => rfl
    | some c => exact hd _ _
  | qname n q => cases ch with
    | none => rfl
    | some c => dsimp only; simp only [addName_granted hg]
  | aname n => cases ch with
    | none => rfl
    | some c => dsimp only; simp only [addName_granted hg]
  | qval n q => cases ch with
    | none => rfl
    | some c => dsimp only; simp only [addValue_granted hg]; rfl
  | uval n => cases ch with
    | none => rfl
    | some c => dsimp only; simp only [addValue_granted hg]; rfl
  | ent k e => exact entity_granted hg _ k e ch
  | close => rfl
  | slash n => rfl
  | attr n => cases ch <;> rfl
  | attrSlash n c => rfl
  | aeq n => cases ch <;> rfl
  | vskip n => cases ch <;> rfl
  | valSlash n c => rfl
  | eof => rfl
  | fail d => rfl

theorem runNo_nothing (l : List (Option Nat)) : ∀ s : MS, s.runNo A (l.map (·, nothing)) = s.run A l := by
  induction l with
  | nil => intro s; rfl
  | cons c l ih =>
    intro s
    rw [List.map_cons, MS.runNo, MS.run, MS.stepNo_none]
    congr 1
    funext s
    exact ih s

theorem runNo_append (l r : List (Option Nat × Refusals)) : ∀ s : MS, s.runNo A (l ++ r) = (s.runNo A l >>= fun m => m.runNo A r) := by
  induction l with
  | nil => intro s; rfl
  | cons c l ih =>
    intro s
    rw [List.cons_append, MS.runNo, MS.runNo, Res.bind_assoc']
    congr 1
    funext s
    exact ih s

/-- A state with `buffer` freed stays one. -/
theorem run_doomed (l : List (Option Nat × Refusals)) (m : MS) (h1 : m.pc = .fail none) (h2 : m.buf = none) (k : Nat) :
    (match m.runNo A l with
      | .ub => some .ub
      | .ok s => leave k s) = some .ub := by
  have : m.runNo A l = .ok m := by
    induction l with
    | nil => rfl
    | cons c l ih =>
      have : m.stepNo A c.2 c.1 = .ok m := by
        obtain ⟨pc, h, p, f, o, b, a, v⟩ := m
        cases h1
        rfl
      rw [MS.runNo, this, Res.ok_bind, ih]
  rw [this]
  dsimp only
  unfold leave
  rw [h2]

/-- A step at which a growth is refused: growing or not makes a difference. -/
def Refused (A : Heap → Nat) (m : MS) (c : Option Nat × Refusals) : Prop := m.stepNo A c.2 c.1 ≠ m.stepNo A (growing c.2) c.1

/-- Some growth is refused in a run. -/
def SomeRefused (A : Heap → Nat) (m : MS) (l : List (Option Nat × Refusals)) : Prop :=
  ∃ p c q m', l = p ++ c :: q ∧ m.runNo A p = .ok m' ∧ Refused A m' c

theorem run_safe (hA : ∀ h kids, Linked h kids → h (A h) = none) : ∀ (l : List (Option Nat × Refusals)) {N : Nat} {m : MS} {s : PS},
    Sim True h0 kids0 N m s → 1 ≤ N → N + 8 * l.length + 1104 ≤ 2147483647 → (∀ c ∈ l, c.1 ≠ some 0) → ¬ SomeRefused A m l →
    Safe h0 kids0 (N + 8 * l.length) (m.runNo A l)
  | [], N, m, s, S, _, _, _, _ => ⟨s, m, rfl, S⟩
  | c :: l, N, m, s, S, h1, hN, hz, hr => by
    simp only [List.length_cons] at hN
    have he : m.stepNo A c.2 c.1 = m.stepNo A (growing c.2) c.1 := by
      by_cases e : m.stepNo A c.2 c.1 = m.stepNo A (growing c.2) c.1
      · exact e
      · exact absurd ⟨[], c, l, m, rfl, rfl, e⟩ hr
    obtain ⟨s', m', e, S'⟩ := step_safe hA (growing_grow c.2) (by omega) h1 S c.1 (hz c (by simp))
    rw [← he] at e
    obtain ⟨s2, m2, e2, S2⟩ := run_safe hA l S' (by omega) (by omega) (fun d hd => hz d (by simp [hd])) (by
      rintro ⟨p, d, q, m'', e3, e4, e5⟩
      exact hr ⟨c :: p, d, q, m'', by rw [e3]; rfl, by rw [MS.runNo, e, Res.ok_bind, e4], e5⟩)
    refine ⟨s2, m2, ?_, ?_⟩
    · rw [MS.runNo, e, Res.ok_bind, e2]
    · rw [show N + 8 * (c :: l).length = N + 8 + 8 * l.length by simp; omega]
      exact S2

/-- A refused growth: undefined behaviour. -/
theorem load_refused {m : MS} {l : List (Option Nat × Refusals)} (h : SomeRefused A m l) (k : Nat) :
    (match m.runNo A l with
      | .ub => some .ub
      | .ok s => leave k s) = some .ub := by
  obtain ⟨p, c, q, m', rfl, e1, e2⟩ := h
  rw [runNo_append, e1, Res.ok_bind, MS.runNo]
  rcases step_dz A c.2 m' c.1 with e | ⟨_, e | ⟨m2, e, h1, h2⟩⟩
  · exact absurd e e2
  · rw [e]; rfl
  · rw [e, Res.ok_bind]
    exact run_doomed q m2 h1 h2 k

end

end Afs.ParseMem
