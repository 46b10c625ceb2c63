import Verif.Proof.ParseOom
/-!
# The reader when memory is refused: safety of the steps whose growths are granted
-/
namespace Afs.ParseMem
open Afs Afs.Xml Afs.Links Afs.Spec

section
variable {h0 : Heap} {kids0 : Nat → List Nat} {N : Nat} {A : Heap → Nat} {no : Refusals}

/-- A piece of code ends in a state of the reader, possibly of one that reads another text. -/
def Safe (h0 : Heap) (kids0 : Nat → List Nat) (N : Nat) (r : Res MS) : Prop := ∃ s, Next True h0 kids0 N r s

theorem Safe.mono {M : Nat} (hm : N ≤ M) {r : Res MS} (h : Safe h0 kids0 N r) : Safe h0 kids0 M r := by
  obtain ⟨s, h⟩ := h
  exact ⟨s, next_mono hm h⟩

theorem Res.bind_assoc' {α β γ : Type} (r : Res α) (f : α → Res β) (g : β → Res γ) : ((r >>= f) >>= g) = (r >>= fun x => f x >>= g) := by
  cases r <;> rfl

theorem addBuf_granted (hg : no .grow = false) (s : MS) (f : CBuf → Res CBuf) (k : MS → Res MS) : s.addBuf no f k = (s.onBuf f >>= k) := by
  unfold MS.addBuf MS.onBuf
  rw [hg]
  cases s.buf <;> rfl

theorem addName_granted (hg : no .grow = false) (s : MS) (f : CBuf → Res CBuf) (k : MS → Res MS) : s.addName no f k = (s.onName f >>= k) := by
  unfold MS.addName MS.onName
  rw [hg]
  cases s.an <;> rfl

theorem addValue_granted (hg : no .grow = false) (s : MS) (f : CBuf → Res CBuf) (k : MS → Res MS) : s.addValue no f k = (s.onValue f >>= k) := by
  unfold MS.addValue MS.onValue
  rw [hg]
  cases s.av <;> rfl

theorem flush_granted (hn : no .node = false) (s : MS) (k : MS → Res MS) : s.flushNo A no k = (s.flush A >>= k) := by
  unfold MS.flushNo MS.flush
  rw [hn]
  cases s.buf with
  | none => rfl
  | some b =>
    show (if b.ptr = 0 then k s else _) = ((if b.ptr = 0 then Res.ok s else _) >>= k)
    split
    · rfl
    · simp only [Res.bind_assoc']
      congr 1; funext b
      congr 1; funext _
      split
      · simp only [Res.bind_assoc', Bool.false_eq_true, if_false]
        rfl
      · rfl

theorem addSpecial_granted (hn : no .node = false) (c : Bool) (s : MS) : s.addSpecialNo A no c = s.addSpecial A := by
  unfold MS.addSpecialNo MS.addSpecial
  rw [hn]; rfl

theorem addDirective_granted (hn : no .node = false) (s : MS) : s.addDirectiveNo A no = s.addDirective A := by
  unfold MS.addDirectiveNo MS.addDirective
  rw [hn]; rfl

theorem error_safe {pc : MPC} {h : Heap} {p f : Option Nat} {o : Bool} {b : CBuf} {st : List Frame}
    {root : Option Node} {hd : Option (Nat × Data)} {lk : Option Nat} (C : Core True h0 kids0 h p f st root hd lk) :
    Safe h0 kids0 N (MS.error ⟨pc, h, p, f, o, some b, none, none⟩) :=
  ⟨⟨.done none, st, root, o⟩, next_ok (.fail C (.inl ⟨rfl, fun _ _ => trivial⟩))⟩

theorem flush_safe (hA : ∀ h kids, Linked h kids → h (A h) = none) {pc : MPC} {h : Heap} {p f : Option Nat} {o : Bool}
    {b : CBuf} {st : List Frame} {root : Option Node} {s : Bytes} {M : Nat} {k : MS → Res MS}
    (hb : Rep b s N) (hz : (0 : UInt8) ∉ s) (C : Core True h0 kids0 h p f st root none none)
    (hk : ∀ h' f' b' lk st' root', Rep b' [] N → Core True h0 kids0 h' p f' st' root' none lk → (o = false → lk = none) →
      Safe h0 kids0 M (k ⟨pc, h', p, f', o, some b', none, none⟩)) :
    Safe h0 kids0 M (MS.flushNo A no ⟨pc, h, p, f, o, some b, none, none⟩ k) := by
  cases hn : no .node with
  | false =>
    rw [flush_granted hn]
    obtain ⟨h', f', b', lk, st', root', e1, _, hb', C', hl⟩ := flush_next hA (pc := pc) (ppc := .main s) (o := o) hb hz C (fun _ _ _ _ => trivial)
    rw [e1, Res.ok_bind]
    exact hk h' f' b' lk st' root' hb' C' hl
  | true =>
    unfold MS.flushNo
    simp only [live, Res.ok_bind]
    by_cases hs : s = []
    · rw [if_pos (by rw [hb.ptr, hs]; rfl)]
      exact hk h f b none st root (hs ▸ hb) C (fun _ => rfl)
    · rw [if_neg (by rw [hb.ptr]; simpa using hs)]
      obtain ⟨b', e, hb', hstr, hl, _⟩ := rep_stop hb
      rw [e, Res.ok_bind, hl, Res.ok_bind]
      cases o with
      | false => exact hk h f b'.reset none st root (rep_reset hb'.toAny) C (fun _ => rfl)
      | true =>
        simp only [if_true]
        rw [hstr.str, Res.ok_bind, hn, if_pos rfl]
        exact error_safe C

theorem addSpecial_safe (hA : ∀ h kids, Linked h kids → h (A h) = none) {pc : MPC} {h : Heap} {p f : Option Nat}
    {o : Bool} {b : CBuf} {st : List Frame} {root : Option Node} {lk : Option Nat} {s : Bytes} (c : Bool)
    (hb : Rep b s N) (hz : (0 : UInt8) ∉ s) (C : Core True h0 kids0 h p f st root none lk) :
    Safe h0 kids0 N (MS.addSpecialNo A no c ⟨pc, h, p, f, o, some b, none, none⟩) := by
  cases hn : no .node with
  | false =>
    rw [addSpecial_granted hn]
    exact ⟨_, addSpecial_next hA (ppc := .main s) hb hz C⟩
  | true =>
    obtain ⟨b', e, hb', hstr, _⟩ := rep_stop hb
    unfold MS.addSpecialNo
    simp only [MS.onBuf, live, Res.ok_bind, e]
    rw [second_eq (ppc := .main s) C]
    by_cases hsec : PS.secondRoot ⟨.main s, st, root, o⟩ = true
    · rw [if_pos hsec]; exact error_safe C
    · rw [if_neg hsec, hstr.str, Res.ok_bind, hn, if_pos rfl]
      cases c with
      | false => exact error_safe C
      | true =>
        rw [if_pos rfl]
        have hl : lk = none := by
          cases lk with
          | none => rfl
          | some x =>
            have := (core_null C).2.2.2 (by simp)
            exact absurd (by simp [PS.secondRoot, this.1, this.2.1]) hsec
        subst hl
        exact ⟨_, _, rfl, .eof (q := ⟨.main s, st, root, o⟩) (o' := o) (st := st) (root := root) C⟩

theorem addDirective_safe (hA : ∀ h kids, Linked h kids → h (A h) = none) {pc : MPC} {h : Heap} {p f : Option Nat}
    {o : Bool} {b : CBuf} {st : List Frame} {root : Option Node} {lk : Option Nat} {s : Bytes}
    (hb : Rep b s N) (hz : (0 : UInt8) ∉ s) (C : Core True h0 kids0 h p f st root none lk) :
    Safe h0 kids0 N (MS.addDirectiveNo A no ⟨pc, h, p, f, o, some b, none, none⟩) := by
  cases hn : no .node with
  | false =>
    rw [addDirective_granted hn]
    exact ⟨_, addDirective_next hA (ppc := .main s) hb hz C⟩
  | true =>
    obtain ⟨b', e, hb', hstr, _⟩ := rep_stop hb
    unfold MS.addDirectiveNo
    simp only [MS.onBuf, live, Res.ok_bind, e]
    rw [second_eq (ppc := .main s) C]
    by_cases hsec : PS.secondRoot ⟨.main s, st, root, o⟩ = true
    · rw [if_pos hsec]; exact error_safe C
    · rw [if_neg hsec, hstr.str, Res.ok_bind, hn, if_pos rfl]
      exact error_safe C

theorem declBody_safe (hA : ∀ h kids, Linked h kids → h (A h) = none) (hN : N + 1100 ≤ 2147483647) (hg : no .grow = false) {pc : MPC} {h : Heap}
    {p f : Option Nat} {o : Bool} {b : CBuf} {st : List Frame} {root : Option Node} {lk : Option Nat}
    {s : Bytes} (hb : Rep b s N) (hz : (0 : UInt8) ∉ s) (C : Core True h0 kids0 h p f st root none lk) (ch : Option Nat)
    (hch : ch ≠ some 0) :
    Safe h0 kids0 (N + 4) (MS.declBodyNo A no ⟨pc, h, p, f, o, some b, none, none⟩ ch) := by
  have key := declBody_next hA hN hb hz C ch hch (pc := pc) (ppc := .main s) (o := o)
  unfold MS.declBodyNo
  unfold MS.declBody at key
  cases ch with
  | none =>
    rw [addBuf_granted hg]
    exact ⟨_, key⟩
  | some c =>
    dsimp only at key ⊢
    by_cases e : c = 62
    · rw [if_pos e]
      exact (addDirective_safe hA hb hz C).mono (by omega)
    · rw [if_neg e, addBuf_granted hg]
      rw [if_neg e] at key
      exact ⟨_, key⟩

theorem element_safe (hA : ∀ h kids, Linked h kids → h (A h) = none) {pc : MPC} {h : Heap} {p f : Option Nat}
    {o : Bool} {b : CBuf} {ppc : PC} {st : List Frame} {root : Option Node} {lk : Option Nat} (hb : Any b N)
    (C : Core True h0 kids0 h p f st root none lk) (hn : PS.secondRoot ⟨ppc, st, root, o⟩ = false) (t : Bytes)
    (ch : Option Nat) :
    Safe h0 kids0 N (MS.elementNo A no ⟨pc, h, p, f, o, some b, none, none⟩ t ch) := by
  unfold MS.elementNo
  split
  · exact error_safe C
  · have key := element_next hA (pc := pc) hb C hn t ch
    unfold MS.element at key
    obtain ⟨h', n, e', C'⟩ := newNode_next hA (pc := pc) (b := some b) (a := none) (v := none) C hn (.elem t [])
    rw [e', Res.ok_bind] at key ⊢
    cases ch with
    | none => exact ⟨_, key⟩
    | some c =>
      dsimp only at key ⊢
      by_cases e1 : isSpace c = true
      · rw [if_pos e1]
        split
        · exact error_safe C'
        · rw [if_pos e1] at key
          exact ⟨_, key⟩
      · rw [if_neg e1]
        rw [if_neg e1] at key
        exact ⟨_, key⟩

theorem afterName_safe (hA : ∀ h kids, Linked h kids → h (A h) = none) (hg : no .grow = false) {pc : MPC} {h : Heap}
    {p f : Option Nat} {o : Bool} {b : CBuf} {st : List Frame} {root : Option Node} {lk : Option Nat}
    {s : Bytes} (hb : Rep b s N) (hz : (0 : UInt8) ∉ s) (C : Core True h0 kids0 h p f st root none lk) (ch : Option Nat)
    (hch : ch ≠ some 0) (hN : N + 1100 ≤ 2147483647) :
    Safe h0 kids0 (N + 4) (MS.afterNameNo A no ⟨pc, h, p, f, o, some b, none, none⟩ ch) := by
  obtain ⟨b', e, hb', hstr, _, hl⟩ := rep_stop hb
  have key := afterName_next hA (pc := pc) (ppc := .main s) (o := o) hb hz C ch hch hN
  unfold MS.afterName at key
  unfold MS.afterNameNo
  simp only [MS.onBuf, live, Res.ok_bind, e] at key ⊢
  rw [hstr.str, cstr_id hz, Res.ok_bind, hl, Res.ok_bind] at key ⊢
  have hm : N ≤ N + 4 := by omega
  by_cases e1 : s = b! "!--"
  · rw [if_pos e1] at key ⊢; exact ⟨_, key⟩
  rw [if_neg e1] at key ⊢
  by_cases e2 : s = Node.cdataOpen
  · rw [if_pos e2] at key ⊢; exact ⟨_, key⟩
  rw [if_neg e2] at key ⊢
  by_cases e3 : (s ++ [0]).headD 0 = 63
  · rw [if_pos e3] at key ⊢; exact ⟨_, key⟩
  rw [if_neg e3] at key ⊢
  by_cases e4 : (s ++ [0]).headD 0 = 33
  · rw [if_pos e4]; exact declBody_safe hA hN hg hb' hz C ch hch
  rw [if_neg e4] at key ⊢
  by_cases e5 : (s ++ [0]).headD 0 = 47
  · rw [if_pos e5] at key ⊢; exact ⟨_, key⟩
  rw [if_neg e5, second_eq (ppc := .main s) C]
  by_cases hsec : PS.secondRoot ⟨.main s, st, root, o⟩ = true
  · rw [if_pos hsec]; exact error_safe C
  · rw [if_neg hsec]
    exact (element_safe hA hb'.toAny C (by simpa using hsec) s ch).mono hm

theorem afterValue_safe {pc : MPC} {h : Heap} {p f : Option Nat} {o : Bool} {b a v : CBuf}
    {st : List Frame} {root : Option Node} {n : Nat} {e : Head} {an av : Bytes}
    (hb : Any b N) (ha : Str a an N) (hv : Rep v av N)
    (C : Core True h0 kids0 h p f st root (some (n, .elem e.1 e.2)) none) (ch : Option Nat) :
    Safe h0 kids0 N (MS.afterValueNo no ⟨pc, h, p, f, o, some b, some a, some v⟩ n ch) := by
  obtain ⟨v', ev, hv', hstr, _⟩ := rep_stop hv
  unfold MS.afterValueNo
  simp only [MS.onValue, live, Res.ok_bind, ev]
  rw [ha.str, Res.ok_bind, hstr.str, Res.ok_bind]
  have tail : ∀ (h : Heap) (e : Head), Core True h0 kids0 h p f st root (some (n, .elem e.1 e.2)) none →
      Safe h0 kids0 N (match ch with
        | none => MS.go ⟨pc, h, p, f, o, some b, some a, some v'⟩ (.attr n)
        | some c => if c = 47 ∨ c = 63 then MS.go ⟨pc, h, p, f, o, some b, some a, some v'⟩ (.valSlash n c)
          else if c = 62 then MS.attrEnd ⟨pc, h, p, f, o, some b, some a, some v'⟩ n c
          else MS.go ⟨pc, h, p, f, o, some b, some a, some v'⟩ (.attr n)) := by
    intro h e C
    have hA := ha.toAny
    have hV := hv'.toAny
    cases ch with
    | none => exact ⟨_, next_ok (.run (.attr (e := e) hb hA hV) C)⟩
    | some c =>
      dsimp only
      split
      · exact ⟨_, next_ok (.run (.valSlash (e := e) hb hA hV) C)⟩
      · split
        · exact ⟨_, attrEnd_next (ppc := .main []) (e := e) hb C c⟩
        · exact ⟨_, next_ok (.run (.attr (e := e) hb hA hV) C)⟩
  cases no .attr with
  | true =>
    simp only [if_true]
    exact tail h e C
  | false =>
    simp only [Bool.false_eq_true, if_false]
    obtain ⟨h', es, C'⟩ := setAttr_eq (pc := pc) (b := some b) (a := some a) (v := some v') (o := o) C an (cstr av)
    rw [es, Res.ok_bind]
    exact tail h' (e.1, Node.setAttrList an (some (cstr av)) e.2) C'

theorem resume_granted (hg : no .grow = false) (s : MS) (k : MPC) (c : Nat) : s.resumeNo no k c = s.resume k c := by
  unfold MS.resumeNo MS.resume
  simp only [addBuf_granted hg, addName_granted hg, addValue_granted hg]
  cases k <;> rfl

theorem entity_granted (hg : no .grow = false) (s : MS) (k : MPC) (e : CBuf) (ch : Option Nat) : s.entityNo no k e ch = s.entity k e ch := by
  unfold MS.entityNo MS.entity
  simp only [resume_granted hg]
  rfl

theorem nameChar_safe (hA : ∀ h kids, Linked h kids → h (A h) = none) (hg : no .grow = false) {h : Heap} {p f : Option Nat} {o : Bool}
    {b : CBuf} {st : List Frame} {root : Option Node} {s : Bytes} {lk : Option Nat}
    (hb : Rep b s N) (hz : (0 : UInt8) ∉ s) (C : Core True h0 kids0 h p f st root none lk) (hN : N + 1104 ≤ 2147483647)
    (c : Nat) (hc : c ≠ 0) :
    Safe h0 kids0 (N + 8) (MS.nameCharNo A no ⟨.name, h, p, f, o, some b, none, none⟩ c) := by
  obtain ⟨b', e, hb'⟩ := rep_add c hb (by omega)
  unfold MS.nameCharNo
  rw [addBuf_granted hg]
  simp only [MS.onBuf, live, Res.ok_bind, e]
  rw [nameStop_eq hb', Res.ok_bind]
  split
  · exact (afterName_safe hA hg hb' (nz_add hz hc) C (some c) (by simpa using hc) (by omega)).mono (by omega)
  · exact ⟨_, next_ok (.run (.name (hb'.mono (by omega)) (nz_add hz hc)) C)⟩

end

end Afs.ParseMem
