import Verif.Proof.ParseMem5
import Verif.Spec.Reading
/-!
# The reader in memory does what the reader on values does: every character
-/
namespace Afs.ParseMem
open Afs Afs.Xml Afs.Links Afs.Spec

section
variable {P : Prop} {h0 : Heap} {kids0 : Nat → List Nat} {N : Nat} {A : Heap → Nat}

theorem commentEnd_eq {b : CBuf} {s : Bytes} (hb : Rep b s N) (c : Nat) :
    MS.commentEnd b c = .ok (decide (c = 62 ∧ s.length > 4 ∧ s.reverse.getD 2 0 ≠ 45 ∧ s.reverse.getD 1 0 = 45 ∧
        s.reverse.getD 0 0 = 45)) := by
  unfold MS.commentEnd
  rw [hb.ptr]
  by_cases e : c = 62 ∧ s.length > 4
  · rw [if_pos e, rep_back hb 2 (by omega), Res.ok_bind, rep_back hb 1 (by omega), Res.ok_bind,
      rep_back hb 0 (by omega), Res.ok_bind]
    simp only [e.1, e.2, true_and]
  · rw [if_neg e]
    congr 1
    symm
    rw [decide_eq_false_iff_not]
    exact fun h => e ⟨h.1, h.2.1⟩

theorem cdataEnd_eq {b : CBuf} {s : Bytes} (hb : Rep b s N) (hl : 2 ≤ s.length) (c : Nat) :
    MS.cdataEnd b c = .ok (decide (c = 62 ∧ s.reverse.take 2 = Node.cdataClose)) := by
  unfold MS.cdataEnd
  by_cases e : c = 62
  · rw [if_pos e, hb.ptr, show (s.length : Int) - 2 = ((s.length - 2 : Nat) : Int) by omega,
      rep_loadN hb 2 (s.length - 2) (by omega), Res.ok_bind]
    congr 1
    have : s.reverse.take 2 = ((s.drop (s.length - 2)).take 2).reverse := by
      rw [List.take_reverse, List.take_of_length_le]
      simp; omega
    rw [this]
    have h93 : Node.cdataClose = Node.cdataClose.reverse := by decide
    have hi : (((s.drop (s.length - 2)).take 2).reverse = Node.cdataClose) = ((s.drop (s.length - 2)).take 2 = Node.cdataClose) := by
      conv => lhs; rw [h93]
      rw [List.reverse_inj]
    simp only [hi, e, true_and]
    rw [Bool.eq_iff_iff]; simp
  · rw [if_neg e]; simp [e]

theorem piEnd_eq {b : CBuf} {s : Bytes} (hb : Rep b s N) (c : Nat) :
    MS.piEnd b c = .ok (decide (c = 62 ∧ s.getLast? = some 63)) := by
  unfold MS.piEnd
  rw [hb.ptr]
  by_cases e : c = 62 ∧ s.length > 0
  · rw [if_pos e, rep_back hb 0 (by omega), Res.ok_bind]
    congr 1
    have hne : s.reverse ≠ [] := by
      intro h; have := e.2; simp at h; simp [h] at this
    rw [← List.head?_reverse]
    cases hr : s.reverse with
    | nil => exact absurd hr hne
    | cons a r => simp [e.1]; rfl
  · rw [if_neg e]
    congr 1
    symm
    rw [decide_eq_false_iff_not]
    rintro ⟨h1, h2⟩
    apply e
    refine ⟨h1, ?_⟩
    cases s with
    | nil => simp at h2
    | cons a s => simp

/-- The test at the end of the name loop (1590-1592). -/
theorem nameStop_eq {b : CBuf} {s : Bytes} (hb : Rep b s N) :
    (if b.ptr = 1 then do
      let v ← b.load 0
      Res.ok (v == 63)
    else if b.ptr = 3 then do
      let v ← b.loadN 0 3
      Res.ok (v == b! "!--")
    else if b.ptr = 8 then do
      let v ← b.loadN 0 8
      Res.ok (v == Node.cdataOpen)
    else Res.ok false) = Res.ok (decide (s = b! "?" ∨ s = b! "!--" ∨ s = Node.cdataOpen)) := by
  rw [hb.ptr]
  have l1 : (b! "?").length = 1 := by decide
  have l3 : (b! "!--").length = 3 := by decide
  have l8 : Node.cdataOpen.length = 8 := by decide
  have hload : ∀ n, n = s.length → b.loadN 0 n = .ok s := by
    intro n hn
    have := rep_loadN hb n 0 (by omega)
    rw [hn, List.drop_zero, List.take_of_length_le (Nat.le_refl _), ← hn] at this
    exact this
  by_cases e1 : s.length = 1
  · rw [if_pos e1]
    have := rep_get hb 0 (by omega)
    rw [show ((0 : Nat) : Int) = 0 from rfl] at this
    rw [this, Res.ok_bind]
    congr 1
    have n3 : s ≠ b! "!--" := fun h => by rw [h, l3] at e1; omega
    have n8 : s ≠ Node.cdataOpen := fun h => by rw [h, l8] at e1; omega
    simp only [n3, n8, or_false]
    obtain ⟨x, rfl⟩ := List.length_eq_one_iff.mp e1
    rw [show b! "?" = [63] from by decide]
    simp
    rfl
  rw [if_neg e1]
  have n1 : s ≠ b! "?" := fun h => e1 (by rw [h, l1])
  by_cases e3 : s.length = 3
  · rw [if_pos e3, hload 3 e3.symm, Res.ok_bind]
    have n8 : s ≠ Node.cdataOpen := fun h => by rw [h, l8] at e3; omega
    congr 1
    simp only [n1, n8, or_false, false_or]
    rw [Bool.eq_iff_iff]; simp
  rw [if_neg e3]
  have n3 : s ≠ b! "!--" := fun h => e3 (by rw [h, l3])
  by_cases e8 : s.length = 8
  · rw [if_pos e8, hload 8 e8.symm, Res.ok_bind]
    congr 1
    simp only [n1, n3, false_or]
    rw [Bool.eq_iff_iff]; simp
  rw [if_neg e8]
  have n8 : s ≠ Node.cdataOpen := fun h => e8 (by rw [h, l8])
  simp [n1, n3, n8]

theorem nameChar_next {h : Heap} {p f : Option Nat} {o : Bool}
    {b : CBuf} {st : List Frame} {root : Option Node} {s : Bytes} {lk : Option Nat}
    (hb : Rep b s N) (hz : (0 : UInt8) ∉ s) (C : Core P h0 kids0 h p f st root none lk) (hN : N + 1100 ≤ 2147483647)
    (c : Nat) (hc : c ≠ 0) :
    Next P h0 kids0 (N + 4) (MS.nameChar A ⟨.name, h, p, f, o, some b, none, none⟩ c)
      (if s ++ addChar c = b! "?" ∨ s ++ addChar c = b! "!--" ∨ s ++ addChar c = Node.cdataOpen
        then PS.afterName ⟨.name s, st, root, o⟩ (s ++ addChar c) (some c)
        else ⟨.name (s ++ addChar c), st, root, o⟩) := by
  obtain ⟨b', e, hb'⟩ := rep_add c hb hN
  unfold MS.nameChar
  simp only [MS.onBuf, live, Res.ok_bind, e]
  rw [nameStop_eq hb', Res.ok_bind]
  by_cases hs : s ++ addChar c = b! "?" ∨ s ++ addChar c = b! "!--" ∨ s ++ addChar c = Node.cdataOpen
  · rw [if_pos hs, if_pos (by simpa using hs)]
    exact afterName_special hb' C _ hs
  · rw [if_neg hs, if_neg (by simpa using hs)]
    exact next_ok (.run (.name hb' (nz_add hz hc)) C)

theorem mainChar_next (hA : ∀ h kids, Linked h kids → h (A h) = none) {h : Heap} {p f : Option Nat} {o : Bool}
    {b : CBuf} {st : List Frame} {root : Option Node} {s : Bytes}
    (hb : Rep b s N) (hz : (0 : UInt8) ∉ s) (C : Core P h0 kids0 h p f st root none none) (hN : N + 1100 ≤ 2147483647)
    (c : Nat) (hc : c ≠ 0) (h60 : c ≠ 60) :
    Next P h0 kids0 (N + 4) (MS.mainChar A ⟨.main, h, p, f, o, some b, none, none⟩ c)
      (Xml.step ⟨.main s, st, root, o⟩ (some c)) := by
  have hm : N ≤ N + 4 := by omega
  -- behind the flush
  have tail : ∀ (h : Heap) (f : Option Nat) (b : CBuf) (st : List Frame) (root : Option Node) (s : Bytes) (ppc : PC),
      Rep b s N → (0 : UInt8) ∉ s → Core P h0 kids0 h p f st root none none →
      Next P h0 kids0 (N + 4)
        (if c = 38 then MS.go ⟨.main, h, p, f, o, some b, none, none⟩ (.ent .main .alloc)
         else if o || !isSpace c then do
          let s ← MS.onBuf ⟨.main, h, p, f, o, some b, none, none⟩ (·.add c)
          s.go .main
         else MS.go ⟨.main, h, p, f, o, some b, none, none⟩ .main)
        (if c = 38 then ⟨.ent (.main s) [], st, root, o⟩
         else if o || !isSpace c then ⟨.main (s ++ addChar c), st, root, o⟩
         else ⟨.main s, st, root, o⟩) := by
    intro h f b st root s ppc hb hz C
    by_cases e1 : c = 38
    · rw [if_pos e1, if_pos e1]
      exact next_ok (.run (.ent (.main (hb.mono hm) hz) trivial ent_alloc (by simp)) C)
    rw [if_neg e1, if_neg e1]
    by_cases e2 : (o || !isSpace c) = true
    · rw [if_pos e2, if_pos e2]
      obtain ⟨b', e, hb'⟩ := rep_add c hb hN
      simp only [MS.onBuf, live, Res.ok_bind, e]
      exact next_ok (.run (.main hb' (nz_add hz hc)) C)
    · rw [if_neg e2, if_neg e2]
      exact next_ok (.run (.main (hb.mono hm) hz) C)
  unfold MS.mainChar Xml.step
  dsimp only
  rw [if_neg h60]
  by_cases e0 : (isSpace c && !o) = true
  · rw [if_pos e0]
    have ho : o = false := by
      cases o with
      | false => rfl
      | true => simp at e0
    obtain ⟨h', f', b', lk, st', root', e1, e2, hb', C', hlk⟩ := flush_next hA (pc := .main) (ppc := .main s) (o := o) hb hz C
      (by simp [ho])
    rw [hlk ho] at C'
    rw [e1, Res.ok_bind, e0]
    by_cases hs : s = []
    · have : PS.flush ⟨.main s, st, root, o⟩ s = ⟨.main s, st, root, o⟩ := by rw [PS.flush, if_pos hs]
      rw [this] at e2
      cases e2
      subst hs
      simpa using tail h' f' b' st root [] (.main []) hb' (by simp) C'
    · have : (true && !s.isEmpty) = true := by simpa using hs
      rw [this]
      simp only [if_true, e2]
      exact tail h' f' b' st' root' [] (.main []) hb' (by simp) C'
  · rw [if_neg e0, Res.ok_bind]
    have : (isSpace c && !o) = false := by simpa using e0
    rw [this]
    simp only [Bool.false_and, Bool.false_eq_true, if_false]
    exact tail h f b st root s (.main s) hb hz C

theorem finish_eof {h : Heap} {p f : Option Nat} {o : Bool} {b : CBuf} {pc : MPC} {ppc : PC} {st : List Frame}
    {root : Option Node} (C : Core P h0 kids0 h p f st root none none) :
    Next P h0 kids0 N (MS.go ⟨pc, h, p, f, o, some b, none, none⟩ .eof) (PS.finish ⟨ppc, st, root, o⟩) := by
  exact ⟨_, rfl, .eof (q := ⟨ppc, st, root, o⟩) C⟩

/-- One character. -/
theorem step_next (hA : ∀ h kids, Linked h kids → h (A h) = none) (hN : N + 1100 ≤ 2147483647) (hN1 : 1 ≤ N)
    {m : MS} {s : PS} (S : Sim P h0 kids0 N m s) (ch : Option Nat) (hP : Losing s ch → P) (hch : ch ≠ some 0) :
    Next P h0 kids0 (N + 4) (m.step A ch) (Xml.step s ch) := by
  have hm : N ≤ N + 4 := by omega
  cases S with
  | eof C =>
    rename_i q _ _ 
    have hd : ∃ r, q.finish.pc = .done r := by
      unfold PS.finish
      split <;> exact ⟨_, rfl⟩
    obtain ⟨r, hr⟩ := hd
    refine ⟨_, rfl, ?_⟩
    have : ∀ st root o', Xml.step ⟨q.finish.pc, st, root, o'⟩ ch = ⟨q.finish.pc, st, root, o'⟩ := by
      intro st root o'
      rw [hr]; unfold Xml.step; rfl
    rw [this]
    exact .eof C
  | @close h p f o b g fs root h1 C =>
    have := next_mono hm (closeBody_next (pc := .close) (ppc := .close) (o := o) h1 C ch)
    unfold MS.step Xml.step
    exact this
  | fail C hd =>
    refine ⟨_, rfl, ?_⟩
    unfold Xml.step
    exact .fail C hd
  | @run pc h p f o b a v ppc st root hd lk R C =>
    cases R with
    | @main b s h1 h2 =>
      cases ch with
      | none => exact finish_eof C
      | some c =>
        have hc : c ≠ 0 := fun e => hch (by rw [e])
        by_cases e : c = 60
        · subst e
          obtain ⟨h', f', b', lk, st', root', e1, e2, hb', C', _⟩ := flush_next hA (pc := .main) (ppc := .main s) (o := o) h1 h2 C (fun a b c d => hP ⟨a, .inr ⟨b, c, rfl, s, rfl, d⟩⟩)
          unfold MS.step Xml.step
          simp only [if_true]
          rw [e1, e2]
          simp only [Res.ok_bind, MS.onBuf, live]
          exact next_ok (.run (.name (rep_reset (hb'.toAny.mono hm)) (by simp)) C')
        · have := mainChar_next hA h1 h2 C hN c hc e (o := o)
          unfold MS.step
          simp only [if_neg e]
          exact this
    | @name b s _ h1 h2 =>
      cases ch with
      | none => exact afterName_next hA h1 h2 C none hch hN
      | some c =>
        have hc : c ≠ 0 := fun e => hch (by rw [e])
        unfold MS.step Xml.step
        simp only [live, Res.ok_bind]
        have hp : (c == 47 && b.ptr != 0) = (c == 47 && !s.isEmpty) := by
          rw [h1.ptr]; cases s <;> simp
        rw [hp]
        split
        · exact afterName_next hA h1 h2 C _ hch hN
        · split
          · exact error_next C
          · split
            · exact next_ok (.run (.ent (.name (h1.mono hm) h2) trivial ent_alloc (by simp)) C)
            · split
              · exact error_next C
              · exact nameChar_next h1 h2 C hN c hc
    | @comment b s _ h1 h2 =>
      cases ch with
      | none => exact error_next C
      | some c =>
        have hc : c ≠ 0 := fun e => hch (by rw [e])
        unfold MS.step Xml.step
        simp only [live, Res.ok_bind]
        rw [commentEnd_eq h1, Res.ok_bind]
        split
        · rename_i hx
          rw [if_pos (by simpa using hx)]
          exact next_mono hm (addSpecial_next hA h1 h2 C)
        · rename_i hx
          rw [if_neg (by simpa using hx)]
          obtain ⟨b', e, hb'⟩ := rep_add c h1 hN
          simp only [MS.onBuf, live, Res.ok_bind, e]
          exact next_ok (.run (.comment hb' (nz_add h2 hc)) C)
    | @cdata b s _ h1 h2 h3 =>
      cases ch with
      | none => exact error_next C
      | some c =>
        have hc : c ≠ 0 := fun e => hch (by rw [e])
        unfold MS.step Xml.step
        simp only [live, Res.ok_bind]
        rw [cdataEnd_eq h1 h3, Res.ok_bind]
        split
        · rename_i hx
          rw [if_pos (by simpa using hx)]
          exact next_mono hm (addSpecial_next hA h1 h2 C)
        · rename_i hx
          rw [if_neg (by simpa using hx)]
          obtain ⟨b', e, hb'⟩ := rep_add c h1 hN
          simp only [MS.onBuf, live, Res.ok_bind, e]
          exact next_ok (.run (.cdata hb' (nz_add h2 hc) (by rw [List.length_append]; omega)) C)
    | @pi b s _ h1 h2 =>
      cases ch with
      | none => exact error_next C
      | some c =>
        have hc : c ≠ 0 := fun e => hch (by rw [e])
        unfold MS.step Xml.step
        simp only [live, Res.ok_bind]
        rw [piEnd_eq h1, Res.ok_bind]
        split
        · rename_i hx
          rw [if_pos (by simpa using hx)]
          exact next_mono hm (addDirective_next hA h1 h2 C)
        · rename_i hx
          rw [if_neg (by simpa using hx)]
          obtain ⟨b', e, hb'⟩ := rep_add c h1 hN
          simp only [MS.onBuf, live, Res.ok_bind, e]
          exact next_ok (.run (.pi hb' (nz_add h2 hc)) C)
    | @decl b s _ h1 h2 =>
      cases ch with
      | none => exact error_next C
      | some c => exact declBody_next hA hN h1 h2 C _ hch
    | @slash b n mm h1 =>
      unfold MS.step Xml.step
      dsimp only
      split
      · exact next_mono hm (afterHead_next (e := (mm, [])) h1 C 47)
      · exact next_ok (.fail C (.inr rfl))
    | @attr b a v n e h1 h2 h3 =>
      have hP' : st = [] → (Xml.step ⟨.attr e, st, root, o⟩ ch).pc = .done none → P :=
        fun a b => hP ⟨a, .inl ⟨core_head_root C a, trivial, b⟩⟩
      revert hP'
      cases ch with
      | none => exact fun hP' => attrError_next C (fun a => hP' a rfl)
      | some c =>
        unfold MS.step Xml.step
        dsimp only
        split
        · exact fun _ => next_ok (.run (.attr (h1.mono hm) (h2.mono hm) (h3.mono hm)) C)
        · split
          · exact fun _ => next_ok (.run (.attrSlash (h1.mono hm) (h2.mono hm) (h3.mono hm)) C)
          · split
            · exact fun hP' => attrError_next C (fun a => hP' a rfl)
            · split
              · exact fun _ => next_mono hm (attrEnd_next h1 C c)
              · intro _
                obtain ⟨a', ea, ha'⟩ := rep_start c h2 hN1
                simp only [MS.onName, live, Res.ok_bind, ea]
                split
                · exact next_ok (.run (.qname (h1.mono hm) (ha'.mono hm) (h3.mono hm)) C)
                · exact next_ok (.run (.aname (h1.mono hm) (ha'.mono hm) (h3.mono hm)) C)
    | @attrSlash b a v n c e h1 h2 h3 =>
      have hP' : st = [] → (Xml.step ⟨.attrSlash e c, st, root, o⟩ ch).pc = .done none → P :=
        fun a b => hP ⟨a, .inl ⟨core_head_root C a, trivial, b⟩⟩
      revert hP'
      unfold MS.step Xml.step
      dsimp only
      split
      · exact fun _ => next_mono hm (attrEnd_next h1 C _)
      · exact fun hP' => attrError_next C (fun a => hP' a rfl)
    | @qname b a v n q e an h1 h2 h3 =>
      have hP' : st = [] → (Xml.step ⟨.qname e q an, st, root, o⟩ ch).pc = .done none → P :=
        fun a b => hP ⟨a, .inl ⟨core_head_root C a, trivial, b⟩⟩
      revert hP'
      cases ch with
      | none => exact fun hP' => next_mono hm (afterAttrName_next h1 h2 h3 C none hP')
      | some c =>
        unfold MS.step Xml.step
        dsimp only
        split
        · exact fun _ =>
            next_ok (.run (.ent (.qname (h1.mono hm) (h2.mono hm) (h3.mono hm)) trivial ent_alloc (by simp)) C)
        · obtain ⟨a', ea, ha'⟩ := rep_add c h2 hN
          simp only [MS.onName, live, Res.ok_bind, ea]
          split
          · exact fun hP' => afterAttrName_next (h1.mono hm) ha' (h3.mono hm) C _ hP'
          · exact fun _ => next_ok (.run (.qname (h1.mono hm) ha' (h3.mono hm)) C)
    | @aname b a v n e an h1 h2 h3 =>
      have hP' : st = [] → (Xml.step ⟨.aname e an, st, root, o⟩ ch).pc = .done none → P :=
        fun a b => hP ⟨a, .inl ⟨core_head_root C a, trivial, b⟩⟩
      revert hP'
      cases ch with
      | none => exact fun hP' => next_mono hm (afterAttrName_next h1 h2 h3 C none hP')
      | some c =>
        unfold MS.step Xml.step
        dsimp only
        split
        · exact fun hP' => next_mono hm (afterAttrName_next h1 h2 h3 C _ hP')
        · split
          · exact fun _ =>
              next_ok (.run (.ent (.aname (h1.mono hm) (h2.mono hm) (h3.mono hm)) trivial ent_alloc (by simp)) C)
          · intro _
            obtain ⟨a', ea, ha'⟩ := rep_add c h2 hN
            simp only [MS.onName, live, Res.ok_bind, ea]
            exact next_ok (.run (.aname (h1.mono hm) ha' (h3.mono hm)) C)
    | @aeq b a v n e an h1 h2 h3 =>
      have hP' : st = [] → (Xml.step ⟨.aeq e an, st, root, o⟩ ch).pc = .done none → P :=
        fun a b => hP ⟨a, .inl ⟨core_head_root C a, trivial, b⟩⟩
      revert hP'
      cases ch with
      | none => exact fun hP' => attrError_next C (fun a => hP' a rfl)
      | some c =>
        unfold MS.step Xml.step
        dsimp only
        split
        · exact fun _ => next_ok (.run (.aeq (h1.mono hm) (h2.mono hm) (h3.mono hm)) C)
        · split
          · exact fun _ => next_ok (.run (.vskip (h1.mono hm) (h2.mono hm) (h3.mono hm)) C)
          · exact fun hP' => attrError_next C (fun a => hP' a rfl)
    | @vskip b a v n e an h1 h2 h3 =>
      cases ch with
      | none => exact attrError_next C (fun a => hP ⟨a, .inl ⟨core_head_root C a, trivial, rfl⟩⟩)
      | some c =>
        unfold MS.step Xml.step
        dsimp only
        split
        · exact next_ok (.run (.vskip (h1.mono hm) (h2.mono hm) (h3.mono hm)) C)
        · split
          · simp only [MS.onValue, live, Res.ok_bind]
            exact next_ok (.run (.qval (h1.mono hm) (h2.mono hm) (rep_reset (h3.mono hm))) C)
          · obtain ⟨v', ev, hv'⟩ := rep_start c h3 hN1
            simp only [MS.onValue, live, Res.ok_bind, ev]
            exact next_ok (.run (.uval (h1.mono hm) (h2.mono hm) (hv'.mono hm)) C)
    | qval h1 h2 h3 =>
      cases ch with
      | none => exact next_mono hm (afterValue_next h1 h2 h3 C none)
      | some c =>
        unfold MS.step Xml.step
        dsimp only
        split
        · exact next_mono hm (afterValue_next h1 h2 h3 C _)
        · split
          · exact next_ok (.run (.ent (.qval (h1.mono hm) (h2.mono hm) (h3.mono hm)) trivial ent_alloc (by simp)) C)
          · obtain ⟨a', ea, ha'⟩ := rep_add c h3 hN
            simp only [MS.onValue, live, Res.ok_bind, ea]
            exact next_ok (.run (.qval (h1.mono hm) (h2.mono hm) ha') C)
    | uval h1 h2 h3 =>
      cases ch with
      | none => exact next_mono hm (afterValue_next h1 h2 h3 C none)
      | some c =>
        unfold MS.step Xml.step
        dsimp only
        split
        · exact next_mono hm (afterValue_next h1 h2 h3 C _)
        · split
          · exact next_ok (.run (.ent (.uval (h1.mono hm) (h2.mono hm) (h3.mono hm)) trivial ent_alloc (by simp)) C)
          · obtain ⟨a', ea, ha'⟩ := rep_add c h3 hN
            simp only [MS.onValue, live, Res.ok_bind, ea]
            exact next_ok (.run (.uval (h1.mono hm) (h2.mono hm) ha') C)
    | @valSlash b a v n c e h1 h2 h3 =>
      have hP' : st = [] → (Xml.step ⟨.valSlash e c, st, root, o⟩ ch).pc = .done none → P :=
        fun a b => hP ⟨a, .inl ⟨core_head_root C a, trivial, b⟩⟩
      revert hP'
      unfold MS.step Xml.step
      dsimp only
      split
      · exact fun _ => next_mono hm (attrEnd_next h1 C _)
      · exact fun hP' => attrError_next C (fun a => hP' a rfl)
    | @ent k k' _ _ _ hd' _ e acc R hr he hz =>
      refine entity_next R hr C he hz hN ch (fun hne a y => ?_)
      cases hd with
      | none => exact absurd rfl hne
      | some x =>
        refine hP ⟨a, .inl ⟨core_head_root C a, ?_, y⟩⟩
        show InAttributes k'
        cases R <;> trivial

end

end Afs.ParseMem
