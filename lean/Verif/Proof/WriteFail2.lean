import Verif.Proof.WriteFail
/-!
# What gets through
-/
namespace Afs.Xml
open Afs Afs.Spec

theorem W.bind_run {α β : Type} (m : W α) (f : α → W β) (o : Out) : (m >>= f : W β) o =
    match m o with
    | (o, none) => (o, none)
    | (o, some a) => f a o := rfl

/-! ### Thinned -/

theorem _root_.Afs.Spec.Thinned.refl (t : Bytes) : Thinned t t := by
  induction t with
  | nil => exact .nil
  | cons c t ih => exact .keep ih

theorem _root_.Afs.Spec.Thinned.append {a b c d : Bytes} (h : Thinned a b) (h' : Thinned c d) : Thinned (a ++ c) (b ++ d) := by
  induction h with
  | nil => exact h'
  | keep _ ih => exact .keep ih
  | drop hc _ ih => exact .drop hc ih

/-- What is known of any run: a part of the text was dealt with, and got through but for white space. -/
def Through (t : Bytes) (o o' : Out) (done : Bool) : Prop :=
  ∃ p rest f, t = p ++ rest ∧ o'.file = o.file ++ f ∧ Thinned p f ∧ (done = true → rest = [])

theorem Through.trans {a b : Bytes} {o o' o'' : Out} {d : Bool} (h1 : Through a o o' true) (h2 : Through b o' o'' d) : Through (a ++ b) o o'' d := by
  obtain ⟨p, r, f, e1, e2, e3, e4⟩ := h1
  obtain ⟨p', r', f', e1', e2', e3', e4'⟩ := h2
  have hr := e4 rfl
  subst hr
  refine ⟨p ++ p', r', f ++ f', ?_, ?_, e3.append e3', e4'⟩
  · rw [e1, e1']; simp
  · rw [e2', e2]; simp

theorem Through.stop {a : Bytes} {o o' : Out} (h : Through a o o' false) (b : Bytes) : Through (a ++ b) o o' false := by
  obtain ⟨p, r, f, e1, e2, e3, -⟩ := h
  exact ⟨p, r ++ b, f, by rw [e1]; simp, e2, e3, by simp⟩

theorem through_putc (ok : Nat → Bool) (c : UInt8) (o : Out) : Through [c] o (wPutc ok c o).1 (wPutc ok c o).2.isSome := by
  unfold wPutc
  split
  · exact ⟨[c], [], [c], rfl, rfl, Thinned.refl _, fun _ => rfl⟩
  · exact ⟨[], [c], [], rfl, by simp, .nil, by simp⟩

theorem through_nil (o : Out) (d : Bool) : Through [] o o d := ⟨[], [], [], rfl, by simp, .nil, fun _ => rfl⟩

theorem through_bytes (ok : Nat → Bool) (t : Bytes) (o : Out) : Through t o (wBytes ok t o).1 (wBytes ok t o).2.isSome := by
  induction t generalizing o with
  | nil => exact through_nil o _
  | cons c t ih =>
    rw [wBytes, W.bind_run]
    have h := through_putc ok c o
    cases hm : wPutc ok c o with
    | mk o' r =>
      rw [hm] at h
      cases r with
      | none => exact h.stop t
      | some x => exact Through.trans h (ih o')

theorem thinned_white {w : Bytes} (h : ∀ c ∈ w, c = 32 ∨ c = 9 ∨ c = 10 ∨ c = 13) : Thinned w [] := by
  induction w with
  | nil => exact .nil
  | cons c w ih => exact .drop (h c (by simp)) (ih fun d hd => h d (by simp [hd]))

theorem through_ws (ok : Nat → Bool) (t : Bytes) (h : ∀ c ∈ t, c = 32 ∨ c = 9 ∨ c = 10 ∨ c = 13) (col : Int) (o : Out) :
    Through t o (wWs ok t col o).1 true ∧ (wWs ok t col o).2.isSome = true := by
  induction t generalizing o col with
  | nil => exact ⟨through_nil o _, rfl⟩
  | cons c t ih =>
    have hp := through_putc ok c o
    rw [wWs]
    dsimp only
    cases hm : wPutc ok c o with
    | mk o' r =>
      rw [hm] at hp
      cases r with
      | none =>
        refine ⟨⟨c :: t, [], [], by simp, ?_, thinned_white h, fun _ => rfl⟩, rfl⟩
        unfold wPutc at hm
        split at hm
        · cases hm
        · cases hm; simp
      | some x =>
        obtain ⟨h1, h2⟩ := ih (fun d hd => h d (by simp [hd])) (if c = 10 then 0 else if c = 9 then (col + 8) - (col + 8).tmod 8 else col + 1) o'
        exact ⟨Through.trans hp h1, h2⟩

/-- Only white space in the white tokens. -/
def WhiteToks (l : List Tok) : Prop := ∀ t, .white t ∈ l → ∀ c ∈ t, c = 32 ∨ c = 9 ∨ c = 10 ∨ c = 13

theorem through_toks (ok : Nat → Bool) (l : List Tok) (h : WhiteToks l) (col : Int) (o : Out) :
    Through (l.flatMap Tok.bytes) o (wToks ok l col o).1 (wToks ok l col o).2.isSome := by
  induction l generalizing o col with
  | nil => exact through_nil o _
  | cons x l ih =>
    have hl : WhiteToks l := fun t ht => h t (by simp [ht])
    rw [List.flatMap_cons]
    cases x with
    | solid t inc =>
      rw [wToks, W.bind_run]
      have hb := through_bytes ok t o
      cases hm : wBytes ok t o with
      | mk o' r =>
        rw [hm] at hb
        cases r with
        | none => exact hb.stop _
        | some x => exact Through.trans hb (ih hl _ o')
    | white t =>
      rw [wToks, W.bind_run]
      obtain ⟨h1, h2⟩ := through_ws ok t (h t (by simp)) col o
      cases hm : wWs ok t col o with
      | mk o' r =>
        rw [hm] at h1 h2
        cases r with
        | none => cases h2
        | some x => exact Through.trans h1 (ih hl _ o')

theorem tab_mono {col : Int} {c : Nat} (h0 : -1 ≤ col) (h : col ≤ c) :
    -1 ≤ (col + 8) - (col + 8).tmod 8 ∧ (col + 8) - (col + 8).tmod 8 ≤ ((c + 8 - (c + 8) % 8 : Nat) : Int) := by
  rw [Int.tmod_eq_emod_of_nonneg (by omega)]
  have h1 : ((c + 8 - (c + 8) % 8 : Nat) : Int) = (c : Int) + 8 - ((c : Int) + 8) % 8 := by omega
  rw [h1]
  omega

theorem ws_col (ok : Nat → Bool) (t : Bytes) {col : Int} {c : Nat} (h0 : -1 ≤ col) (h : col ≤ c) (o : Out) :
    ∃ r, (wWs ok t col o).2 = some r ∧ -1 ≤ r ∧ r ≤ colWs c t := by
  induction t generalizing o col c with
  | nil => exact ⟨col, rfl, h0, h⟩
  | cons x t ih =>
    rw [wWs, colWs]
    dsimp only
    cases hm : wPutc ok x o with
    | mk o' r =>
      cases r with
      | none => exact ⟨-1, rfl, by omega, by omega⟩
      | some y =>
        dsimp only
        split
        · exact ih (by omega) (by omega) o'
        · split
          · obtain ⟨h1, h2⟩ := tab_mono h0 h
            exact ih h1 h2 o'
          · exact ih (by omega) (by push_cast; omega) o'

theorem toks_run_col (ok : Nat → Bool) (l : List Tok) {col : Int} {c : Nat} (h0 : -1 ≤ col) (h : col ≤ c) (o : Out) :
    ∀ r, (wToks ok l col o).2 = some r → -1 ≤ r ∧ r ≤ colToks l c := by
  induction l generalizing o col c with
  | nil => intro r hr; cases hr; exact ⟨h0, h⟩
  | cons x l ih =>
    intro r
    cases x with
    | solid t inc =>
      rw [wToks, W.bind_run, colToks]
      cases wBytes ok t o with
      | mk o' q =>
        cases q with
        | none => intro hr; cases hr
        | some y => exact ih (by omega) (by push_cast; omega) o' r
    | white t =>
      rw [wToks, W.bind_run, colToks]
      obtain ⟨r', h1, h2, h3⟩ := ws_col ok t h0 h o
      cases hm : wWs ok t col o with
      | mk o' q =>
        rw [hm] at h1
        dsimp only at h1
        subst h1
        exact ih h2 h3 o' r

mutual
theorem toks_white {cb : SaveCb} (hcb : WhiteCb cb) : ∀ (anc : List Bytes) (t : Node), WhiteToks (toks cb anc t)
  | anc, .text s => by rw [toks]; intro t ht; simp at ht
  | anc, .elem n as [] => by
    rw [toks]
    intro t ht
    simp only [List.cons_append, List.nil_append, List.mem_cons, List.mem_append, List.mem_map, Tok.white.injEq, reduceCtorEq, and_false,
      exists_false, List.not_mem_nil, or_false, false_or] at ht
    rcases ht with rfl | rfl <;> exact hcb _ _ _
  | anc, .elem n as (x :: xs) => by
    rw [toks]
    intro t ht
    rw [List.mem_append, List.mem_append] at ht
    rcases ht with (ht | ht) | ht
    · simp only [List.cons_append, List.nil_append, List.mem_cons, List.mem_append, List.mem_map, Tok.white.injEq, reduceCtorEq, and_false,
        exists_false, List.not_mem_nil, or_false, false_or] at ht
      rcases ht with rfl | rfl <;> exact hcb _ _ _
    · exact toksList_white hcb _ _ t ht
    · split at ht
      · cases ht
      · simp only [List.mem_cons, Tok.white.injEq, reduceCtorEq, List.not_mem_nil, or_false, false_or] at ht
        rcases ht with rfl | rfl <;> exact hcb _ _ _
theorem toksList_white {cb : SaveCb} (hcb : WhiteCb cb) : ∀ (anc : List Bytes) (ts : List Node), WhiteToks (toksList cb anc ts)
  | anc, [] => by rw [toksList]; intro t ht; cases ht
  | anc, t :: ts => by
    rw [toksList]
    intro x hx
    rcases List.mem_append.mp hx with hx | hx
    · exact toks_white hcb anc t x hx
    · exact toksList_white hcb anc ts x hx
end

/-- Whatever fails: the file is a prefix of the text but for white space, and all of it (but for white space) if `mxmlSaveFile` returns 0. -/
theorem saveFileOn_thinned (ok : Nat → Bool) {cb : SaveCb} (hcb : WhiteCb cb) (n : Node) :
    ∃ p rest, saveText cb [] n = p ++ rest ∧ Thinned p (saveFileOn ok cb n).2 ∧ ((saveFileOn ok cb n).1 = true → rest = []) := by
  have ht := through_toks ok (toks cb [] n) (toks_white hcb [] n) 0 ⟨[], 0⟩
  rw [toks_bytes] at ht
  unfold saveFileOn saveText
  rw [wNode_eq]
  cases hm : wToks ok (toks cb [] n) 0 ⟨[], 0⟩ with
  | mk o r =>
    rw [hm] at ht
    have hnl : ∀ c : Nat, Thinned (if c > 0 then [10] else []) [] := by
      intro c; split
      · exact .drop (by simp) .nil
      · exact .nil
    cases r with
    | none =>
      dsimp only
      obtain ⟨p, rest, f, e1, e2, e3, -⟩ := ht
      refine ⟨p, _, by rw [e1, List.append_assoc], ?_, by simp⟩
      rw [e2]; exact e3
    | some col =>
      dsimp only
      obtain ⟨p, rest, f, e1, e2, e3, e4⟩ := ht
      have hr : rest = [] := e4 rfl
      subst hr
      have e2' : o.file = f := e2
      rw [List.append_nil] at e1
      rw [e1]
      have hall : Thinned (p ++ if colNode cb [] 0 n > 0 then [10] else []) f := by
        have := e3.append (hnl (colNode cb [] 0 n))
        rwa [List.append_nil] at this
      have hc := toks_run_col ok (toks cb [] n) (col := 0) (c := 0) (by omega) (by omega) ⟨[], 0⟩ col (by rw [hm])
      rw [toks_col] at hc
      by_cases h1 : col < 0
      · rw [if_pos h1]
        exact ⟨_, [], (List.append_nil _).symm, by rw [e2']; exact hall, fun _ => rfl⟩
      · rw [if_neg h1]
        by_cases h2 : col > 0
        · rw [if_pos h2]
          rw [if_pos (by omega)] at hall ⊢
          have hp := through_putc ok 10 o
          cases hq : wPutc ok 10 o with
          | mk o' q =>
            rw [hq] at hp
            cases q with
            | none =>
              unfold wPutc at hq
              split at hq
              · cases hq
              · cases hq
                exact ⟨_, [], (List.append_nil _).symm, by rw [e2']; exact hall, fun _ => rfl⟩
            | some x =>
              unfold wPutc at hq
              split at hq
              · cases hq
                exact ⟨_, [], (List.append_nil _).symm, by rw [e2']; exact e3.append (Thinned.refl _), fun _ => rfl⟩
              · cases hq
        · rw [if_neg h2]
          exact ⟨_, [], (List.append_nil _).symm, by rw [e2']; exact hall, fun _ => rfl⟩

/-! ### A disk that is full after `k` bytes -/

theorem full_ok (k : Nat) : ∀ i < k, fullAfter k i = true := by
  intro i hi
  simp [fullAfter, hi]

theorem full_putc {ok : Nat → Bool} {k : Nat} (hok : ∀ i < k, ok i = true) (c : UInt8) (o : Out) (h : o.calls < k) :
    wPutc ok c o = (⟨o.file ++ [c], o.calls + 1⟩, some ()) := by
  unfold wPutc
  rw [if_pos (hok _ h)]

theorem dead_putc {k : Nat} (c : UInt8) (o : Out) (h : k ≤ o.calls) : wPutc (fullAfter k) c o = (⟨o.file, o.calls + 1⟩, none) := by
  unfold wPutc fullAfter
  rw [if_neg (by simpa using h)]

theorem full_bytes {ok : Nat → Bool} {k : Nat} (hok : ∀ i < k, ok i = true) (t : Bytes) (o : Out) (h : o.calls + t.length ≤ k) :
    wBytes ok t o = (⟨o.file ++ t, o.calls + t.length⟩, some ()) := by
  induction t generalizing o with
  | nil => simp [wBytes]; rfl
  | cons c t ih =>
    rw [List.length_cons] at h
    rw [wBytes, W.bind_run, full_putc hok c o (by omega)]
    dsimp only
    rw [ih _ (by dsimp only; omega)]
    simp only [List.append_assoc, List.cons_append, List.nil_append, List.length_cons]
    rw [show o.calls + 1 + t.length = o.calls + (t.length + 1) by omega]

theorem cut_bytes {k : Nat} (t : Bytes) (o : Out) (h1 : o.calls ≤ k) (h2 : k < o.calls + t.length) :
    wBytes (fullAfter k) t o = (⟨o.file ++ t.take (k - o.calls), k + 1⟩, none) := by
  induction t generalizing o with
  | nil => simp at h2; omega
  | cons c t ih =>
    rw [List.length_cons] at h2
    rw [wBytes, W.bind_run]
    by_cases hk : o.calls < k
    · rw [full_putc (full_ok k) c o hk]
      dsimp only
      rw [ih ⟨o.file ++ [c], o.calls + 1⟩ (by dsimp only; omega) (by dsimp only; omega)]
      rw [show k - o.calls = (k - (o.calls + 1)) + 1 by omega]
      simp
    · rw [dead_putc c o (by omega)]
      rw [show k - o.calls = 0 by omega, show o.calls = k by omega]
      simp

theorem full_ws {ok : Nat → Bool} {k : Nat} (hok : ∀ i < k, ok i = true) (t : Bytes) (c : Nat) (o : Out) (h : o.calls + t.length ≤ k) :
    wWs ok t c o = (⟨o.file ++ t, o.calls + t.length⟩, some (colWs c t : Int)) := by
  induction t generalizing o c with
  | nil => simp [wWs, colWs]; rfl
  | cons x t ih =>
    rw [List.length_cons] at h
    rw [wWs, colWs]
    dsimp only
    rw [full_putc hok x o (by omega)]
    dsimp only
    have e : (if x = 10 then (0 : Int) else if x = 9 then ((c : Int) + 8) - ((c : Int) + 8).tmod 8 else (c : Int) + 1) =
        ((if x = 10 then 0 else if x = 9 then (c + 8) - (c + 8) % 8 else c + 1 : Nat) : Int) := by
      split
      · rfl
      · split
        · rw [Int.tmod_eq_emod_of_nonneg (by omega)]; omega
        · rfl
    rw [e, ih _ _ (by dsimp only; omega)]
    simp only [List.append_assoc, List.cons_append, List.nil_append, List.length_cons]
    rw [show o.calls + 1 + t.length = o.calls + (t.length + 1) by omega]

theorem cut_ws {k : Nat} (t : Bytes) (col : Int) (o : Out) (h1 : o.calls ≤ k) (h2 : k < o.calls + t.length) :
    wWs (fullAfter k) t col o = (⟨o.file ++ t.take (k - o.calls), k + 1⟩, some (-1)) := by
  induction t generalizing o col with
  | nil => simp at h2; omega
  | cons c t ih =>
    rw [List.length_cons] at h2
    rw [wWs]
    dsimp only
    by_cases hk : o.calls < k
    · rw [full_putc (full_ok k) c o hk]
      dsimp only
      rw [ih _ ⟨o.file ++ [c], o.calls + 1⟩ (by dsimp only; omega) (by dsimp only; omega)]
      rw [show k - o.calls = (k - (o.calls + 1)) + 1 by omega]
      simp
    · rw [dead_putc c o (by omega)]
      rw [show k - o.calls = 0 by omega, show o.calls = k by omega]
      simp

/-- Behind the failure: nothing more is written, and the result is −1 in one way or the other. -/
def Dead (k : Nat) (file : Bytes) (r : Out × Option Int) : Prop := k < r.1.calls ∧ r.1.file = file ∧ (r.2 = none ∨ r.2 = some (-1))

theorem dead_bytes {k : Nat} (t : Bytes) (o : Out) (h : k < o.calls) :
    t = [] ∧ wBytes (fullAfter k) t o = (o, some ()) ∨ ∃ n, k < n ∧ wBytes (fullAfter k) t o = (⟨o.file, n⟩, none) := by
  cases t with
  | nil => exact .inl ⟨rfl, rfl⟩
  | cons c t =>
    refine .inr ⟨o.calls + 1, by omega, ?_⟩
    rw [wBytes, W.bind_run, dead_putc c o (by omega)]

theorem dead_ws {k : Nat} (t : Bytes) (o : Out) (h : k < o.calls) :
    ∃ n, k < n ∧ wWs (fullAfter k) t (-1) o = (⟨o.file, n⟩, some (-1)) := by
  cases t with
  | nil => exact ⟨o.calls, h, rfl⟩
  | cons c t =>
    refine ⟨o.calls + 1, by omega, ?_⟩
    rw [wWs]
    dsimp only
    rw [dead_putc c o (by omega)]

/-- Tokens without bytes have no width. -/
def NoGhost (l : List Tok) : Prop := ∀ inc, .solid [] inc ∈ l → inc = 0

theorem dead_toks {k : Nat} (l : List Tok) (hg : NoGhost l) (o : Out) (h : k < o.calls) : Dead k o.file (wToks (fullAfter k) l (-1) o) := by
  induction l generalizing o with
  | nil => exact ⟨h, rfl, .inr rfl⟩
  | cons x l ih =>
    have hl : NoGhost l := fun inc hi => hg inc (by simp [hi])
    cases x with
    | solid t inc =>
      rw [wToks, W.bind_run]
      rcases dead_bytes t o h with ⟨rfl, e⟩ | ⟨n, hn, e⟩
      · rw [e]
        dsimp only
        have := hg inc (by simp)
        subst this
        exact ih hl o h
      · rw [e]
        exact ⟨hn, rfl, .inl rfl⟩
    | white t =>
      rw [wToks, W.bind_run]
      obtain ⟨n, hn, e⟩ := dead_ws t o h
      rw [e]
      exact ih hl ⟨o.file, n⟩ hn

theorem full_toks {ok : Nat → Bool} {k : Nat} (hok : ∀ i < k, ok i = true) (l : List Tok) (c : Nat) (o : Out) (h : o.calls + (l.flatMap Tok.bytes).length ≤ k) :
    wToks ok l c o = (⟨o.file ++ l.flatMap Tok.bytes, o.calls + (l.flatMap Tok.bytes).length⟩, some (colToks l c : Int)) := by
  induction l generalizing o c with
  | nil => simp [wToks, colToks]; rfl
  | cons x l ih =>
    rw [List.flatMap_cons, List.length_append] at h
    cases x with
    | solid t inc =>
      rw [wToks, W.bind_run, full_bytes hok t o (by simp only [Tok.bytes] at h; omega)]
      dsimp only
      have := ih (c + inc) ⟨o.file ++ t, o.calls + t.length⟩ (by simp only [Tok.bytes] at h ⊢; omega)
      rw [show ((c : Int) + (inc : Int)) = ((c + inc : Nat) : Int) by push_cast; rfl, this]
      simp [Tok.bytes, colToks, Nat.add_assoc]
    | white t =>
      rw [wToks, W.bind_run, full_ws hok t c o (by simp only [Tok.bytes] at h; omega)]
      dsimp only
      rw [ih (colWs c t) ⟨o.file ++ t, o.calls + t.length⟩ (by simp only [Tok.bytes] at h ⊢; omega)]
      simp [Tok.bytes, colToks, Nat.add_assoc]

theorem cut_toks {k : Nat} (l : List Tok) (hg : NoGhost l) (c : Nat) (o : Out) (h1 : o.calls ≤ k) (h2 : k < o.calls + (l.flatMap Tok.bytes).length) :
    Dead k (o.file ++ (l.flatMap Tok.bytes).take (k - o.calls)) (wToks (fullAfter k) l c o) := by
  induction l generalizing o c with
  | nil => simp at h2; omega
  | cons x l ih =>
    have hl : NoGhost l := fun inc hi => hg inc (by simp [hi])
    rw [List.flatMap_cons, List.length_append] at h2
    rw [List.flatMap_cons, List.take_append]
    cases x with
    | solid t inc =>
      simp only [Tok.bytes] at h2 ⊢
      rw [wToks, W.bind_run]
      by_cases hk : o.calls + t.length ≤ k
      · rw [full_bytes (full_ok k) t o hk]
        dsimp only
        rw [show ((c : Int) + (inc : Int)) = ((c + inc : Nat) : Int) by push_cast; rfl]
        have := ih hl (c + inc) ⟨o.file ++ t, o.calls + t.length⟩ hk (by dsimp only; omega)
        dsimp only at this
        rw [List.take_of_length_le (by omega), ← List.append_assoc, show k - o.calls - t.length = k - (o.calls + t.length) by omega]
        exact this
      · rw [cut_bytes t o h1 (by omega)]
        dsimp only
        rw [show k - o.calls - t.length = 0 by omega, List.take_zero, List.append_nil]
        exact ⟨by dsimp only; omega, rfl, .inl rfl⟩
    | white t =>
      simp only [Tok.bytes] at h2 ⊢
      rw [wToks, W.bind_run]
      by_cases hk : o.calls + t.length ≤ k
      · rw [full_ws (full_ok k) t c o hk]
        dsimp only
        have := ih hl (colWs c t) ⟨o.file ++ t, o.calls + t.length⟩ hk (by dsimp only; omega)
        dsimp only at this
        rw [List.take_of_length_le (by omega), ← List.append_assoc, show k - o.calls - t.length = k - (o.calls + t.length) by omega]
        exact this
      · rw [cut_ws t c o h1 (by omega)]
        dsimp only
        rw [show k - o.calls - t.length = 0 by omega, List.take_zero, List.append_nil]
        exact dead_toks l hl ⟨o.file ++ t.take (k - o.calls), k + 1⟩ (by dsimp only; omega)

theorem writeString_empty {s : Bytes} (h : writeString s = []) : s = [] := by
  cases s with
  | nil => rfl
  | cons c s =>
    rw [writeString] at h
    split at h <;> simp at h

theorem ghost_attrs (as : List (Bytes × Option Bytes)) : NoGhost (as.map fun a => .solid (writeAttr a) (attrWidth a)) := by
  intro inc hi
  obtain ⟨a, -, e⟩ := List.mem_map.mp hi
  injection e with e _
  unfold writeAttr at e
  simp at e

theorem NoGhost.append {a b : List Tok} (h1 : NoGhost a) (h2 : NoGhost b) : NoGhost (a ++ b) := by
  intro inc hi
  rcases List.mem_append.mp hi with hi | hi
  · exact h1 inc hi
  · exact h2 inc hi

mutual
theorem toks_ghost (cb : SaveCb) : ∀ (anc : List Bytes) (t : Node), NoGhost (toks cb anc t)
  | anc, .text s => by
    rw [toks]
    intro inc hi
    simp only [List.mem_singleton, Tok.solid.injEq] at hi
    rw [hi.2, writeString_empty hi.1.symm]
    rfl
  | anc, .elem n as [] => by
    rw [toks]
    refine NoGhost.append (NoGhost.append ?_ (ghost_attrs as)) ?_
    · intro inc hi; simp at hi
    · intro inc hi
      split at hi <;> simp at hi
  | anc, .elem n as (x :: xs) => by
    rw [toks]
    refine NoGhost.append (NoGhost.append (NoGhost.append (NoGhost.append ?_ (ghost_attrs as)) ?_) (toksList_ghost cb _ _)) ?_
    · intro inc hi; simp at hi
    · intro inc hi; simp at hi
    · intro inc hi
      split at hi <;> simp at hi
theorem toksList_ghost (cb : SaveCb) : ∀ (anc : List Bytes) (ts : List Node), NoGhost (toksList cb anc ts)
  | anc, [] => by rw [toksList]; intro inc hi; cases hi
  | anc, t :: ts => by
    rw [toksList]
    exact (toks_ghost cb anc t).append (toksList_ghost cb anc ts)
end

/-- A disk that takes `k` bytes holds exactly the first `k` bytes of the text; `mxmlSaveFile` returns 0 exactly if that is all. -/
theorem saveFileOn_full (k : Nat) (cb : SaveCb) (n : Node) :
    saveFileOn (fullAfter k) cb n = (decide ((saveText cb [] n).length ≤ k), (saveText cb [] n).take k) := by
  unfold saveFileOn saveText
  rw [wNode_eq, ← toks_bytes, ← toks_col]
  have hg := toks_ghost cb [] n
  generalize toks cb [] n = l at hg ⊢
  by_cases hk : (l.flatMap Tok.bytes).length ≤ k
  · have h := full_toks (full_ok k) l 0 ⟨[], 0⟩ (by dsimp only; omega)
    have h' : wToks (fullAfter k) l 0 ⟨[], 0⟩ = (⟨l.flatMap Tok.bytes, (l.flatMap Tok.bytes).length⟩, some (colToks l 0 : Int)) := by
      have e : (0 : Int) = ((0 : Nat) : Int) := rfl
      rw [e, h]; simp
    rw [h']
    dsimp only
    rw [if_neg (by omega)]
    by_cases hc : colToks l 0 > 0
    · rw [if_pos (by omega), if_pos hc]
      by_cases hk' : (l.flatMap Tok.bytes).length < k
      · rw [full_putc (full_ok k) _ _ hk']
        dsimp only
        rw [List.take_of_length_le (by rw [List.length_append, List.length_singleton]; omega)]
        simp only [List.length_append, List.length_singleton, Prod.mk.injEq, and_true]
        exact (decide_eq_true (by omega)).symm
      · rw [dead_putc _ _ (by dsimp only; omega)]
        dsimp only
        rw [List.take_append, List.take_of_length_le (by omega), show k - (l.flatMap Tok.bytes).length = 0 by omega]
        simp only [List.take_zero, List.append_nil, Prod.mk.injEq, and_true, List.length_append, List.length_singleton]
        exact (decide_eq_false (by omega)).symm
    · rw [if_neg (by omega), if_neg hc, List.append_nil, List.take_of_length_le hk, decide_eq_true hk]
  · obtain ⟨h1, h2, h3⟩ := cut_toks (k := k) l hg 0 ⟨[], 0⟩ (by dsimp only; omega) (by dsimp only; omega)
    have e : ((0 : Nat) : Int) = 0 := rfl
    rw [e] at h1 h2 h3
    simp only [Nat.sub_zero, List.nil_append] at h2
    have h4 : decide ((l.flatMap Tok.bytes ++ if colToks l 0 > 0 then [10] else []).length ≤ k) = false := by
      rw [List.length_append]
      exact decide_eq_false (by omega)
    have h5 : (l.flatMap Tok.bytes ++ if colToks l 0 > 0 then [10] else []).take k = (l.flatMap Tok.bytes).take k := by
      rw [List.take_append, show k - (l.flatMap Tok.bytes).length = 0 by omega]; simp
    rw [h4, h5]
    cases hm : wToks (fullAfter k) l 0 ⟨[], 0⟩ with
    | mk o r =>
      rw [hm] at h1 h2 h3
      dsimp only at h1 h2 h3
      rcases h3 with rfl | rfl
      · dsimp only; rw [h2]
      · dsimp only; rw [if_pos (by omega), h2]

/-- Without failures the file holds the text. -/
theorem saveFileOn_good (cb : SaveCb) (n : Node) : saveFileOn noFailure cb n = (true, saveText cb [] n) := by
  unfold saveFileOn saveText
  rw [wNode_eq, ← toks_bytes, ← toks_col]
  generalize toks cb [] n = l
  have hok : ∀ k, ∀ i < k, noFailure i = true := fun _ _ _ => rfl
  have h := full_toks (hok (l.flatMap Tok.bytes).length) l 0 ⟨[], 0⟩ (by dsimp only; omega)
  have h' : wToks noFailure l 0 ⟨[], 0⟩ = (⟨l.flatMap Tok.bytes, (l.flatMap Tok.bytes).length⟩, some (colToks l 0 : Int)) := by
    have e : (0 : Int) = ((0 : Nat) : Int) := rfl
    rw [e, h]; simp
  rw [h']
  dsimp only
  rw [if_neg (by omega)]
  by_cases hc : colToks l 0 > 0
  · rw [if_pos (by omega), if_pos hc, full_putc (hok ((l.flatMap Tok.bytes).length + 1)) _ _ (by dsimp only; omega)]
  · rw [if_neg (by omega), if_neg hc, List.append_nil]

end Afs.Xml
