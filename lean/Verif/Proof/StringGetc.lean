import Verif.Proof.XmlBytes
import Verif.Model.Xml.StringGetc
import Verif.Spec.Utf16
/-!
# `mxml_string_getc` in memory against `decode`
-/
namespace Afs.Xml
open Afs Afs.Spec

theorem _root_.Afs.Spec.NoMark.suffix {s t : Bytes} (h : NoMark s) (hs : t <:+ s) : NoMark t :=
  ⟨fun x => h.1 (x.trans hs.isInfix), fun x => h.2 (x.trans hs.isInfix)⟩

/-- What one call on `s`, terminator and anything behind does. -/
def GetcOk (s tail : Bytes) : Prop :=
  ∃ x s', s' <:+ s ∧ getcUtf8 (s ++ 0 :: tail) = .ok (x, .utf8, s' ++ 0 :: tail) ∧
    ((decode s = [] ∧ x = none ∧ s' = []) ∨ decode s = x :: decode s')

theorem not_cont_zero : isCont 0 = false := by decide

theorem getc_ok (tail : Bytes) : ∀ (n : Nat) (s : Bytes), s.length ≤ n → (0 : UInt8) ∉ s → NoMark s → GetcOk s tail := by
  intro n
  induction n with
  | zero =>
    intro s hl _ _
    have : s = [] := by simpa using hl
    subst this
    refine ⟨none, [], List.suffix_refl _, ?_, .inl ⟨by rw [decode], rfl, rfl⟩⟩
    rw [List.nil_append, getcUtf8.eq_def]
    simp
  | succ n ih =>
    intro s hl h0 hm
    cases s with
    | nil =>
      refine ⟨none, [], List.suffix_refl _, ?_, .inl ⟨by rw [decode], rfl, rfl⟩⟩
      rw [List.nil_append, getcUtf8.eq_def]
      simp
    | cons b s =>
      have hb0 : b ≠ 0 := fun h => h0 (by simp [h])
      have hs0 : (0 : UInt8) ∉ s := fun h => h0 (by simp [h])
      have hsuf : s <:+ b :: s := List.suffix_cons _ _
      unfold GetcOk
      rw [List.cons_append, getcUtf8.eq_def, decode.eq_def]
      simp only [hb0, if_false]
      have hbad : badUnit b.toNat = badChar b.toNat := by unfold badUnit; rfl
      by_cases a1 : b.toNat < 128
      · simp only [a1, if_true]
        exact ⟨_, s, hsuf, rfl, .inr (by rw [hbad])⟩
      simp only [a1, if_false]
      by_cases a2 : b.toNat = 254
      · simp only [a2, if_true, show ¬ (192 ≤ 254 ∧ 254 < 224) by omega, show ¬ (224 ≤ 254 ∧ 254 < 240) by omega,
          show ¬ (240 ≤ 254 ∧ 254 < 248) by omega, if_false]
        refine ⟨none, s, hsuf, ?_, .inr rfl⟩
        cases s with
        | nil => simp [peek]
        | cons c cs =>
          have : c.toNat ≠ 255 := by
            intro hc
            refine hm.1 ?_
            have e1 : b = 254 := UInt8.toNat_inj.mp a2
            have e2 : c = 255 := UInt8.toNat_inj.mp hc
            rw [e1, e2]
            exact ⟨[], cs, rfl⟩
          simp [peek, this]
      simp only [a2, if_false]
      by_cases a3 : b.toNat = 255
      · simp only [a3, if_true, show ¬ (192 ≤ 255 ∧ 255 < 224) by omega, show ¬ (224 ≤ 255 ∧ 255 < 240) by omega,
          show ¬ (240 ≤ 255 ∧ 255 < 248) by omega, if_false]
        refine ⟨none, s, hsuf, ?_, .inr rfl⟩
        cases s with
        | nil => simp [peek]
        | cons c cs =>
          have : c.toNat ≠ 254 := by
            intro hc
            refine hm.2 ?_
            have e1 : b = 255 := UInt8.toNat_inj.mp a3
            have e2 : c = 254 := UInt8.toNat_inj.mp hc
            rw [e1, e2]
            exact ⟨[], cs, rfl⟩
          simp [peek, this]
      simp only [a3, if_false]
      by_cases a4 : 192 ≤ b.toNat ∧ b.toNat < 224
      · simp only [a4, and_self, if_true]
        cases s with
        | nil => exact ⟨none, [], by simp, by simp [contByte, peek, not_cont_zero], .inr (by rw [decode])⟩
        | cons c cs =>
          by_cases hc : isCont c = true
          · simp only [List.cons_append, contByte, peek, hc, if_true]
            exact ⟨_, cs, (List.suffix_cons _ _).trans hsuf, rfl, .inr rfl⟩
          · simp only [List.cons_append, contByte, peek, hc, if_false, Bool.false_eq_true]
            exact ⟨_, c :: cs, hsuf, rfl, .inr rfl⟩
      simp only [a4, if_false]
      by_cases a5 : 224 ≤ b.toNat ∧ b.toNat < 240
      · simp only [a5, and_self, if_true]
        cases s with
        | nil => exact ⟨none, [], by simp, by simp [not_cont_zero], .inr (by rw [decode])⟩
        | cons c cs =>
          by_cases hc : isCont c = true
          · cases cs with
            | nil => exact ⟨none, [c], hsuf, by simp [hc, not_cont_zero], .inr rfl⟩
            | cons d ds =>
              by_cases hd : isCont d = true
              · have h2 : ds <:+ b :: c :: d :: ds := ⟨[b, c, d], rfl⟩
                simp only [List.cons_append, hc, hd, and_self, if_true]
                generalize (b.toNat % 16 * 64 + c.toNat % 64) * 64 + d.toNat % 64 = v
                by_cases v1 : v < 2048
                · simp only [v1, if_true]; exact ⟨none, ds, h2, rfl, .inr rfl⟩
                simp only [v1, if_false]
                by_cases v2 : v = 65279
                · simp only [v2, if_true]
                  obtain ⟨x, s', e1, e2, e3⟩ := ih ds (by simp at hl; omega)
                    (fun h => h0 (by simp [h])) (hm.suffix h2)
                  exact ⟨x, s', e1.trans h2, e2, e3⟩
                · simp only [v2, if_false]; exact ⟨_, ds, h2, rfl, .inr rfl⟩
              · exact ⟨none, c :: d :: ds, hsuf, by simp [hc, hd], .inr (by simp [hd])⟩
          · cases cs with
            | nil => exact ⟨none, [c], hsuf, by simp [hc], .inr rfl⟩
            | cons d ds => exact ⟨none, c :: d :: ds, hsuf, by simp [hc], .inr (by simp [hc])⟩
      simp only [a5, if_false]
      by_cases a6 : 240 ≤ b.toNat ∧ b.toNat < 248
      · simp only [a6, and_self, if_true]
        match s with
        | [] => exact ⟨none, [], by simp, by simp [contByte, peek, not_cont_zero], .inr (by rw [decode])⟩
        | [c] =>
          exact ⟨none, [c], hsuf, by by_cases hc : isCont c = true <;> simp [contByte, peek, not_cont_zero, hc], .inr rfl⟩
        | [c, d] =>
          refine ⟨none, [c, d], hsuf, ?_, .inr rfl⟩
          by_cases hc : isCont c = true <;> by_cases hd : isCont d = true <;> simp [contByte, peek, not_cont_zero, hc, hd]
        | c :: d :: e :: es =>
          by_cases hc : isCont c = true
          · by_cases hd : isCont d = true
            · by_cases he : isCont e = true
              · refine ⟨_, es, ⟨[b, c, d, e], rfl⟩, by simp only [List.cons_append, contByte, peek, hc, hd, he, if_true]; rfl, .inr ?_⟩
                simp only [hc, hd, he, and_self, if_true]
              · exact ⟨none, c :: d :: e :: es, hsuf, by simp [contByte, peek, hc, hd, he], .inr (by simp [he])⟩
            · exact ⟨none, c :: d :: e :: es, hsuf, by simp [contByte, peek, hc, hd], .inr (by simp [hd])⟩
          · exact ⟨none, c :: d :: e :: es, hsuf, by simp [contByte, peek, hc], .inr (by simp [hc])⟩
      simp only [a6, if_false]
      exact ⟨none, s, hsuf, rfl, .inr rfl⟩

theorem run_done' {s : PS} {r : Option Node} (h : s.pc = .done r) : ∀ l : List (Option Nat), (run s l).result = r := by
  intro l
  induction l generalizing s with
  | nil => simp [run, PS.result, h]
  | cons a l ih => exact ih (s := step s a) (by simp [step, h])

/-- Pulling from memory is running over the decoded text and three `EOF`s. -/
theorem loadMem_run (tail : Bytes) : ∀ (n : Nat) (s : PS) (t : Bytes) (e : Nat), (0 : UInt8) ∉ t → NoMark t →
    (∃ r, (run s (decode t ++ List.replicate e none)).pc = .done r) → (decode t).length + e ≤ n →
    loadMem n s .utf8 (t ++ 0 :: tail) = .ok (some (run s (decode t ++ List.replicate e none)).result) := by
  intro n
  induction n with
  | zero =>
    intro s t e h0 hm ⟨r, hr⟩ hn
    have h1 : decode t = [] := List.eq_nil_of_length_eq_zero (by omega)
    have h2 : e = 0 := by omega
    subst h2
    rw [h1] at hr ⊢
    simp only [List.replicate_zero, List.append_nil] at hr ⊢
    have hr' : s.pc = .done r := hr
    simp only [loadMem, hr']
    rw [show run s [] = s from rfl]
    simp [PS.result, hr']
  | succ n ih =>
    intro s t e h0 hm hd hn
    unfold loadMem
    split
    · rename_i r hr
      rw [run_done' hr]
    · rename_i hpc
      obtain ⟨x, s', e1, e2, e3⟩ := getc_ok tail t.length t (Nat.le_refl _) h0 hm
      simp only [stringGetc, e2, Res.bind]
      have h0' : (0 : UInt8) ∉ s' := fun h => h0 (e1.subset h)
      rcases e3 with ⟨e3, rfl, rfl⟩ | e3
      · cases e with
        | zero =>
          exfalso
          obtain ⟨r, hr⟩ := hd
          rw [e3] at hr
          exact hpc r hr
        | succ e =>
          rw [e3] at hd ⊢
          have hnil : decode [] = [] := by rw [decode]
          have := ih (step s none) [] e (by simp) (hm.suffix e1)
            (by rw [hnil]; simpa [List.replicate_succ, run] using hd) (by rw [hnil]; rw [e3] at hn; simp at hn ⊢; omega)
          rw [this, hnil]
          simp [List.replicate_succ, run]
      · rw [e3] at hd hn ⊢
        have := ih (step s x) s' e h0' (hm.suffix e1) (by simpa [run] using hd) (by simp at hn ⊢; omega)
        rw [this]
        simp [run]

/-- Reading a letter outside ASCII in front of the document. -/
theorem step_wide (buf : Bytes) (st : List Frame) (root : Option Node) (o : Bool) {c : Nat} (h : 256 ≤ c) :
    ∃ buf', step ⟨.main buf, st, root, o⟩ (some c) = ⟨.main buf', st, root, o⟩ := by
  have h1 : isSpace c = false := by unfold isSpace; simp; omega
  have h2 : c ≠ 60 := by omega
  have h3 : c ≠ 38 := by omega
  exact ⟨buf ++ addChar c, by simp [step, h1, h2, h3]⟩

theorem unit_wide {be : Bool} {a b : UInt8} (ha : a ≠ 0) (hb : b ≠ 0) : 256 ≤ unit16 be a b := by
  have : a.toNat ≠ 0 := fun h => ha (UInt8.toNat_inj.mp h)
  have : b.toNat ≠ 0 := fun h => hb (UInt8.toNat_inj.mp h)
  unfold unit16
  split <;> omega

theorem not_bad_wide {c : Nat} (h : 256 ≤ c) : badUnit c = false := by
  unfold badUnit; exact badChar_allowed (by omega)

theorem not_high {be : Bool} {a b : UInt8} (ha : a.toNat < 216) (hb : b.toNat < 216) : isHighUnit (unit16 be a b) = false := by
  unfold isHighUnit unit16
  cases be <;> simp <;> omega

/-- After FF FE and an even number of bytes the reader goes on behind the terminator. -/
theorem le_overread : ∀ (n : Nat) (s : Bytes), s.length = 2 * n → (∀ b ∈ s, b ≠ 0 ∧ b.toNat < 216) →
    ∀ (m : Nat) (buf : Bytes) (st : List Frame) (root : Option Node) (o : Bool), n + 1 ≤ m →
    loadMem m ⟨.main buf, st, root, o⟩ .le (s ++ [0]) = .ub
  | 0, s, hl, _, m, buf, st, root, o, hm => by
    have : s = [] := by simpa using hl
    subst this
    obtain ⟨m, rfl⟩ : ∃ k, m = k + 1 := ⟨m - 1, by omega⟩
    simp [loadMem, stringGetc, getc16, getcLE, peek, Res.bind]
  | n + 1, [], hl, _, _, _, _, _, _, _ => by simp at hl
  | n + 1, [_], hl, _, _, _, _, _, _, _ => by simp at hl; omega
  | n + 1, a :: b :: r, hl, hs, m, buf, st, root, o, hm => by
    obtain ⟨m, rfl⟩ : ∃ k, m = k + 1 := ⟨m - 1, by omega⟩
    have ha := hs a (by simp)
    have hb := hs b (by simp)
    have hw := unit_wide (be := false) ha.1 hb.1
    have hz : unit16 false a b ≠ 0 := by omega
    obtain ⟨buf', hstep⟩ := step_wide buf st root o hw
    simp only [loadMem, stringGetc, getc16, getcLE, peek, List.cons_append, Bool.false_eq_true, if_false, hz, not_bad_wide hw,
      not_high ha.2 hb.2, Res.bind]
    rw [hstep]
    exact le_overread n r (by simp at hl; omega) (fun x hx => hs x (by simp [hx])) m buf' st root o (by omega)

/-- After FE FF and an odd number of bytes as well: the last one is paired with the terminator. -/
theorem be_overread : ∀ (n : Nat) (s : Bytes), s.length = 2 * n + 1 → (∀ b ∈ s, b ≠ 0 ∧ b.toNat < 216) →
    ∀ (m : Nat) (buf : Bytes) (st : List Frame) (root : Option Node) (o : Bool), n + 2 ≤ m →
    loadMem m ⟨.main buf, st, root, o⟩ .be (s ++ [0]) = .ub
  | _, [], hl, _, _, _, _, _, _, _ => by simp at hl
  | n, [a], hl, hs, m, buf, st, root, o, hm => by
    obtain ⟨m, rfl⟩ : ∃ k, m = k + 1 := ⟨m - 1, by omega⟩
    obtain ⟨m, rfl⟩ : ∃ k, m = k + 1 := ⟨m - 1, by omega⟩
    have ha := hs a (by simp)
    have ha0 : a.toNat ≠ 0 := fun h => ha.1 (UInt8.toNat_inj.mp h)
    have hw : 256 ≤ unit16 true a 0 := by unfold unit16; simp; omega
    have hh : isHighUnit (unit16 true a 0) = false := not_high ha.2 (by decide)
    obtain ⟨buf', hstep⟩ := step_wide buf st root o hw
    simp only [loadMem, stringGetc, getc16, getcBE, peek, List.cons_append, List.nil_append, Bool.false_eq_true, if_false, if_true,
      ha.1, not_bad_wide hw, hh, Res.bind]
    rw [hstep]
  | 0, _ :: _ :: _, hl, _, _, _, _, _, _, _ => by simp at hl
  | n + 1, a :: b :: r, hl, hs, m, buf, st, root, o, hm => by
    obtain ⟨m, rfl⟩ : ∃ k, m = k + 1 := ⟨m - 1, by omega⟩
    have ha := hs a (by simp)
    have hb := hs b (by simp)
    have hw := unit_wide (be := true) ha.1 hb.1
    obtain ⟨buf', hstep⟩ := step_wide buf st root o hw
    simp only [loadMem, stringGetc, getc16, getcBE, peek, List.cons_append, Bool.false_eq_true, if_false, if_true, ha.1, not_bad_wide hw,
      not_high ha.2 hb.2, Res.bind]
    rw [hstep]
    exact be_overread n r (by simp at hl; omega) (fun x hx => hs x (by simp [hx])) m buf' st root o (by omega)

end Afs.Xml
