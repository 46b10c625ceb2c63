import Verif.Model.Table
import Verif.Spec.Table
import Verif.Proof.Numbers
/-!
# The text tables: digits, loops, buffers
-/
namespace Afs
open Spec

/-! ## Digits -/

theorem decFuel_length_succ (f g n : Nat) (hf : n < f) (hg : n < g) :
    (decFuel f n).length = (decFuel g n).length := by
  induction f generalizing n g with
  | zero => omega
  | succ f ih =>
    cases g with
    | zero => omega
    | succ g =>
      rw [decFuel, decFuel]
      by_cases h : n < 10
      · rw [if_pos h, if_pos h]
        try rfl
      · rw [if_neg h, if_neg h]
        simp only [List.length_append, List.length_cons, List.length_nil]
        rw [ih g (n / 10) (by omega) (by omega)]

theorem printNat_length (n : Nat) :
    (printNat n).length = if n < 10 then 1 else (printNat (n / 10)).length + 1 := by
  conv => lhs; rw [printNat, decFuel]
  by_cases h : n < 10
  · rw [if_pos h, if_pos h]; rfl
  · rw [if_neg h, if_neg h]
    simp only [List.length_append, List.length_cons, List.length_nil]
    rw [printNat, decFuel_length_succ n (n / 10 + 1) (n / 10) (by omega) (by omega)]

theorem uDigitsFuel_eq (f n : Nat) (h : n < f) : uDigitsFuel f n = (printNat n).length := by
  induction f generalizing n with
  | zero => omega
  | succ f ih =>
    rw [uDigitsFuel, printNat_length]
    by_cases h' : n < 10
    · rw [if_pos h', if_neg (by omega)]
    · rw [if_neg h', if_pos (by omega), ih (n / 10) (by omega)]; omega

theorem uDigits_eq (n : Nat) : uDigits n = lenNat n := uDigitsFuel_eq _ _ (by omega)

theorem tdiv_natAbs (n : Int) : (n.tdiv 10).natAbs = n.natAbs / 10 := by
  rw [Int.natAbs_tdiv]; rfl

theorem tdiv_ne (n : Int) : n.tdiv 10 ≠ 0 ↔ ¬ n.natAbs < 10 := by
  have := tdiv_natAbs n
  constructor
  · intro h; intro h'
    have : (n.tdiv 10).natAbs = 0 := by omega
    exact h (Int.natAbs_eq_zero.mp this)
  · intro h h'
    rw [h'] at this; simp at this; omega

theorem tdiv_neg (n : Int) (h : ¬ n.natAbs < 10) : n.tdiv 10 < 0 ↔ n < 0 := by
  constructor
  · intro hn
    apply Decidable.byContradiction
    intro h'
    have := Int.tdiv_nonneg (a := n) (b := 10) (by omega) (by omega)
    omega
  · intro hn
    have hne := (tdiv_ne n).mpr h
    have h2 := Int.neg_tdiv (a := n) (b := 10)
    have := Int.tdiv_nonneg (a := -n) (b := 10) (by omega) (by omega)
    omega

theorem lenInt_eq (i : Int) : lenInt i = (if i < 0 then 1 else 0) + lenNat i.natAbs := by
  unfold lenInt lenNat printInt
  split <;> simp; omega

theorem digitsCountFuel_eq (f : Nat) (n : Int) (h : n.natAbs < f) : digitsCountFuel f n = lenInt n := by
  induction f generalizing n with
  | zero => omega
  | succ f ih =>
    rw [digitsCountFuel, lenInt_eq, lenNat, printNat_length]
    by_cases h' : n.natAbs < 10
    · have hz : n.tdiv 10 = 0 := Decidable.byContradiction fun e => (tdiv_ne n).mp e h'
      rw [if_pos h']
      by_cases hn : n < 0
      · simp [hn, hz]
      · simp [hn, hz]
    · rw [if_neg h', if_pos ((tdiv_ne n).mpr h'), ih _ (by rw [tdiv_natAbs]; omega), lenInt_eq, tdiv_natAbs]
      have hp : 0 < lenNat (n.natAbs / 10) := List.length_pos_iff.mpr (printNat_ne _)
      have hs := tdiv_neg n h'
      by_cases hn : n < 0
      · simp only [hs.mpr hn, hn, if_true, true_and]
        rw [if_neg (by omega)]; unfold lenNat; omega
      · simp only [mt hs.mp hn, hn, if_false, false_and]
        unfold lenNat; omega

theorem digitsCount_eq (n : Int) : digitsCount n = lenInt n := digitsCountFuel_eq _ _ (by omega)

theorem digits64Fuel_eq (f : Nat) (n : Int) (h : n.natAbs < f) : digits64Fuel f n = lenSize n := by
  induction f generalizing n with
  | zero => omega
  | succ f ih =>
    rw [digits64Fuel, lenSize, lenNat, printNat_length]
    by_cases h' : n.natAbs < 10
    · have hz : n.tdiv 10 = 0 := Decidable.byContradiction fun e => (tdiv_ne n).mp e h'
      rw [if_pos h']
      by_cases hn : n < 0
      · simp [hn, hz]
      · simp [hn, hz]
    · rw [if_neg h', if_pos ((tdiv_ne n).mpr h'), ih _ (by rw [tdiv_natAbs]; omega), lenSize, tdiv_natAbs]
      have hs := tdiv_neg n h'
      by_cases hn : n < 0
      · simp only [hs.mpr hn, hn, if_true, lenNat]; omega
      · simp only [mt hs.mp hn, hn, if_false, lenNat]; omega

theorem digits64_eq (n : Int) : digits64 n = lenSize n := digits64Fuel_eq _ _ (by omega)

theorem lenNat_pos (n : Nat) : 0 < lenNat n := List.length_pos_iff.mpr (printNat_ne _)

theorem lenInt_le_lenSize (n : Int) : lenInt n ≤ lenSize n := by
  rw [lenInt_eq, lenSize]
  have := lenNat_pos n.natAbs
  split <;> omega

theorem lenNat_le (k n : Nat) (hk : 0 < k) (h : n < 10 ^ k) : lenNat n ≤ k := by
  induction k generalizing n with
  | zero => omega
  | succ k ih =>
    rw [lenNat, printNat_length]
    split
    · omega
    · have hk' : 0 < k := by
        apply Decidable.byContradiction
        intro hk'
        have : k = 0 := by omega
        subst this; omega
      have := ih (n / 10) hk' (by rw [Nat.pow_succ] at h; omega)
      unfold lenNat at this; omega

theorem le_lenNat (k n : Nat) (h : 10 ^ k ≤ n) : k + 1 ≤ lenNat n := by
  induction k generalizing n with
  | zero => exact lenNat_pos n
  | succ k ih =>
    rw [lenNat, printNat_length]
    have h1 : 1 ≤ 10 ^ k := Nat.one_le_pow _ _ (by omega)
    rw [Nat.pow_succ] at h
    rw [if_neg (by omega)]
    have := ih (n / 10) (by omega)
    unfold lenNat at this; omega

/-! ## Cells -/

theorem fmtU0_eq (w n : Nat) : fmtU0 w n = zeroNat w n := rfl

theorem fmtD0_eq (w : Nat) (i : Int) : fmtD0 w i = zeroInt w i := rfl

theorem fmtSL_eq (w : Nat) (s : Bytes) : fmtSL w s = leftText w s := rfl

theorem zeroNat_length (w n : Nat) : (zeroNat w n).length = max w (lenNat n) := by
  unfold zeroNat lenNat
  simp; omega

theorem zeroInt_length (w : Nat) (i : Int) : (zeroInt w i).length = max w (lenInt i) := by
  rw [zeroInt, lenInt_eq]
  have := lenNat_pos i.natAbs
  split
  · rw [List.length_cons, zeroNat_length]; omega
  · rw [zeroNat_length]; omega

theorem leftText_length (w : Nat) (s : Bytes) : (leftText w s).length = max w s.length := by
  unfold leftText; simp; omega

/-! ## The widest -/

theorem widest_cons (b x : Nat) (xs : List Nat) : widest b (x :: xs) = widest (max x b) xs := by
  unfold widest
  induction xs with
  | nil => rfl
  | cons y ys ih => simp only [List.foldr_cons] at *; omega

theorem widest_append (b : Nat) (xs ys : List Nat) : widest b (xs ++ ys) = widest (widest b xs) ys := by
  induction xs generalizing b with
  | nil => rfl
  | cons x xs ih => rw [List.cons_append, widest_cons, ih, ← widest_cons]

theorem base_le_widest (b : Nat) (xs : List Nat) : b ≤ widest b xs := by
  unfold widest
  induction xs with
  | nil => exact Nat.le_refl _
  | cons y ys ih => simp only [List.foldr_cons]; omega

theorem le_widest (b : Nat) (xs : List Nat) (x : Nat) (h : x ∈ xs) : x ≤ widest b xs := by
  unfold widest
  induction xs with
  | nil => cases h
  | cons y ys ih =>
    simp only [List.foldr_cons]
    rcases List.mem_cons.mp h with rfl | h
    · omega
    · have := ih h; omega

theorem widest_le (b : Nat) (xs : List Nat) (k : Nat) (hb : b ≤ k) (h : ∀ x ∈ xs, x ≤ k) : widest b xs ≤ k := by
  unfold widest
  induction xs with
  | nil => exact hb
  | cons y ys ih =>
    simp only [List.foldr_cons]
    have := ih (fun x hx => h x (List.mem_cons_of_mem _ hx))
    have := h y (List.mem_cons_self ..)
    omega

theorem le_widest_map {α : Type} (b : Nat) (f : α → Nat) (l : List α) (x : α) (h : x ∈ l) :
    f x ≤ widest b (l.map f) := le_widest _ _ _ (List.mem_map_of_mem h)

/-! ## Buffers -/

/-- A way to write into a buffer of `size` bytes. -/
def Fits (put : Bytes → Bytes → Res Bytes) (size : Nat) : Prop :=
  ∀ out s : Bytes, out.length + s.length + 1 ≤ size → put out s = .ok (out ++ s)

theorem fits_putStr (size : Nat) : Fits (putStr size) size := fun out s h => by
  unfold putStr; rw [if_pos h]

theorem fits_putStrN (size : Nat) (h : (size : Int) ≤ INT_MAX) : Fits (putStrN size) size := fun out s hs => by
  unfold putStrN
  unfold INT_MAX at *
  have : (size - out.length) % two32 = size - out.length := Nat.mod_eq_of_lt (by unfold two32; omega)
  rw [if_pos]
  unfold intOfU
  rw [this]
  split <;> omega

theorem putRows_ok {α : Type} (put : Bytes → Bytes → Res Bytes) (size : Nat) (hp : Fits put size)
    (row : α → Res Bytes) (r : α → Bytes) (w : Nat) (l : List α) (out : Bytes)
    (h : ∀ x ∈ l, row x = .ok (r x) ∧ (r x).length ≤ w) (hs : out.length + w * l.length + 1 ≤ size) :
    putRows put row out l = .ok (out ++ l.flatMap r) := by
  induction l generalizing out with
  | nil => simp [putRows]
  | cons x xs ih =>
    have hx := h x (List.mem_cons_self ..)
    simp only [List.length_cons, Nat.mul_add, Nat.mul_one] at hs
    rw [putRows, hx.1, Res.ok_bind, hp _ _ (by omega), Res.ok_bind,
      ih _ (fun y hy => h y (List.mem_cons_of_mem _ hy)) (by simp; omega)]
    simp

theorem flatMap_length_le {α : Type} (r : α → Bytes) (w : Nat) (l : List α) (h : ∀ x ∈ l, (r x).length ≤ w) :
    (l.flatMap r).length ≤ w * l.length := by
  induction l with
  | nil => simp
  | cons x xs ih =>
    have hx := h x (List.mem_cons_self ..)
    have := ih (fun y hy => h y (List.mem_cons_of_mem _ hy))
    simp only [List.flatMap_cons, List.length_append, List.length_cons, Nat.mul_add, Nat.mul_one]
    omega

theorem putRowsH_true {α : Type} (put : Bytes → Bytes → Res Bytes) (hd : List Bytes)
    (row : α → Res Bytes) (out : Bytes) (l : List α) :
    putRowsH put hd row true out l = (putRows put row out l >>= fun o => .ok (true, o)) := by
  induction l generalizing out with
  | nil => simp [putRowsH, putRows]
  | cons x xs ih =>
    rw [putRowsH, putRows]
    simp only [if_true, Res.ok_bind]
    cases row x with
    | ub => rfl
    | ok s =>
      simp only [Res.ok_bind]
      cases put out s with
      | ub => rfl
      | ok o => simp only [Res.ok_bind, ih]

theorem putHeaders_ok (put : Bytes → Bytes → Res Bytes) (size : Nat) (hp : Fits put size) (hd : List Bytes)
    (out : Bytes) (hs : out.length + hd.flatten.length + 1 ≤ size) :
    putRows put Res.ok out hd = .ok (out ++ hd.flatten) := by
  induction hd generalizing out with
  | nil => simp [putRows]
  | cons x xs ih =>
    simp only [List.flatten_cons, List.length_append] at hs
    rw [putRows, Res.ok_bind, hp _ _ (by omega), Res.ok_bind, ih _ (by rw [List.length_append]; omega)]
    simp

theorem putRowsH_ok {α : Type} (put : Bytes → Bytes → Res Bytes) (size : Nat) (hp : Fits put size) (hd : List Bytes)
    (row : α → Res Bytes) (r : α → Bytes) (w : Nat) (l : List α) (out : Bytes)
    (h : ∀ x ∈ l, row x = .ok (r x) ∧ (r x).length ≤ w)
    (hs : out.length + hd.flatten.length + w * l.length + 1 ≤ size) :
    putRowsH put hd row false out l = .ok (!l.isEmpty, out ++ part hd.flatten (l.map r) []) := by
  cases l with
  | nil => simp [putRowsH, part]
  | cons x xs =>
    have hx := h x (List.mem_cons_self ..)
    simp only [List.length_cons, Nat.mul_add, Nat.mul_one] at hs
    rw [putRowsH]
    simp only [Bool.false_eq_true, if_false]
    rw [putHeaders_ok put size hp hd out (by omega), Res.ok_bind, hx.1, Res.ok_bind,
      hp _ _ (by rw [List.length_append]; omega), Res.ok_bind, putRowsH_true,
      putRows_ok put size hp row r w xs _ (fun y hy => h y (List.mem_cons_of_mem _ hy)) (by rw [List.length_append, List.length_append]; omega), Res.ok_bind]
    simp [part, List.flatMap]

theorem tmpStr_ok (n : Nat) (s : Bytes) (h : s.length < n) : tmpStr n s = .ok s := by
  unfold tmpStr; rw [if_pos h]

theorem strR_ok (s : Option Bytes) (h : Present s) : strR s = .ok (textOf s) := by
  cases s with
  | none => cases h
  | some s => rfl

theorem strlenR_ok (s : Option Bytes) (h : Present s) : strlenR s = .ok (textOf s).length := by
  cases s with
  | none => cases h
  | some s => rfl

end Afs
