import Verif.Model.ZeroRef
import Mathlib.Tactic.Linarith
import Mathlib.Tactic.NormNum
import Mathlib.Tactic.Positivity
import Mathlib.Tactic.FieldSimp
import Mathlib.Tactic.Ring
import Mathlib.Tactic.GCongr
/-! Error bounds for single precision rounding. -/
namespace Afs

theorem roundEven_err (q : ℚ) : |(roundEven q : ℚ) - q| ≤ 1 / 2 := by
  have h1 := Int.floor_le q
  have h2 := Int.lt_floor_add_one q
  unfold roundEven
  split
  · rw [abs_le]; constructor <;> linarith
  · split
    · push_cast; rw [abs_le]; constructor <;> linarith
    · split
      · rw [abs_le]; constructor <;> linarith
      · push_cast; rw [abs_le]; constructor <;> linarith

/-- Rounding changes a positive number by at most one part in 2^24. -/
theorem f32_err {x : ℚ} (hx : 0 < x) : |f32 x - x| ≤ x / 16777216 := by
  have hu : 0 < ulp x := by unfold ulp; exact zpow_pos (by norm_num) _
  have hl : ulp x * 8388608 ≤ x := by
    have h := Int.zpow_log_le_self (b := 2) (R := ℚ) (by norm_num) hx
    have e : ulp x * 8388608 = ((2 : ℕ) : ℚ) ^ Int.log 2 x := by
      unfold ulp
      rw [zpow_sub₀ (by norm_num)]
      norm_num
    rw [e]; exact h
  have h := roundEven_err (x / ulp x)
  rw [f32, if_pos hx]
  have e : (roundEven (x / ulp x) : ℚ) * ulp x - x = (roundEven (x / ulp x) - x / ulp x) * ulp x := by
    field_simp
  rw [e, abs_mul, abs_of_pos hu]
  nlinarith

/-- `x` agrees with `y` up to `k` roundings. -/
def Near (k : Nat) (x y : ℚ) : Prop :=
  0 < x ∧ 0 < y ∧ y ≤ x * (8388609 / 8388608) ^ k ∧ x ≤ y * (8388609 / 8388608) ^ k

theorem Near.refl {x : ℚ} (h : 0 < x) : Near 0 x x := ⟨h, h, by simp, by simp⟩

theorem Near.round {k : Nat} {x y : ℚ} (h : Near k x y) : Near (k + 1) (f32 x) y := by
  obtain ⟨hx, hy, h1, h2⟩ := h
  have he := abs_le.1 (f32_err hx)
  have hg : (0 : ℚ) < (8388609 / 8388608) ^ k := by positivity
  have hf : 0 < f32 x := by linarith
  refine ⟨hf, hy, ?_, ?_⟩
  · rw [pow_succ]
    have : x ≤ f32 x * (8388609 / 8388608) := by linarith
    calc y ≤ x * (8388609 / 8388608) ^ k := h1
      _ ≤ (f32 x * (8388609 / 8388608)) * (8388609 / 8388608) ^ k := by gcongr
      _ = _ := by ring
  · rw [pow_succ]
    have : f32 x ≤ x * (8388609 / 8388608) := by linarith
    calc f32 x ≤ x * (8388609 / 8388608) := this
      _ ≤ (y * (8388609 / 8388608) ^ k) * (8388609 / 8388608) := by gcongr
      _ = _ := by ring

theorem Near.div {k l : Nat} {x y a b : ℚ} (h : Near k x y) (g : Near l a b) :
    Near (k + l) (x / a) (y / b) := by
  obtain ⟨hx, hy, h1, h2⟩ := h
  obtain ⟨ha, hb, g1, g2⟩ := g
  refine ⟨by positivity, by positivity, ?_, ?_⟩
  · rw [pow_add, div_le_iff₀ hb]
    calc y ≤ x * (8388609 / 8388608) ^ k := h1
      _ = x / a * (8388609 / 8388608) ^ k * a := by field_simp
      _ ≤ x / a * (8388609 / 8388608) ^ k * (b * (8388609 / 8388608) ^ l) := by gcongr
      _ = _ := by ring
  · rw [pow_add, div_le_iff₀ ha]
    calc x ≤ y * (8388609 / 8388608) ^ k := h2
      _ = y / b * (8388609 / 8388608) ^ k * b := by field_simp
      _ ≤ y / b * (8388609 / 8388608) ^ k * (a * (8388609 / 8388608) ^ l) := by gcongr
      _ = _ := by ring

theorem Near.scale {k : Nat} {x y c : ℚ} (hc : 0 < c) (h : Near k x y) : Near k (c * x) (c * y) := by
  obtain ⟨hx, hy, h1, h2⟩ := h
  refine ⟨by positivity, by positivity, ?_, ?_⟩
  · rw [mul_assoc]; gcongr
  · rw [mul_assoc]; gcongr

theorem near_lit {x : ℚ} (h : 0 < x) : Near 1 (f32 x) x := (Near.refl h).round

namespace Mark

theorem pixelPitch_near {h : Nat} (hh : 0 < h) : Near 3 (pixelPitch h) (1387 / 100 / h) :=
  ((near_lit (by norm_num)).div (near_lit (by exact_mod_cast hh))).round

theorem heightF_near {h : Nat} (hh : 0 < h) : Near 5 (heightF h) (198 / 100 / (1387 / 100 / h)) :=
  ((near_lit (by norm_num)).div (pixelPitch_near hh)).round

theorem lit_bounds {x : ℚ} (h : 0 < x) : x - x / 16777216 ≤ f32 x ∧ f32 x ≤ x + x / 16777216 := by
  have := abs_le.1 (f32_err h)
  constructor <;> linarith

theorem margin_bounds : 244999 / 100000 ≤ marginMm ∧ marginMm ≤ 245001 / 100000 := by
  have a := lit_bounds (x := 1387 / 100) (by norm_num)
  have b := lit_bounds (x := 198 / 100) (by norm_num)
  have c := lit_bounds (x := 472 / 100) (by norm_num)
  unfold marginMm FRAME_HEIGHT_MM PITCH_HEIGHT_MM PERF_PITCH_HEIGHT_MM
  have d := lit_bounds (x := 2 * f32 (472 / 100)) (by linarith)
  have e := lit_bounds (x := f32 (2 * f32 (472 / 100)) + f32 (198 / 100)) (by linarith)
  have f := lit_bounds (x := f32 (1387 / 100) - f32 (f32 (2 * f32 (472 / 100)) + f32 (198 / 100))) (by linarith)
  constructor <;> linarith

theorem topF_near {h : Nat} (hh : 0 < h) : Near 5 (topF h) (marginMm / (2 * (1387 / 100 / h))) := by
  have hm : 0 < marginMm := by have := margin_bounds.1; linarith
  exact ((Near.refl hm).div ((pixelPitch_near hh).scale (by norm_num)).round).round

theorem pow5 : ((8388609 / 8388608 : ℚ)) ^ 5 ≤ 1 + 1 / 1048576 := by norm_num

/-- The computed height, before truncation, is 198/1387 of the frame height up to one millionth. -/
theorem heightF_bounds {h : Nat} (hh : 0 < h) :
    (198 / 1387 : ℚ) * h * (1 - 1 / 1048576) ≤ heightF h ∧ heightF h ≤ (198 / 1387 : ℚ) * h * (1 + 1 / 1048576) := by
  obtain ⟨p, q, h1, h2⟩ := heightF_near hh
  have hq : (0 : ℚ) < h := by exact_mod_cast hh
  have e : (198 / 100 / (1387 / 100 / (h : ℚ))) = 198 / 1387 * h := by field_simp
  rw [e] at h1 h2
  constructor
  · have : heightF h * (8388609 / 8388608 : ℚ) ^ 5 ≤ heightF h * (1 + 1 / 1048576) := by
      have := pow5; gcongr
    nlinarith
  · refine h2.trans ?_
    have := pow5; gcongr

/-- The computed top edge, before truncation. -/
theorem topF_bounds {h : Nat} (hh : 0 < h) :
    (24499 / 277400 : ℚ) * h ≤ topF h ∧ topF h ≤ (24501 / 277400 : ℚ) * h := by
  obtain ⟨p, q, h1, h2⟩ := topF_near hh
  have hq : (0 : ℚ) < h := by exact_mod_cast hh
  have e : (marginMm / (2 * (1387 / 100 / (h : ℚ)))) = marginMm * (100 / 2774) * h := by field_simp; ring
  rw [e] at h1 h2
  have hm := margin_bounds
  have a1 : (244999 / 100000 : ℚ) * (100 / 2774) * h ≤ marginMm * (100 / 2774) * h := by
    have := hm.1; gcongr
  have a2 : marginMm * (100 / 2774) * h ≤ (245001 / 100000 : ℚ) * (100 / 2774) * h := by
    have := hm.2; gcongr
  have b1 : topF h * (8388609 / 8388608 : ℚ) ^ 5 ≤ topF h * (1 + 1 / 1048576) := by
    have := pow5; gcongr
  have b2 : marginMm * (100 / 2774) * h * (8388609 / 8388608 : ℚ) ^ 5 ≤ marginMm * (100 / 2774) * h * (1 + 1 / 1048576) := by
    have hm0 : 0 < marginMm := by linarith [hm.1]
    have := pow5; gcongr
  constructor <;> nlinarith

end Mark
end Afs
