import Verif.Proof.Float32
/-!
# C29 — the zero reference frame

Geometry of the zero reference mark for every frame size a C `unsigned int` can hold, and the
picture drawn for it.  The arithmetic of the geometry is IEEE single precision
(`Model/Float32.lean`).
-/
namespace Afs

namespace Spec

/-- A number with at most 24 significant bits: what a `float` can hold (exponent range aside). -/
def IsFloat (y : ℚ) : Prop := ∃ (m : ℤ) (e : ℤ), |m| ≤ 2 ^ 24 ∧ y = m * 2 ^ e

/-- The picture of a zero reference frame: black from column `x0` to the right edge in the rows
    `y0 ≤ y < y1`, white elsewhere. -/
def IsZeroImage (im : Image) (w h x0 y0 y1 : Nat) : Prop :=
  im.width = w ∧ im.height = h ∧ im.data.length = w * h ∧
  ∀ x y, x < w → y < h →
    im.pixel x y = .ok (if x0 ≤ x ∧ y0 ≤ y ∧ y < y1 then 0 else 255)

end Spec

/-! ## The rounding of the model is the IEEE one -/

theorem ulp_pos (x : ℚ) : 0 < ulp x := by unfold ulp; exact zpow_pos (by norm_num) _

theorem roundEven_nearest (q : ℚ) (k : ℤ) : |(roundEven q : ℚ) - q| ≤ |(k : ℚ) - q| := by
  have h1 := Int.floor_le q
  have h2 := Int.lt_floor_add_one q
  rcases lt_or_ge ⌊q⌋ k with h | h
  · have hk : (⌊q⌋ : ℚ) + 1 ≤ k := by exact_mod_cast h
    rw [abs_of_nonneg (by linarith : (0 : ℚ) ≤ k - q)]
    unfold roundEven
    split
    · rw [abs_le]; constructor <;> linarith
    · split
      · push_cast; rw [abs_le]; constructor <;> linarith
      · split
        · rw [abs_le]; constructor <;> linarith
        · push_cast; rw [abs_le]; constructor <;> linarith
  · have hk : (k : ℚ) ≤ ⌊q⌋ := by exact_mod_cast h
    rw [abs_of_nonpos (by linarith : (k : ℚ) - q ≤ 0)]
    unfold roundEven
    split
    · rw [abs_le]; constructor <;> linarith
    · split
      · push_cast; rw [abs_le]; constructor <;> linarith
      · split
        · rw [abs_le]; constructor <;> linarith
        · push_cast; rw [abs_le]; constructor <;> linarith

theorem f32_multiple_nearest {x : ℚ} (hx : 0 < x) (k : ℤ) : |f32 x - x| ≤ |k * ulp x - x| := by
  have hu := ulp_pos x
  rw [f32, if_pos hx]
  have e : ∀ j : ℚ, j * ulp x - x = (j - x / ulp x) * ulp x := by
    intro j; field_simp
  rw [e, e, abs_mul, abs_mul]
  have := roundEven_nearest (x / ulp x) k
  gcongr

/-- **C29.** The rounding used by the model returns a float, and no float is closer. -/
theorem C29_rounding_nearest (x : ℚ) (hx : 0 < x) :
    Spec.IsFloat (f32 x) ∧ ∀ y, Spec.IsFloat y → |f32 x - x| ≤ |y - x| := by
  have hu := ulp_pos x
  have hlog := Int.zpow_log_le_self (b := 2) (R := ℚ) (by norm_num) hx
  have hlog' := Int.lt_zpow_succ_log_self (b := 2) (R := ℚ) (by norm_num) x
  push_cast at hlog hlog'
  have eu : ulp x * 2 ^ (23 : ℕ) = 2 ^ Int.log 2 x := by
    unfold ulp
    rw [zpow_sub₀ (by norm_num)]
    norm_num
  have eu' : ulp x * 2 ^ (24 : ℕ) = 2 ^ (Int.log 2 x + 1) := by
    rw [zpow_add₀ (by norm_num), ← eu, pow_succ, zpow_one]; ring
  constructor
  · refine ⟨roundEven (x / ulp x), Int.log 2 x - 23, ?_, ?_⟩
    · have hn := roundEven_nearest (x / ulp x) (2 ^ 24)
      have he := roundEven_err (x / ulp x)
      have hq : x / ulp x < 2 ^ 24 := by rw [div_lt_iff₀ hu, mul_comm, eu']; exact hlog'
      have hq0 : 0 < x / ulp x := by positivity
      push_cast at hn
      have h1 : (roundEven (x / ulp x) : ℚ) < 2 ^ 24 + 1 := by
        have := (abs_le.1 he).2; linarith
      have h2 : (-1 : ℚ) < roundEven (x / ulp x) := by
        have := (abs_le.1 he).1; linarith
      have h1' : roundEven (x / ulp x) < 2 ^ 24 + 1 := by exact_mod_cast h1
      have h2' : -1 < roundEven (x / ulp x) := by exact_mod_cast h2
      rw [abs_of_nonneg (by omega)]; omega
    · rw [f32, if_pos hx]; rfl
  · rintro y ⟨m, e, hm, rfl⟩
    by_cases hE : Int.log 2 x - 23 ≤ e
    · obtain ⟨d, hd⟩ := Int.le.dest hE
      have : (m : ℚ) * 2 ^ e = ((m * 2 ^ d : ℤ) : ℚ) * ulp x := by
        unfold ulp; rw [← hd, zpow_add₀ (by norm_num)]; push_cast; rw [zpow_natCast]; ring
      rw [this]
      exact f32_multiple_nearest hx _
    · have h23 := f32_multiple_nearest hx (2 ^ 23)
      push_cast at h23
      have hp : (8388608 : ℚ) * ulp x = 2 ^ Int.log 2 x := by rw [← eu]; ring
      rw [hp, abs_of_nonpos (by linarith : (2 : ℚ) ^ Int.log 2 x - x ≤ 0)] at h23
      have hy : (m : ℚ) * 2 ^ e ≤ 2 ^ Int.log 2 x := by
        have hm' : (m : ℚ) ≤ 2 ^ 24 := by exact_mod_cast (le_abs_self m).trans hm
        have h2e : (0 : ℚ) < 2 ^ e := zpow_pos (by norm_num) _
        calc (m : ℚ) * 2 ^ e ≤ 2 ^ 24 * 2 ^ e := by gcongr
          _ = 2 ^ (24 + e) := by rw [zpow_add₀ (by norm_num)]; norm_num
          _ ≤ 2 ^ Int.log 2 x := zpow_le_zpow_right₀ (by norm_num) (by omega)
      rw [abs_of_nonpos (by linarith : (m : ℚ) * 2 ^ e - x ≤ 0)]
      linarith

/-- **C29.** No intermediate value of the computation overflows or underflows. -/
theorem C29_floats_normal (h : Nat) (h0 : 0 < h) (h1 : h < 4294967296) :
    ∀ v ∈ [f32 h, FRAME_HEIGHT_MM / f32 h, Mark.pixelPitch h, PITCH_HEIGHT_MM / Mark.pixelPitch h,
        Mark.heightF h, 2 * Mark.pixelPitch h, f32 (2 * Mark.pixelPitch h), Mark.marginMm,
        Mark.marginMm / f32 (2 * Mark.pixelPitch h), Mark.topF h, f32 (2 * PERF_PITCH_HEIGHT_MM)],
      (1 / 2 ^ 40 : ℚ) < v ∧ v < 2 ^ 40 := by
  have hq : (1 : ℚ) ≤ h := by exact_mod_cast h0
  have hq' : (h : ℚ) < 4294967296 := by exact_mod_cast h1
  have hpos : (0 : ℚ) < h := by linarith
  have key : ∀ (k : Nat) (x y : ℚ), Near k x y → k ≤ 8 → (1 / 2 ^ 38 : ℚ) < y → y < 2 ^ 38 →
      (1 / 2 ^ 40 : ℚ) < x ∧ x < 2 ^ 40 := by
    rintro k x y ⟨hx, hy, n1, n2⟩ hk y1 y2
    have hg : ((8388609 / 8388608 : ℚ)) ^ k ≤ 2 :=
      le_trans (pow_le_pow_right₀ (by norm_num) hk) (by norm_num)
    constructor
    · have : y ≤ x * 2 := n1.trans (by gcongr)
      have e : (1 / 2 ^ 38 : ℚ) = 4 * (1 / 2 ^ 40) := by norm_num
      have : (0 : ℚ) < 1 / 2 ^ 40 := by positivity
      linarith
    · have : x ≤ y * 2 := n2.trans (by gcongr)
      have e : (2 ^ 40 : ℚ) = 4 * 2 ^ 38 := by norm_num
      have : (0 : ℚ) < 2 ^ 38 := by positivity
      linarith
  have hm := Mark.margin_bounds
  have hm0 : 0 < Mark.marginMm := by linarith [hm.1]
  have lo : ∀ c : ℚ, 1 ≤ c → c ≤ 100 → (1 / 2 ^ 38 : ℚ) < c / h ∧ c / h < 2 ^ 38 := by
    intro c c1 c2
    constructor
    · rw [lt_div_iff₀ hpos]; norm_num; linarith
    · rw [div_lt_iff₀ hpos]; norm_num; linarith
  have hi : ∀ c : ℚ, 1 / 100 ≤ c → c ≤ 1 → (1 / 2 ^ 38 : ℚ) < c * h ∧ c * h < 2 ^ 38 := by
    intro c c1 c2
    constructor
    · norm_num; nlinarith
    · norm_num; nlinarith
  have hh : (198 / 100 / (1387 / 100 / (h : ℚ))) = 198 / 1387 * h := by field_simp
  have ht : (Mark.marginMm / (2 * (1387 / 100 / (h : ℚ)))) = Mark.marginMm * (100 / 2774) * h := by
    field_simp; ring
  have ht' : (1 / 100 : ℚ) ≤ Mark.marginMm * (100 / 2774) ∧ Mark.marginMm * (100 / 2774) ≤ 1 := by
    constructor <;> linarith [hm.1, hm.2]
  have a1 : Near 1 (f32 (h : ℚ)) h := near_lit hpos
  have c1 : Near 1 FRAME_HEIGHT_MM (1387 / 100) := near_lit (by norm_num)
  have c2 : Near 1 PITCH_HEIGHT_MM (198 / 100) := near_lit (by norm_num)
  have c3 : Near 1 PERF_PITCH_HEIGHT_MM (472 / 100) := near_lit (by norm_num)
  have a2 : Near 2 (FRAME_HEIGHT_MM / f32 (h : ℚ)) (1387 / 100 / h) := c1.div a1
  have a3 := Mark.pixelPitch_near h0
  have a4 := c2.div a3
  rw [hh] at a4
  have a5 := Mark.heightF_near h0
  rw [hh] at a5
  have a6 := a3.scale (c := 2) (by norm_num)
  rw [show (2 : ℚ) * (1387 / 100 / h) = 2774 / 100 / h by ring] at a6
  have a7 := a6.round
  have a9 := (Near.refl hm0).div (a3.scale (c := 2) (by norm_num)).round
  rw [ht] at a9
  have a10 := Mark.topF_near h0
  rw [ht] at a10
  have a11 : Near 2 (f32 (2 * PERF_PITCH_HEIGHT_MM)) (2 * (472 / 100)) :=
    (c3.scale (by norm_num)).round
  intro v hv
  simp only [List.mem_cons, List.not_mem_nil, or_false] at hv
  rcases hv with rfl | rfl | rfl | rfl | rfl | rfl | rfl | rfl | rfl | rfl | rfl
  · exact key _ _ _ a1 (by omega) (by norm_num; linarith) (by norm_num; linarith)
  · exact key _ _ _ a2 (by omega) (lo _ (by norm_num) (by norm_num)).1 (lo _ (by norm_num) (by norm_num)).2
  · exact key _ _ _ a3 (by omega) (lo _ (by norm_num) (by norm_num)).1 (lo _ (by norm_num) (by norm_num)).2
  · exact key _ _ _ a4 (by omega) (hi _ (by norm_num) (by norm_num)).1 (hi _ (by norm_num) (by norm_num)).2
  · exact key _ _ _ a5 (by omega) (hi _ (by norm_num) (by norm_num)).1 (hi _ (by norm_num) (by norm_num)).2
  · exact key _ _ _ a6 (by omega) (lo _ (by norm_num) (by norm_num)).1 (lo _ (by norm_num) (by norm_num)).2
  · exact key _ _ _ a7 (by omega) (lo _ (by norm_num) (by norm_num)).1 (lo _ (by norm_num) (by norm_num)).2
  · constructor
    · norm_num; linarith [hm.1]
    · norm_num; linarith [hm.2]
  · exact key _ _ _ a9 (by omega) (hi _ ht'.1 ht'.2).1 (hi _ ht'.1 ht'.2).2
  · exact key _ _ _ a10 (by omega) (hi _ ht'.1 ht'.2).1 (hi _ ht'.1 ht'.2).2
  · exact key _ _ _ a11 (by omega) (by norm_num) (by norm_num)

/-! ## Geometry of the mark -/

theorem f32ToU_of {x : ℚ} (h0 : 0 ≤ x) (h1 : x < 4294967296) : f32ToU x = .ok ⌊x⌋.toNat := by
  rw [f32ToU, if_pos ⟨by linarith, h1⟩]

theorem floor_toNat {x : ℚ} (h0 : 0 ≤ x) : ((⌊x⌋.toNat : ℕ) : ℚ) ≤ x ∧ x < (⌊x⌋.toNat : ℕ) + 1 := by
  have e : ((⌊x⌋.toNat : ℕ) : ℤ) = ⌊x⌋ := Int.toNat_of_nonneg (Int.floor_nonneg.2 h0)
  have h1 := Int.floor_le x
  have h2 := Int.lt_floor_add_one x
  have e' : ((⌊x⌋.toNat : ℕ) : ℚ) = (⌊x⌋ : ℚ) := by exact_mod_cast e
  rw [e']; exact ⟨h1, h2⟩

theorem Mark.heightF_range {h : Nat} (h0 : 0 < h) (h1 : h < 4294967296) :
    0 ≤ Mark.heightF h ∧ Mark.heightF h < 4294967296 := by
  have hq : (1 : ℚ) ≤ h := by exact_mod_cast h0
  have hq' : (h : ℚ) < 4294967296 := by exact_mod_cast h1
  have := Mark.heightF_bounds h0
  constructor <;> linarith

theorem Mark.topF_range {h : Nat} (h0 : 0 < h) (h1 : h < 4294967296) :
    0 ≤ Mark.topF h ∧ Mark.topF h < 4294967296 := by
  have hq : (1 : ℚ) ≤ h := by exact_mod_cast h0
  have hq' : (h : ℚ) < 4294967296 := by exact_mod_cast h1
  have := Mark.topF_bounds h0
  constructor <;> linarith

/-- Everything about the mark in one place. -/
theorem Mark.create_eq (w h : Nat) (hh : h < 4294967296) :
    Mark.create w h = .ok (if 2 ≤ w ∧ 12 ≤ h then
      some ⟨⌊Mark.heightF h⌋.toNat, w / 2, w / 2, ⌊Mark.topF h⌋.toNat⟩ else none) := by
  rw [Mark.create, Mark.init]
  by_cases hz : w = 0 ∨ h = 0
  · rw [if_pos hz, if_neg (by omega)]
  · rw [if_neg hz, if_neg hz]
    have h0 : 0 < h := by omega
    have r1 := Mark.heightF_range h0 hh
    have r2 := Mark.topF_range h0 hh
    rw [f32ToU_of r1.1 r1.2, f32ToU_of r2.1 r2.2]
    simp only [Res.ok_bind, Res.pure_eq]
    have b1 := Mark.heightF_bounds h0
    have b2 := Mark.topF_bounds h0
    have f1 := floor_toNat r1.1
    have f2 := floor_toNat r2.1
    by_cases h12 : 12 ≤ h
    · have hq : (12 : ℚ) ≤ h := by exact_mod_cast h12
      have n1 : ⌊Mark.heightF h⌋.toNat ≠ 0 := by
        intro e; rw [e] at f1; push_cast at f1; linarith [f1.2, b1.1]
      have n2 : ⌊Mark.topF h⌋.toNat ≠ 0 := by
        intro e; rw [e] at f2; push_cast at f2; linarith [f2.2, b2.1]
      by_cases h2 : 2 ≤ w
      · rw [if_neg (by omega), if_pos ⟨h2, h12⟩]
      · rw [if_pos (by omega), if_neg (by omega)]
    · have hq : (h : ℚ) ≤ 11 := by exact_mod_cast (show h ≤ 11 by omega)
      have n2 : ⌊Mark.topF h⌋.toNat = 0 := by
        have : ((⌊Mark.topF h⌋.toNat : ℕ) : ℚ) < 1 := by linarith [f2.1, b2.2]
        have : ⌊Mark.topF h⌋.toNat < 1 := by exact_mod_cast this
        omega
      rw [if_pos (by omega), if_neg (by omega)]

/-- **C29.** A zero reference frame can be made exactly for frames at least 2 pixels wide and
    12 pixels high; the computation is free of undefined behaviour for every size. -/
theorem C29_frame_exists (w h : Nat) (hh : h < 4294967296) :
    ∃ r, ZeroFrame.create w h = .ok r ∧ (r.isSome ↔ 2 ≤ w ∧ 12 ≤ h) := by
  rw [ZeroFrame.create]
  by_cases hz : w = 0 ∨ h = 0
  · rw [if_pos hz]; exact ⟨_, rfl, by simp; omega⟩
  · rw [if_neg hz, Mark.create_eq w h hh]
    by_cases hc : 2 ≤ w ∧ 12 ≤ h
    · simp [hc]
    · simp [hc]

theorem zeroFrame_create {w h : Nat} {f : ZeroFrame} (hh : h < 4294967296)
    (hf : ZeroFrame.create w h = .ok (some f)) :
    2 ≤ w ∧ 12 ≤ h ∧
      f = ⟨some ⟨⌊Mark.heightF h⌋.toNat, w / 2, w / 2, ⌊Mark.topF h⌋.toNat⟩, h, w⟩ := by
  rw [ZeroFrame.create] at hf
  by_cases hz : w = 0 ∨ h = 0
  · rw [if_pos hz] at hf; cases hf
  · rw [if_neg hz, Mark.create_eq w h hh] at hf
    by_cases hc : 2 ≤ w ∧ 12 ≤ h
    · rw [if_pos hc] at hf
      simp only [Res.ok_bind, Res.pure_eq] at hf
      cases hf
      exact ⟨hc.1, hc.2, rfl⟩
    · rw [if_neg hc] at hf
      simp only [Res.ok_bind, Res.pure_eq] at hf
      cases hf

/-- **C29.** The frame has the requested size, the mark is not empty, it starts in the middle of
    the frame, and it lies strictly inside the frame vertically and inside it horizontally. -/
theorem C29_mark_inside (w h : Nat) (hh : h < 4294967296) (f : ZeroFrame)
    (hf : ZeroFrame.create w h = .ok (some f)) :
    f.width = w ∧ f.height = h ∧ ∃ m, f.mark = some m ∧
      m.topLeftX = w / 2 ∧ m.width = w / 2 ∧ 0 < m.width ∧ m.topLeftX + m.width ≤ w ∧
      0 < m.topLeftY ∧ 0 < m.height ∧ m.topLeftY + m.height < h := by
  have hc := zeroFrame_create hh hf
  obtain ⟨h2, h12, rfl⟩ := hc
  refine ⟨rfl, rfl, _, rfl, rfl, rfl, ?_⟩
  have h0 : 0 < h := by omega
  have hq : (12 : ℚ) ≤ h := by exact_mod_cast h12
  have r1 := Mark.heightF_range h0 hh
  have r2 := Mark.topF_range h0 hh
  have b1 := Mark.heightF_bounds h0
  have b2 := Mark.topF_bounds h0
  have f1 := floor_toNat r1.1
  have f2 := floor_toNat r2.1
  dsimp only
  refine ⟨by omega, by omega, ?_, ?_, ?_⟩
  · apply Nat.pos_of_ne_zero
    intro e; rw [e] at f2; push_cast at f2; linarith [f2.2, b2.1]
  · apply Nat.pos_of_ne_zero
    intro e; rw [e] at f1; push_cast at f1; linarith [f1.2, b1.1]
  · have : ((⌊Mark.topF h⌋.toNat : ℕ) : ℚ) + (⌊Mark.heightF h⌋.toNat : ℕ) < h := by
      linarith [f1.1, f2.1, b1.2, b2.2]
    exact_mod_cast this

/-- **C29.** The mark is 1.98 mm high on a frame 13.87 mm high, and its top edge is at
    (13.87 − 11.42)/2 = 1.225 mm: truncated to whole pixels, up to the error of the single
    precision arithmetic. -/
theorem C29_mark_geometry (w h : Nat) (hh : h < 4294967296) (f : ZeroFrame) (m : Mark)
    (hf : ZeroFrame.create w h = .ok (some f)) (hm : f.mark = some m) :
    (198 / 1387 : ℚ) * h - 1 - h / 4194304 < m.height ∧
    (m.height : ℚ) ≤ 198 / 1387 * h + h / 4194304 ∧
    (245 / 2774 : ℚ) * h - 1 - h / 100000 < m.topLeftY ∧
    (m.topLeftY : ℚ) ≤ 245 / 2774 * h + h / 100000 := by
  have hc := zeroFrame_create hh hf
  obtain ⟨h2, h12, rfl⟩ := hc
  cases hm
  have h0 : 0 < h := by omega
  have hq : (12 : ℚ) ≤ h := by exact_mod_cast h12
  have r1 := Mark.heightF_range h0 hh
  have r2 := Mark.topF_range h0 hh
  have b1 := Mark.heightF_bounds h0
  have b2 := Mark.topF_bounds h0
  have f1 := floor_toNat r1.1
  have f2 := floor_toNat r2.1
  dsimp only
  refine ⟨?_, ?_, ?_, ?_⟩ <;> linarith [f1.1, f1.2, f2.1, f2.2, b1.1, b1.2, b2.1, b2.2]

/-! ## The image -/

theorem idx_inj {w x y x' y' : Nat} (hx : x < w) (hx' : x' < w) (e : y * w + x = y' * w + x') :
    x = x' ∧ y = y' := by
  have h1 : x = x' := by
    have := congrArg (· % w) e
    simpa [Nat.mul_add_mod', Nat.mod_eq_of_lt hx, Nat.mod_eq_of_lt hx'] using this
  subst h1
  have hw : 0 < w := by omega
  exact ⟨rfl, Nat.eq_of_mul_eq_mul_right hw (by omega)⟩

theorem idx_lt {w h x y : Nat} (hx : x < w) (hy : y < h) : y * w + x < w * h := by
  calc y * w + x < y * w + w := by omega
    _ = (y + 1) * w := by rw [Nat.succ_mul]
    _ ≤ h * w := Nat.mul_le_mul_right _ hy
    _ = w * h := Nat.mul_comm ..

theorem columnLoop_ok (m : Mark) (w h i : Nat) (hi : i < w) (k : Nat) (hk : k ≤ h) :
    ∀ im : Image, im.width = w → im.data.length = w * h →
    ∃ im', ZeroFrame.columnLoop m h i k im = .ok im' ∧ im'.width = w ∧ im'.height = im.height ∧
      im'.data.length = w * h ∧
      ∀ x y, x < w → y < h → im'.data[y * w + x]? =
        if x = i ∧ h - k ≤ y then some (ZeroFrame.colour m i y) else im.data[y * w + x]? := by
  induction k with
  | zero =>
    intro im hw hl
    refine ⟨im, rfl, hw, rfl, hl, ?_⟩
    intro x y hx hy
    rw [if_neg (by omega)]
  | succ k ih =>
    intro im hw hl
    have hlt := idx_lt hi (show h - (k + 1) < h by omega)
    rw [ZeroFrame.columnLoop, Image.setPixel, hw, if_pos (by omega)]
    simp only [Res.ok_bind]
    obtain ⟨im', e, hw', hh', hl', hp⟩ := ih (by omega)
      ⟨w, im.height, im.data.set ((h - (k + 1)) * w + i) (ZeroFrame.colour m i (h - (k + 1)))⟩ rfl
      (by simpa using hl)
    refine ⟨im', e, hw', hh', hl', ?_⟩
    intro x y hx hy
    rw [hp x y hx hy]
    by_cases h1 : x = i ∧ h - k ≤ y
    · rw [if_pos h1, if_pos ⟨h1.1, by omega⟩]
    · rw [if_neg h1]
      dsimp only
      by_cases h2 : x = i ∧ h - (k + 1) ≤ y
      · have hy' : y = h - (k + 1) := by
          have := h2.2
          have : ¬ h - k ≤ y := fun c => h1 ⟨h2.1, c⟩
          omega
        rw [if_pos h2, hy', h2.1, List.getElem?_set_self (by omega)]
      · rw [if_neg h2, List.getElem?_set_ne]
        intro c
        have := idx_inj hi hx c
        exact h2 ⟨this.1.symm, by omega⟩

theorem imageLoop_ok (m : Mark) (w h k : Nat) (hk : k ≤ w) :
    ∀ im : Image, im.width = w → im.data.length = w * h →
    ∃ im', ZeroFrame.imageLoop m w h k im = .ok im' ∧ im'.width = w ∧ im'.height = im.height ∧
      im'.data.length = w * h ∧
      ∀ x y, x < w → y < h → im'.data[y * w + x]? =
        if w - k ≤ x then some (ZeroFrame.colour m x y) else im.data[y * w + x]? := by
  induction k with
  | zero =>
    intro im hw hl
    refine ⟨im, rfl, hw, rfl, hl, ?_⟩
    intro x y hx hy
    rw [if_neg (by omega)]
  | succ k ih =>
    intro im hw hl
    obtain ⟨im1, e1, hw1, hh1, hl1, hp1⟩ := columnLoop_ok m w h (w - (k + 1)) (by omega) h (by omega) im hw hl
    obtain ⟨im2, e2, hw2, hh2, hl2, hp2⟩ := ih (by omega) im1 hw1 hl1
    refine ⟨im2, ?_, hw2, hh2.trans hh1, hl2, ?_⟩
    · rw [ZeroFrame.imageLoop, e1]; exact e2
    · intro x y hx hy
      rw [hp2 x y hx hy, hp1 x y hx hy]
      by_cases h1 : w - k ≤ x
      · rw [if_pos h1, if_pos (by omega)]
      · rw [if_neg h1]
        by_cases h2 : x = w - (k + 1)
        · rw [if_pos ⟨h2, by omega⟩, if_pos (by omega), h2]
        · rw [if_neg (fun c => h2 c.1), if_neg (by omega)]

/-- The picture drawn for a frame with any mark that does not wrap around. -/
theorem createImage_ok (f : ZeroFrame) (m : Mark) (hm : f.mark = some m)
    (hy : m.topLeftY + m.height < 4294967296) (d : Bytes) (hd : d.length = f.width * f.height) :
    ∃ im, f.createImage (some d) = .ok (some im) ∧
      Spec.IsZeroImage im f.width f.height m.topLeftX m.topLeftY (m.topLeftY + m.height) := by
  obtain ⟨im, e, hw, hh, hl, hp⟩ :=
    imageLoop_ok m f.width f.height f.width (Nat.le_refl _) ⟨f.width, f.height, d⟩ rfl hd
  refine ⟨im, ?_, hw, hh, hl, ?_⟩
  · rw [ZeroFrame.createImage, hm]
    dsimp only
    rw [e]; rfl
  · intro x y hx hy'
    have := hp x y hx hy'
    rw [if_pos (by omega)] at this
    rw [Image.pixel, hw, this]
    dsimp only
    rw [ZeroFrame.colour, u32, two32, Nat.mod_eq_of_lt hy, PIXEL_MIN, PIXEL_MAX]

/-- **C29.** The picture of every zero reference frame is drawn without touching a byte outside
    the image, whatever the fresh image contained: it has the size of the frame, and a pixel is
    black exactly in the rows of the mark, from the left edge of the mark to the right edge of
    the frame. -/
theorem C29_image (w h : Nat) (hh : h < 4294967296) (f : ZeroFrame) (m : Mark)
    (hf : ZeroFrame.create w h = .ok (some f)) (hm : f.mark = some m)
    (d : Bytes) (hd : d.length = w * h) :
    ∃ im, f.createImage (some d) = .ok (some im) ∧
      Spec.IsZeroImage im w h m.topLeftX m.topLeftY (m.topLeftY + m.height) := by
  obtain ⟨hw, hh', m', hm', -, -, -, -, -, -, hin⟩ := C29_mark_inside w h hh f hf
  rw [hm] at hm'; cases hm'
  have := createImage_ok f m hm (by omega) d (by rw [hw, hh']; exact hd)
  rw [hw, hh'] at this
  exact this

/-- **C29.** For frames of even width the black area is exactly the mark's rectangle. -/
theorem C29_image_is_mark (w h : Nat) (hh : h < 4294967296) (f : ZeroFrame) (m : Mark)
    (hf : ZeroFrame.create w h = .ok (some f)) (hm : f.mark = some m) (hw : w % 2 = 0)
    (d : Bytes) (hd : d.length = w * h) :
    ∃ im, f.createImage (some d) = .ok (some im) ∧
      ∀ x y, x < w → y < h → (im.pixel x y = .ok 0 ↔
        m.topLeftX ≤ x ∧ x < m.topLeftX + m.width ∧ m.topLeftY ≤ y ∧ y < m.topLeftY + m.height) := by
  obtain ⟨im, e, -, -, -, hp⟩ := C29_image w h hh f m hf hm d hd
  obtain ⟨-, -, m', hm', hx, hwd, -⟩ := C29_mark_inside w h hh f hf
  rw [hm] at hm'; cases hm'
  refine ⟨im, e, ?_⟩
  intro x y hx' hy'
  rw [hp x y hx' hy']
  constructor
  · intro c
    split at c
    · omega
    · simp at c
  · intro c
    rw [if_pos ⟨c.1, c.2.2.1, c.2.2.2⟩]

/-- **C29 (what does not hold).** For frames of odd width the black area is one column wider than
    the recorded mark: the last column is black too, outside the mark's rectangle. -/
theorem C29_odd_width_wider (w h : Nat) (hh : h < 4294967296) (f : ZeroFrame) (m : Mark)
    (hf : ZeroFrame.create w h = .ok (some f)) (hm : f.mark = some m) (hw : w % 2 = 1)
    (d : Bytes) (hd : d.length = w * h) :
    m.topLeftX + m.width = w - 1 ∧ m.topLeftY < h ∧
    ∃ im, f.createImage (some d) = .ok (some im) ∧ im.pixel (w - 1) m.topLeftY = .ok 0 := by
  obtain ⟨im, e, -, -, -, hp⟩ := C29_image w h hh f m hf hm d hd
  obtain ⟨-, -, m', hm', hx, hwd, hw0, -, hy0, hh0, hin⟩ := C29_mark_inside w h hh f hf
  rw [hm] at hm'; cases hm'
  refine ⟨by omega, by omega, im, e, ?_⟩
  rw [hp _ _ (by omega) (by omega), if_pos ⟨by omega, Nat.le_refl _, by omega⟩]

/-- **C29 (what does not hold).** Drawing a frame that has no mark dereferences NULL. -/
theorem C29_no_mark_ub (w h : Nat) (hw : 0 < w) (hh : 0 < h) (d : Bytes) :
    ZeroFrame.createImage ⟨none, h, w⟩ (some d) = .ub := by
  rw [ZeroFrame.createImage]
  dsimp only
  rw [if_neg (by omega)]

/-- The theorems apply: a 4096 × 2160 frame exists. -/
example : ∃ f, ZeroFrame.create 4096 2160 = .ok (some f) ∧
    (List.replicate (4096 * 2160) (7 : UInt8)).length = 4096 * 2160 := by
  obtain ⟨r, e, hr⟩ := C29_frame_exists 4096 2160 (by norm_num)
  obtain ⟨f, rfl⟩ := Option.isSome_iff_exists.1 (hr.2 (by omega))
  exact ⟨f, e, List.length_replicate⟩

end Afs
