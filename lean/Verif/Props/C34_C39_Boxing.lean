import Verif.Model.BoxingFormat
/-!
# C34: enough frames are reserved for a file;  C39: bit depth of a pixel
-/
namespace Afs

/-- C34: for files below 4 GiB the frames reserved can hold the file. -/
theorem C34_frames_suffice (bytes n : Nat) (hb : 0 < bytes) (hn : n < 2 ^ 32) :
    n ≤ getDataFrames (some bytes) n * bytes := by
  show n ≤ getCeil n bytes * bytes
  unfold getCeil
  rw [if_neg (by omega)]
  have hu : u32 n = n := Nat.mod_eq_of_lt hn
  simp only [hu]
  have hdm := Nat.div_add_mod n bytes
  have hc : n / bytes * bytes = bytes * (n / bytes) := Nat.mul_comm _ _
  split
  · rename_i h
    have hlt : n / bytes + 1 < two32 := by
      by_cases h1 : bytes = 1
      · subst h1; simp [Nat.mod_one] at h
      · have : n / bytes ≤ n / 2 := Nat.div_le_div_left (by omega) (by omega)
        unfold two32; omega
    rw [u32, Nat.mod_eq_of_lt hlt, Nat.add_mul, Nat.one_mul]
    have := Nat.mod_lt n hb
    omega
  · rename_i h
    have : n % bytes = 0 := by omega
    omega

/-- C34: and one frame fewer would not hold it. -/
theorem C34_no_frame_wasted (bytes n k : Nat) (hb : 0 < bytes) (hn : n < 2 ^ 32)
    (hk : k < getDataFrames (some bytes) n) : k * bytes < n := by
  have hk' : k < getCeil n bytes := hk
  unfold getCeil at hk'
  rw [if_neg (by omega)] at hk'
  have hu : u32 n = n := Nat.mod_eq_of_lt hn
  simp only [hu] at hk'
  have hdm := Nat.div_add_mod n bytes
  split at hk'
  · rename_i h
    have hle : k ≤ n / bytes := by
      have : u32 (n / bytes + 1) ≤ n / bytes + 1 := Nat.mod_le _ _
      omega
    have := Nat.mul_le_mul_right bytes hle
    rw [Nat.mul_comm (n / bytes)] at this
    omega
  · have : k + 1 ≤ n / bytes := hk'
    have := Nat.mul_le_mul_right bytes this
    rw [Nat.mul_comm (n / bytes), Nat.add_mul, Nat.one_mul] at this
    omega

/-- C34: so the answer is the exact ceiling, characterised without any division. -/
theorem C34_least_sufficient (bytes n k : Nat) (hb : 0 < bytes) (hn : n < 2 ^ 32) :
    n ≤ k * bytes ↔ getDataFrames (some bytes) n ≤ k := by
  constructor
  · intro h
    refine Nat.le_of_not_lt fun hlt => ?_
    have := C34_no_frame_wasted bytes n k hb hn hlt
    omega
  · intro h
    exact Nat.le_trans (C34_frames_suffice bytes n hb hn) (Nat.mul_le_mul_right _ h)

/-- Finding: the file size is truncated to 32 bits before the division, so for EVERY file of 4 GiB or
    more and EVERY frame size the reserved frames are too few. -/
theorem C34_too_few_from_4GiB (bytes n : Nat) (hb : 0 < bytes) (hb32 : bytes < 2 ^ 32) (hn : 2 ^ 32 ≤ n) :
    getDataFrames (some bytes) n * bytes < n := by
  show getCeil n bytes * bytes < n
  unfold getCeil
  rw [if_neg (by omega)]
  have hu : u32 n = n % 4294967296 := rfl
  have hlow : n % 4294967296 / bytes * bytes ≤ n % 4294967296 := Nat.div_mul_le_self _ _
  have hmod : n % 4294967296 + 4294967296 ≤ n := by omega
  simp only [hu]
  split
  · have h1 : u32 (n % 4294967296 / bytes + 1) ≤ n % 4294967296 / bytes + 1 := Nat.mod_le _ _
    have h2 := Nat.mul_le_mul_right bytes h1
    rw [Nat.add_mul, Nat.one_mul] at h2
    omega
  · omega

/-- C34: no format, or a format without capacity, reserves nothing. -/
theorem C34_no_capacity (n : Nat) : getDataFrames none n = 0 ∧ getDataFrames (some 0) n = 0 :=
  ⟨rfl, rfl⟩

/-- Concrete instance: 1001 bytes in frames of 100. -/
example : getDataFrames (some 100) 1001 = 11 ∧ getDataFrames (some 100) 1000 = 10 := by decide

theorem colorDepthLoop_spec : ∀ (k l depth : Nat), l ≤ k →
    depth ≤ colorDepthLoop l depth ∧ l < 2 ^ (colorDepthLoop l depth - depth) ∧
      (l ≠ 0 → depth < colorDepthLoop l depth ∧ 2 ^ (colorDepthLoop l depth - depth - 1) ≤ l) := by
  intro k
  induction k with
  | zero =>
    intro l depth h
    have : l = 0 := by omega
    subst this
    rw [colorDepthLoop]; simp
  | succ k ih =>
    intro l depth h
    rw [colorDepthLoop]
    by_cases h0 : l = 0
    · subst h0; simp
    · rw [if_neg h0]
      by_cases hl : l / 2 = 0
      · have hl1 : l = 1 := by omega
        have he0 : colorDepthLoop 0 (depth + 1) = depth + 1 := by rw [colorDepthLoop]; simp
        rw [hl, he0, hl1]
        simp
      · obtain ⟨h1, h2, h3⟩ := ih (l / 2) (depth + 1) (by omega)
        obtain ⟨h3a, h3b⟩ := h3 hl
        generalize colorDepthLoop (l / 2) (depth + 1) = r at *
        obtain ⟨e, he⟩ : ∃ e, r = depth + 2 + e := ⟨r - (depth + 2), by omega⟩
        subst he
        rw [show depth + 2 + e - (depth + 1) = e + 1 by omega] at h2 h3b
        rw [show e + 1 - 1 = e by omega] at h3b
        rw [show depth + 2 + e - depth = e + 1 + 1 by omega]
        rw [show e + 1 + 1 - 1 = e + 1 by omega]
        have p1 := Nat.pow_succ 2 e
        have p2 := Nat.pow_succ 2 (e + 1)
        refine ⟨by omega, by omega, fun _ => ⟨by omega, by omega⟩⟩

/-- C39: the bit depth computed for a frame with `levels` grey levels is enough to number all of them. -/
theorem C39_depth_suffices (levels : Nat) (h : 1 ≤ levels) : levels ≤ 2 ^ bitsPerPixel levels := by
  have := (colorDepthLoop_spec (levels - 1) (levels - 1) 0 (Nat.le_refl _)).2.1
  rw [Nat.sub_zero] at this
  unfold bitsPerPixel
  omega

/-- C39: and no smaller depth is. -/
theorem C39_depth_is_least (levels d : Nat) (h : 1 ≤ levels) (hd : d < bitsPerPixel levels) :
    2 ^ d < levels := by
  have hs := colorDepthLoop_spec (levels - 1) (levels - 1) 0 (Nat.le_refl _)
  rw [Nat.sub_zero] at hs
  unfold bitsPerPixel at hd
  by_cases h0 : levels - 1 = 0
  · rw [h0, colorDepthLoop] at hd; simp at hd
  · have h2 := (hs.2.2 h0).2
    have : 2 ^ d ≤ 2 ^ (colorDepthLoop (levels - 1) 0 - 1) := Nat.pow_le_pow_right (by decide) (by omega)
    omega

/-- C39: a frame with a power of two of levels (at least 2) reports exactly that many symbols per pixel. -/
theorem C39_symbols_per_pixel_exact (k : Nat) (hk : 1 ≤ k) :
    bitsPerPixel (2 ^ k) = k ∧ symbolPerPixel (bitsPerPixel (2 ^ k)) = 2 ^ k := by
  have h1 : 1 ≤ 2 ^ k := Nat.one_le_two_pow
  have hle : k ≤ bitsPerPixel (2 ^ k) :=
    (Nat.pow_le_pow_iff_right (by decide)).mp (C39_depth_suffices (2 ^ k) h1)
  have hge : bitsPerPixel (2 ^ k) ≤ k := Nat.le_of_not_lt fun h =>
    Nat.lt_irrefl _ (C39_depth_is_least (2 ^ k) k h1 h)
  have he : bitsPerPixel (2 ^ k) = k := Nat.le_antisymm hge hle
  refine ⟨he, ?_⟩
  rw [he, symbolPerPixel, if_neg (by omega)]

/-- C39: a one-level frame has depth 0 and is reported to have no symbols at all. -/
theorem C39_one_level : bitsPerPixel 1 = 0 ∧ symbolPerPixel (bitsPerPixel 1) = 0 := by
  have : bitsPerPixel 1 = 0 := by unfold bitsPerPixel; rw [colorDepthLoop]; simp
  rw [this]; exact ⟨rfl, rfl⟩

/-- Concrete instance: five levels need three bits. -/
example : 4 < 5 ∧ (5 : Nat) ≤ 2 ^ 3 := by decide

end Afs
