import Verif.Model.Sha256
import Verif.Proof.Hash
/-!
# The 64-bit compress functions refine the 32-bit ones of FIPS 180-4

Truncation to 32 bits commutes with every operation used.
-/
namespace Afs

open Spec

/-- Truncation of an `unsigned long` to a FIPS word. -/
abbrev lo (x : BitVec 64) : BitVec 32 := x.setWidth 32

theorem lo_add (x y : BitVec 64) : lo (x + y) = lo x + lo y := BitVec.setWidth_add _ _ (by omega)
theorem lo_xor (x y : BitVec 64) : lo (x ^^^ y) = lo x ^^^ lo y := BitVec.setWidth_xor
theorem lo_and (x y : BitVec 64) : lo (x &&& y) = lo x &&& lo y := BitVec.setWidth_and
theorem lo_or (x y : BitVec 64) : lo (x ||| y) = lo x ||| lo y := BitVec.setWidth_or
theorem lo_up (x : BitVec 32) : lo (x.setWidth 64) = x := by simp [lo]

theorem rotl_eq (x : BitVec 32) (n : Nat) : rotl x n = x.rotateLeft n := by
  unfold rotl BitVec.rotateLeft BitVec.rotateLeftAux
  by_cases h : n % 32 = 0
  · have : x >>> 32 = 0#32 := BitVec.ushiftRight_eq_zero (by omega)
    simp [h, this]
  · simp [h]

theorem rotr_eq (x : BitVec 32) (n : Nat) : rotr x n = x.rotateRight n := by
  unfold rotr BitVec.rotateRight BitVec.rotateRightAux
  by_cases h : n % 32 = 0
  · simp [h]
  · simp [h]

theorem lo_rol (x : BitVec 64) (n : Nat) : lo (rol64 x n) = (lo x).rotateLeft n := by
  rw [rol64, lo_up, rotl_eq]

theorem lo_ror (x : BitVec 64) (n : Nat) : lo (ror64 x n) = (lo x).rotateRight n := by
  rw [ror64, lo_up, rotr_eq]

theorem lo_shr (x : BitVec 64) (n : Nat) : lo (shr64 x n) = lo x >>> n := by
  apply BitVec.eq_of_toNat_eq
  simp only [lo, shr64, BitVec.toNat_setWidth, BitVec.toNat_ushiftRight, BitVec.toNat_and]
  have : (0xFFFFFFFF#64).toNat = 2 ^ 32 - 1 := by decide
  rw [this, Nat.and_two_pow_sub_one_eq_mod, Nat.shiftRight_eq_div_pow]
  apply Nat.mod_eq_of_lt
  exact Nat.lt_of_le_of_lt (Nat.div_le_self _ _) (Nat.mod_lt _ (by decide))

theorem ch_eq (x y z : BitVec 32) : z ^^^ (x &&& (y ^^^ z)) = Ch x y z := by
  unfold Ch
  ext i hi
  simp only [BitVec.getElem_xor, BitVec.getElem_and, BitVec.getElem_not]
  cases x[i] <;> cases y[i] <;> cases z[i] <;> rfl

theorem maj_eq (x y z : BitVec 32) : (x &&& y) ||| (z &&& (x ||| y)) = Maj x y z := by
  unfold Maj
  ext i hi
  simp only [BitVec.getElem_xor, BitVec.getElem_and, BitVec.getElem_or]
  cases x[i] <;> cases y[i] <;> cases z[i] <;> rfl

theorem maj_eq' (x y z : BitVec 32) : ((x ||| y) &&& z) ||| (x &&& y) = Maj x y z := by
  unfold Maj
  ext i hi
  simp only [BitVec.getElem_xor, BitVec.getElem_and, BitVec.getElem_or]
  cases x[i] <;> cases y[i] <;> cases z[i] <;> rfl

theorem loadByte_toNat (y : UInt8) (s : Nat) (h : s ≤ 24) : (loadByte y s).toNat = y.toNat <<< s := by
  have hy : y.toNat < 2 ^ 8 := y.toNat_lt
  simp only [loadByte, BitVec.toNat_shiftLeft, BitVec.toNat_and, BitVec.toNat_setWidth,
    UInt8.toNat_toBitVec]
  have e : (255#64).toNat = 2 ^ 8 - 1 := by decide
  rw [e, Nat.and_two_pow_sub_one_eq_mod]
  rw [Nat.mod_eq_of_lt (show y.toNat < 2 ^ 64 by omega), Nat.mod_eq_of_lt hy]
  apply Nat.mod_eq_of_lt
  rw [Nat.shiftLeft_eq]
  have : 2 ^ s ≤ 2 ^ 24 := Nat.pow_le_pow_right (by decide) h
  calc y.toNat * 2 ^ s ≤ 2 ^ 8 * 2 ^ 24 := Nat.mul_le_mul (by omega) this
    _ < 2 ^ 64 := by decide

theorem load32H_word (M : Bytes) (t : Nat) : lo (load32H M (4 * t)) = word M t := by
  unfold load32H word
  generalize M.getD (4 * t) 0 = a
  generalize M.getD (4 * t + 1) 0 = b
  generalize M.getD (4 * t + 2) 0 = c
  generalize M.getD (4 * t + 3) 0 = d
  apply BitVec.eq_of_toNat_eq
  have ha : a.toNat < 2 ^ 8 := a.toNat_lt
  have hb : b.toNat < 2 ^ 8 := b.toNat_lt
  have hc : c.toNat < 2 ^ 8 := c.toNat_lt
  have hd : d.toNat < 2 ^ 8 := d.toNat_lt
  have e3 : c.toNat <<< 8 ||| d.toNat = c.toNat * 2 ^ 8 + d.toNat := by
    rw [← Nat.shiftLeft_add_eq_or_of_lt hd, Nat.shiftLeft_eq]
  simp only [lo, BitVec.toNat_setWidth, BitVec.toNat_or, loadByte_toNat _ _ (Nat.le_refl 24),
    loadByte_toNat _ 16 (by omega), loadByte_toNat _ 8 (by omega), loadByte_toNat _ 0 (by omega),
    BitVec.toNat_append, UInt8.toNat_toBitVec]
  have l2 : b.toNat <<< 16 ||| (c.toNat * 2 ^ 8 + d.toNat) = b.toNat * 2 ^ 16 + (c.toNat * 2 ^ 8 + d.toNat) := by
    rw [← Nat.shiftLeft_add_eq_or_of_lt (by omega), Nat.shiftLeft_eq]
  have l1 : a.toNat <<< 24 ||| (b.toNat * 2 ^ 16 + (c.toNat * 2 ^ 8 + d.toNat)) =
      a.toNat * 2 ^ 24 + (b.toNat * 2 ^ 16 + (c.toNat * 2 ^ 8 + d.toNat)) := by
    rw [← Nat.shiftLeft_add_eq_or_of_lt (by omega), Nat.shiftLeft_eq]
  rw [Nat.shiftLeft_zero, Nat.or_assoc, Nat.or_assoc, e3, l2, l1]
  rw [← Nat.shiftLeft_add_eq_or_of_lt hb, ← Nat.shiftLeft_add_eq_or_of_lt hc,
    ← Nat.shiftLeft_add_eq_or_of_lt hd]
  simp only [Nat.shiftLeft_eq]
  omega

theorem ofBitVec_extract (x : BitVec 64) (s : Nat) (h : s ≤ 24) :
    byteOf x s = UInt8.ofBitVec ((lo x).extractLsb' s 8) := by
  unfold byteOf
  congr 1
  apply BitVec.eq_of_toNat_eq
  simp only [lo, BitVec.extractLsb'_toNat, BitVec.toNat_setWidth, BitVec.toNat_and,
    BitVec.toNat_ushiftRight]
  have e : (255#64).toNat = 2 ^ 8 - 1 := by decide
  rw [e, Nat.and_two_pow_sub_one_eq_mod, Nat.mod_mod]
  simp only [Nat.shiftRight_eq_div_pow]
  have h2 : (2 : Nat) ^ 32 = 2 ^ s * 2 ^ (32 - s) := by rw [← Nat.pow_add]; congr 1; omega
  rw [h2, Nat.mod_mul_right_div_self]
  exact (Nat.mod_mod_of_dvd _ (Nat.pow_dvd_pow 2 (by omega))).symm

theorem store32H_eq (x : BitVec 64) : store32H x = wordBytes (lo x) := by
  unfold store32H wordBytes
  rw [ofBitVec_extract x 24 (by omega), ofBitVec_extract x 16 (by omega),
    ofBitVec_extract x 8 (by omega), ofBitVec_extract x 0 (by omega)]

/-- Growing a list by appending a value computed from what is there already. -/
theorem grow_spec (f : List (BitVec 64) → Nat → BitVec 64) (w : Nat → BitVec 32) (k : Nat)
    (W0 : List (BitVec 64)) (h0 : W0.length = k) (hw0 : ∀ t, t < k → lo (wAt W0 t) = w t)
    (hf : ∀ (W : List (BitVec 64)) (i : Nat), k ≤ i → W.length = i →
      (∀ t, t < i → lo (wAt W t) = w t) → lo (f W i) = w i) :
    ∀ n, ((List.range' k n).foldl (fun W i => W ++ [f W i]) W0).length = k + n ∧
      ∀ t, t < k + n → lo (wAt ((List.range' k n).foldl (fun W i => W ++ [f W i]) W0) t) = w t := by
  intro n
  induction n with
  | zero => simpa [h0] using hw0
  | succ n ih =>
    rw [List.range'_concat, List.foldl_append]
    simp only [List.foldl_cons, List.foldl_nil, Nat.one_mul]
    obtain ⟨hl, hw⟩ := ih
    generalize (List.range' k n).foldl (fun W i => W ++ [f W i]) W0 = W at *
    refine ⟨by simp [hl]; omega, ?_⟩
    intro t ht
    by_cases h : t < k + n
    · have : wAt (W ++ [f W (k + n)]) t = wAt W t := by
        simp [wAt, List.getD_eq_getElem?_getD, List.getElem?_append_left (show t < W.length by omega)]
      rw [this]; exact hw t h
    · have ht' : t = k + n := by omega
      subst ht'
      have : wAt (W ++ [f W (k + n)]) (k + n) = f W (k + n) := by
        simp [wAt, List.getD_eq_getElem?_getD, ← hl]
      rw [this]
      exact hf W (k + n) (by omega) hl hw

theorem first16 (buf : Bytes) (t : Nat) (h : t < 16) :
    lo (wAt ((List.range 16).map fun i => load32H buf (4 * i)) t) = word buf t := by
  rw [← load32H_word]
  simp [wAt, List.getD_eq_getElem?_getD, h]

theorem sha1Schedule_spec (buf : Bytes) (t : Nat) (h : t < 80) :
    lo (wAt (sha1Schedule buf) t) = sha1W buf t := by
  refine (grow_spec
    (fun W i => rol64 (wAt W (i - 3) ^^^ wAt W (i - 8) ^^^ wAt W (i - 14) ^^^ wAt W (i - 16)) 1)
    (sha1W buf) 16 _ (by simp) ?_ ?_ 64).2 t h
  · intro t ht
    rw [first16 _ _ ht, sha1W, if_pos ht]
  · intro W i hi hl hw
    rw [lo_rol, lo_xor, lo_xor, lo_xor, hw _ (by omega), hw _ (by omega), hw _ (by omega),
      hw _ (by omega), sha1W.eq_def buf i, if_neg (by omega)]

theorem sha256Schedule_spec (buf : Bytes) (t : Nat) (h : t < 64) :
    lo (wAt (sha256Schedule buf) t) = sha256W buf t := by
  refine (grow_spec
    (fun W i => sha2Gamma1 (wAt W (i - 2)) + wAt W (i - 7) + sha2Gamma0 (wAt W (i - 15)) +
        wAt W (i - 16))
    (sha256W buf) 16 _ (by simp) ?_ ?_ 48).2 t h
  · intro t ht
    rw [first16 _ _ ht, sha256W, if_pos ht]
  · intro W i hi hl hw
    rw [sha256W.eq_def buf i, if_neg (by omega)]
    simp only [sha2Gamma1, sha2Gamma0, lo_add, lo_xor, lo_ror, lo_shr, sigma0, sigma1]
    rw [hw _ (by omega), hw _ (by omega), hw _ (by omega), hw _ (by omega)]

/-- Truncated SHA-1 words. -/
def abs1 (s : Sha1Words) : H5 := ⟨lo s.a, lo s.b, lo s.c, lo s.d, lo s.e⟩

theorem swap3 (p k w : BitVec 32) : p + k + w = p + w + k := by
  rw [BitVec.add_assoc, BitVec.add_comm k, ← BitVec.add_assoc]

theorem sha1Body_spec (buf : Bytes) (F : BitVec 64 → BitVec 64 → BitVec 64 → BitVec 64)
    (K : BitVec 64) (i : Nat) (s : Sha1Words) (hi : i + 4 < 80)
    (hF : ∀ j, j < 5 → ∀ x y z, lo (F x y z) = sha1f (i + j) (lo x) (lo y) (lo z))
    (hK : ∀ j, j < 5 → lo K = sha1K (i + j)) :
    abs1 (sha1Body F K (sha1Schedule buf) i s) =
      [i, i + 1, i + 2, i + 3, i + 4].foldl (sha1Step buf) (abs1 s) := by
  obtain ⟨a, b, c, d, e⟩ := s
  have w0 := sha1Schedule_spec buf i (by omega)
  have w1 := sha1Schedule_spec buf (i + 1) (by omega)
  have w2 := sha1Schedule_spec buf (i + 2) (by omega)
  have w3 := sha1Schedule_spec buf (i + 3) (by omega)
  have w4 := sha1Schedule_spec buf (i + 4) (by omega)
  have k0 := hK 0 (by omega)
  have k1 := hK 1 (by omega)
  have k2 := hK 2 (by omega)
  have k3 := hK 3 (by omega)
  have k4 := hK 4 (by omega)
  have f0 := hF 0 (by omega)
  have f1 := hF 1 (by omega)
  have f2 := hF 2 (by omega)
  have f3 := hF 3 (by omega)
  have f4 := hF 4 (by omega)
  have step : ∀ (j : Nat) (a b c d e : BitVec 64),
      lo K = sha1K (i + j) →
      (∀ x y z, lo (F x y z) = sha1f (i + j) (lo x) (lo y) (lo z)) →
      lo (wAt (sha1Schedule buf) (i + j)) = sha1W buf (i + j) →
      sha1Step buf ⟨lo a, lo b, lo c, lo d, lo e⟩ (i + j) =
        ⟨lo (sha1FF F K a b c d e (wAt (sha1Schedule buf) (i + j))).1, lo a,
         lo (sha1FF F K a b c d e (wAt (sha1Schedule buf) (i + j))).2, lo c, lo d⟩ := by
    intro j a b c d e hk hf hw
    simp only [sha1Step, sha1FF, lo_add, lo_rol, hf, hw, hk]
    rw [swap3]
  show _ = sha1Step buf (sha1Step buf (sha1Step buf (sha1Step buf (sha1Step buf
    ⟨lo a, lo b, lo c, lo d, lo e⟩ (i + 0)) (i + 1)) (i + 2)) (i + 3)) (i + 4)
  rw [step 0 _ _ _ _ _ k0 f0 w0, step 1 _ _ _ _ _ k1 f1 w1, step 2 _ _ _ _ _ k2 f2 w2,
    step 3 _ _ _ _ _ k3 f3 w3, step 4 _ _ _ _ _ k4 f4 w4]
  simp only [Nat.add_zero, sha1Body, abs1]

theorem sha1Loop_spec (buf : Bytes) (F : BitVec 64 → BitVec 64 → BitVec 64 → BitVec 64)
    (K : BitVec 64) (f : BitVec 32 → BitVec 32 → BitVec 32 → BitVec 32)
    (is : List Nat) (s : Sha1Words) (hi : ∀ i ∈ is, i + 4 < 80)
    (hF : ∀ x y z, lo (F x y z) = f (lo x) (lo y) (lo z))
    (hf : ∀ i ∈ is, ∀ j, j < 5 → sha1f (i + j) = f ∧ lo K = sha1K (i + j)) :
    abs1 (is.foldl (fun s i => sha1Body F K (sha1Schedule buf) i s) s) =
      (is.flatMap fun i => [i, i + 1, i + 2, i + 3, i + 4]).foldl (sha1Step buf) (abs1 s) := by
  induction is generalizing s with
  | nil => rfl
  | cons i is ih =>
    simp only [List.foldl_cons, List.flatMap_cons, List.foldl_append]
    rw [ih _ (fun k hk => hi k (List.mem_cons_of_mem _ hk))
      (fun k hk => hf k (List.mem_cons_of_mem _ hk))]
    rw [sha1Body_spec buf F K i s (hi i List.mem_cons_self)
      (fun j hj x y z => by rw [(hf i List.mem_cons_self j hj).1]; exact hF x y z)
      (fun j hj => (hf i List.mem_cons_self j hj).2)]
    rfl

theorem sha1Compress_spec (s : Sha1Words) (b : Bytes) :
    abs1 (sha1Compress s b) = sha1Block (abs1 s) b := by
  have h0 := fun s => sha1Loop_spec b sha1F0 0x5a827999 Ch [0, 5, 10, 15] s
    (by decide) (fun x y z => by rw [sha1F0, lo_xor, lo_and, lo_xor, ch_eq])
    (by
      intro i hi j hj
      have : i + j < 20 := by simp at hi; omega
      simp only [sha1f, sha1K, if_pos this]
      exact ⟨trivial, by decide⟩)
  have h1 := fun s => sha1Loop_spec b sha1F1 0x6ed9eba1 Parity [20, 25, 30, 35] s
    (by decide) (fun x y z => by rw [sha1F1, lo_xor, lo_xor]; rfl)
    (by
      intro i hi j hj
      have h1 : ¬ i + j < 20 := by simp at hi; omega
      have h2 : i + j < 40 := by simp at hi; omega
      simp only [sha1f, sha1K, if_neg h1, if_pos h2]
      exact ⟨trivial, by decide⟩)
  have h2 := fun s => sha1Loop_spec b sha1F2 0x8f1bbcdc Maj [40, 45, 50, 55] s
    (by decide) (fun x y z => by rw [sha1F2, lo_or, lo_and, lo_and, lo_or, maj_eq])
    (by
      intro i hi j hj
      have h1 : ¬ i + j < 20 := by simp at hi; omega
      have h2 : ¬ i + j < 40 := by simp at hi; omega
      have h3 : i + j < 60 := by simp at hi; omega
      simp only [sha1f, sha1K, if_neg h1, if_neg h2, if_pos h3]
      exact ⟨trivial, by decide⟩)
  have h3 := fun s => sha1Loop_spec b sha1F3 0xca62c1d6 Parity [60, 65, 70, 75] s
    (by decide) (fun x y z => by rw [sha1F3, lo_xor, lo_xor]; rfl)
    (by
      intro i hi j hj
      have h1 : ¬ i + j < 20 := by simp at hi; omega
      have h2 : ¬ i + j < 40 := by simp at hi; omega
      have h3 : ¬ i + j < 60 := by simp at hi; omega
      simp only [sha1f, sha1K, if_neg h1, if_neg h2, if_neg h3]
      exact ⟨trivial, by decide⟩)
  have hr : List.range 80 =
      ([0, 5, 10, 15].flatMap fun i => [i, i + 1, i + 2, i + 3, i + 4]) ++
      (([20, 25, 30, 35].flatMap fun i => [i, i + 1, i + 2, i + 3, i + 4]) ++
      (([40, 45, 50, 55].flatMap fun i => [i, i + 1, i + 2, i + 3, i + 4]) ++
      ([60, 65, 70, 75].flatMap fun i => [i, i + 1, i + 2, i + 3, i + 4]))) := by decide
  unfold sha1Block
  rw [hr, List.foldl_append, List.foldl_append, List.foldl_append, ← h0, ← h1, ← h2, ← h3]
  simp only [sha1Compress, abs1, lo_add]

/-- Truncated SHA-256 words. -/
def abs2 (s : Sha256Words) : H8 :=
  ⟨lo s.s0, lo s.s1, lo s.s2, lo s.s3, lo s.s4, lo s.s5, lo s.s6, lo s.s7⟩

theorem sha256K_table : ∀ t, t < 64 → lo (wAt sha256KTable t) = sha256K t := by
  decide

theorem sha2Body_spec (buf : Bytes) (i : Nat) (s : Sha256Words) (hi : i + 7 < 64) :
    abs2 (sha2Body (sha256Schedule buf) sha256KTable i s) =
      [i, i + 1, i + 2, i + 3, i + 4, i + 5, i + 6, i + 7].foldl (sha256Step buf) (abs2 s) := by
  obtain ⟨a, b, c, d, e, f, g, h⟩ := s
  have step : ∀ (j : Nat) (a b c d e f g h : BitVec 64), j < 8 →
      sha256Step buf ⟨lo a, lo b, lo c, lo d, lo e, lo f, lo g, lo h⟩ (i + j) =
        ⟨lo (sha2Rnd a b c d e f g h (wAt (sha256Schedule buf) (i + j)) (wAt sha256KTable (i + j))).2,
          lo a, lo b, lo c,
          lo (sha2Rnd a b c d e f g h (wAt (sha256Schedule buf) (i + j)) (wAt sha256KTable (i + j))).1,
          lo e, lo f, lo g⟩ := by
    intro j a b c d e f g h hj
    simp only [sha256Step, sha2Rnd, lo_add, sha2Sigma0, sha2Sigma1, sha2Ch, sha2Maj, lo_xor, lo_and,
      lo_or, lo_ror, sha256Schedule_spec buf (i + j) (by omega), sha256K_table (i + j) (by omega),
      ch_eq, maj_eq', Sigma0, Sigma1]
  show _ = sha256Step buf (sha256Step buf (sha256Step buf (sha256Step buf (sha256Step buf
    (sha256Step buf (sha256Step buf (sha256Step buf
    ⟨lo a, lo b, lo c, lo d, lo e, lo f, lo g, lo h⟩ (i + 0)) (i + 1)) (i + 2)) (i + 3)) (i + 4))
    (i + 5)) (i + 6)) (i + 7)
  rw [step 0 _ _ _ _ _ _ _ _ (by omega), step 1 _ _ _ _ _ _ _ _ (by omega),
    step 2 _ _ _ _ _ _ _ _ (by omega), step 3 _ _ _ _ _ _ _ _ (by omega),
    step 4 _ _ _ _ _ _ _ _ (by omega), step 5 _ _ _ _ _ _ _ _ (by omega),
    step 6 _ _ _ _ _ _ _ _ (by omega), step 7 _ _ _ _ _ _ _ _ (by omega)]
  simp only [Nat.add_zero, sha2Body, abs2]

theorem sha2Loop_spec (buf : Bytes) (is : List Nat) (s : Sha256Words) (hi : ∀ i ∈ is, i + 7 < 64) :
    abs2 (is.foldl (fun s i => sha2Body (sha256Schedule buf) sha256KTable i s) s) =
      (is.flatMap fun i => [i, i + 1, i + 2, i + 3, i + 4, i + 5, i + 6, i + 7]).foldl
        (sha256Step buf) (abs2 s) := by
  induction is generalizing s with
  | nil => rfl
  | cons i is ih =>
    simp only [List.foldl_cons, List.flatMap_cons, List.foldl_append]
    rw [ih _ (fun k hk => hi k (List.mem_cons_of_mem _ hk)), sha2Body_spec buf i s (hi i List.mem_cons_self)]
    rfl

theorem sha256Compress_spec (s : Sha256Words) (b : Bytes) :
    abs2 (sha256Compress s b) = sha256Block (abs2 s) b := by
  have hr : List.range 64 =
      [0, 8, 16, 24, 32, 40, 48, 56].flatMap
        fun i => [i, i + 1, i + 2, i + 3, i + 4, i + 5, i + 6, i + 7] := by decide
  unfold sha256Block
  rw [hr, ← sha2Loop_spec b _ s (by decide)]
  simp only [sha256Compress, abs2, lo_add]

end Afs
