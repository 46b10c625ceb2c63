import Verif.Model.Hash
import Verif.Spec.Sha
/-!
# The streaming loop and the padding compute "fold over the blocks of the padded message"
-/
namespace Afs

open Spec

theorem blocks_nil : blocks [] = [] := by rw [blocks]; simp

theorem blocks_short {l : Bytes} (h : l.length < 64) : blocks l = [] := by
  rw [blocks, if_neg (by omega)]

theorem blocks_cons {b l : Bytes} (h : b.length = 64) : blocks (b ++ l) = b :: blocks l := by
  rw [blocks, if_pos (by simp; omega)]
  rw [List.take_left' h, List.drop_left' h]

theorem blocks_one {b : Bytes} (h : b.length = 64) : blocks b = [b] := by
  have := blocks_cons (l := []) h
  simpa [blocks_nil] using this

theorem blocks_append (n : Nat) : ∀ {b l : Bytes}, b.length = 64 * n →
    blocks (b ++ l) = blocks b ++ blocks l := by
  induction n with
  | zero => intro b l h; have : b = [] := List.length_eq_zero_iff.mp (by omega); subst this; simp [blocks_nil]
  | succ n ih =>
    intro b l h
    have h1 : (b.take 64).length = 64 := by simp; omega
    have h2 : (b.drop 64).length = 64 * n := by simp; omega
    have e : b = b.take 64 ++ b.drop 64 := (List.take_append_drop 64 b).symm
    rw [e, List.append_assoc, blocks_cons h1, ih h2, blocks_cons h1]
    simp

/-- What the streaming state means: `B` is the part of the input already compressed, `T` the
    part waiting in the buffer. -/
structure Streamed {σ τ : Type} (α : σ → τ) (cmp : τ → Bytes → τ) (iv : τ)
    (md : MdState σ) (n : Nat) (B T : Bytes) : Prop where
  lenB : B.length = 64 * n
  lenT : T.length = md.curlen
  cur : md.curlen < 64
  bufLen : md.buf.length = 64
  buf : md.buf.take md.curlen = T
  st : α md.state = (blocks B).foldl cmp iv
  len : md.length = BitVec.ofNat 64 (512 * n)

theorem memcpyAt_length {buf src : Bytes} {off : Nat} (h : off + src.length ≤ buf.length) :
    (memcpyAt buf off src).length = buf.length := by
  simp [memcpyAt]; omega

theorem memcpyAt_take {buf src : Bytes} {off : Nat} (h : off + src.length ≤ buf.length) :
    (memcpyAt buf off src).take (off + src.length) = buf.take off ++ src := by
  rw [memcpyAt, List.take_left']
  simp; omega

theorem mdLoop_streamed {σ τ : Type} {α : σ → τ} {compress : σ → Bytes → σ}
    {cmp : τ → Bytes → τ} {iv : τ}
    (hc : ∀ s b, b.length = 64 → α (compress s b) = cmp (α s) b) :
    ∀ (k : Nat) (inp : Bytes) (md : MdState σ) (n : Nat) (B T : Bytes),
      inp.length ≤ k → Streamed α cmp iv md n B T →
      ∃ n' B' T', B' ++ T' = B ++ T ++ inp ∧
        Streamed α cmp iv (mdLoop compress md inp) n' B' T' := by
  intro k
  induction k with
  | zero =>
    intro inp md n B T hk h
    have : inp = [] := List.length_eq_zero_iff.mp (by omega)
    subst this
    rw [mdLoop]
    exact ⟨n, B, T, by simp, by simpa using h⟩
  | succ k ih =>
    intro inp md n B T hk h
    by_cases h0 : inp.length = 0
    · have : inp = [] := List.length_eq_zero_iff.mp h0
      subst this
      rw [mdLoop]
      exact ⟨n, B, T, by simp, by simpa using h⟩
    rw [mdLoop, if_neg h0]
    by_cases h1 : md.curlen = 0 ∧ inp.length ≥ 64
    · rw [if_pos h1]
      have ht : T = [] := List.length_eq_zero_iff.mp (by rw [h.lenT]; exact h1.1)
      subst ht
      have hb : (inp.take 64).length = 64 := by simp; omega
      have hs : Streamed α cmp iv
          { md with state := compress md.state (inp.take 64), length := md.length + 64 * 8 }
          (n + 1) (B ++ inp.take 64) [] := by
        refine ⟨?_, h.lenT, h.cur, h.bufLen, h.buf, ?_, ?_⟩
        · have := h.lenB; simp; omega
        · show α (compress md.state (inp.take 64)) = _
          rw [hc _ _ hb, h.st, blocks_append n h.lenB, blocks_one hb, List.foldl_append]
          rfl
        · show md.length + 64 * 8 = _
          rw [h.len, show 512 * (n + 1) = 512 * n + 512 by omega, BitVec.ofNat_add]
          rfl
      obtain ⟨n', B', T', e, hs'⟩ := ih (inp.drop 64) _ (n + 1) _ _ (by simp; omega) hs
      exact ⟨n', B', T', by rw [e]; simp, hs'⟩
    · rw [if_neg h1]
      have hcur := h.cur
      have hn : 0 < min inp.length (64 - md.curlen) := by omega
      generalize hnn : min inp.length (64 - md.curlen) = m at *
      have hm1 : m ≤ inp.length := by omega
      have hm2 : md.curlen + m ≤ 64 := by omega
      have hlt : (inp.take m).length = m := by simp; omega
      have hmc : md.curlen + (inp.take m).length ≤ md.buf.length := by
        rw [hlt, h.bufLen]; exact hm2
      have hbl : (memcpyAt md.buf md.curlen (inp.take m)).length = 64 := by
        rw [memcpyAt_length hmc, h.bufLen]
      have hbt : (memcpyAt md.buf md.curlen (inp.take m)).take (md.curlen + m) = T ++ inp.take m := by
        have := memcpyAt_take hmc
        rw [hlt, h.buf] at this
        exact this
      by_cases h2 : md.curlen + m = 64
      · simp only [h2, if_true]
        have hfull : memcpyAt md.buf md.curlen (inp.take m) = T ++ inp.take m := by
          rw [h2, List.take_of_length_le (by omega)] at hbt
          exact hbt
        have hl : (T ++ inp.take m).length = 64 := by rw [← hfull, hbl]
        have hs : Streamed α cmp iv
            { state := compress md.state (memcpyAt md.buf md.curlen (inp.take m)),
              length := md.length + 8 * 64, curlen := 0,
              buf := memcpyAt md.buf md.curlen (inp.take m) }
            (n + 1) (B ++ (T ++ inp.take m)) [] := by
          refine ⟨?_, rfl, by simp, hbl, by simp, ?_, ?_⟩
          · have := h.lenB; rw [List.length_append, hl]; omega
          · show α (compress md.state (memcpyAt md.buf md.curlen (inp.take m))) = _
            rw [hc _ _ hbl, h.st, blocks_append n h.lenB, hfull, blocks_one hl, List.foldl_append]
            rfl
          · show md.length + 8 * 64 = _
            rw [h.len, show 512 * (n + 1) = 512 * n + 512 by omega, BitVec.ofNat_add]
            rfl
        obtain ⟨n', B', T', e, hs'⟩ := ih (inp.drop m) _ (n + 1) _ _ (by simp; omega) hs
        exact ⟨n', B', T', by rw [e]; simp, hs'⟩
      · simp only [h2, if_false]
        rw [if_neg (by omega)]
        have hs : Streamed α cmp iv
            { md with buf := memcpyAt md.buf md.curlen (inp.take m), curlen := md.curlen + m }
            n B (T ++ inp.take m) := by
          refine ⟨h.lenB, ?_, ?_, hbl, hbt, h.st, h.len⟩
          · show _ = md.curlen + m
            rw [List.length_append, hlt, h.lenT]
          · show md.curlen + m < 64
            omega
        obtain ⟨n', B', T', e, hs'⟩ := ih (inp.drop m) _ n _ _ (by simp; omega) hs
        exact ⟨n', B', T', by rw [e]; simp, hs'⟩

theorem zeroFill_eq : ∀ (k : Nat) (buf : Bytes) (cur lim : Nat), lim - cur = k → cur ≤ lim →
    lim ≤ buf.length →
    zeroFill buf cur lim = buf.take cur ++ List.replicate (lim - cur) 0 ++ buf.drop lim := by
  intro k
  induction k with
  | zero =>
    intro buf cur lim hk hle _
    rw [zeroFill, if_neg (by omega)]
    have : cur = lim := by omega
    subst this
    simp
  | succ k ih =>
    intro buf cur lim hk hle hb
    rw [zeroFill, if_pos (by omega), ih _ _ _ (by omega) (by omega) (by simpa using hb)]
    have hc : cur < buf.length := by omega
    rw [show lim - cur = (lim - (cur + 1)) + 1 by omega, List.replicate_succ]
    rw [List.take_set, List.drop_set_of_lt (by omega)]
    rw [List.take_add_one, List.set_append, if_neg (by simp; omega)]
    have : min cur buf.length = cur := by omega
    simp [this, List.getElem?_eq_getElem hc]

theorem byteOf_toNat (x : BitVec 64) (s : Nat) : byteOf x s = UInt8.ofNat (x.toNat / 2 ^ s) := by
  apply UInt8.toNat_inj.mp
  simp only [byteOf, UInt8.toNat_ofBitVec, BitVec.toNat_setWidth, BitVec.toNat_and,
    BitVec.toNat_ushiftRight, UInt8.toNat_ofNat', Nat.shiftRight_eq_div_pow]
  show (_ &&& (2 ^ 8 - 1)) % _ = _
  rw [Nat.and_two_pow_sub_one_eq_mod]
  omega

theorem store64H_eq {n : Nat} (h : n < 2 ^ 64) : store64H (BitVec.ofNat 64 n) = be64 n := by
  simp [store64H, be64, byteOf_toNat, List.range_succ, Nat.mod_eq_of_lt h]

theorem be64_length (n : Nat) : (be64 n).length = 8 := by simp [be64]

theorem padZeros_small {m : Nat} (h : m % 64 + 1 ≤ 56) : padZeros m = 55 - m % 64 := by
  unfold padZeros; omega

theorem padZeros_big {m : Nat} (h : ¬ m % 64 + 1 ≤ 56) : padZeros m = 119 - m % 64 := by
  unfold padZeros; omega

theorem mdFinish_streamed {σ τ : Type} {α : σ → τ} {compress : σ → Bytes → σ}
    {cmp : τ → Bytes → τ} {iv : τ}
    (hc : ∀ s b, b.length = 64 → α (compress s b) = cmp (α s) b)
    {md : MdState σ} {n : Nat} {B T : Bytes} (h : Streamed α cmp iv md n B T)
    (hlen : 8 * (B ++ T).length < 2 ^ 64) :
    α (mdFinish compress md).state = (blocks (pad (B ++ T))).foldl cmp iv := by
  have hcur := h.cur
  have hbl := h.bufLen
  have hT := h.lenT
  have hBT : (B ++ T).length = 64 * n + md.curlen := by simp [h.lenB, hT]
  have hmod : (B ++ T).length % 64 = md.curlen := by omega
  have hL : md.length + BitVec.ofNat 64 (md.curlen * 8) = BitVec.ofNat 64 (8 * (B ++ T).length) := by
    rw [h.len, ← BitVec.ofNat_add]
    congr 1
    omega
  have hst : store64H (md.length + BitVec.ofNat 64 (md.curlen * 8)) = be64 (8 * (B ++ T).length) := by
    rw [hL, store64H_eq hlen]
  -- the buffer after the 0x80 byte
  have hset : (md.buf.set md.curlen 0x80).take (md.curlen + 1) = T ++ [0x80] := by
    rw [List.take_set, List.take_add_one, List.set_append, if_neg (by simp; omega), h.buf]
    have : md.curlen < md.buf.length := by omega
    simp [List.getElem?_eq_getElem this, hT]
  have hsl : (md.buf.set md.curlen 0x80).length = 64 := by simpa using hbl
  unfold mdFinish
  by_cases hbig : md.curlen + 1 > 56
  · simp only [if_pos hbig]
    have e1 : zeroFill (md.buf.set md.curlen 0x80) (md.curlen + 1) 64 =
        T ++ [0x80] ++ List.replicate (63 - md.curlen) 0 := by
      rw [zeroFill_eq _ _ _ _ rfl (by omega) (by omega), hset,
        List.drop_eq_nil_of_le (by omega), List.append_nil,
        show 64 - (md.curlen + 1) = 63 - md.curlen by omega]
    have hl1 : (T ++ [(0x80 : UInt8)] ++ List.replicate (63 - md.curlen) 0).length = 64 := by
      simp [hT]; omega
    rw [e1]
    have e2 : zeroFill (T ++ [0x80] ++ List.replicate (63 - md.curlen) 0) 0 56 =
        List.replicate 56 0 ++ (T ++ [0x80] ++ List.replicate (63 - md.curlen) 0).drop 56 := by
      rw [zeroFill_eq _ _ _ _ rfl (by omega) (by omega)]
      simp
    rw [e2, hst]
    have e3 : memcpyAt (List.replicate 56 0 ++
        (T ++ [0x80] ++ List.replicate (63 - md.curlen) 0).drop 56) 56 (be64 (8 * (B ++ T).length)) =
        List.replicate 56 0 ++ be64 (8 * (B ++ T).length) := by
      rw [memcpyAt, List.take_left' (by simp)]
      rw [List.drop_eq_nil_of_le (as := _ ++ _) (by rw [be64_length, List.length_append, List.length_drop, hl1]; simp)]
      simp
    rw [e3]
    have hl2 : (List.replicate 56 (0 : UInt8) ++ be64 (8 * (B ++ T).length)).length = 64 := by
      rw [List.length_append, be64_length]; simp
    rw [hc _ _ hl2, hc _ _ hl1, h.st]
    have hp : pad (B ++ T) = B ++ ((T ++ [0x80] ++ List.replicate (63 - md.curlen) 0) ++
        (List.replicate 56 0 ++ be64 (8 * (B ++ T).length))) := by
      rw [pad, padZeros_big (by omega), hmod, show 119 - md.curlen = (63 - md.curlen) + 56 by omega,
        ← List.replicate_append_replicate]
      simp only [List.append_assoc]
    rw [hp, blocks_append n h.lenB, blocks_cons hl1, blocks_one hl2, List.foldl_append]
    rfl
  · simp only [if_neg hbig]
    have e1 : zeroFill (md.buf.set md.curlen 0x80) (md.curlen + 1) 56 =
        T ++ [0x80] ++ List.replicate (55 - md.curlen) 0 ++ (md.buf.set md.curlen 0x80).drop 56 := by
      rw [zeroFill_eq _ _ _ _ rfl (by omega) (by omega), hset,
        show 56 - (md.curlen + 1) = 55 - md.curlen by omega]
    have hl1 : (T ++ [(0x80 : UInt8)] ++ List.replicate (55 - md.curlen) 0).length = 56 := by
      simp [hT]; omega
    rw [e1, hst]
    have e3 : memcpyAt (T ++ [0x80] ++ List.replicate (55 - md.curlen) 0 ++
        (md.buf.set md.curlen 0x80).drop 56) 56 (be64 (8 * (B ++ T).length)) =
        T ++ [0x80] ++ List.replicate (55 - md.curlen) 0 ++ be64 (8 * (B ++ T).length) := by
      rw [memcpyAt, List.take_left' hl1]
      rw [List.drop_eq_nil_of_le (as := _ ++ _)
        (by rw [be64_length, List.length_append, List.length_drop, hl1, hsl]; omega), List.append_nil]
    rw [e3]
    have hl2 : (T ++ [(0x80 : UInt8)] ++ List.replicate (55 - md.curlen) 0 ++
        be64 (8 * (B ++ T).length)).length = 64 := by
      rw [List.length_append, be64_length, hl1]
    rw [hc _ _ hl2, h.st]
    have hp : pad (B ++ T) = B ++ (T ++ [0x80] ++ List.replicate (55 - md.curlen) 0 ++
        be64 (8 * (B ++ T).length)) := by
      rw [pad, padZeros_small (by omega), hmod]
      simp only [List.append_assoc]
    rw [hp, blocks_append n h.lenB, blocks_one hl2, List.foldl_append]
    rfl

end Afs
