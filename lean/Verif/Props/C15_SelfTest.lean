import Verif.Model.ShaTest
import Verif.Props.C15_C19_Hash
/-!
# C15, C16: the self tests
-/
namespace Afs
open Spec

def longMsg : Bytes := b! "abcdbcdecdefdefgefghfghighijhijkijkljklmklmnlmnomnopnopq"

theorem pad_long : blocks (pad longMsg) = [longMsg ++ [0x80] ++ List.replicate 7 0, List.replicate 62 0 ++ [1, 192]] := by
  have e : pad longMsg = (longMsg ++ [0x80] ++ List.replicate 7 0) ++ (List.replicate 62 0 ++ [1, 192]) := by decide +kernel
  rw [e, blocks_cons (by decide), blocks_one (by decide)]

theorem sha1_abc : sha1 (b! "abc") = [0xa9, 0x99, 0x3e, 0x36, 0x47, 0x06, 0x81, 0x6a, 0xba, 0x3e, 0x25, 0x71, 0x78, 0x50, 0xc2, 0x6c, 0x9c, 0xd0, 0xd8, 0x9d] := by
  rw [sha1, pad_abc]
  have : sha1H0 = abs1 (sha1Init []).state := by decide
  simp only [List.foldl_cons, List.foldl_nil]
  rw [this, ← sha1Compress_spec]
  decide +kernel

theorem sha1_long : sha1 longMsg = [0x84, 0x98, 0x3E, 0x44, 0x1C, 0x3B, 0xD2, 0x6E, 0xBA, 0xAE, 0x4A, 0xA1, 0xF9, 0x51, 0x29, 0xE5, 0xE5, 0x46, 0x70, 0xF1] := by
  rw [sha1, pad_long]
  have : sha1H0 = abs1 (sha1Init []).state := by decide
  simp only [List.foldl_cons, List.foldl_nil]
  rw [this, ← sha1Compress_spec, ← sha1Compress_spec]
  decide +kernel

theorem sha256_abc : sha256 (b! "abc") = [0xba, 0x78, 0x16, 0xbf, 0x8f, 0x01, 0xcf, 0xea, 0x41, 0x41, 0x40, 0xde, 0x5d, 0xae, 0x22, 0x23,
    0xb0, 0x03, 0x61, 0xa3, 0x96, 0x17, 0x7a, 0x9c, 0xb4, 0x10, 0xff, 0x61, 0xf2, 0x00, 0x15, 0xad] := by
  rw [sha256, pad_abc]
  have : sha256H0 = abs2 (sha256Init []).state := by decide
  simp only [List.foldl_cons, List.foldl_nil]
  rw [this, ← sha256Compress_spec]
  decide +kernel

theorem sha256_long : sha256 longMsg = [0x24, 0x8d, 0x6a, 0x61, 0xd2, 0x06, 0x38, 0xb8, 0xe5, 0xc0, 0x26, 0x93, 0x0c, 0x3e, 0x60, 0x39,
    0xa3, 0x3c, 0xe4, 0x59, 0x64, 0xff, 0x21, 0x67, 0xf6, 0xec, 0xed, 0xd4, 0x19, 0xdb, 0x06, 0xc1] := by
  rw [sha256, pad_long]
  have : sha256H0 = abs2 (sha256Init []).state := by decide
  simp only [List.foldl_cons, List.foldl_nil]
  rw [this, ← sha256Compress_spec, ← sha256Compress_spec]
  decide +kernel

/-- The self test of SHA-1 passes, whatever the memory of its variables held before. -/
theorem C15_self_test (bufs tmps : Nat → Bytes) (h : ∀ i, (bufs i).length = 64) : sha1Test bufs tmps = CRYPT_OK := by
  obtain ⟨m1, e1, d1⟩ := C15_sha1_is_fips180 (bufs 0) (h 0) (b! "abc") (by decide)
  obtain ⟨m2, e2, d2⟩ := C15_sha1_is_fips180 (bufs 1) (h 1) longMsg (by decide)
  rw [sha1_abc] at d1
  rw [sha1_long] at d2
  unfold longMsg at e2
  simp only [sha1Test, sha1Vectors, selfTest, e1, d1, e2, d2]
  simp

/-- The self test of SHA-256 passes, whatever the memory of its variables held before. -/
theorem C16_self_test (bufs tmps : Nat → Bytes) (h : ∀ i, (bufs i).length = 64) : sha256Test bufs tmps = CRYPT_OK := by
  obtain ⟨m1, e1, d1⟩ := C16_sha256_is_fips180 (bufs 0) (h 0) (b! "abc") (by decide)
  obtain ⟨m2, e2, d2⟩ := C16_sha256_is_fips180 (bufs 1) (h 1) longMsg (by decide)
  rw [sha256_abc] at d1
  rw [sha256_long] at d2
  unfold longMsg at e2
  simp only [sha256Test, sha256Vectors, selfTest, e1, d1, e2, d2]
  simp

/-- What an implementation of a checksum answers for a message: after `init`, `process` and `done`, whatever the memory held. -/
def Spec.Answers {σ : Type} (init : Bytes → MdState σ) (process : MdState σ → Bytes → Except Nat (MdState σ)) (done : MdState σ → Except Nat Bytes)
    (buf msg sum : Bytes) : Prop := ∃ md, process (init buf) msg = .ok md ∧ done md = .ok sum

/-- The self test of any implementation that answers something for every message passes exactly when all test vectors come out: one
    wrong answer, for whichever vector, is found. -/
theorem C15_self_test_detects {σ : Type} (init : Bytes → MdState σ) (process : MdState σ → Bytes → Except Nat (MdState σ))
    (done : MdState σ → Except Nat Bytes) (bufs tmps : Nat → Bytes) (f : Nat → Bytes → Bytes)
    (hf : ∀ i msg, Spec.Answers init process done (bufs i) msg (f i msg)) (vs : List (Bytes × Bytes)) (k : Nat) :
    (selfTest init process done bufs tmps k vs = CRYPT_OK ↔ ∀ j (h : j < vs.length), f (k + j) vs[j].1 = vs[j].2) ∧
    (selfTest init process done bufs tmps k vs = CRYPT_OK ∨ selfTest init process done bufs tmps k vs = CRYPT_FAIL_TESTVECTOR) := by
  induction vs generalizing k with
  | nil => exact ⟨⟨fun _ j h => absurd h (Nat.not_lt_zero j), fun _ => rfl⟩, .inl rfl⟩
  | cons v vs ih =>
    obtain ⟨msg, sum⟩ := v
    obtain ⟨md, e1, e2⟩ := hf k msg
    have e : selfTest init process done bufs tmps k ((msg, sum) :: vs) =
        if f k msg ≠ sum then CRYPT_FAIL_TESTVECTOR else selfTest init process done bufs tmps (k + 1) vs := by
      rw [selfTest]
      simp only [e1, e2]
    rw [e]
    by_cases h : f k msg = sum
    · rw [if_neg (not_not_intro h)]
      refine ⟨(ih (k + 1)).1.trans ⟨fun hv j hj => ?_, fun hv j hj => ?_⟩, (ih (k + 1)).2⟩
      · cases j with
        | zero => exact h
        | succ j =>
          have := hv j (Nat.lt_of_succ_lt_succ hj)
          rw [Nat.add_right_comm k 1 j] at this
          exact this
      · have := hv (j + 1) (Nat.succ_lt_succ hj)
        rw [Nat.add_right_comm k 1 j]
        exact this
    · rw [if_pos h]
      exact ⟨⟨fun hc => (by cases hc), fun hv => absurd (hv 0 (Nat.succ_pos _)) h⟩, .inr rfl⟩

/-- It is not a test that always passes: a function that answers something else fails. -/
example : selfTest sha1Init sha1Process (fun _ => .ok []) (fun _ => List.replicate 64 0) (fun _ => []) 0 sha1Vectors = CRYPT_FAIL_TESTVECTOR := by decide +kernel

end Afs
