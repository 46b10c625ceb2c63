import Verif.Model.ShaFile
import Verif.Proof.Sha
import Verif.Spec.Hex
/-!
# C15-C19: the checksums

`Spec.sha1` / `Spec.sha256` are FIPS 180-4 transcribed (Verif/Spec/Sha.lean); `Spec.hex` is the
lower-case hexadecimal rendering.
-/
namespace Afs

open Spec

/-- Feed the chunks one after the other. -/
def feed {σ : Type} (process : MdState σ → Bytes → Except Nat (MdState σ)) :
    MdState σ → List Bytes → Except Nat (MdState σ)
  | md, [] => .ok md
  | md, c :: cs =>
    match process md c with
    | .error e => .error e
    | .ok md' => feed process md' cs

/-- The digest of a message fed in chunks: init, process for every chunk, done. -/
def sha1Of (buf : Bytes) (chunks : List Bytes) : Except Nat Bytes :=
  match feed sha1Process (sha1Init buf) chunks with
  | .error e => .error e
  | .ok md => sha1Done md

def sha256Of (buf : Bytes) (chunks : List Bytes) : Except Nat Bytes :=
  match feed sha256Process (sha256Init buf) chunks with
  | .error e => .error e
  | .ok md => sha256Done md

/-! ## The streaming invariant for the two functions -/

abbrev Str1 := Streamed abs1 sha1Block sha1H0
abbrev Str2 := Streamed abs2 sha256Block sha256H0

theorem sha1Init_streamed {buf : Bytes} (h : buf.length = 64) : Str1 (sha1Init buf) 0 [] [] := by
  refine ⟨by simp, rfl, by simp [sha1Init], h, by simp [sha1Init], ?_, rfl⟩
  rw [blocks_nil]
  show abs1 (sha1Init []).state = sha1H0
  decide

theorem sha256Init_streamed {buf : Bytes} (h : buf.length = 64) : Str2 (sha256Init buf) 0 [] [] := by
  refine ⟨by simp, rfl, by simp [sha256Init], h, by simp [sha256Init], ?_, rfl⟩
  rw [blocks_nil]
  show abs2 (sha256Init []).state = sha256H0
  decide

theorem sha1Process_streamed {md : MdState Sha1Words} {n : Nat} {B T c : Bytes} (h : Str1 md n B T) :
    ∃ md' n' B' T', sha1Process md c = .ok md' ∧ B' ++ T' = B ++ T ++ c ∧ Str1 md' n' B' T' := by
  obtain ⟨n', B', T', e, hs⟩ := mdLoop_streamed (compress := sha1Compress) (fun s b _ => sha1Compress_spec s b) c.length c md n B T
    (Nat.le_refl _) h
  have := h.cur
  exact ⟨_, n', B', T', by rw [sha1Process, if_neg (by omega)], e, hs⟩

theorem sha256Process_streamed {md : MdState Sha256Words} {n : Nat} {B T c : Bytes}
    (h : Str2 md n B T) (hlen : 8 * (B ++ T ++ c).length < 2 ^ 64) :
    ∃ md' n' B' T', sha256Process md c = .ok md' ∧ B' ++ T' = B ++ T ++ c ∧ Str2 md' n' B' T' := by
  obtain ⟨n', B', T', e, hs⟩ := mdLoop_streamed (compress := sha256Compress) (fun s b _ => sha256Compress_spec s b) c.length c md n B T
    (Nat.le_refl _) h
  have := h.cur
  have hB := h.lenB
  have hlo : ¬ (md.length + BitVec.ofNat 64 c.length).toNat < md.length.toNat := by
    rw [h.len]
    simp only [BitVec.toNat_add, BitVec.toNat_ofNat]
    simp only [List.length_append] at hlen
    rw [Nat.mod_eq_of_lt (show 512 * n < 2 ^ 64 by omega),
      Nat.mod_eq_of_lt (show c.length < 2 ^ 64 by omega), Nat.mod_eq_of_lt (by omega)]
    omega
  exact ⟨_, n', B', T', by rw [sha256Process, if_neg (by omega), if_neg hlo], e, hs⟩

theorem sha1Done_streamed {md : MdState Sha1Words} {n : Nat} {B T : Bytes} (h : Str1 md n B T)
    (hlen : 8 * (B ++ T).length < 2 ^ 64) : sha1Done md = .ok (sha1 (B ++ T)) := by
  have hf := mdFinish_streamed (compress := sha1Compress) (fun s b _ => sha1Compress_spec s b) h hlen
  have := h.cur
  rw [sha1Done, if_neg (by omega)]
  simp only [sha1]
  rw [← hf]
  simp only [store32H_eq, abs1]

theorem sha256Done_streamed {md : MdState Sha256Words} {n : Nat} {B T : Bytes} (h : Str2 md n B T)
    (hlen : 8 * (B ++ T).length < 2 ^ 64) : sha256Done md = .ok (sha256 (B ++ T)) := by
  have hf := mdFinish_streamed (compress := sha256Compress) (fun s b _ => sha256Compress_spec s b) h hlen
  have := h.cur
  rw [sha256Done, if_neg (by omega)]
  simp only [sha256]
  rw [← hf]
  simp only [store32H_eq, abs2]

theorem sha1_feed {md : MdState Sha1Words} {n : Nat} {B T : Bytes} (h : Str1 md n B T)
    (cs : List Bytes) : ∃ md' n' B' T', feed sha1Process md cs = .ok md' ∧
      B' ++ T' = B ++ T ++ cs.flatten ∧ Str1 md' n' B' T' := by
  induction cs generalizing md n B T with
  | nil => exact ⟨md, n, B, T, rfl, by simp, h⟩
  | cons c cs ih =>
    obtain ⟨md1, n1, B1, T1, e1, hb, h1⟩ := sha1Process_streamed (c := c) h
    obtain ⟨md2, n2, B2, T2, e2, hb2, h2⟩ := ih h1
    refine ⟨md2, n2, B2, T2, ?_, ?_, h2⟩
    · rw [feed, e1]; exact e2
    · rw [hb2, hb]; simp

theorem sha256_feed {md : MdState Sha256Words} {n : Nat} {B T : Bytes} (h : Str2 md n B T)
    (cs : List Bytes) (hlen : 8 * (B ++ T ++ cs.flatten).length < 2 ^ 64) :
    ∃ md' n' B' T', feed sha256Process md cs = .ok md' ∧
      B' ++ T' = B ++ T ++ cs.flatten ∧ Str2 md' n' B' T' := by
  induction cs generalizing md n B T with
  | nil => exact ⟨md, n, B, T, rfl, by simp, h⟩
  | cons c cs ih =>
    have hl : 8 * (B ++ T ++ c).length < 2 ^ 64 := by
      simp only [List.flatten_cons, List.length_append] at hlen ⊢; omega
    obtain ⟨md1, n1, B1, T1, e1, hb, h1⟩ := sha256Process_streamed (c := c) h hl
    obtain ⟨md2, n2, B2, T2, e2, hb2, h2⟩ := ih h1 (by rw [hb]; simpa using hlen)
    refine ⟨md2, n2, B2, T2, ?_, ?_, h2⟩
    · rw [feed, e1]; exact e2
    · rw [hb2, hb]; simp

/-! ## C15, C16, C17 -/

/-- C17 (SHA-1): however the message is cut into chunks, whatever was in the buffer before, the digest is
    the FIPS 180-4 digest of the whole message (messages below 2^64 bits, as FIPS requires). -/
theorem C17_sha1_any_chunking (buf : Bytes) (hbuf : buf.length = 64) (chunks : List Bytes)
    (hlen : 8 * chunks.flatten.length < 2 ^ 64) :
    sha1Of buf chunks = .ok (sha1 chunks.flatten) := by
  obtain ⟨md, n, B, T, e, hb, hs⟩ := sha1_feed (sha1Init_streamed hbuf) chunks
  simp only [List.nil_append] at hb
  rw [sha1Of, e]
  show sha1Done md = _
  rw [sha1Done_streamed hs (by rw [hb]; exact hlen), hb]

/-- C17 (SHA-256). -/
theorem C17_sha256_any_chunking (buf : Bytes) (hbuf : buf.length = 64) (chunks : List Bytes)
    (hlen : 8 * chunks.flatten.length < 2 ^ 64) :
    sha256Of buf chunks = .ok (sha256 chunks.flatten) := by
  obtain ⟨md, n, B, T, e, hb, hs⟩ := sha256_feed (sha256Init_streamed hbuf) chunks (by simpa using hlen)
  simp only [List.nil_append] at hb
  rw [sha256Of, e]
  show sha256Done md = _
  rw [sha256Done_streamed hs (by rw [hb]; exact hlen), hb]

/-- C17: two ways of cutting the same message agree. -/
theorem C17_chunkings_agree (buf buf' : Bytes) (h : buf.length = 64) (h' : buf'.length = 64)
    (cs cs' : List Bytes) (e : cs.flatten = cs'.flatten) (hlen : 8 * cs.flatten.length < 2 ^ 64) :
    sha1Of buf cs = sha1Of buf' cs' ∧ sha256Of buf cs = sha256Of buf' cs' := by
  rw [C17_sha1_any_chunking buf h cs hlen, C17_sha1_any_chunking buf' h' cs' (e ▸ hlen),
    C17_sha256_any_chunking buf h cs hlen, C17_sha256_any_chunking buf' h' cs' (e ▸ hlen), e]
  exact ⟨rfl, rfl⟩

/-- C15: init, process, done computes SHA-1. -/
theorem C15_sha1_is_fips180 (buf : Bytes) (hbuf : buf.length = 64) (msg : Bytes)
    (hlen : 8 * msg.length < 2 ^ 64) :
    ∃ md, sha1Process (sha1Init buf) msg = .ok md ∧ sha1Done md = .ok (sha1 msg) := by
  obtain ⟨md, n, B, T, e, hb, hs⟩ := sha1Process_streamed (c := msg) (sha1Init_streamed hbuf)
  simp only [List.nil_append] at hb
  exact ⟨md, e, by rw [sha1Done_streamed hs (by rw [hb]; exact hlen), hb]⟩

/-- C15: the digest has 20 bytes. -/
theorem C15_digest_length (msg : Bytes) : (sha1 msg).length = 20 := rfl

/-- C15: the 64-bit variables really do hold more than 32 bits (the truncation is not vacuous):
    adding the chaining value overflows bit 31. -/
theorem C15_words_exceed_32_bits :
    ∃ s b, b.length = 64 ∧ (sha1Compress s b).b.toNat ≥ 2 ^ 32 :=
  ⟨⟨0x67452301, 0xefcdab89, 0x98badcfe, 0x10325476, 0xc3d2e1f0⟩, List.replicate 64 0, by decide,
    by decide +kernel⟩

/-- C16: init, process, done computes SHA-256. -/
theorem C16_sha256_is_fips180 (buf : Bytes) (hbuf : buf.length = 64) (msg : Bytes)
    (hlen : 8 * msg.length < 2 ^ 64) :
    ∃ md, sha256Process (sha256Init buf) msg = .ok md ∧ sha256Done md = .ok (sha256 msg) := by
  obtain ⟨md, n, B, T, e, hb, hs⟩ :=
    sha256Process_streamed (c := msg) (sha256Init_streamed hbuf) (by simpa using hlen)
  simp only [List.nil_append] at hb
  exact ⟨md, e, by rw [sha256Done_streamed hs (by rw [hb]; exact hlen), hb]⟩

/-- C16: the digest has 32 bytes. -/
theorem C16_digest_length (msg : Bytes) : (sha256 msg).length = 32 := rfl

/-- C16: the 64 round constants of the code are the first 32 fractional bits of the cube roots of
    the first 64 primes. -/
theorem C16_round_constants_are_cube_roots (t : Nat) (h : t < 64) :
    ∃ c, c ^ 3 ≤ primes64.getD t 0 * 2 ^ 96 ∧ primes64.getD t 0 * 2 ^ 96 < (c + 1) ^ 3 ∧
      (wAt sha256KTable t).toNat = c % 2 ^ 32 := by
  refine ⟨cbrtBits (primes64.getD t 0 * 2 ^ 96) 36 0, ?_⟩
  revert h
  revert t
  decide

/-- The padded length is a multiple of the block size, with the least possible padding. -/
theorem C15_padding_is_minimal (msg : Bytes) :
    (pad msg).length % 64 = 0 ∧ (pad msg).length < msg.length + 9 + 64 ∧ msg.length + 9 ≤ (pad msg).length := by
  simp [pad, be64, padZeros]
  omega

/-- Concrete instance: the FIPS test vector "abc" for both functions. -/
theorem pad_abc : blocks (pad (b! "abc")) = [[0x61, 0x62, 0x63, 0x80] ++ List.replicate 59 0 ++ [24]] :=
  blocks_one (b := pad (b! "abc")) (by decide)

example : sha1 (b! "abc") =
    [0xa9, 0x99, 0x3e, 0x36, 0x47, 0x06, 0x81, 0x6a, 0xba, 0x3e, 0x25, 0x71, 0x78, 0x50, 0xc2, 0x6c,
     0x9c, 0xd0, 0xd8, 0x9d] := by
  rw [sha1, pad_abc]
  have : sha1H0 = abs1 (sha1Init []).state := by decide
  simp only [List.foldl_cons, List.foldl_nil]
  rw [this, ← sha1Compress_spec]
  decide +kernel

example : sha256 (b! "abc") =
    [0xba, 0x78, 0x16, 0xbf, 0x8f, 0x01, 0xcf, 0xea, 0x41, 0x41, 0x40, 0xde, 0x5d, 0xae, 0x22, 0x23,
     0xb0, 0x03, 0x61, 0xa3, 0x96, 0x17, 0x7a, 0x9c, 0xb4, 0x10, 0xff, 0x61, 0xf2, 0x00, 0x15, 0xad] := by
  rw [sha256, pad_abc]
  have : sha256H0 = abs2 (sha256Init []).state := by decide
  simp only [List.foldl_cons, List.foldl_nil]
  rw [this, ← sha256Compress_spec]
  decide +kernel

/-- Concrete instance of the chunking hypotheses: three chunks, one empty, one crossing a block. -/
example : (List.replicate 64 (7 : UInt8)).length = 64 ∧
    8 * ([List.replicate 70 (1 : UInt8), [], List.replicate 3 2] : List Bytes).flatten.length < 2 ^ 64 := by
  decide

/-! ## C19 -/

theorem hexDigit_eq (n : Nat) (h : n < 16) : hexDigit n = hexAlphabet.getD n 0 := by
  revert h; revert n; decide

/-- The code's "%02x" rendering is the specified one. -/
theorem C19_hex_matches_spec (h : Bytes) : hexString h = hex h := by
  unfold hexString hex
  congr 1
  funext b
  have hb : b.toNat < 256 := b.toNat_lt
  rw [hexDigit_eq _ (by omega), hexDigit_eq _ (by omega)]

/-- C19: two characters per byte. -/
theorem C19_hex_length (h : Bytes) : (hexString h).length = 2 * h.length := by
  induction h with
  | nil => rfl
  | cons b h ih =>
    have : hexString (b :: h) = [hexDigit (b.toNat / 16), hexDigit (b.toNat % 16)] ++ hexString h := rfl
    rw [this, List.length_append, ih]
    simp; omega

/-- C19: only `0`-`9` and `a`-`f` occur. -/
theorem C19_hex_lower_case (h : Bytes) (c : UInt8) (hc : c ∈ hexString h) : c ∈ hexAlphabet := by
  rw [C19_hex_matches_spec] at hc
  simp only [hex, List.mem_flatMap] at hc
  obtain ⟨b, _, hb⟩ := hc
  have h1 : b.toNat < 256 := b.toNat_lt
  have hmem : ∀ n, n < 16 → hexAlphabet.getD n 0 ∈ hexAlphabet := by decide
  simp at hb
  rcases hb with hb | hb
  · rw [hb]
    have := hmem (b.toNat / 16) (by omega)
    simpa using this
  · rw [hb]
    have := hmem (b.toNat % 16) (by omega)
    simpa using this

theorem hexDigit_inj {m n : Nat} (hm : m < 16) (hn : n < 16) (h : hexDigit m = hexDigit n) : m = n := by
  have : ∀ m, m < 16 → ∀ n, n < 16 → hexDigit m = hexDigit n → m = n := by decide
  exact this m hm n hn h

/-- C19: different digests render differently. -/
theorem C19_hex_injective (g h : Bytes) (e : hexString g = hexString h) : g = h := by
  induction g generalizing h with
  | nil =>
    cases h with
    | nil => rfl
    | cons b h => have := congrArg List.length e; simp [C19_hex_length] at this
  | cons a g ih =>
    cases h with
    | nil => have := congrArg List.length e; simp [C19_hex_length] at this
    | cons b h =>
      have e' : hexDigit (a.toNat / 16) :: hexDigit (a.toNat % 16) :: hexString g =
          hexDigit (b.toNat / 16) :: hexDigit (b.toNat % 16) :: hexString h := e
      have ha : a.toNat < 256 := a.toNat_lt
      have hb : b.toNat < 256 := b.toNat_lt
      injection e' with e1 e2
      injection e2 with e2 e3
      have d1 := hexDigit_inj (by omega) (by omega) e1
      have d2 := hexDigit_inj (by omega) (by omega) e2
      have : a = b := UInt8.toNat_inj.mp (by omega)
      rw [this, ih h e3]

example : hexString [0xde, 0x0a] = b! "de0a" := by decide

/-! ## C18 -/

/-- The read loop over a region that is there. -/
theorem hashLoop_feed {σ : Type} (eng : HashEngine σ) (err : Bool) :
    ∀ (k : Nat) (md : MdState σ) (rest : Bytes) (size : Nat), size ≤ k → size ≤ rest.length →
      size < 9223372036854775808 →
      ∃ cs : List Bytes, cs.flatten = rest.take size ∧
        hashLoop eng err md size rest =
          (match feed eng.process md cs with
            | .error _ => .ok none
            | .ok md' => .ok (some md')) := by
  intro k
  induction k with
  | zero =>
    intro md rest size h1 h2 _
    have : size = 0 := by omega
    subst this
    refine ⟨[], by simp, ?_⟩
    rw [hashLoop]
    simp [feed]
  | succ k ih =>
    intro md rest size h1 h2 h3
    by_cases h0 : size = 0
    · subst h0
      refine ⟨[], by simp, ?_⟩
      rw [hashLoop]
      simp [feed]
    have hn : (min (if (size : Int) > BUFFER_SIZE then 512
        else ((size : Int) % 18446744073709551616).toNat) rest.length) = min size 512 := by
      unfold BUFFER_SIZE
      split
      · omega
      · have : ((size : Int) % 18446744073709551616).toNat = size := by omega
        rw [this]; omega
    obtain ⟨m, hm⟩ : ∃ m, min size 512 = m := ⟨_, rfl⟩
    have hm0 : 0 < m := by omega
    have hms : m ≤ size := by omega
    cases hp : eng.process md (rest.take m) with
    | error e =>
      refine ⟨[rest.take m, (rest.drop m).take (size - m)], ?_, ?_⟩
      · simp only [List.flatten_cons, List.flatten_nil, List.append_nil]
        rw [show size = m + (size - m) by omega, List.take_add, show m + (size - m) - m = size - m by omega]
      · rw [hashLoop, if_neg (by omega)]
        simp only [hn, hm]
        rw [if_neg (by omega), if_neg (by omega)]
        simp [hp, feed]
    | ok md' =>
      obtain ⟨cs, hcs, e⟩ := ih md' (rest.drop m) (size - m) (by omega) (by simp; omega) (by omega)
      refine ⟨rest.take m :: cs, ?_, ?_⟩
      · rw [List.flatten_cons, hcs, show size = m + (size - m) by omega, List.take_add,
          show m + (size - m) - m = size - m by omega]
      · rw [hashLoop, if_neg (by omega)]
        simp only [hn, hm]
        rw [if_neg (by omega), if_neg (by omega)]
        simp only [hp, feed]
        rw [show (size : Int) - (m : Int) = ((size - m : Nat) : Int) by omega]
        exact e

theorem ckInt64_ok {i : Int} (h : -9223372036854775808 ≤ i ∧ i ≤ 9223372036854775807) :
    ckInt64 i = .ok i := by rw [ckInt64, if_pos h]

/-- The region logic, for any engine that digests every chunking of the region to `D`. -/
theorem sum2_region {σ : Type} (eng : HashEngine σ) (err : Bool) (file : Bytes) (start size : Nat)
    (D : Bytes) (hin : start + size ≤ file.length) (hfile : file.length < 2 ^ 63)
    (hD : ∀ cs : List Bytes, cs.flatten = (file.drop start).take size →
      ∃ md, feed eng.process eng.init cs = .ok md ∧ eng.done md = .ok D) :
    sum2Private eng err file start size = .ok (some (hexString D)) := by
  obtain ⟨cs, hcs, e⟩ := hashLoop_feed eng err size eng.init (file.drop start) size (Nat.le_refl _)
    (by simp; omega) (by omega)
  obtain ⟨md, hf, hd⟩ := hD cs hcs
  rw [hf] at e
  unfold sum2Private
  rw [ckInt64_ok (by omega)]
  simp only [Res.ok_bind]
  rw [if_neg (by omega), if_neg (by omega)]
  simp only [Int.toNat_natCast]
  rw [if_neg (by omega), e]
  simp [hd]

theorem sum2_to_end {σ : Type} (eng : HashEngine σ) (err : Bool) (file : Bytes) (start : Nat)
    (hs : start ≤ file.length) (hfile : file.length < 2 ^ 63) :
    sum2Private eng err file start (-1) =
      sum2Private eng err file start ((file.length - start : Nat) : Int) := by
  unfold sum2Private
  rw [ckInt64_ok (by omega), ckInt64_ok (by omega)]
  simp only [Res.ok_bind]
  have h1 : ¬ ((start : Int) + -1 > (file.length : Int)) := by omega
  have h2 : ¬ ((start : Int) + ((file.length - start : Nat) : Int) > (file.length : Int)) := by omega
  have h3 : ¬ (((file.length - start : Nat) : Int) = -1) := by omega
  simp only [if_neg h1, if_neg h2, if_neg h3, if_true]
  rw [ckInt64_ok (by omega)]
  simp only [Res.ok_bind]
  rw [show (file.length : Int) - (start : Int) = ((file.length - start : Nat) : Int) by omega]

/-- C18 (SHA-1): the checksum of a region inside the file is the hex digest of exactly its bytes. -/
theorem C18_sha1_region (buf : Bytes) (hbuf : buf.length = 64) (err : Bool) (file : Bytes)
    (start size : Nat) (hin : start + size ≤ file.length) (hfile : 8 * file.length < 2 ^ 64) :
    sha1Sum2 buf err (some file) start size = .ok (some (hex (sha1 ((file.drop start).take size)))) := by
  rw [← C19_hex_matches_spec]
  refine sum2_region _ err file start size _ hin (by omega) ?_
  intro cs hcs
  have hl : 8 * cs.flatten.length < 2 ^ 64 := by rw [hcs]; simp; omega
  have := C17_sha1_any_chunking buf hbuf cs hl
  unfold sha1Of at this
  cases hf : feed sha1Process (sha1Init buf) cs with
  | error e => rw [hf] at this; cases this
  | ok md => rw [hf] at this; exact ⟨md, hf, by rw [← hcs]; exact this⟩

/-- C18 (SHA-256). -/
theorem C18_sha256_region (buf : Bytes) (hbuf : buf.length = 64) (err : Bool) (file : Bytes)
    (start size : Nat) (hin : start + size ≤ file.length) (hfile : 8 * file.length < 2 ^ 64) :
    sha256Sum2 buf err (some file) start size =
      .ok (some (hex (sha256 ((file.drop start).take size)))) := by
  rw [← C19_hex_matches_spec]
  refine sum2_region _ err file start size _ hin (by omega) ?_
  intro cs hcs
  have hl : 8 * cs.flatten.length < 2 ^ 64 := by rw [hcs]; simp; omega
  have := C17_sha256_any_chunking buf hbuf cs hl
  unfold sha256Of at this
  cases hf : feed sha256Process (sha256Init buf) cs with
  | error e => rw [hf] at this; cases this
  | ok md => rw [hf] at this; exact ⟨md, hf, by rw [← hcs]; exact this⟩

/-- C18: size -1 means "to the end of the file". -/
theorem C18_to_end (buf : Bytes) (hbuf : buf.length = 64) (err : Bool) (file : Bytes)
    (start : Nat) (hs : start ≤ file.length) (hfile : 8 * file.length < 2 ^ 64) :
    sha1Sum2 buf err (some file) start (-1) = .ok (some (hex (sha1 (file.drop start)))) ∧
    sha256Sum2 buf err (some file) start (-1) = .ok (some (hex (sha256 (file.drop start)))) := by
  have e : (file.drop start).take (file.length - start) = file.drop start :=
    List.take_of_length_le (by simp)
  constructor
  · have h1 : sha1Sum2 buf err (some file) start (-1) =
        sha1Sum2 buf err (some file) start ((file.length - start : Nat) : Int) :=
      sum2_to_end _ err file start hs (by omega)
    rw [h1, C18_sha1_region buf hbuf err file start _ (by omega) hfile, e]
  · have h1 : sha256Sum2 buf err (some file) start (-1) =
        sha256Sum2 buf err (some file) start ((file.length - start : Nat) : Int) :=
      sum2_to_end _ err file start hs (by omega)
    rw [h1, C18_sha256_region buf hbuf err file start _ (by omega) hfile, e]

/-- C18: the whole-file checksum. -/
theorem C18_whole_file (buf : Bytes) (hbuf : buf.length = 64) (err : Bool) (file : Bytes)
    (hfile : 8 * file.length < 2 ^ 64) :
    sha1Sum1 buf err (some file) = .ok (some (hex (sha1 file))) ∧
    sha256Sum1 buf err (some file) = .ok (some (hex (sha256 file))) := by
  have := C18_to_end buf hbuf err file 0 (by omega) hfile
  simpa [sha1Sum1, sha256Sum1] using this

/-- C18: a region of non-negative size that reaches past the end, or starts before the file, is refused. -/
theorem C18_outside_is_null (buf : Bytes) (err : Bool) (file : Bytes) (start size : Int)
    (hs : 0 ≤ size)
    (h64 : -9223372036854775808 ≤ start ∧ start + size ≤ 9223372036854775807)
    (hout : start < 0 ∨ file.length < start + size) :
    sha1Sum2 buf err (some file) start size = .ok none ∧
    sha256Sum2 buf err (some file) start size = .ok none := by
  have key : ∀ {σ : Type} (eng : HashEngine σ), sum2Private eng err file start size = .ok none := by
    intro σ eng
    unfold sum2Private
    rw [ckInt64_ok (by omega)]
    simp only [Res.ok_bind]
    by_cases h : start + size > (file.length : Int)
    · rw [if_pos h]; rfl
    · rw [if_neg h, if_neg (by omega), if_pos (by omega)]; rfl
  exact ⟨key _, key _⟩

/-- C18: no file, no checksum. -/
theorem C18_no_file (buf : Bytes) (err : Bool) (start size : Int) :
    sha1Sum2 buf err none start size = .ok none ∧ sha256Sum2 buf err none start size = .ok none :=
  ⟨rfl, rfl⟩

/-- Finding: with size -1 and a start one past the end the region check does not fire; the answer
    is the digest of the empty string instead of NULL (when `errno` is 0). -/
theorem C18_start_past_end_accepted (buf : Bytes) (hbuf : buf.length = 64) (file : Bytes)
    (hfile : file.length < 2 ^ 60) :
    sha1Sum2 buf false (some file) (file.length + 1) (-1) = .ok (some (hex (sha1 []))) := by
  show sum2Private (sha1Engine buf) false file _ _ = _
  unfold sum2Private
  rw [ckInt64_ok (by omega)]
  simp only [Res.ok_bind]
  rw [if_neg (by omega)]
  simp only [if_true]
  rw [ckInt64_ok (by omega)]
  simp only [Res.ok_bind]
  rw [if_neg (by omega)]
  have hd : file.drop ((file.length : Int) + 1).toNat = [] := List.drop_eq_nil_of_le (by omega)
  rw [hd, hashLoop, if_neg (by omega)]
  simp only [List.length_nil, Nat.min_zero]
  have hs := sha1Done_streamed (sha1Init_streamed hbuf) (by simp)
  rw [List.nil_append] at hs
  have : (sha1Engine buf).done (sha1Engine buf).init = .ok (sha1 []) := hs
  simp [this, C19_hex_matches_spec]

/-- Finding: a size below -1 is not refused; with more than 512 bytes left it makes `fread` overrun
    the 512-byte buffer. -/
theorem C18_negative_size_overruns (buf : Bytes) (err : Bool) (file : Bytes) (start : Nat) (size : Int)
    (hs : -9223372036854775808 ≤ size ∧ size ≤ -2) (hfile : file.length < 2 ^ 60)
    (hrest : start + 512 < file.length) :
    sha1Sum2 buf err (some file) start size = .ub := by
  show sum2Private (sha1Engine buf) err file _ _ = _
  unfold sum2Private
  rw [ckInt64_ok (by omega)]
  simp only [Res.ok_bind]
  rw [if_neg (by omega), if_neg (by omega), if_neg (by omega), hashLoop, if_neg (by omega)]
  have h1 : ¬ size > BUFFER_SIZE := by unfold BUFFER_SIZE; omega
  simp only [if_neg h1, Int.toNat_natCast, List.length_drop]
  have : min (size % 18446744073709551616).toNat (file.length - start) > 512 := by omega
  rw [if_pos this]
  rfl

/-- Concrete instance: the bytes "bc" of "abcd". -/
example : (1 : Nat) + 2 ≤ (b! "abcd").length ∧ ((b! "abcd").drop 1).take 2 = b! "bc" := by decide

end Afs
