import Verif.Model.ShaRead
import Verif.Props.C15_C19_Hash
/-!
# C66: checksums of files when reads come in pieces or fail

A schedule of reads says, call by call, how many bytes `fread` delivers.  Short reads never matter.  A read that delivers nothing
although there is more is not reported: without `errno` the answer is the digest of what came before, with `errno` the digest buffer
is printed although nothing was ever written to it.
-/
namespace Afs
open Spec

theorem feed_head {σ : Type} {process : MdState σ → Bytes → Except Nat (MdState σ)} {md md' : MdState σ} {c : Bytes} {cs : List Bytes}
    (h : feed process md (c :: cs) = .ok md') : ∃ m, process md c = .ok m := by
  rw [feed] at h
  cases hc : process md c with
  | error e => rw [hc] at h; cases h
  | ok m => exact ⟨m, rfl⟩

/-- The loop, any schedule: some pieces of the region are digested; the digest is taken unless a read delivered nothing and `errno`
    was set; the pieces are the whole region unless a read delivered nothing. -/
theorem hashReads_pieces {σ : Type} (eng : HashEngine σ) :
    ∀ (k : Nat) (err : Bool) (md : MdState σ) (rest : Bytes) (size : Nat) (reads : List Read), size ≤ k → size ≤ rest.length →
      size < 9223372036854775808 → (∀ cs : List Bytes, cs.flatten <+: rest → ∃ md', feed eng.process md cs = .ok md') →
      ∃ cs : List Bytes, cs.flatten <+: rest.take size ∧
        ((∃ md', feed eng.process md cs = .ok md' ∧ hashReads eng err md size rest reads = .ok (some md') ∧
            (cs.flatten = rest.take size ∨ err = false ∧ ∃ b, Read.nothing b ∈ reads)) ∨
          (hashReads eng err md size rest reads = .ok none ∧ ∃ b, Read.nothing b ∈ reads ∧ (err = true ∨ Read.nothing true ∈ reads))) := by
  intro k
  induction k with
  | zero =>
    intro err md rest size reads h1 h2 _ _
    have : size = 0 := by omega
    subst this
    refine ⟨[], by simp, .inl ⟨md, rfl, ?_, .inl (by simp)⟩⟩
    rw [hashReads]; simp
  | succ k ih =>
    intro err md rest size reads h1 h2 h3 hfeed
    by_cases h0 : size = 0
    · subst h0
      refine ⟨[], by simp, .inl ⟨md, rfl, ?_, .inl (by simp)⟩⟩
      rw [hashReads]; simp
    have hmax : (if (size : Int) > BUFFER_SIZE then 512 else ((size : Int) % 18446744073709551616).toNat) = min size 512 := by
      unfold BUFFER_SIZE
      split
      · omega
      · omega
    obtain ⟨m, hm⟩ : ∃ m, Read.count reads (min size 512) rest.length = m := ⟨_, rfl⟩
    have hm1 : m ≤ min size 512 := by
      rw [← hm]; unfold Read.count; split <;> omega
    by_cases hm0 : m = 0
    · -- nothing delivered
      have hr : ∃ b rs, reads = .nothing b :: rs := by
        unfold Read.count at hm
        split at hm
        · omega
        · omega
        · exact ⟨_, _, rfl⟩
      obtain ⟨b, rs, rfl⟩ := hr
      have e : hashReads eng err md size rest (.nothing b :: rs) = if Read.errno (.nothing b :: rs) err then .ok none else .ok (some md) := by
        rw [hashReads, if_neg (by omega)]
        simp only [hmax, hm]
        rw [if_neg (by omega), if_pos hm0]
      rw [e]
      refine ⟨[], by simp, ?_⟩
      cases b with
      | true => exact .inr ⟨rfl, true, by simp, .inr (by simp)⟩
      | false =>
        cases err with
        | true => exact .inr ⟨rfl, false, by simp, .inl rfl⟩
        | false => exact .inl ⟨md, rfl, rfl, .inr ⟨rfl, false, by simp⟩⟩
    · obtain ⟨md1, hmd1⟩ := feed_head (hfeed [rest.take m] (by simpa using List.take_prefix _ _)).choose_spec
      have herr : Read.errno reads err = err := by
        unfold Read.errno
        split
        · rw [Read.count] at hm; omega
        · rfl
      obtain ⟨cs, hcs, hcase⟩ := ih err md1 (rest.drop m) (size - m) reads.tail (by omega) (by simp; omega) (by omega) (by
        intro cs hcs
        have := hfeed (rest.take m :: cs) (by
          rw [List.flatten_cons]
          conv => rhs; rw [← List.take_append_drop m rest]
          exact (List.prefix_append_right_inj _).mpr hcs)
        rw [feed, hmd1] at this
        exact this)
      have e : hashReads eng err md size rest reads = hashReads eng err md1 ((size - m : Nat) : Int) (rest.drop m) reads.tail := by
        rw [hashReads, if_neg (by omega)]
        simp only [hmax, hm]
        rw [if_neg (by omega), if_neg hm0]
        simp only [hmd1, herr]
        rw [show (size : Int) - (m : Int) = ((size - m : Nat) : Int) by omega]
      have hsplit : rest.take size = rest.take m ++ (rest.drop m).take (size - m) := by
        rw [show size = m + (size - m) by omega, List.take_add, show m + (size - m) - m = size - m by omega]
      refine ⟨rest.take m :: cs, ?_, ?_⟩
      · rw [List.flatten_cons, hsplit]
        exact (List.prefix_append_right_inj _).mpr hcs
      rw [e]
      rcases hcase with ⟨md', g1, g2, g3⟩ | ⟨g1, b, g2, g3⟩
      · refine .inl ⟨md', ?_, g2, ?_⟩
        · rw [feed, hmd1]; exact g1
        · rcases g3 with g3 | ⟨g3, b, g4⟩
          · exact .inl (by rw [List.flatten_cons, hsplit, g3])
          · exact .inr ⟨g3, b, List.mem_of_mem_tail g4⟩
      · exact .inr ⟨g1, b, List.mem_of_mem_tail g2, g3.imp_right List.mem_of_mem_tail⟩

/-- What is needed of a hash: every message is digested, however it is cut into pieces. -/
def Digests {σ : Type} (eng : HashEngine σ) (digest : Bytes → Bytes) (limit : Nat) : Prop :=
  ∀ cs : List Bytes, 8 * cs.flatten.length < limit → ∃ md, feed eng.process eng.init cs = .ok md ∧ eng.done md = .ok (digest cs.flatten)

theorem sha1_digests {buf : Bytes} (hbuf : buf.length = 64) : Digests (sha1Engine buf) sha1 (2 ^ 64) := by
  intro cs hl
  have := C17_sha1_any_chunking buf hbuf cs hl
  unfold sha1Of at this
  cases hf : feed sha1Process (sha1Init buf) cs with
  | error e => rw [hf] at this; cases this
  | ok md => rw [hf] at this; exact ⟨md, hf, this⟩

theorem sha256_digests {buf : Bytes} (hbuf : buf.length = 64) : Digests (sha256Engine buf) sha256 (2 ^ 64) := by
  intro cs hl
  have := C17_sha256_any_chunking buf hbuf cs hl
  unfold sha256Of at this
  cases hf : feed sha256Process (sha256Init buf) cs with
  | error e => rw [hf] at this; cases this
  | ok md => rw [hf] at this; exact ⟨md, hf, this⟩

/-- `sum2_private` when the seeks succeed. -/
theorem sum2Reads_region {σ : Type} (eng : HashEngine σ) (err : Bool) (reads : List Read) (file : Bytes) (start size : Nat)
    (hin : start + size ≤ file.length) (hfile : 8 * file.length < 2 ^ 64) :
    sum2Reads eng err {} reads file start size =
      (hashReads eng err eng.init size (file.drop start) reads).bind fun r => match r with
        | none => .ub
        | some md => match eng.done md with
          | .error _ => .ub
          | .ok h => .ok (some (hexString h)) := by
  unfold sum2Reads
  rw [ckInt64_ok (by omega)]
  simp only [Res.ok_bind, Bool.true_eq_false, if_false]
  rw [if_neg (by omega), if_neg (by omega)]
  simp only [Res.ok_bind, Int.toNat_natCast]
  rw [if_neg (by omega)]
  rfl

/-- Any schedule of reads, any hash. -/
theorem sum2Reads_any {σ : Type} {eng : HashEngine σ} {digest : Bytes → Bytes} (hd : Digests eng digest (2 ^ 64)) (err : Bool)
    (reads : List Read) (file : Bytes) (start size : Nat) (hin : start + size ≤ file.length) (hfile : 8 * file.length < 2 ^ 64) :
    (sum2Reads eng err {} reads file start size = .ub ∧ (∃ b, Read.nothing b ∈ reads) ∧ (err = true ∨ Read.nothing true ∈ reads)) ∨
    ∃ part, part <+: (file.drop start).take size ∧
      sum2Reads eng err {} reads file start size = .ok (some (hex (digest part))) ∧
      (part = (file.drop start).take size ∨ err = false ∧ ∃ b, Read.nothing b ∈ reads) := by
  rw [sum2Reads_region eng err reads file start size hin hfile]
  obtain ⟨cs, hcs, hcase⟩ := hashReads_pieces eng size err eng.init (file.drop start) size reads (Nat.le_refl _) (by simp; omega) (by omega)
    (by
      intro cs hcs
      have := hcs.length_le
      rw [List.length_drop] at this
      obtain ⟨md, h, _⟩ := hd cs (by omega)
      exact ⟨md, h⟩)
  rcases hcase with ⟨md', g1, g2, g3⟩ | ⟨g1, b, g2, g3⟩
  · refine .inr ⟨cs.flatten, hcs, ?_, g3⟩
    have := hcs.length_le
    rw [List.length_take, List.length_drop] at this
    obtain ⟨md, h1, h2⟩ := hd cs (by omega)
    rw [g1] at h1
    injection h1 with h1
    subst h1
    rw [g2, ← C19_hex_matches_spec]
    show Res.bind (.ok (some md')) _ = _
    simp only [Res.bind, h2]
  · refine .inl ⟨?_, ⟨b, g2⟩, g3⟩
    rw [g1]
    rfl

/-- Whatever the reads do: a checksum that is answered is the digest of a beginning of the region — of the whole region unless a
    read delivered nothing — and only if `errno` is set and a read delivers nothing is the answer undefined. -/
theorem C66_every_schedule (buf : Bytes) (hbuf : buf.length = 64) (err : Bool) (reads : List Read) (file : Bytes) (start size : Nat)
    (hin : start + size ≤ file.length) (hfile : 8 * file.length < 2 ^ 64) :
    ((sha1Reads buf err {} reads file start size = .ub ∧ (∃ b, Read.nothing b ∈ reads) ∧ (err = true ∨ Read.nothing true ∈ reads)) ∨
      ∃ part, part <+: (file.drop start).take size ∧ sha1Reads buf err {} reads file start size = .ok (some (hex (sha1 part))) ∧
        (part = (file.drop start).take size ∨ err = false ∧ ∃ b, Read.nothing b ∈ reads)) ∧
    ((sha256Reads buf err {} reads file start size = .ub ∧ (∃ b, Read.nothing b ∈ reads) ∧ (err = true ∨ Read.nothing true ∈ reads)) ∨
      ∃ part, part <+: (file.drop start).take size ∧ sha256Reads buf err {} reads file start size = .ok (some (hex (sha256 part))) ∧
        (part = (file.drop start).take size ∨ err = false ∧ ∃ b, Read.nothing b ∈ reads)) :=
  ⟨sum2Reads_any (sha1_digests hbuf) err reads file start size hin hfile,
    sum2Reads_any (sha256_digests hbuf) err reads file start size hin hfile⟩

/-- Reads may be as short as they like: as long as each delivers something, the checksum is that of the region. -/
theorem C66_short_reads_do_not_matter (buf : Bytes) (hbuf : buf.length = 64) (err : Bool) (reads : List Read)
    (hreads : ∀ b, Read.nothing b ∉ reads) (file : Bytes) (start size : Nat)
    (hin : start + size ≤ file.length) (hfile : 8 * file.length < 2 ^ 64) :
    sha1Reads buf err {} reads file start size = .ok (some (hex (sha1 ((file.drop start).take size)))) ∧
    sha256Reads buf err {} reads file start size = .ok (some (hex (sha256 ((file.drop start).take size)))) := by
  obtain ⟨h1, h2⟩ := C66_every_schedule buf hbuf err reads file start size hin hfile
  constructor
  · rcases h1 with ⟨_, ⟨b, h⟩, _⟩ | ⟨p, _, h, rfl | ⟨_, b, h'⟩⟩
    · exact absurd h (hreads b)
    · exact h
    · exact absurd h' (hreads b)
  · rcases h2 with ⟨_, ⟨b, h⟩, _⟩ | ⟨p, _, h, rfl | ⟨_, b, h'⟩⟩
    · exact absurd h (hreads b)
    · exact h
    · exact absurd h' (hreads b)

/-- The loop when the reads deliver `n + 1` bytes for the `n` of a list, and then nothing. -/
theorem hashReads_stops {σ : Type} (eng : HashEngine σ) (err b : Bool) (more : List Read) :
    ∀ (ns : List Nat) (md : MdState σ) (rest : Bytes) (size : Nat), size ≤ rest.length → size < 9223372036854775808 →
      (∀ n ∈ ns, n < 512) → (ns.map (· + 1)).sum < size →
      (∀ cs : List Bytes, cs.flatten <+: rest → ∃ md', feed eng.process md cs = .ok md') →
      ∃ cs md', cs.flatten = rest.take (ns.map (· + 1)).sum ∧ feed eng.process md cs = .ok md' ∧
        hashReads eng err md size rest (ns.map .got ++ .nothing b :: more) = .ok (if err || b then none else some md') := by
  intro ns
  induction ns with
  | nil =>
    intro md rest size h1 h2 _ h3 h4
    simp only [List.map_nil, List.sum_nil, List.nil_append] at *
    refine ⟨[], md, by simp, rfl, ?_⟩
    rw [hashReads, if_neg (by omega)]
    simp only [Read.count]
    rw [if_neg (by omega)]
    cases b <;> cases err <;> rfl
  | cons n ns ih =>
    intro md rest size h1 h2 hn h3 h4
    simp only [List.map_cons, List.sum_cons] at h3 ⊢
    have hn0 := hn n (.head _)
    have hmax : (if (size : Int) > BUFFER_SIZE then 512 else ((size : Int) % 18446744073709551616).toNat) = min size 512 := by
      unfold BUFFER_SIZE
      split <;> omega
    have hc : Read.count (.got n :: (ns.map .got ++ .nothing b :: more)) (min size 512) rest.length = n + 1 := by
      rw [Read.count]; omega
    have hsplit : ∀ k, rest.take (n + 1 + k) = rest.take (n + 1) ++ (rest.drop (n + 1)).take k := fun k => List.take_add
    obtain ⟨md1, hmd1⟩ := feed_head (h4 [rest.take (n + 1)] (by simpa using List.take_prefix _ _)).choose_spec
    obtain ⟨cs, md', g1, g2, g3⟩ := ih md1 (rest.drop (n + 1)) (size - (n + 1)) (by simp; omega) (by omega)
      (fun n hn' => hn n (.tail _ hn')) (by omega) (by
        intro cs hcs
        have := h4 (rest.take (n + 1) :: cs) (by
          rw [List.flatten_cons]
          conv => rhs; rw [← List.take_append_drop (n + 1) rest]
          exact (List.prefix_append_right_inj _).mpr hcs)
        rw [feed, hmd1] at this
        exact this)
    refine ⟨rest.take (n + 1) :: cs, md', by rw [List.flatten_cons, g1, hsplit], by rw [feed, hmd1]; exact g2, ?_⟩
    rw [List.cons_append, hashReads, if_neg (by omega)]
    simp only [hmax, hc]
    rw [if_neg (by omega), if_neg (by omega)]
    simp only [hmd1, List.tail_cons]
    rw [show Read.errno (.got n :: (ns.map .got ++ .nothing b :: more)) err = err from rfl,
      show (size : Int) - ((n + 1 : Nat) : Int) = ((size - (n + 1) : Nat) : Int) by omega]
    exact g3

theorem sum2Reads_stops {σ : Type} {eng : HashEngine σ} {digest : Bytes → Bytes} (hd : Digests eng digest (2 ^ 64))
    (err b : Bool) (ns : List Nat) (more : List Read) (file : Bytes) (start size : Nat) (hin : start + size ≤ file.length)
    (hfile : 8 * file.length < 2 ^ 64) (hn : ∀ n ∈ ns, n < 512) (hs : (ns.map (· + 1)).sum < size) :
    sum2Reads eng err {} (ns.map .got ++ .nothing b :: more) file start size =
      if err || b then .ub else .ok (some (hex (digest ((file.drop start).take (ns.map (· + 1)).sum)))) := by
  rw [sum2Reads_region eng err _ file start size hin hfile]
  obtain ⟨cs, md', g1, g2, g3⟩ := hashReads_stops eng err b more ns eng.init (file.drop start) size (by simp; omega) (by omega) hn hs (by
    intro cs hcs
    have := hcs.length_le
    rw [List.length_drop] at this
    obtain ⟨md, h, _⟩ := hd cs (by omega)
    exact ⟨md, h⟩)
  rw [g3]
  obtain ⟨md, h1, h2⟩ := hd cs (by rw [g1, List.length_take, List.length_drop]; omega)
  rw [g2] at h1
  injection h1 with h1
  subst h1
  rw [g1] at h2
  cases err <;> cases b <;> try rfl
  show Res.bind (.ok (some md')) _ = _
  simp only [Res.bind, h2]
  rw [C19_hex_matches_spec]; rfl

/-- Finding: if a read delivers nothing although the region is not complete — the file was made shorter since its size was looked at —
    the answer is the checksum of what was read until then, reported like any other. -/
theorem C66_missing_data_goes_unnoticed (buf : Bytes) (hbuf : buf.length = 64) (ns : List Nat) (more : List Read) (file : Bytes)
    (start size : Nat) (hin : start + size ≤ file.length) (hfile : 8 * file.length < 2 ^ 64) (hn : ∀ n ∈ ns, n < 512)
    (hs : (ns.map (· + 1)).sum < size) :
    sha1Reads buf false {} (ns.map .got ++ .nothing false :: more) file start size =
      .ok (some (hex (sha1 ((file.drop start).take (ns.map (· + 1)).sum)))) ∧
    sha256Reads buf false {} (ns.map .got ++ .nothing false :: more) file start size =
      .ok (some (hex (sha256 ((file.drop start).take (ns.map (· + 1)).sum)))) :=
  ⟨sum2Reads_stops (sha1_digests hbuf) false false ns more file start size hin hfile hn hs,
    sum2Reads_stops (sha256_digests hbuf) false false ns more file start size hin hfile hn hs⟩

/-- Finding: a read error (or a read that delivers nothing while `errno` is still set from something else) makes the functions print
    a digest buffer nothing was written to. -/
theorem C66_read_error_is_undefined (buf : Bytes) (hbuf : buf.length = 64) (err b : Bool) (he : err = true ∨ b = true) (ns : List Nat)
    (more : List Read) (file : Bytes) (start size : Nat) (hin : start + size ≤ file.length) (hfile : 8 * file.length < 2 ^ 64)
    (hn : ∀ n ∈ ns, n < 512) (hs : (ns.map (· + 1)).sum < size) :
    sha1Reads buf err {} (ns.map .got ++ .nothing b :: more) file start size = .ub ∧
    sha256Reads buf err {} (ns.map .got ++ .nothing b :: more) file start size = .ub := by
  have e : (err || b) = true := by rcases he with rfl | rfl <;> simp
  constructor
  · have := sum2Reads_stops (sha1_digests hbuf) err b ns more file start size hin hfile hn hs
    rw [if_pos e] at this; exact this
  · have := sum2Reads_stops (sha256_digests hbuf) err b ns more file start size hin hfile hn hs
    rw [if_pos e] at this; exact this

/-- The two cases occur: 100 bytes of a region of 200 are read. -/
example : (∀ n ∈ [59, 39], n < 512) ∧ (([59, 39] : List Nat).map (· + 1)).sum < 200 := by decide

/-- If the size of the file or the start of the region cannot be reached, the answer is NULL, whatever the rest. -/
theorem C66_seek_failure_is_null (buf : Bytes) (err : Bool) (seeks : Seeks) (reads : List Read) (file : Bytes) (start size : Nat)
    (hin : start + size ≤ file.length) (hfile : 8 * file.length < 2 ^ 64) (h : seeks.toEnd = false ∨ seeks.tell = false ∨ seeks.toStart = false) :
    sha1Reads buf err seeks reads file start size = .ok none ∧ sha256Reads buf err seeks reads file start size = .ok none := by
  have key : ∀ {σ : Type} (eng : HashEngine σ), sum2Reads eng err seeks reads file start size = .ok none := by
    intro σ eng
    unfold sum2Reads
    rw [ckInt64_ok (by omega)]
    by_cases h1 : seeks.toEnd = false
    · rw [if_pos h1]; rfl
    by_cases h2 : seeks.tell = false
    · rw [if_neg h1, if_pos h2]; rfl
    rw [if_neg h1, if_neg h2]
    simp only [Res.ok_bind]
    rw [if_neg (by omega), if_neg (by omega)]
    rw [if_neg (by omega), if_pos ((h.resolve_left h1).resolve_left h2)]
    rfl
  exact ⟨key _, key _⟩

theorem hashReads_nil {σ : Type} (eng : HashEngine σ) (err : Bool) : ∀ (k : Nat) (md : MdState σ) (size : Int) (rest : Bytes), rest.length ≤ k →
    hashReads eng err md size rest [] = hashLoop eng err md size rest := by
  intro k
  induction k with
  | zero =>
    intro md size rest h
    have : rest = [] := List.eq_nil_of_length_eq_zero (by omega)
    subst this
    rw [hashReads, hashLoop]
    by_cases h0 : size = 0
    · rw [if_pos h0, if_pos h0]
    · rw [if_neg h0, if_neg h0]
      cases err <;> simp [Read.count, Read.errno]
  | succ k ih =>
    intro md size rest h
    rw [hashReads, hashLoop]
    by_cases h0 : size = 0
    · rw [if_pos h0, if_pos h0]
    rw [if_neg h0, if_neg h0]
    dsimp only [Read.count, Read.errno, List.tail_nil]
    have hle : min (if size > BUFFER_SIZE then 512 else (size % 18446744073709551616).toNat) rest.length ≤ rest.length := Nat.min_le_right _ _
    generalize min (if size > BUFFER_SIZE then 512 else (size % 18446744073709551616).toNat) rest.length = n at *
    by_cases h1 : n > 512
    · rw [if_pos h1, if_pos h1]
    rw [if_neg h1, if_neg h1]
    by_cases h2 : n = 0
    · rw [if_pos h2, if_pos h2]; cases err <;> rfl
    rw [if_neg h2, if_neg h2]
    cases eng.process md (rest.take n) with
    | error e => rfl
    | ok md' => exact ih _ _ _ (by rw [List.length_drop]; omega)

/-- Without failures this is the function of C18, for every start and size. -/
theorem C66_without_failures_is_C18 (buf : Bytes) (err : Bool) (file : Bytes) (start size : Int) :
    sha1Reads buf err {} [] file start size = sha1Sum2 buf err (some file) start size ∧
    sha256Reads buf err {} [] file start size = sha256Sum2 buf err (some file) start size := by
  have key : ∀ {σ : Type} (eng : HashEngine σ), sum2Reads eng err {} [] file start size = sum2Private eng err file start size := by
    intro σ eng
    unfold sum2Reads sum2Private
    simp only [Bool.true_eq_false, if_false, hashReads_nil eng err _ _ _ _ (Nat.le_refl _)]
    rfl
  exact ⟨key _, key _⟩

example : ∀ b, Read.nothing b ∉ [Read.got 0, Read.got 99, Read.got 0] := by simp

end Afs
