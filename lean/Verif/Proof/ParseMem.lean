import Verif.Model.Xml.ParseMem
/-!
# The work buffers of the XML reader are never overrun
-/
namespace Afs.ParseMem
open Afs Afs.Xml

/-- A buffer of the size it says, at least 64 and not more than `N + 1100` bytes. -/
structure Any (b : CBuf) (N : Nat) : Prop where
  size : b.size = b.data.length
  big : 64 ≤ b.data.length
  max : b.data.length ≤ N + 1100

/-- The bytes between the start and the pointer are `s`, and there is room for a NUL. -/
structure Rep (b : CBuf) (s : Bytes) (N : Nat) : Prop extends Any b N where
  ptr : b.ptr = s.length
  data : b.data.take s.length = s.map some
  room : s.length < b.data.length
  len : s.length ≤ N

/-- The buffer holds a string. -/
structure Str (b : CBuf) (s : Bytes) (N : Nat) : Prop extends Any b N where
  str : b.str = .ok s

theorem Any.mono {b : CBuf} {N M : Nat} (h : Any b N) (hm : N ≤ M) : Any b M :=
  ⟨h.size, h.big, by have := h.max; omega⟩

theorem Rep.mono {b : CBuf} {s : Bytes} {N M : Nat} (h : Rep b s N) (hm : N ≤ M) : Rep b s M :=
  { h.toAny.mono hm with ptr := h.ptr, data := h.data, room := h.room, len := by have := h.len; omega }

theorem Str.mono {b : CBuf} {s : Bytes} {N M : Nat} (h : Str b s N) (hm : N ≤ M) : Str b s M :=
  { h.toAny.mono hm with str := h.str }

theorem any_alloc (N : Nat) : Any .alloc N := ⟨rfl, by simp [CBuf.alloc], by simp [CBuf.alloc]⟩

theorem rep_alloc (N : Nat) : Rep .alloc [] N :=
  { any_alloc N with ptr := rfl, data := by simp, room := by simp [CBuf.alloc], len := by simp }

theorem rep_reset {b : CBuf} {N : Nat} (h : Any b N) : Rep b.reset [] N :=
  { size := h.size, big := h.big, max := h.max, ptr := rfl, data := by simp
    room := by have := h.big; simp only [CBuf.reset, List.length_nil]; omega, len := by simp }

theorem readStr_prefix : ∀ (l : List (Option UInt8)) (s : Bytes),
    l.take s.length = s.map some → l[s.length]? = some (some 0) → CBuf.readStr l = .ok (cstr s)
  | [], s, _, h => by simp at h
  | x :: l, [], _, h => by
    simp only [List.length_nil, List.getElem?_cons_zero, Option.some.injEq] at h
    subst h
    simp [CBuf.readStr, cstr]
  | x :: l, v :: s, ht, h => by
    simp only [List.length_cons, List.take_succ_cons, List.map_cons, List.cons.injEq] at ht
    obtain ⟨rfl, ht⟩ := ht
    rw [CBuf.readStr]
    by_cases e : v = 0
    · subst e; simp [cstr]
    · rw [if_neg e, readStr_prefix l s ht (by simpa using h)]
      simp [cstr, e]

/-- `*ptr = 0` makes the buffer hold the string. -/
theorem rep_stop {b : CBuf} {s : Bytes} {N : Nat} (h : Rep b s N) :
    ∃ b', b.stop = .ok b' ∧ Rep b' s N ∧ Str b' (cstr s) N ∧ b'.load b'.ptr = .ok 0 ∧
      b'.load 0 = .ok ((s ++ [0]).headD 0) := by
  refine ⟨{ b with data := b.data.set b.ptr (some 0) }, ?_, ?_, ?_, ?_, ?_⟩
  · rw [CBuf.stop, CBuf.store, if_pos (by rw [h.ptr]; exact h.room)]
  · exact { size := by simp [h.size], big := by simp [h.big], max := by simp [h.max], ptr := h.ptr
            data := by
              dsimp only
              rw [h.ptr, List.take_set_of_le (Nat.le_refl _)]
              exact h.data
            room := by simp [h.room], len := h.len }
  · refine { size := by simp [h.size], big := by simp [h.big], max := by simp [h.max], str := ?_ }
    apply readStr_prefix
    · dsimp only
      rw [h.ptr, List.take_set_of_le (Nat.le_refl _)]
      exact h.data
    · dsimp only
      rw [h.ptr, List.getElem?_set_self h.room]
  · rw [CBuf.load, if_neg (by omega)]
    dsimp only
    rw [Int.toNat_natCast, h.ptr, List.getElem?_set_self h.room]
  · rw [CBuf.load, if_neg (by omega)]
    dsimp only
    cases s with
    | nil =>
      have e := h.ptr
      simp only [List.length_nil] at e
      rw [e]
      have : 0 < b.data.length := h.room
      rw [show (0 : Int).toNat = 0 from rfl, List.getElem?_set_self this]
      rfl
    | cons v s =>
      have e := h.ptr
      have d := h.data
      cases hb : b.data with
      | nil => rw [hb] at d; simp at d
      | cons x l =>
        rw [hb] at d
        simp only [List.length_cons, List.take_succ_cons, List.map_cons, List.cons.injEq] at d
        rw [e, List.length_cons, List.set_cons_succ]
        simp [d.1]

theorem rep_push {b : CBuf} {s : Bytes} {N : Nat} (v : UInt8) (h : Rep b s N)
    (hr : s.length + 1 < b.data.length) : ∃ b', b.push v = .ok b' ∧ Rep b' (s ++ [v]) (N + 1) ∧
      b'.data.length = b.data.length := by
  refine ⟨{ b with data := b.data.set b.ptr (some v), ptr := b.ptr + 1 }, ?_, ?_, by simp⟩
  · rw [CBuf.push, CBuf.store, if_pos (by rw [h.ptr]; exact h.room)]
    rfl
  · have hl := h.len
    have hx := h.max
    refine { size := by simp [h.size], big := by simp [h.big], max := ?_, ptr := by simp [h.ptr]
             data := ?_, room := by simpa using hr, len := by simp; omega }
    · simp; omega
    · dsimp only
      rw [List.length_append, List.length_singleton, h.ptr, List.take_add_one,
        List.take_set_of_le (Nat.le_refl _), h.data, List.getElem?_set_self h.room]
      simp

theorem rep_pushAll : ∀ (vs : Bytes) {b : CBuf} {s : Bytes} {N : Nat}, Rep b s N →
    s.length + vs.length < b.data.length → ∃ b', b.pushAll vs = .ok b' ∧ Rep b' (s ++ vs) (N + vs.length)
  | [], b, s, N, h, _ => ⟨b, rfl, by simpa using h⟩
  | v :: vs, b, s, N, h, hr => by
    obtain ⟨b1, e1, h1, l1⟩ := rep_push v h (by simp at hr; omega)
    obtain ⟨b2, e2, h2⟩ := rep_pushAll (b := b1) vs h1 (by rw [l1]; simp at hr ⊢; omega)
    refine ⟨b2, ?_, ?_⟩
    · rw [CBuf.pushAll, e1, Res.ok_bind, e2]
    · rw [List.append_assoc, List.singleton_append] at h2
      have e : N + (v :: vs).length = N + 1 + vs.length := by simp; omega
      rw [e]; exact h2

theorem rep_grow {b : CBuf} {s : Bytes} {N : Nat} (h : Rep b s N) (hN : N + 1100 ≤ 2147483647) :
    ∃ b', b.grow = .ok b' ∧ Rep b' s N ∧ s.length + 4 < b'.data.length := by
  unfold CBuf.grow
  have hs := h.size
  have hp := h.ptr
  have hb := h.big
  have hx := h.max
  have hl := h.len
  have hr := h.room
  by_cases e : b.size - 4 ≤ (b.ptr : Int)
  · rw [if_pos e]
    have hn : ckInt (if b.size < 1024 then b.size * 2 else b.size + 1024) =
        .ok (if b.size < 1024 then b.size * 2 else b.size + 1024) := by
      unfold ckInt
      rw [if_pos]
      unfold INT_MIN INT_MAX
      split <;> omega
    rw [hn, Res.ok_bind]
    generalize hm : (if b.size < 1024 then b.size * 2 else b.size + 1024) = m
    have m1 : (b.data.length : Int) + 64 ≤ m := by split at hm <;> omega
    have m2 : m ≤ (N : Int) + 1100 := by split at hm <;> omega
    have len : (b.data ++ List.replicate (m.toNat - b.data.length) (none : Option UInt8)).length = m.toNat := by
      rw [List.length_append, List.length_replicate]; omega
    refine ⟨_, rfl, ?_, ?_⟩
    · exact { size := by dsimp only; rw [len]; omega, big := by dsimp only; rw [len]; omega
              max := by dsimp only; rw [len]; omega, ptr := hp
              data := by
                dsimp only
                rw [List.take_append_of_le_length (by omega)]; exact h.data
              room := by dsimp only; rw [len]; omega, len := hl }
    · dsimp only; rw [len]; omega
  · rw [if_neg e]
    exact ⟨b, rfl, h, by omega⟩

theorem addChar_len (ch : Nat) : (Xml.addChar ch).length ≤ 4 := by
  unfold Xml.addChar
  split
  · simp
  · split
    · simp
    · split <;> simp

theorem rep_add {b : CBuf} {s : Bytes} {N : Nat} (ch : Nat) (h : Rep b s N) (hN : N + 1100 ≤ 2147483647) :
    ∃ b', b.add ch = .ok b' ∧ Rep b' (s ++ Xml.addChar ch) (N + 4) := by
  obtain ⟨b1, e1, h1, r1⟩ := rep_grow h hN
  have hl := addChar_len ch
  obtain ⟨b2, e2, h2⟩ := rep_pushAll (b := b1) (Xml.addChar ch) h1 (by omega)
  refine ⟨b2, by rw [CBuf.add, e1, Res.ok_bind, e2], h2.mono (by omega)⟩

theorem rep_addEof {b : CBuf} {s : Bytes} {N : Nat} (h : Rep b s N) (hN : N + 1100 ≤ 2147483647) :
    ∃ b', b.addEof = .ok b' ∧ Rep b' (s ++ [255]) (N + 4) := by
  obtain ⟨b1, e1, h1, r1⟩ := rep_grow h hN
  obtain ⟨b2, e2, h2, _⟩ := rep_push (b := b1) 255 h1 (by omega)
  refine ⟨b2, by rw [CBuf.addEof, e1, Res.ok_bind, e2], h2.mono (by omega)⟩

theorem rep_start {b : CBuf} {N : Nat} (ch : Nat) (h : Any b N) (hN : 1 ≤ N) :
    ∃ b', b.start ch = .ok b' ∧ Rep b' [UInt8.ofNat ch] N := by
  have hb := h.big
  refine ⟨{ b with data := b.data.set 0 (some (UInt8.ofNat ch)), ptr := 1 }, ?_, ?_⟩
  · rw [CBuf.start, CBuf.store, if_pos (by omega)]; rfl
  · refine { size := by simp [h.size], big := by simp [h.big], max := by simp [h.max], ptr := rfl
             data := ?_, room := by simp; omega, len := by simpa using hN }
    cases hd : b.data with
    | nil => rw [hd] at hb; simp at hb
    | cons x l => simp

theorem rep_get {b : CBuf} {s : Bytes} {N : Nat} (h : Rep b s N) (i : Nat) (hi : i < s.length) :
    b.load i = .ok (s.getD i 0) := by
  rw [CBuf.load, if_neg (by omega)]
  have : b.data[i]? = (s.map some)[i]? := by rw [← h.data, List.getElem?_take, if_pos hi]
  rw [Int.toNat_natCast, this]
  simp [hi]

theorem rep_loadN {b : CBuf} {s : Bytes} {N : Nat} (h : Rep b s N) : ∀ (n i : Nat), i + n ≤ s.length →
    b.loadN (i : Int) n = .ok ((s.drop i).take n)
  | 0, i, _ => by simp [CBuf.loadN]
  | n + 1, i, hi => by
    rw [CBuf.loadN, rep_get h i (by omega), Res.ok_bind]
    have := rep_loadN h n (i + 1) (by omega)
    rw [show ((i + 1 : Nat) : Int) = (i : Int) + 1 by omega] at this
    rw [this, Res.ok_bind, List.drop_eq_getElem_cons (by omega : i < s.length), List.take_succ_cons]
    simp [show i < s.length by omega]

theorem rep_back {b : CBuf} {s : Bytes} {N : Nat} (h : Rep b s N) (n : Nat) (hn : n + 1 ≤ s.length) :
    b.back (n + 1) = .ok (s.reverse.getD n 0) := by
  rw [CBuf.back, h.ptr]
  rw [show (s.length : Int) - ((n + 1 : Nat) : Int) = ((s.length - 1 - n : Nat) : Int) by omega,
    rep_get h _ (by omega)]
  congr 1
  simp only [List.getD_eq_getElem?_getD]
  rw [List.getElem?_reverse (by omega)]

/-- The array of an entity name. -/
structure Ent (b : CBuf) (s : Bytes) : Prop where
  size : b.data.length = 64
  ptr : b.ptr = s.length
  data : b.data.take s.length = s.map some
  room : s.length < 64

theorem ent_alloc : Ent .alloc [] := ⟨by simp [CBuf.alloc], rfl, by simp, by simp⟩

theorem ent_push {b : CBuf} {s : Bytes} (v : UInt8) (h : Ent b s) (hl : s.length < 63) :
    ∃ b', b.push v = .ok b' ∧ Ent b' (s ++ [v]) := by
  have hs := h.size
  refine ⟨{ b with data := b.data.set b.ptr (some v), ptr := b.ptr + 1 }, ?_, by simp [hs], by simp [h.ptr], ?_,
    by simp; omega⟩
  · rw [CBuf.push, CBuf.store, if_pos (by rw [h.ptr]; omega)]
    rfl
  · dsimp only
    rw [List.length_append, List.length_singleton, h.ptr, List.take_add_one,
      List.take_set_of_le (Nat.le_refl _), h.data, List.getElem?_set_self (by omega)]
    simp

theorem ent_stop {b : CBuf} {s : Bytes} (h : Ent b s) : ∃ b', b.stop = .ok b' ∧ b'.str = .ok (cstr s) := by
  have hs := h.size
  have hr := h.room
  refine ⟨{ b with data := b.data.set b.ptr (some 0) }, ?_, ?_⟩
  · rw [CBuf.stop, CBuf.store, if_pos (by rw [h.ptr]; omega)]
  · apply readStr_prefix
    · dsimp only
      rw [h.ptr, List.take_set_of_le (Nat.le_refl _)]
      exact h.data
    · dsimp only
      rw [h.ptr, List.getElem?_set_self (by omega)]

theorem cstr_id {s : Bytes} (h : (0 : UInt8) ∉ s) : cstr s = s := by
  induction s with
  | nil => rfl
  | cons v s ih =>
    simp only [List.mem_cons, not_or] at h
    rw [cstr, List.takeWhile_cons]
    have : (v != 0) = true := by simpa using fun e => h.1 e.symm
    simp only [this, if_true]
    congr 1
    exact ih h.2

end Afs.ParseMem
