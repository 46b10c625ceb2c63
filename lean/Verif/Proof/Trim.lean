import Verif.Model.XmlUtils
/-! # Facts about trimming -/
namespace Afs

theorem stringCut_eq (s : Bytes) (i j : Nat) (h1 : i ≤ j) (h2 : j ≤ s.length) :
    stringCut s i j = (s.take j).drop i := by
  unfold stringCut
  rw [if_neg (by omega)]
  by_cases he : i = j
  · rw [if_pos he]
    subst he
    symm
    apply List.drop_of_length_le
    simp; omega
  · rw [if_neg he, if_neg (by omega)]
    by_cases hf : i = 0 ∧ j = s.length
    · rw [if_pos hf, hf.1, hf.2]; simp
    · rw [if_neg hf]
      apply List.ext_getElem
      · simp; omega
      · intro k hk hk'
        simp at hk
        have : i + k < s.length := by omega
        simp [this, Nat.add_comm]

theorem trimStart_le (s : Bytes) : trimStart s ≤ s.length := by
  induction s with
  | nil => simp [trimStart]
  | cons c cs ih => rw [trimStart]; split <;> simp <;> omega

theorem trimStart_take (s : Bytes) : ∀ c ∈ s.take (trimStart s), isTrimByte c = true := by
  induction s with
  | nil => simp
  | cons c cs ih =>
    rw [trimStart]
    split
    · rename_i h
      rw [List.take_succ_cons]
      intro x hx
      rcases List.mem_cons.mp hx with rfl | hx
      · exact h
      · exact ih x hx
    · simp

theorem trimStart_drop (s : Bytes) : ∀ c, (s.drop (trimStart s)).head? = some c → isTrimByte c = false := by
  induction s with
  | nil => simp
  | cons c cs ih =>
    rw [trimStart]
    split
    · simpa using ih
    · rename_i h
      intro x hx
      simp at hx
      subst hx
      simpa using h

theorem trimEnd_le (s : Bytes) (i j : Nat) : trimEnd s i j ≤ j := by
  induction j with
  | zero => simp [trimEnd]
  | succ j ih => rw [trimEnd]; split <;> omega

theorem trimEnd_ge (s : Bytes) (i j : Nat) (h : i ≤ j) : i ≤ trimEnd s i j := by
  induction j with
  | zero => simpa [trimEnd] using h
  | succ j ih => rw [trimEnd]; split <;> omega

theorem trimEnd_drop (s : Bytes) (i j : Nat) (hj : j ≤ s.length) :
    ∀ c ∈ (s.take j).drop (trimEnd s i j), isTrimByte c = true := by
  induction j with
  | zero => simp
  | succ j ih =>
    rw [trimEnd]
    split
    · rename_i h
      intro c hc
      rw [List.take_add_one, List.drop_append_of_le_length
        (by simp only [List.length_take]; have := trimEnd_le s i j; omega)] at hc
      rcases List.mem_append.mp hc with hc | hc
      · exact ih (by omega) c hc
      · have hlt : j < s.length := by omega
        simp [hlt] at hc
        subst hc
        simpa [hlt] using h.1
    · intro c hc
      rw [List.drop_of_length_le (by simp; omega)] at hc
      simp at hc

theorem trimEnd_last (s : Bytes) (i j : Nat) (hj : j ≤ s.length) (hij : i ≤ j) :
    ∀ c, ((s.take (trimEnd s i j)).drop i).getLast? = some c → isTrimByte c = false := by
  induction j with
  | zero => simp [trimEnd]
  | succ j ih =>
    rw [trimEnd]
    split
    · rename_i h
      exact ih (by omega) (by omega)
    · rename_i h
      intro c hc
      by_cases hi : i = j + 1
      · subst hi
        rw [List.drop_of_length_le (by simp; omega)] at hc
        simp at hc
      · have hlt : j < s.length := by omega
        have : (s.take (j+1)).drop i = (s.take j).drop i ++ [s[j]] := by
          rw [List.take_add_one, List.drop_append_of_le_length (by simp; omega)]
          simp [hlt]
        rw [this] at hc
        simp at hc
        subst hc
        have : ¬ isTrimByte (s.getD j 0) = true := fun e => h ⟨e, by omega⟩
        simpa [hlt] using this

theorem stringTrim_eq (s : Bytes) :
    stringTrim s = (s.take (trimEnd s (trimStart s) s.length)).drop (trimStart s) := by
  unfold stringTrim
  split
  · rename_i h; have : s = [] := by simpa using h
    subst this; rfl
  · exact stringCut_eq s _ _ (trimEnd_ge _ _ _ (trimStart_le s)) (trimEnd_le _ _ _)

/-- No trimmed character at either end. -/
def NoEnds (s : Bytes) : Prop :=
  (∀ c, s.head? = some c → isTrimByte c = false) ∧ (∀ c, s.getLast? = some c → isTrimByte c = false)

theorem noEnds_nil : NoEnds [] := by simp [NoEnds]

theorem stringTrim_spec (s : Bytes) :
    ∃ a b, s = a ++ stringTrim s ++ b ∧ (∀ c ∈ a, isTrimByte c = true) ∧ (∀ c ∈ b, isTrimByte c = true) ∧
      NoEnds (stringTrim s) := by
  rw [stringTrim_eq]
  generalize hj : trimEnd s (trimStart s) s.length = j
  have h1 : trimStart s ≤ j := hj ▸ trimEnd_ge _ _ _ (trimStart_le s)
  have h2 : j ≤ s.length := hj ▸ trimEnd_le _ _ _
  refine ⟨s.take (trimStart s), s.drop j, ?_, trimStart_take s, ?_, ?_, ?_⟩
  · have : s.take (trimStart s) = (s.take j).take (trimStart s) := by rw [List.take_take, Nat.min_eq_left h1]
    rw [this, List.take_append_drop, List.take_append_drop]
  · have := trimEnd_drop s (trimStart s) s.length (Nat.le_refl _)
    rw [hj] at this; simpa using this
  · intro c hc
    by_cases he : trimStart s = j
    · subst he
      rw [List.drop_of_length_le (by simp; omega)] at hc
      simp at hc
    · apply trimStart_drop s c
      rw [List.head?_drop] at hc ⊢
      rw [List.getElem?_take] at hc
      split at hc
      · exact hc
      · simp at hc
  · have := trimEnd_last s (trimStart s) s.length (Nat.le_refl _) (trimStart_le s)
    rw [hj] at this; exact this

/-- The decomposition is unique. -/
theorem trim_unique {s a t b : Bytes} (hs : s = a ++ t ++ b) (ha : ∀ c ∈ a, isTrimByte c = true)
    (hb : ∀ c ∈ b, isTrimByte c = true) (ht : NoEnds t) : stringTrim s = t := by
  obtain ⟨a', b', hs', ha', hb', ht'⟩ := stringTrim_spec s
  generalize stringTrim s = u at *
  -- lists with the same sum: compare prefixes, then suffixes
  have pre : ∀ (a t a' u : Bytes), (∀ c ∈ a, isTrimByte c = true) → (∀ c ∈ a', isTrimByte c = true) →
      ∀ b b' : Bytes, (∀ c ∈ b, isTrimByte c = true) → (∀ c ∈ b', isTrimByte c = true) →
      NoEnds t → NoEnds u → a ++ t ++ b = a' ++ u ++ b' → t ++ b = u ++ b' ∨ (t = [] ∧ u = []) := by
    intro a
    induction a with
    | nil =>
      intro t a' u _ ha' b b' hb hb' ht hu h
      cases a' with
      | nil => left; simpa using h
      | cons x a' =>
        right
        cases t with
        | nil =>
          refine ⟨rfl, ?_⟩
          cases u with
          | nil => rfl
          | cons y u =>
            have hx := hu.1 y rfl
            have : y ∈ b := by
              have h' : b = x :: (a' ++ y :: (u ++ b')) := by simpa using h
              rw [h']; simp
            rw [hb y this] at hx; cases hx
        | cons y t =>
          have hy := ht.1 y rfl
          simp at h
          rw [h.1, ha' x (by simp)] at hy; cases hy
    | cons x a ih =>
      intro t a' u ha ha' b b' hb hb' ht hu h
      cases a' with
      | nil =>
        cases u with
        | nil =>
          right
          refine ⟨?_, rfl⟩
          cases t with
          | nil => rfl
          | cons y t =>
            have hy := ht.1 y rfl
            have : y ∈ b' := by
              have h' : b' = x :: (a ++ y :: (t ++ b)) := by simpa using h.symm
              rw [h']; simp
            rw [hb' y this] at hy; cases hy
        | cons y u =>
          have hy := hu.1 y rfl
          simp at h
          rw [← h.1, ha x (by simp)] at hy; cases hy
      | cons y a' =>
        simp at h
        exact ih t a' u (fun c hc => ha c (by simp [hc])) (fun c hc => ha' c (by simp [hc])) b b' hb hb' ht hu
          (by simpa using h.2)
  rcases pre a t a' u ha ha' b b' hb hb' ht ht' (hs.symm.trans hs') with h | ⟨h1, h2⟩
  · have hr := congrArg List.reverse h
    simp only [List.reverse_append] at hr
    have rev : ∀ t : Bytes, NoEnds t → NoEnds t.reverse := by
      intro t h; exact ⟨by simpa using h.2, by simpa using h.1⟩
    rcases pre b.reverse t.reverse b'.reverse u.reverse (by simpa using hb) (by simpa using hb') [] []
      (by simp) (by simp) (rev t ht) (rev u ht') (by simpa using hr) with h | ⟨h1, h2⟩
    · have := congrArg List.reverse h
      simpa using this.symm
    · simp at h1 h2; rw [h1, h2]
  · rw [h1, h2]

theorem stringTrim_of_noEnds {s : Bytes} (h : NoEnds s) : stringTrim s = s :=
  trim_unique (a := []) (b := []) (by simp) (by simp) (by simp) h

theorem stringTrim_idem (s : Bytes) : stringTrim (stringTrim s) = stringTrim s :=
  stringTrim_of_noEnds (stringTrim_spec s).choose_spec.choose_spec.2.2.2

theorem stringTrim_pad (a s b : Bytes) (ha : ∀ c ∈ a, isTrimByte c = true) (hb : ∀ c ∈ b, isTrimByte c = true) :
    stringTrim (a ++ s ++ b) = stringTrim s := by
  obtain ⟨a', b', hs, ha', hb', ht⟩ := stringTrim_spec s
  refine trim_unique (a := a ++ a') (b := b' ++ b) ?_ ?_ ?_ ht
  · conv => lhs; rw [hs]
    simp
  · intro c hc; rcases List.mem_append.mp hc with h | h
    · exact ha c h
    · exact ha' c h
  · intro c hc; rcases List.mem_append.mp hc with h | h
    · exact hb' c h
    · exact hb c h

end Afs
