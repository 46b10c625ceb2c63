import Verif.Proof.Cut2
import Verif.Spec.Cut
/-!
# Documents cut short: saved documents, byte by byte
-/
namespace Afs.Xml
open Afs Afs.Spec Afs.Spec.Grammar

theorem finish_done (s : PS) : ∃ r, s.finish.pc = .done r := by
  unfold PS.finish
  split <;> exact ⟨_, rfl⟩

theorem pop_settles (s : PS) : ∃ r, (step s.pop none).pc = .done r := by
  by_cases h : s.stack = []
  · refine ⟨none, ?_⟩
    have : s.pop.pc = .done none := by unfold PS.pop; rw [h]; rfl
    unfold step; rw [this]
  · have : step s.pop none = s.pop.finish := by unfold step; rw [pop_main h]
    rw [this]; exact finish_done _

/-- Two ends of input are enough. -/
theorem settles (s : PS) : ∃ r, (step (step s none) none).pc = .done r := by
  have one : ∀ r, (step s none).pc = .done r → ∃ r, (step (step s none) none).pc = .done r := by
    intro r h
    exact ⟨r, by rw [step.eq_def, h]⟩
  cases hpc : s.pc with
  | done r => exact one r (by unfold step; rw [hpc])
  | main b =>
    have e : step s none = s.finish := by unfold step; rw [hpc]
    obtain ⟨r, h⟩ := finish_done s
    exact one r (by rw [e]; exact h)
  | close =>
    have e : step s none = s.pop := by unfold step; rw [hpc]; rfl
    rw [e]; exact pop_settles s
  | name b =>
    have hst : step s none = s.afterName b none := by unfold step; rw [hpc]
    unfold PS.afterName at hst
    split at hst
    · exact ⟨none, by rw [hst]; rfl⟩
    split at hst
    · exact ⟨none, by rw [hst]; rfl⟩
    split at hst
    · exact ⟨none, by rw [hst]; rfl⟩
    split at hst
    · exact ⟨none, by rw [hst]; rfl⟩
    split at hst
    · split at hst
      · exact one none (by rw [hst]; rfl)
      · split at hst
        · rw [hst]; exact pop_settles s
        · exact one none (by rw [hst]; rfl)
    split at hst
    · exact one none (by rw [hst]; rfl)
    · dsimp only at hst
      obtain ⟨r, h⟩ := finish_done (s.addNode (.elem b [] []))
      exact one r (by rw [hst]; exact h)
  | comment _ => exact one none (by unfold step; rw [hpc]; rfl)
  | cdata _ => exact one none (by unfold step; rw [hpc]; rfl)
  | pi _ => exact one none (by unfold step; rw [hpc]; rfl)
  | decl _ => exact one none (by unfold step; rw [hpc]; rfl)
  | slash _ => exact one none (by unfold step; rw [hpc]; rfl)
  | attr _ => exact one none (by unfold step; rw [hpc]; rfl)
  | attrSlash _ _ => exact one none (by unfold step; rw [hpc]; rfl)
  | qname e q an =>
    refine one none ?_
    unfold step; rw [hpc]
    dsimp only [PS.afterAttrName]
    split <;> rfl
  | aname e an =>
    refine one none ?_
    unfold step; rw [hpc]
    dsimp only [PS.afterAttrName]
    split <;> rfl
  | aeq _ _ => exact one none (by unfold step; rw [hpc]; rfl)
  | vskip _ _ => exact one none (by unfold step; rw [hpc]; rfl)
  | qval e an q av =>
    have e : step s none = s.afterValue e an av none := by unfold step; rw [hpc]
    exact ⟨none, by rw [e]; rfl⟩
  | uval e an av =>
    have e : step s none = s.afterValue e an av none := by unfold step; rw [hpc]
    exact ⟨none, by rw [e]; rfl⟩
  | valSlash _ _ => exact one none (by unfold step; rw [hpc]; rfl)
  | ent _ _ => exact one none (by unfold step; rw [hpc]; rfl)

theorem eofs_more (s : PS) (m : Nat) : (run (run s (List.replicate m none)) [none, none, none]).result = eofs s := by
  obtain ⟨r, h⟩ := settles s
  rw [eofs_step h, ← run_append]
  have : ∃ l, List.replicate m (none : Option Nat) ++ [none, none, none] = none :: none :: l := by
    match m with
    | 0 => exact ⟨_, rfl⟩
    | 1 => exact ⟨_, rfl⟩
    | m + 2 => exact ⟨_, by rw [List.replicate_succ, List.replicate_succ]; rfl⟩
  obtain ⟨l, hl⟩ := this
  rw [hl, run_cons, run_cons]
  exact result_done (run_done h _)

/-- What is left of a character cut short is an error. -/
def PartDec (dec : Bytes → List (Option Nat)) : Prop :=
  ∀ (c : Char) (p q : Bytes), p ++ q = String.utf8EncodeChar c → p ≠ [] → q ≠ [] → ∃ m, dec p = List.replicate m none

theorem parts (c : Char) (p q : Bytes) (h : p ++ q = String.utf8EncodeChar c) (hp : p ≠ []) (hq : q ≠ []) :
    (∃ a, p = [a] ∧ 192 ≤ a.toNat ∧ a.toNat < 248) ∨
    (∃ a x, p = [a, x] ∧ 224 ≤ a.toNat ∧ a.toNat < 248 ∧ isCont x = true) ∨
    (∃ a x y, p = [a, x, y] ∧ 240 ≤ a.toNat ∧ a.toNat < 248 ∧ isCont x = true ∧ isCont y = true) := by
  have hv := char_lt c
  simp only [Char.toNat] at hv
  unfold String.utf8EncodeChar at h
  generalize c.val.toNat = v at *
  have hlen := congrArg List.length h
  match p, hp with
  | [a], _ =>
    left
    refine ⟨a, rfl, ?_⟩
    dsimp only at h
    split at h
    · simp at h; exact absurd h.2 hq
    · split at h
      · simp only [List.cons_append, List.nil_append, List.cons.injEq] at h; rw [h.1, u8 (by omega)]; omega
      · split at h
        · simp only [List.cons_append, List.nil_append, List.cons.injEq] at h; rw [h.1, u8 (by omega)]; omega
        · simp only [List.cons_append, List.nil_append, List.cons.injEq] at h; rw [h.1, u8 (by omega)]; omega
  | [a, x], _ =>
    right; left
    refine ⟨a, x, rfl, ?_⟩
    dsimp only at h
    split at h
    · simp at h
    · split at h
      · simp at h; exact absurd h.2.2 hq
      · split at h
        · simp only [List.cons_append, List.nil_append, List.cons.injEq] at h; rw [h.1, u8 (by omega), h.2.1]; exact ⟨by omega, by omega, isCont_of _⟩
        · simp only [List.cons_append, List.nil_append, List.cons.injEq] at h; rw [h.1, u8 (by omega), h.2.1]; exact ⟨by omega, by omega, isCont_of _⟩
  | [a, x, y], _ =>
    right; right
    refine ⟨a, x, y, rfl, ?_⟩
    dsimp only at h
    split at h
    · simp at h
    · split at h
      · simp at h
      · split at h
        · simp at h; exact absurd h.2.2.2 hq
        · simp only [List.cons_append, List.nil_append, List.cons.injEq] at h; rw [h.1, u8 (by omega), h.2.1, h.2.2.1]; exact ⟨by omega, by omega, isCont_of _, isCont_of _⟩
  | a :: x :: y :: z :: p, _ =>
    exfalso
    dsimp only at h
    cases q with
    | nil => exact hq rfl
    | cons b q =>
      split at h
      · simp at h
      · split at h
        · simp at h
        · split at h <;> simp at h

theorem cont_range {x : UInt8} (h : isCont x = true) : 128 ≤ x.toNat ∧ x.toNat < 192 := by
  simpa [isCont] using h

theorem decode_cont {x : UInt8} (h : isCont x = true) (r : Bytes) : decode (x :: r) = none :: decode r := by
  have := cont_range h
  rw [decode.eq_def]
  dsimp only
  rw [if_neg (by omega), if_neg (by omega), if_neg (by omega), if_neg (by omega)]

theorem part_decode : PartDec decode := by
  intro c p q h hp hq
  rcases parts c p q h hp hq with ⟨a, rfl, h1, h2⟩ | ⟨a, x, rfl, h1, h2, h3⟩ | ⟨a, x, y, rfl, h1, h2, h3, h4⟩
  · refine ⟨1, ?_⟩
    rw [decode.eq_def]
    dsimp only
    rw [if_neg (by omega)]
    split
    · rfl
    · split
      · rfl
      · rw [if_pos (by omega)]; rfl
  · refine ⟨2, ?_⟩
    rw [decode.eq_def]
    dsimp only
    rw [if_neg (by omega), if_neg (by omega)]
    split
    · rw [decode_cont h3]; rfl
    · rw [if_pos (by omega), decode_cont h3]; rfl
  · refine ⟨3, ?_⟩
    rw [decode.eq_def]
    dsimp only
    rw [if_neg (by omega), if_neg (by omega), if_neg (by omega), if_pos (by omega), decode_cont h3, decode_cont h4]; rfl

theorem part_decodeFile : PartDec decodeFile := by
  intro c p q h hp hq
  refine ⟨1, ?_⟩
  rcases parts c p q h hp hq with ⟨a, rfl, h1, h2⟩ | ⟨a, x, rfl, h1, h2, h3⟩ | ⟨a, x, y, rfl, h1, h2, h3, h4⟩
  · rw [decodeFile.eq_def]
    dsimp only
    rw [if_neg (by omega)]
    split
    · rfl
    · split
      · rfl
      · rw [if_pos (by omega)]; rfl
  · rw [decodeFile.eq_def]
    dsimp only
    rw [if_neg (by omega), if_neg (by omega)]
    split
    · rfl
    · rw [if_pos (by omega)]; rfl
  · rw [decodeFile.eq_def]
    dsimp only
    rw [if_neg (by omega), if_neg (by omega), if_neg (by omega), if_pos (by omega), if_pos h3]; rfl

/-- The bytes of a text cut short: whole characters, and maybe a part of one. -/
theorem take_utf8 : ∀ (t : List Char) (k : Nat), ∃ j p, (utf8File t).take k = utf8File (t.take j) ++ p ∧
    (p = [] ∨ ∃ c q, p ++ q = String.utf8EncodeChar c ∧ p ≠ [] ∧ q ≠ [])
  | [], k => ⟨0, [], by simp [utf8_nil], .inl rfl⟩
  | c :: t, k => by
    rw [utf8_cons]
    by_cases h : k < (String.utf8EncodeChar c).length
    · refine ⟨0, (String.utf8EncodeChar c).take k, ?_, ?_⟩
      · rw [List.take_append_of_le_length (by omega)]; simp [utf8_nil]
      · by_cases hk : k = 0
        · exact .inl (by rw [hk]; rfl)
        · refine .inr ⟨c, (String.utf8EncodeChar c).drop k, List.take_append_drop _ _, ?_, ?_⟩
          · intro e
            have := congrArg List.length e
            rw [List.length_take, List.length_nil] at this; omega
          · intro e
            have := congrArg List.length e
            rw [List.length_drop, List.length_nil] at this; omega
    · obtain ⟨j, p, h1, h2⟩ := take_utf8 t (k - (String.utf8EncodeChar c).length)
      refine ⟨j + 1, p, ?_, h2⟩
      rw [List.take_append, List.take_of_length_le (by omega), h1, List.take_succ_cons, utf8_cons]
      simp

/-- Reading a clean text cut short. -/
theorem feed_take {dec} (hd : GoodDec dec) (hp : PartDec dec) (s : PS) {t : List Char} (ht : ∀ c ∈ t, Allowed c) (k : Nat) :
    ∃ j, (run (feed dec s ((utf8File t).take k)) [none, none, none]).result = eofs (R s (t.take j)) := by
  obtain ⟨j, p, h1, h2⟩ := take_utf8 t k
  refine ⟨j, ?_⟩
  rw [h1]
  have hj : ∀ c ∈ t.take j, Allowed c := fun c hc => ht c (List.mem_of_mem_take hc)
  have e : dec (utf8File (t.take j) ++ p) = (t.take j).map (fun c => some c.toNat) ++ dec p := dec_clean hd _ hj p
  unfold feed
  rw [e, run_append]
  change (run (run (R s (t.take j)) (dec p)) _).result = _
  rcases h2 with rfl | ⟨c, q, h3, h4, h5⟩
  · rw [hd.nil]; rfl
  · obtain ⟨m, hm⟩ := hp c p q h3 h4 h5
    rw [hm, eofs_more]

theorem R_map (s : PS) (t : List Char) : R s t = run s ((t.map Char.toNat).map some) := by
  unfold R; rw [List.map_map]; rfl

theorem feed_R {dec} (hd : GoodDec dec) (s : PS) {t : List Char} (ht : ∀ c ∈ t, Allowed c) : feed dec s (utf8File t) = R s t := by
  unfold feed R
  rw [dec_text hd t ht]

end Afs.Xml
