import Verif.Spec.Frames
import Mathlib.Data.List.Perm.Subperm
/-! # Helper lemmas for frame ranges -/
namespace Afs
open Spec

/-- Ranges produced from files on film. -/
def GoodRange (r : FrameRange) : Prop := 0 < r.count ∧ r.start + r.count ≤ 2147483648

theorem getEnd_good {r : FrameRange} (h : GoodRange r) : r.getEnd = r.start + r.count - 1 := by
  obtain ⟨h1, h2⟩ := h
  unfold FrameRange.getEnd u32 two32
  rw [if_neg (by omega)]
  omega

theorem mergeFrameRanges_good {a b : FrameRange} (ha : GoodRange a) (hb : GoodRange b)
    (hab : a.start ≤ b.start) :
    mergeFrameRanges a b =
      if a.start + a.count < b.start then none
      else some ⟨a.start, max (a.start + a.count) (b.start + b.count) - a.start⟩ := by
  have ea := getEnd_good ha
  have eb := getEnd_good hb
  obtain ⟨ha1, ha2⟩ := ha
  obtain ⟨hb1, hb2⟩ := hb
  unfold mergeFrameRanges
  have hmin : min a.start b.start = a.start := by omega
  have e1 : (⟨min a.start b.start, a.count⟩ : FrameRange) = a := by rw [hmin]
  simp only [e1]
  rw [ea, eb]
  simp only [u32, two32, hmin]
  by_cases hg : a.start + a.count < b.start
  · rw [if_pos (by omega), if_pos hg]
  · rw [if_neg (by omega), if_neg hg]
    congr 2
    omega

theorem insertRev_perm (x : FrameRange) (l : List FrameRange) : (insertRev x l).Perm (x :: l) := by
  induction l with
  | nil => exact List.Perm.refl _
  | cons p ps ih =>
    unfold insertRev
    split
    · exact (ih.cons p).trans (List.Perm.swap x p ps)
    · exact List.Perm.refl _

theorem sortLoop_perm (rev l : List FrameRange) : (sortLoop rev l).Perm (rev ++ l) := by
  induction l generalizing rev with
  | nil => unfold sortLoop; simp [List.reverse_perm rev]
  | cons x xs ih =>
    unfold sortLoop
    refine (ih _).trans ?_
    refine ((insertRev_perm x rev).append_right xs).trans ?_
    simpa using (List.perm_middle (a := x) (l₁ := rev) (l₂ := xs)).symm

theorem sort_perm (l : List FrameRange) : (sortFrameRanges l).Perm l := by
  cases l with
  | nil => exact List.Perm.refl _
  | cons x xs => simpa [sortFrameRanges] using sortLoop_perm [x] xs

theorem insertRev_sorted (x : FrameRange) (l : List FrameRange)
    (h : l.Pairwise (fun a b => b.start ≤ a.start)) :
    (insertRev x l).Pairwise (fun a b => b.start ≤ a.start) := by
  induction l with
  | nil => simp [insertRev]
  | cons p ps ih =>
    unfold insertRev
    rw [List.pairwise_cons] at h
    split
    · rename_i hlt
      rw [List.pairwise_cons]
      refine ⟨fun a ha => ?_, ih h.2⟩
      have := (insertRev_perm x ps).mem_iff.mp ha
      rcases List.mem_cons.mp this with rfl | hm
      · omega
      · exact h.1 a hm
    · rename_i hle
      rw [List.pairwise_cons]
      refine ⟨fun a ha => ?_, List.pairwise_cons.mpr h⟩
      rcases List.mem_cons.mp ha with rfl | hm
      · omega
      · have := h.1 a hm; omega

theorem sortLoop_sorted (rev l : List FrameRange)
    (h : rev.Pairwise (fun a b => b.start ≤ a.start)) :
    (sortLoop rev l).Pairwise (fun a b => a.start ≤ b.start) := by
  induction l generalizing rev with
  | nil => unfold sortLoop; rw [List.pairwise_reverse]; exact h
  | cons x xs ih => unfold sortLoop; exact ih _ (insertRev_sorted x rev h)

theorem sort_sorted (l : List FrameRange) :
    (sortFrameRanges l).Pairwise (fun a b => a.start ≤ b.start) := by
  cases l with
  | nil => simp [sortFrameRanges]
  | cons x xs => exact sortLoop_sorted [x] xs (by simp)

theorem covered_append (a b : List FrameRange) (n : Nat) :
    Covered (a ++ b) n ↔ Covered a n ∨ Covered b n := by
  unfold Covered
  simp only [List.mem_append]
  constructor
  · rintro ⟨r, hr | hr, h⟩
    · exact .inl ⟨r, hr, h⟩
    · exact .inr ⟨r, hr, h⟩
  · rintro (⟨r, hr, h⟩ | ⟨r, hr, h⟩)
    · exact ⟨r, .inl hr, h⟩
    · exact ⟨r, .inr hr, h⟩

theorem covered_cons (a : FrameRange) (b : List FrameRange) (n : Nat) :
    Covered (a :: b) n ↔ (a.start ≤ n ∧ n < a.start + a.count) ∨ Covered b n := by
  unfold Covered; simp

theorem covered_perm {a b : List FrameRange} (h : a.Perm b) (n : Nat) :
    Covered a n ↔ Covered b n := by
  unfold Covered; simp [h.mem_iff]

theorem mergeLoop_spec (xs : List FrameRange) (acc : List FrameRange) (last : FrameRange)
    (hlast : GoodRange last) (hxs : ∀ x ∈ xs, GoodRange x)
    (hle : ∀ x ∈ xs, last.start ≤ x.start)
    (hsorted : xs.Pairwise (fun a b => a.start ≤ b.start))
    (hacc : Canonical (acc ++ [last])) :
    Canonical (mergeLoop acc last xs) ∧
    ∀ n, Covered (mergeLoop acc last xs) n ↔ Covered (acc ++ last :: xs) n := by
  induction xs generalizing acc last with
  | nil => exact ⟨hacc, fun n => Iff.rfl⟩
  | cons x xs ih =>
    have hx := hxs x (by simp)
    have hlx := hle x (by simp)
    rw [List.pairwise_cons] at hsorted
    unfold mergeLoop
    rw [mergeFrameRanges_good hlast hx hlx]
    by_cases hgap : last.start + last.count < x.start
    · rw [if_pos hgap]
      have hcl : x.clone = x := rfl
      simp only [hcl]
      have key : Canonical ((acc ++ [last]) ++ [x]) := by
        refine ⟨?_, ?_⟩
        · intro r hr
          rcases List.mem_append.mp hr with h | h
          · exact hacc.1 r h
          · rw [List.mem_singleton] at h; subst h; exact hx.1
        · rw [List.pairwise_append]
          refine ⟨hacc.2, by simp, ?_⟩
          intro a ha b hb
          rw [List.mem_singleton] at hb; subst hb
          rcases List.mem_append.mp ha with h | h
          · have := (List.pairwise_append.mp hacc.2).2.2 a h last (by simp)
            omega
          · rw [List.mem_singleton] at h; subst h; exact hgap
      obtain ⟨c1, c2⟩ := ih (acc ++ [last]) x hx (fun y hy => hxs y (by simp [hy])) hsorted.1
        hsorted.2 key
      exact ⟨c1, fun n => by rw [c2 n]; simp⟩
    · rw [if_neg hgap]
      obtain ⟨hl1, hl2⟩ := hlast
      obtain ⟨hx1, hx2⟩ := hx
      have hg : GoodRange ⟨last.start, max (last.start + last.count) (x.start + x.count) - last.start⟩ := by
        constructor <;> simp only <;> omega
      have key : Canonical (acc ++ [(⟨last.start, max (last.start + last.count) (x.start + x.count) - last.start⟩ : FrameRange)]) := by
        refine ⟨?_, ?_⟩
        · intro r hr
          rcases List.mem_append.mp hr with h | h
          · exact hacc.1 r (List.mem_append_left _ h)
          · rw [List.mem_singleton] at h; subst h; exact hg.1
        · rw [List.pairwise_append]
          have h0 := List.pairwise_append.mp hacc.2
          refine ⟨h0.1, by simp, ?_⟩
          intro a ha b hb
          rw [List.mem_singleton] at hb; subst hb
          exact h0.2.2 a ha last (by simp)
      obtain ⟨c1, c2⟩ := ih acc _ hg (fun y hy => hxs y (by simp [hy]))
        (fun y hy => hle y (by simp [hy])) hsorted.2 key
      refine ⟨c1, fun n => ?_⟩
      rw [c2 n]
      simp only [covered_append, covered_cons]
      have : (last.start ≤ n ∧ n < last.start + (max (last.start + last.count) (x.start + x.count) - last.start)) ↔
          ((last.start ≤ n ∧ n < last.start + last.count) ∨ (x.start ≤ n ∧ n < x.start + x.count)) := by
        omega
      rw [this]
      tauto

theorem mergeRanges_spec (l : List FrameRange) (h : ∀ x ∈ l, GoodRange x) :
    Canonical (mergeRanges l) ∧ ∀ n, Covered (mergeRanges l) n ↔ Covered l n := by
  unfold mergeRanges
  split
  · rename_i hlt
    refine ⟨?_, fun n => Iff.rfl⟩
    match l, hlt with
    | [], _ => exact ⟨by simp, by simp⟩
    | [x], _ => exact ⟨by simpa using (h x (by simp)).1, by simp⟩
  · have hp := sort_perm l
    have hs := sort_sorted l
    have hg : ∀ x ∈ sortFrameRanges l, GoodRange x := fun x hx => h x (hp.mem_iff.mp hx)
    split
    · rename_i heq
      have : l = [] := by simpa [heq] using hp.symm
      subst this
      exact ⟨⟨by simp, by simp⟩, fun n => Iff.rfl⟩
    · rename_i x xs heq
      rw [heq] at hs hg hp
      rw [List.pairwise_cons] at hs
      obtain ⟨c1, c2⟩ := mergeLoop_spec xs [] x.clone (hg x (by simp))
        (fun y hy => hg y (by simp [hy])) hs.1 hs.2
        ⟨by simpa [FrameRange.clone, FrameRange.create2] using (hg x (by simp)).1, by simp⟩
      exact ⟨c1, fun n => (c2 n).trans (covered_perm hp n)⟩

theorem fileRange_onFilm {f : File} (h : OnFilm f) :
    fileRange f = .ok ⟨f.startFrame.toNat, (f.endFrame - f.startFrame + 1).toNat⟩ := by
  obtain ⟨h1, h2, h3, h4⟩ := h
  unfold INT_MAX at h3 h4
  unfold fileRange
  have c1 : ckInt (f.endFrame - f.startFrame) = .ok (f.endFrame - f.startFrame) := by
    unfold ckInt; rw [if_pos]; unfold INT_MAX INT_MIN; omega
  have c2 : ckInt (f.endFrame - f.startFrame + 1) = .ok (f.endFrame - f.startFrame + 1) := by
    unfold ckInt; rw [if_pos]; unfold INT_MAX INT_MIN; omega
  rw [c1]; simp only [Res.ok_bind]; rw [c2]; simp only [Res.ok_bind, Res.pure_eq, FrameRange.create2]
  unfold uOfInt two32
  congr 2 <;> omega

theorem fileRanges_onFilm {fs : List File} (h : ∀ f ∈ fs, OnFilm f) :
    fileRanges fs = .ok (fs.map fun f => ⟨f.startFrame.toNat, (f.endFrame - f.startFrame + 1).toNat⟩) := by
  induction fs with
  | nil => rfl
  | cons f fs ih =>
    unfold fileRanges
    rw [fileRange_onFilm (h f (by simp)), ih (fun g hg => h g (by simp [hg]))]
    rfl

theorem covered_map_files {fs : List File} (h : ∀ f ∈ fs, OnFilm f) (n : Nat) :
    Covered (fs.map fun f => (⟨f.startFrame.toNat, (f.endFrame - f.startFrame + 1).toNat⟩ : FrameRange)) n ↔
      Occupied fs n := by
  unfold Covered Occupied
  constructor
  · rintro ⟨r, hr, h1, h2⟩
    obtain ⟨f, hf, rfl⟩ := List.mem_map.mp hr
    obtain ⟨g1, g2, g3, g4⟩ := h f hf
    simp only at h1 h2
    exact ⟨f, hf, by omega, by omega⟩
  · rintro ⟨f, hf, h1, h2⟩
    obtain ⟨g1, g2, g3, g4⟩ := h f hf
    exact ⟨_, List.mem_map.mpr ⟨f, hf, rfl⟩, by simp only; omega, by simp only; omega⟩

theorem good_of_onFilm {f : File} (h : OnFilm f) :
    GoodRange ⟨f.startFrame.toNat, (f.endFrame - f.startFrame + 1).toNat⟩ := by
  obtain ⟨h1, h2, h3, h4⟩ := h
  unfold INT_MAX at h3 h4
  constructor <;> simp only <;> omega

theorem getFrameRanges_onFilm {fs : List File} (hne : fs ≠ []) (h : ∀ f ∈ fs, OnFilm f) :
    getFrameRanges (some ⟨some fs⟩) = .ok (some ⟨some (mergeRanges
      (fs.map fun f => ⟨f.startFrame.toNat, (f.endFrame - f.startFrame + 1).toNat⟩))⟩) := by
  unfold getFrameRanges Files.list
  have : fs.length ≠ 0 := by simpa using hne
  simp only [Option.getD_some, if_neg this, fileRanges_onFilm h, Res.ok_bind, Res.pure_eq]

/-! ### Uniqueness and minimality of canonical lists -/

theorem canonical_tail {r : FrameRange} {rs : List FrameRange} (h : Canonical (r :: rs)) :
    Canonical rs :=
  ⟨fun x hx => h.1 x (by simp [hx]), (List.pairwise_cons.mp h.2).2⟩

theorem canonical_unique {a b : List FrameRange} (ha : Canonical a) (hb : Canonical b)
    (h : ∀ n, Covered a n ↔ Covered b n) : a = b := by
  induction a generalizing b with
  | nil =>
    cases b with
    | nil => rfl
    | cons s ss =>
      have hc := hb.1 s (by simp)
      have := (h s.start).mpr ⟨s, by simp, by omega, by omega⟩
      simp [Covered] at this
  | cons r rs ih =>
    cases b with
    | nil =>
      have hc := ha.1 r (by simp)
      have := (h r.start).mp ⟨r, by simp, by omega, by omega⟩
      simp [Covered] at this
    | cons s ss =>
      have hr := ha.1 r (by simp)
      have hs := hb.1 s (by simp)
      have pa := (List.pairwise_cons.mp ha.2).1
      have pb := (List.pairwise_cons.mp hb.2).1
      have start_le : ∀ {x : FrameRange} {xs : List FrameRange} {n : Nat},
          (∀ y ∈ xs, x.start + x.count < y.start) → Covered (x :: xs) n → x.start ≤ n := by
        rintro x xs n hp ⟨y, hy, h1, h2⟩
        rcases List.mem_cons.mp hy with rfl | hm
        · exact h1
        · have := hp y hm; omega
      have e1 : r.start = s.start := by
        have a1 := start_le pb ((h r.start).mp ⟨r, by simp, by omega, by omega⟩)
        have a2 := start_le pa ((h s.start).mpr ⟨s, by simp, by omega, by omega⟩)
        omega
      have notcov : ∀ {x : FrameRange} {xs : List FrameRange},
          (∀ y ∈ xs, x.start + x.count < y.start) → ¬ Covered (x :: xs) (x.start + x.count) := by
        rintro x xs hp ⟨y, hy, h1, h2⟩
        rcases List.mem_cons.mp hy with rfl | hm
        · omega
        · have := hp y hm; omega
      have e2 : r.count = s.count := by
        rcases Nat.lt_trichotomy r.count s.count with hlt | heq | hgt
        · exact absurd ((h (r.start + r.count)).mpr ⟨s, by simp, by omega, by omega⟩) (notcov pa)
        · exact heq
        · exact absurd ((h (s.start + s.count)).mp ⟨r, by simp, by omega, by omega⟩) (notcov pb)
      have ers : r = s := by cases r; cases s; simp_all
      subst ers
      congr 1
      refine ih (canonical_tail ha) (canonical_tail hb) fun n => ?_
      have hn := h n
      rw [covered_cons, covered_cons] at hn
      by_cases hin : r.start ≤ n ∧ n < r.start + r.count
      · have n1 : ¬ Covered rs n := by
          rintro ⟨y, hy, h1, h2⟩; have := pa y hy; omega
        have n2 : ¬ Covered ss n := by
          rintro ⟨y, hy, h1, h2⟩; have := pb y hy; omega
        tauto
      · tauto

theorem canonical_minimal {a b : List FrameRange} (ha : Canonical a)
    (h : ∀ n, Covered a n ↔ Covered b n) : a.length ≤ b.length := by
  -- a range of `b` containing the first frame of a range `r` of `a` stays inside `r`
  have inside : ∀ r ∈ a, ∃ s ∈ b, r.start ≤ s.start ∧ s.start < r.start + r.count ∧
      s.start ≤ r.start := by
    intro r hr
    have hc := ha.1 r hr
    obtain ⟨s, hs, h1, h2⟩ := (h r.start).mp ⟨r, hr, by omega, by omega⟩
    refine ⟨s, hs, ?_, by omega, h1⟩
    apply Classical.byContradiction
    intro hlt
    -- then frame r.start - 1 is covered, contradiction with canonicity
    have hcov : Covered a (r.start - 1) := (h _).mpr ⟨s, hs, by omega, by omega⟩
    obtain ⟨t, ht, t1, t2⟩ := hcov
    have hpw := ha.2
    have := List.pairwise_iff_getElem.mp hpw
    obtain ⟨i, hi, rfl⟩ := List.getElem_of_mem hr
    obtain ⟨j, hj, rfl⟩ := List.getElem_of_mem ht
    rcases Nat.lt_trichotomy i j with hij | hij | hij
    · have := this i j hi hj hij; omega
    · subst hij; omega
    · have := this j i hj hi hij; omega
  have hsub : (a.map FrameRange.start).Subperm (b.map FrameRange.start) := by
    apply List.Nodup.subperm
    · rw [List.Nodup, List.pairwise_map]
      exact ha.2.imp fun {x y} hxy => by omega
    · intro m hm
      obtain ⟨r, hr, rfl⟩ := List.mem_map.mp hm
      obtain ⟨s, hs, h1, h2, h3⟩ := inside r hr
      exact List.mem_map.mpr ⟨s, hs, by omega⟩
  simpa using hsub.length_le

end Afs
