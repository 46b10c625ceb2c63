import Verif.Props.C12_FrameBounds
/-!
# C13: a preview page's sections are spread over its frames without loss

A page occupies the sections `start .. start+count-1`, numbered through the frames of its
layout: section `k` lies on frame `k / capacity`.
-/
namespace Afs
open Spec

/-- The sections a page occupies. -/
def Spec.pageSections (p : Page) : List Nat := List.range' p.startSection p.sectionCount

/-- How many of them lie on the given frame of a layout with `cap` sections per frame. -/
def Spec.sectionsOn (p : Page) (cap frame : Nat) : Nat :=
  (pageSections p).countP fun k => decide (k / cap = frame)

theorem countP_range (cap f t : Nat) (hc : 0 < cap) :
    (List.range t).countP (fun k => decide (k / cap = f)) = min (t - cap * f) cap := by
  induction t with
  | zero => simp
  | succ t ih =>
    rw [List.range_succ, List.countP_append, ih]
    have hdiv : t / cap = f ↔ cap * f ≤ t ∧ t < cap * f + cap := by
      rw [Nat.div_eq_iff hc]
      have : f * cap = cap * f := Nat.mul_comm _ _
      omega
    simp only [List.countP_cons, List.countP_nil, Nat.zero_add]
    by_cases h : t / cap = f
    · simp only [h, decide_true, if_true]; have := hdiv.mp h; omega
    · simp only [h, decide_false, Bool.false_eq_true, if_false]
      have : ¬ (cap * f ≤ t ∧ t < cap * f + cap) := fun hh => h (hdiv.mpr hh)
      omega

theorem countP_range' (P : Nat → Bool) (s n : Nat) :
    (List.range' s n).countP P + (List.range s).countP P = (List.range (s + n)).countP P := by
  have : List.range (s + n) = List.range s ++ List.range' s n := by
    rw [List.range_eq_range', List.range_eq_range']
    have h := List.range'_append_1 (s := 0) (m := s) (n := n)
    rw [Nat.zero_add] at h
    exact h.symm
  rw [this, List.countP_append]; omega

theorem sectionsOn_eq (p : Page) (cap f : Nat) (hc : 0 < cap) :
    sectionsOn p cap f = min (p.startSection + p.sectionCount - cap * f) cap -
      min (p.startSection - cap * f) cap := by
  have h := countP_range' (fun k => decide (k / cap = f)) p.startSection p.sectionCount
  rw [countP_range cap f _ hc, countP_range cap f _ hc] at h
  unfold sectionsOn pageSections
  omega

/-- The number of frames: every section lies on a frame below it, and one frame fewer would not
    do; no sections, no frames. -/
theorem C13_frames_count (p : Page) (ds : LayoutDefs) (d : LayoutDef) (k : Bytes)
    (hk : p.layoutId = some k) (hd : LayoutDefs.byId (some ds) (some k) = .ok (some d))
    (hc : 0 < d.sectionCount) (hc2 : d.sectionCount < 4294967296)
    (ho : p.startSection + p.sectionCount < 4294967296) :
    ∃ n, Page.framesCount (some p) (some ds) = .ok (true, n) ∧
      (∀ s ∈ pageSections p, s / d.sectionCount < n) ∧
      (p.sectionCount = 0 → n = 0) ∧
      (∀ m, (∀ s ∈ pageSections p, s / d.sectionCount < m) → n ≤ m) ∧
      (∀ f, n ≤ f → sectionsOn p d.sectionCount f = 0) := by
  have hcap : u32 d.sectionCount = d.sectionCount := Nat.mod_eq_of_lt hc2
  have htot : u32 (p.startSection + p.sectionCount) = p.startSection + p.sectionCount :=
    Nat.mod_eq_of_lt ho
  have hne : d.sectionCount ≠ 0 := by omega
  have hout : ∀ n, (∀ s ∈ pageSections p, s / d.sectionCount < n) →
      ∀ f, n ≤ f → sectionsOn p d.sectionCount f = 0 := by
    intro n hn f hf
    unfold sectionsOn
    rw [List.countP_eq_zero]
    intro s hs
    have := hn s hs
    simp; omega
  by_cases h0 : p.sectionCount = 0
  · have hnil : pageSections p = [] := by simp [pageSections, h0]
    refine ⟨0, ?_, by simp [hnil], fun _ => rfl, fun m _ => Nat.zero_le m, hout 0 (by simp [hnil])⟩
    simp only [Page.framesCount, hk, hd, Res.ok_bind, hcap, hne, h0, if_false, if_true, Res.pure_eq]
  · generalize hcv : d.sectionCount = cap at *
    have hmem : ∀ s, s ∈ pageSections p ↔ p.startSection ≤ s ∧ s < p.startSection + p.sectionCount := by
      intro s; simp [pageSections]
    have e : Page.framesCount (some p) (some ds) =
        .ok (true, (p.startSection + p.sectionCount) / cap +
          if (p.startSection + p.sectionCount) % cap ≠ 0 then 1 else 0) := by
      simp only [Page.framesCount, hk, hd, Res.ok_bind, hcv, hcap, hne, h0, if_false, Res.pure_eq, htot]
      by_cases hm : (p.startSection + p.sectionCount) % cap = 0 <;> simp [hm]
    have hin : ∀ s ∈ pageSections p, s / cap < (p.startSection + p.sectionCount) / cap +
          if (p.startSection + p.sectionCount) % cap ≠ 0 then 1 else 0 := by
      intro s hs
      rw [hmem] at hs
      rw [Nat.div_lt_iff_lt_mul hc]
      have hdm := Nat.div_add_mod (p.startSection + p.sectionCount) cap
      have hml := Nat.mod_lt (p.startSection + p.sectionCount) hc
      rw [Nat.mul_comm] at hdm
      by_cases hm : (p.startSection + p.sectionCount) % cap = 0
      · simp only [hm, ne_eq, not_true_eq_false, if_false, Nat.add_zero]; omega
      · simp only [hm, ne_eq, not_false_eq_true, if_true, Nat.add_mul]; omega
    refine ⟨_, e, hin, fun h => absurd h h0, ?_, hout _ hin⟩
    intro m hm
    have hlast := hm (p.startSection + p.sectionCount - 1) ((hmem _).mpr (by omega))
    rw [Nat.div_lt_iff_lt_mul hc] at hlast
    have hdm := Nat.div_add_mod (p.startSection + p.sectionCount) cap
    by_cases hz : (p.startSection + p.sectionCount) % cap = 0
    · simp only [hz, ne_eq, not_true_eq_false, if_false, Nat.add_zero]
      exact Nat.le_of_mul_le_mul_right (c := cap) (by rw [Nat.mul_comm]; omega) hc
    · simp only [hz, ne_eq, not_false_eq_true, if_true]
      have : (p.startSection + p.sectionCount) / cap < m := by
        rw [Nat.div_lt_iff_lt_mul hc]
        rcases Nat.lt_or_ge (p.startSection + p.sectionCount) (m * cap) with h | h
        · exact h
        · have heq : p.startSection + p.sectionCount = m * cap := by omega
          rw [heq, Nat.mul_mod_left] at hz
          exact absurd rfl hz
      omega

/-- The per-frame answer is the number of the page's sections on that frame. -/
theorem C13_sections_on_frame (p : Page) (ds : LayoutDefs) (d : LayoutDef) (k : Bytes) (frame : Nat)
    (hk : p.layoutId = some k) (hd : LayoutDefs.byId (some ds) (some k) = .ok (some d))
    (hc : 0 < d.sectionCount) (hc2 : d.sectionCount ≤ 2147483647)
    (ho : p.startSection + p.sectionCount ≤ 2147483647) (hf : d.sectionCount * frame ≤ 2147483647) :
    Page.sectionsOnFrame (some p) frame (some ds) = .ok (some (sectionsOn p d.sectionCount frame)) := by
  have hframe : frame ≤ 2147483647 := Nat.le_trans (Nat.le_mul_of_pos_left frame hc) hf
  have e1 : intOfU d.sectionCount = d.sectionCount := intOfU_lt (by omega)
  have e2 : intOfU p.sectionCount = p.sectionCount := intOfU_lt (by omega)
  have e3 : intOfU p.startSection = p.startSection := intOfU_lt (by omega)
  have e4 : intOfU frame = frame := intOfU_lt (by omega)
  have e5 : max 0 (frame : Int) = frame := by omega
  rw [sectionsOn_eq p _ _ hc]
  simp only [Page.sectionsOnFrame, hk, hd, Res.ok_bind, e1, e2, e3, e4, e5]
  have hmul : (d.sectionCount : Int) * (frame : Int) = ((d.sectionCount * frame : Nat) : Int) := by simp
  rw [hmul]
  generalize hB : d.sectionCount * frame = B at *
  generalize hC : d.sectionCount = C at *
  have k1 : ckInt ((p.sectionCount : Int) + p.startSection) = .ok ((p.sectionCount : Int) + p.startSection) := by
    unfold ckInt INT_MIN INT_MAX; rw [if_pos (by omega)]
  have k2 : ckInt ((B : Nat) : Int) = .ok (B : Int) := by
    unfold ckInt INT_MIN INT_MAX; rw [if_pos (by omega)]
  have k3 : ckInt ((p.sectionCount : Int) + p.startSection - B) =
      .ok ((p.sectionCount : Int) + p.startSection - B) := by
    unfold ckInt INT_MIN INT_MAX; rw [if_pos (by omega)]
  have k4 : ckInt ((p.startSection : Int) - B) = .ok ((p.startSection : Int) - B) := by
    unfold ckInt INT_MIN INT_MAX; rw [if_pos (by omega)]
  rw [k1]; simp only [Res.ok_bind]
  rw [k2]; simp only [Res.ok_bind]
  rw [k3]; simp only [Res.ok_bind]
  rw [k4]; simp only [Res.ok_bind, Res.pure_eq]
  have efin : uOfInt (max (min ((p.sectionCount : Int) + p.startSection - B) C) 0 -
      max (min ((p.startSection : Int) - B) C) 0) =
      min (p.startSection + p.sectionCount - B) C - min (p.startSection - B) C := by
    unfold uOfInt two32; omega
  rw [efin]

theorem countP_lt_succ (l : List Nat) (cap n : Nat) :
    l.countP (fun k => decide (k / cap < n + 1)) =
      l.countP (fun k => decide (k / cap < n)) + l.countP (fun k => decide (k / cap = n)) := by
  induction l with
  | nil => rfl
  | cons x xs ih =>
    simp only [List.countP_cons, ih]
    by_cases h1 : x / cap < n
    · have h2 : x / cap < n + 1 := by omega
      have h3 : ¬ x / cap = n := by omega
      simp [h1, h2, h3]; omega
    · by_cases h3 : x / cap = n
      · simp [h3]; omega
      · have h2 : ¬ x / cap < n + 1 := by omega
        simp [h1, h2, h3]

/-- The per-frame counts over the page's frames add up to its section count: nothing is lost. -/
theorem C13_no_section_lost (p : Page) (cap n : Nat)
    (h : ∀ s ∈ pageSections p, s / cap < n) :
    ((List.range n).map (sectionsOn p cap)).sum = p.sectionCount := by
  have key : ∀ m, ((List.range m).map (sectionsOn p cap)).sum =
      (pageSections p).countP (fun k => decide (k / cap < m)) := by
    intro m
    induction m with
    | zero => simp
    | succ m ih =>
      rw [List.range_succ, List.map_append, List.sum_append, ih, countP_lt_succ]
      simp [sectionsOn]
  rw [key]
  have : (pageSections p).countP (fun k => decide (k / cap < n)) = (pageSections p).length := by
    rw [List.countP_eq_length]
    intro s hs; simpa using h s hs
  rw [this]; simp [pageSections]

/-- An unknown or NULL layout, a NULL page, and NULL definitions are refused. -/
theorem C13_refused (p : Option Page) (ds : Option LayoutDefs) (frame : Nat)
    (h : p = none ∨ ds = none ∨ (∃ q, p = some q ∧ q.layoutId = none) ∨
      (∃ q x, p = some q ∧ ds = some x ∧ LayoutDefs.byId (some x) q.layoutId = .ok none)) :
    Page.framesCount p ds = .ok (false, 0) ∧ Page.sectionsOnFrame p frame ds = .ok none := by
  rcases h with rfl | rfl | ⟨q, rfl, hq⟩ | ⟨q, x, rfl, rfl, hx⟩
  · cases ds <;> exact ⟨rfl, rfl⟩
  · cases p <;> exact ⟨rfl, rfl⟩
  · cases ds with
    | none => exact ⟨rfl, rfl⟩
    | some x => simp [Page.framesCount, Page.sectionsOnFrame, hq]
  · cases hl : q.layoutId with
    | none => simp [Page.framesCount, Page.sectionsOnFrame, hl]
    | some k => rw [hl] at hx; simp [Page.framesCount, Page.sectionsOnFrame, hl, hx]

/-- Outside the stated domain the unsigned sum wraps: 2^32 - 1 sections starting at section 1 are
    reported to need no frame. -/
theorem C13_frames_count_wraps :
    Page.framesCount (some (Page.create2 (some (b! "a")) 0 1 4294967295 0 0 0 0))
      (some ⟨some [⟨some (b! "a"), some (b! "n"), some ⟨some [⟨1, 0, 0, 10, 10, 0⟩]⟩⟩]⟩) = .ok (true, 0) := by
  decide

/-- Non-vacuity: 5 sections starting at section 1, two per frame: frames hold 1, 2, 2. -/
def twoPerFrame : LayoutDefs :=
  ⟨some [⟨some (b! "a"), some (b! "n"), some ⟨some [⟨1, 0, 0, 10, 10, 0⟩, ⟨2, 10, 0, 10, 10, 0⟩]⟩⟩]⟩
def fivePage : Page := Page.create2 (some (b! "a")) 0 1 5 0 0 0 0

example : Page.framesCount (some fivePage) (some twoPerFrame) = .ok (true, 3) ∧
    (List.range 4).map (fun f => Page.sectionsOnFrame (some fivePage) f (some twoPerFrame)) =
      [.ok (some 1), .ok (some 2), .ok (some 2), .ok (some 0)] := by decide

example : LayoutDefs.byId (some twoPerFrame) (some (b! "a")) =
    .ok (some ⟨some (b! "a"), some (b! "n"), some ⟨some [⟨1, 0, 0, 10, 10, 0⟩, ⟨2, 10, 0, 10, 10, 0⟩]⟩⟩) := by
  decide

end Afs
