import Verif.Proof.Frames
/-!
# C01, C02 — merged frame ranges

`getFrameRanges` models `afs_toc_data_reel_get_frame_ranges`; `Occupied`, `Covered`,
`Canonical` and `OnFilm` are in `Verif/Spec/Frames.lean`.
-/
namespace Afs
open Spec

/-- **C01.** For every non-empty list of files on film the call succeeds without undefined
    behaviour and the returned ranges cover exactly the occupied frames. -/
theorem C01_frame_ranges_cover_exactly (fs : List File) (hne : fs ≠ [])
    (h : ∀ f ∈ fs, OnFilm f) :
    ∃ rs, getFrameRanges (some ⟨some fs⟩) = .ok (some ⟨some rs⟩) ∧
      ∀ n, Covered rs n ↔ Occupied fs n := by
  refine ⟨_, getFrameRanges_onFilm hne h, fun n => ?_⟩
  rw [(mergeRanges_spec _ ?_).2 n, covered_map_files h]
  intro x hx
  obtain ⟨f, hf, rfl⟩ := List.mem_map.mp hx
  exact good_of_onFilm (h f hf)

/-- **C01, no files.** NULL or empty file lists give NULL. -/
theorem C01_no_files (f : Option Files) (h : Files.count f = 0) : getFrameRanges f = .ok none := by
  unfold getFrameRanges
  cases f with
  | none => rfl
  | some f =>
    have : f.list.length = 0 := h
    simp [this]

/-- **C02.** The returned ranges are non-empty, increasing and never touch. -/
theorem C02_frame_ranges_canonical (fs : List File) (hne : fs ≠ []) (h : ∀ f ∈ fs, OnFilm f) :
    ∃ rs, getFrameRanges (some ⟨some fs⟩) = .ok (some ⟨some rs⟩) ∧ Canonical rs := by
  refine ⟨_, getFrameRanges_onFilm hne h, (mergeRanges_spec _ ?_).1⟩
  intro x hx
  obtain ⟨f, hf, rfl⟩ := List.mem_map.mp hx
  exact good_of_onFilm (h f hf)

/-- **C02, shortest.** No list of ranges describing the same frames is shorter. -/
theorem C02_frame_ranges_shortest (fs : List File) (hne : fs ≠ []) (h : ∀ f ∈ fs, OnFilm f) :
    ∃ rs, getFrameRanges (some ⟨some fs⟩) = .ok (some ⟨some rs⟩) ∧
      ∀ ss, (∀ n, Covered ss n ↔ Occupied fs n) → rs.length ≤ ss.length := by
  obtain ⟨rs, e, hc⟩ := C01_frame_ranges_cover_exactly fs hne h
  obtain ⟨rs', e', hcan⟩ := C02_frame_ranges_canonical fs hne h
  have : rs = rs' := by rw [e] at e'; simpa using e'
  subst this
  exact ⟨rs, e, fun ss hss => canonical_minimal hcan fun n => (hc n).trans (hss n).symm⟩

/-- **C02, order independence.** Two file lists occupying the same frames — in particular two
    orders of the same files — get literally the same ranges. -/
theorem C02_frame_ranges_depend_only_on_frames (fs gs : List File) (hf : fs ≠ []) (hg : gs ≠ [])
    (h1 : ∀ f ∈ fs, OnFilm f) (h2 : ∀ f ∈ gs, OnFilm f)
    (same : ∀ n, Occupied fs n ↔ Occupied gs n) :
    getFrameRanges (some ⟨some fs⟩) = getFrameRanges (some ⟨some gs⟩) := by
  obtain ⟨rs, e, hc⟩ := C01_frame_ranges_cover_exactly fs hf h1
  obtain ⟨rs', e', hcan⟩ := C02_frame_ranges_canonical fs hf h1
  obtain ⟨ss, k, kc⟩ := C01_frame_ranges_cover_exactly gs hg h2
  obtain ⟨ss', k', kcan⟩ := C02_frame_ranges_canonical gs hg h2
  have er : rs = rs' := by rw [e] at e'; simpa using e'
  have es : ss = ss' := by rw [k] at k'; simpa using k'
  subst er es
  rw [e, k, canonical_unique hcan kcan fun n => (hc n).trans ((same n).trans (kc n).symm)]

theorem C02_frame_ranges_order_independent (fs gs : List File) (hp : fs.Perm gs) (hf : fs ≠ [])
    (h1 : ∀ f ∈ fs, OnFilm f) :
    getFrameRanges (some ⟨some fs⟩) = getFrameRanges (some ⟨some gs⟩) := by
  refine C02_frame_ranges_depend_only_on_frames fs gs hf ?_ h1 ?_ ?_
  · rintro rfl; exact hf (by simpa using hp)
  · exact fun f hf => h1 f (hp.mem_iff.mpr hf)
  · intro n; unfold Occupied; simp [hp.mem_iff]

/-! ### Non-vacuity and boundary witnesses -/

/-- A file on frames `a..b`. -/
def frameFile (a b : Int) : File := { File.create with startFrame := a, endFrame := b }

example : ∀ f ∈ [frameFile 7 9, frameFile 0 2, frameFile 3 3, frameFile 8 2147483647],
    OnFilm f := by
  intro f hf
  simp only [List.mem_cons, List.not_mem_nil, or_false] at hf
  rcases hf with rfl | rfl | rfl | rfl <;> simp [OnFilm, frameFile, INT_MAX]

example : getFrameRanges (some ⟨some [frameFile 7 9, frameFile 0 2, frameFile 3 3]⟩) =
    .ok (some ⟨some [⟨0, 4⟩, ⟨7, 3⟩]⟩) := by decide

/-- Outside the hypothesis: a file over all 2^31 frames overflows `int` (undefined behaviour). -/
theorem C01_full_film_overflows :
    getFrameRanges (some ⟨some [frameFile 0 2147483647]⟩) = .ub := by decide

/-- Outside the hypothesis: an entry without digital data (start = end = −1) turns into a range
    at frame 2^32−1 whose end + 1 wraps to 0. -/
theorem C01_undefined_position_gives_garbage :
    getFrameRanges (some ⟨some [frameFile (-1) (-1)]⟩) =
      .ok (some ⟨some [⟨4294967295, 1⟩]⟩) := by decide

/-- The merge step itself invents a frame when given an empty range at 0 (ranges made from files
    on film are never empty, so the API above does not reach it). -/
theorem C01_merge_empty_range_invents_frame :
    mergeFrameRanges ⟨0, 0⟩ ⟨1, 1⟩ = some ⟨0, 2⟩ ∧ ¬ Covered [⟨0, 0⟩, ⟨1, 1⟩] 0 := by
  refine ⟨by decide, ?_⟩
  rintro ⟨r, hr, h1, h2⟩
  simp at hr
  rcases hr with rfl | rfl <;> simp at h1 h2

end Afs
