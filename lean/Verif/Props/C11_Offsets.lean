import Verif.Spec.Shift
import Verif.Props.C09_C10_Lookup
/-!
# C11: shifting frames moves positions exactly, composes, and changes nothing else

The offset argument of the API is `unsigned int`; a distance `d` (negative allowed) is passed
as `uOfInt d`, its two's-complement value.  The "nothing else changes" part is in the
specification `moved…`: record updates of the position fields only.
-/
namespace Afs
open Spec

theorem addOff_exact (d p : Int) (h0 : 0 ≤ p) (h1 : 0 ≤ p + d) (h2 : p + d ≤ INT_MAX)
    (h3 : p ≤ INT_MAX) : addOff p (uOfInt d) = p + d := by
  unfold addOff intOfU uOfInt two32 INT_MAX at *
  have e : (((p % (4294967296 : Nat)).toNat + (d % (4294967296 : Nat)).toNat) % 4294967296 : Nat) =
      (p + d).toNat := by omega
  rw [e, if_pos (by omega)]; omega

theorem u32_exact (d : Int) (n : Nat) (h1 : 0 ≤ (n : Int) + d) (h2 : (n : Int) + d < 4294967296) :
    u32 (n + uOfInt d) = ((n : Int) + d).toNat := by
  unfold u32 uOfInt two32; omega

/-- A file with both positions on film. -/
theorem C11_file (f : File) (d : Int) (hs : 0 ≤ f.startFrame) (he : 0 ≤ f.endFrame)
    (h1 : Stays d f.startFrame) (h2 : Stays d f.endFrame) :
    File.addFrameOffset f (uOfInt d) =
      { f with startFrame := f.startFrame + d, endFrame := f.endFrame + d } := by
  unfold File.addFrameOffset
  rw [if_neg (by omega), addOff_exact d _ hs (h1.2 hs).1 (h1.2 hs).2 h1.1,
    addOff_exact d _ he (h2.2 he).1 (h2.2 he).2 h2.1]

/-- A file not on film is not touched. -/
theorem C11_file_off_film (f : File) (offset : Nat) (h : f.startFrame < 0 ∨ f.endFrame < 0) :
    File.addFrameOffset f offset = f := by
  unfold File.addFrameOffset; rw [if_pos h]

theorem C11_preview (p : Preview) (d : Int) (h : PreviewStays d p) :
    Preview.addFrameOffset p (uOfInt d) = movedPreview d p := by
  unfold Preview.addFrameOffset movedPreview
  cases hp : p.pages with
  | none => cases p; simp_all
  | some l =>
    simp only [Option.map_some]
    congr 2
    apply List.map_congr_left
    intro q hq
    have := h q (by rw [hp]; exact hq)
    unfold movedPage
    rw [u32_exact d _ this.1 this.2]

theorem shiftFile_eq (type : Nat) (f : File) (d : Int)
    (h : FileStays (type.testBit 0) (type.testBit 1) d f) :
    Files.shiftFile (uOfInt d) type f = movedFile (type.testBit 0) (type.testBit 1) d f := by
  have key : ∀ p, Stays d p → (if p ≥ 0 then addOff p (uOfInt d) else p) = moved d p := by
    intro p hp
    unfold moved
    by_cases h0 : 0 ≤ p
    · rw [if_pos h0, if_pos h0, addOff_exact d p h0 (hp.2 h0).1 (hp.2 h0).2 hp.1]
    · rw [if_neg h0, if_neg h0]
  have h1 := and_one_ne type
  have h2 := and_two_ne type
  have hprev : type.testBit 1 = true →
      (f.preview.map fun p => p.addFrameOffset (uOfInt d)) = f.preview.map (movedPreview d) := by
    intro hb
    cases hp : f.preview with
    | none => rfl
    | some p => simp only [Option.map_some]; rw [C11_preview p d (h.2 hb p hp)]
  unfold Files.shiftFile movedFile TYPE_DIGITAL TYPE_PREVIEW
  cases hb0 : type.testBit 0 <;> cases hb1 : type.testBit 1 <;> rw [hb0] at h1 <;> rw [hb1] at h2
  · have a1 : type &&& 1 = 0 := by simpa using h1
    have a2 : type &&& 2 = 0 := by simpa using h2
    simp [a1, a2]
  · have a1 : type &&& 1 = 0 := by simpa using h1
    simp only [a1, ne_eq, not_true_eq_false, if_false, h2.mpr rfl, not_false_eq_true, if_true, hprev hb1,
      Bool.false_eq_true]
  · have a2 : type &&& 2 = 0 := by simpa using h2
    simp only [a2, ne_eq, not_true_eq_false, if_false, h1.mpr rfl, not_false_eq_true, if_true,
      key _ (h.1 hb0).1, key _ (h.1 hb0).2, Bool.false_eq_true]
  · simp only [ne_eq, h1.mpr rfl, h2.mpr rfl, not_false_eq_true, if_true,
      key _ (h.1 hb0).1, key _ (h.1 hb0).2, hprev hb1]

theorem C11_files (f : Files) (type : Nat) (d : Int)
    (h : ∀ x ∈ f.tocs.getD [], FileStays (type.testBit 0) (type.testBit 1) d x) :
    Files.addFrameOffset f (uOfInt d) type = movedFiles (type.testBit 0) (type.testBit 1) d f := by
  unfold Files.addFrameOffset movedFiles
  cases hf : f.tocs with
  | none => cases f; simp_all
  | some l =>
    simp only [Option.map_some]
    congr 2
    apply List.map_congr_left
    intro x hx
    exact shiftFile_eq type x d (h x (by rw [hf]; exact hx))

theorem sectionToType_bits (mask : Nat) :
    (sectionToType mask).testBit 0 = mask.testBit 0 ∧ (sectionToType mask).testBit 1 = mask.testBit 1 := by
  unfold sectionToType SECTION_DIGITAL SECTION_PREVIEW TYPE_DIGITAL TYPE_PREVIEW
  have h1 := and_one_ne mask
  have h2 := and_two_ne mask
  cases hd : mask.testBit 0 <;> cases hp : mask.testBit 1 <;> rw [hd] at h1 <;> rw [hp] at h2
  · have a1 : mask &&& 1 = 0 := by simpa using h1
    have a2 : mask &&& 2 = 0 := by simpa using h2
    simp [a1, a2]
  · have a1 : mask &&& 1 = 0 := by simpa using h1
    have a2 : mask &&& 2 ≠ 0 := by simpa using h2
    rw [if_neg (by simp [a1]), if_pos a2]; decide
  · have a1 : mask &&& 1 ≠ 0 := by simpa using h1
    have a2 : mask &&& 2 = 0 := by simpa using h2
    rw [if_pos a1, if_neg (by simp [a2])]; decide
  · have a1 : mask &&& 1 ≠ 0 := by simpa using h1
    have a2 : mask &&& 2 ≠ 0 := by simpa using h2
    rw [if_pos a1, if_pos a2]; decide

theorem sectionToType_le (mask : Nat) : sectionToType mask ≤ 3 := by
  unfold sectionToType TYPE_DIGITAL TYPE_PREVIEW
  split <;> split <;> decide

theorem movedFile_none (d : Int) (f : File) : movedFile false false d f = f := rfl

theorem movedReel_none (d : Int) (r : Reel) : movedReel false false d r = r := by
  have : movedFile false false d = id := funext (movedFile_none d)
  unfold movedReel movedFiles
  rw [this]
  cases r with
  | mk id files => cases files with
    | none => rfl
    | some f => cases f with
      | mk t => cases t <;> simp

theorem C11_reel (r : Reel) (mask : Nat) (d : Int)
    (h : ReelStays (mask.testBit 0) (mask.testBit 1) d r) :
    Reel.addFrameOffset r (uOfInt d) mask = movedReel (mask.testBit 0) (mask.testBit 1) d r := by
  obtain ⟨b0, b1⟩ := sectionToType_bits mask
  unfold Reel.addFrameOffset
  cases hf : r.files with
  | none => simp only [movedReel, hf]; cases r; simp_all
  | some f =>
    cases ht : f.tocs with
    | none => cases r; cases f; simp_all [movedReel, movedFiles]
    | some l =>
      by_cases h0 : sectionToType mask ≠ 0
      · simp only [ht, h0, if_true, ne_eq, not_false_eq_true]
        have := C11_files f (sectionToType mask) d (by
          intro x hx
          rw [b0, b1]
          exact h x (by rw [hf]; exact hx))
        rw [this, b0, b1]
        unfold movedReel; rw [hf]; rfl
      · simp only [ht, h0, if_false]
        have h0' : sectionToType mask = 0 := by simpa using h0
        rw [h0'] at b0 b1
        rw [← b0, ← b1]
        exact (movedReel_none d r).symm

/-- A whole TOC: exactly the selected positions move, everything else (names, ids, sizes, bytes,
    metadata, layouts, order and number of reels, files and pages) is the same. -/
theorem C11_toc (t : TocData) (mask : Nat) (d : Int)
    (h : TocStays (mask.testBit 0) (mask.testBit 1) d t) :
    TocData.addFrameOffset t (uOfInt d) mask = movedToc (mask.testBit 0) (mask.testBit 1) d t := by
  unfold TocData.addFrameOffset movedToc
  cases hr : t.reels with
  | none => cases t; simp_all
  | some r =>
    cases hl : r.reels with
    | none => cases t; cases r; simp_all [movedReels]
    | some l =>
      simp only [hl, Option.map_some, movedReels]
      congr 4
      apply List.map_congr_left
      intro x hx
      refine C11_reel x mask d (h x ?_)
      rw [hr]; show x ∈ r.reels.getD []; rw [hl]; exact hx

/-! ### Composition -/

theorem moved_add (a b p : Int) (h : Stays a p) : moved b (moved a p) = moved (a + b) p := by
  unfold moved
  by_cases h0 : 0 ≤ p
  · rw [if_pos h0, if_pos h0, if_pos (h.2 h0).1]; omega
  · rw [if_neg h0, if_neg h0, if_neg h0]

theorem movedPreview_add (a b : Int) (p : Preview) (h : PreviewStays a p) :
    movedPreview b (movedPreview a p) = movedPreview (a + b) p := by
  unfold movedPreview
  cases hp : p.pages with
  | none => simp
  | some l =>
    simp only [Option.map_some, List.map_map]
    congr 2
    apply List.map_congr_left
    intro q hq
    have := h q (by rw [hp]; exact hq)
    simp only [Function.comp, movedPage]
    congr 1
    omega

theorem movedFile_add (dig prev : Bool) (a b : Int) (f : File) (h : FileStays dig prev a f) :
    movedFile dig prev b (movedFile dig prev a f) = movedFile dig prev (a + b) f := by
  unfold movedFile
  cases dig <;> cases prev <;> simp only [if_true, Bool.false_eq_true, if_false]
  · congr 1
    cases hp : f.preview with
    | none => rfl
    | some p => simp only [Option.map_some]; rw [movedPreview_add a b p (h.2 rfl p hp)]
  · rw [moved_add a b _ (h.1 rfl).1, moved_add a b _ (h.1 rfl).2]
  · rw [moved_add a b _ (h.1 rfl).1, moved_add a b _ (h.1 rfl).2]
    congr 1
    cases hp : f.preview with
    | none => rfl
    | some p => simp only [Option.map_some]; rw [movedPreview_add a b p (h.2 rfl p hp)]

theorem movedToc_add (dig prev : Bool) (a b : Int) (t : TocData) (h : TocStays dig prev a t) :
    movedToc dig prev b (movedToc dig prev a t) = movedToc dig prev (a + b) t := by
  unfold movedToc
  cases hr : t.reels with
  | none => simp
  | some r =>
    simp only [Option.map_some]
    congr 2
    unfold movedReels
    cases hl : r.reels with
    | none => simp
    | some l =>
      simp only [Option.map_some, List.map_map]
      congr 2
      apply List.map_congr_left
      intro x hx
      have hx' : ReelStays dig prev a x := h x (by rw [hr]; show x ∈ r.reels.getD []; rw [hl]; exact hx)
      simp only [Function.comp, movedReel]
      congr 1
      cases hf : x.files with
      | none => simp
      | some f =>
        simp only [Option.map_some]
        congr 1
        unfold movedFiles
        cases ht : f.tocs with
        | none => simp
        | some fs =>
          simp only [Option.map_some, List.map_map]
          congr 2
          apply List.map_congr_left
          intro y hy
          exact movedFile_add dig prev a b y (hx' y (by rw [hf]; show y ∈ f.tocs.getD []; rw [ht]; exact hy))

theorem stays_moved (a b p : Int) (ha : Stays a p) (h : Stays (a + b) p) : Stays b (moved a p) := by
  unfold moved
  by_cases h0 : 0 ≤ p
  · rw [if_pos h0]
    have := h.2 h0; have := ha.2 h0
    exact ⟨by omega, fun _ => by omega⟩
  · rw [if_neg h0]; exact ⟨ha.1, fun h => absurd h h0⟩

theorem fileStays_moved (dig prev : Bool) (a b : Int) (f : File) (ha : FileStays dig prev a f)
    (h : FileStays dig prev (a + b) f) : FileStays dig prev b (movedFile dig prev a f) := by
  refine ⟨?_, ?_⟩
  · intro hd
    subst hd
    exact ⟨stays_moved a b _ (ha.1 rfl).1 (h.1 rfl).1, stays_moved a b _ (ha.1 rfl).2 (h.1 rfl).2⟩
  · intro hp p hpp q hq
    subst hp
    simp only [movedFile, if_true] at hpp
    cases hf : f.preview with
    | none => rw [hf] at hpp; cases hpp
    | some p0 =>
      rw [hf] at hpp; simp only [Option.map_some, Option.some.injEq] at hpp
      subst hpp
      cases hp0 : p0.pages with
      | none => simp [movedPreview, hp0] at hq
      | some l =>
        simp only [movedPreview, hp0, Option.map_some, Option.getD_some] at hq
        obtain ⟨q0, hq0, rfl⟩ := List.mem_map.mp hq
        have h1 := ha.2 rfl p0 hf q0 (by rw [hp0]; exact hq0)
        have h2 := h.2 rfl p0 hf q0 (by rw [hp0]; exact hq0)
        simp only [movedPage]
        omega

theorem tocStays_moved (dig prev : Bool) (a b : Int) (t : TocData) (ha : TocStays dig prev a t)
    (h : TocStays dig prev (a + b) t) : TocStays dig prev b (movedToc dig prev a t) := by
  intro r hr f hf
  unfold movedToc at hr
  cases hrs : t.reels with
  | none => simp [hrs] at hr
  | some rs =>
    cases hl : rs.reels with
    | none => simp [hrs, movedReels, hl] at hr
    | some l =>
      simp only [hrs, Option.map_some, movedReels, Option.bind_some, hl, Option.getD_some] at hr
      obtain ⟨r0, hr0, rfl⟩ := List.mem_map.mp hr
      have hm : r0 ∈ (t.reels.bind Reels.reels).getD [] := by
        rw [hrs]; show r0 ∈ rs.reels.getD []; rw [hl]; exact hr0
      unfold movedReel at hf
      cases hfs : r0.files with
      | none => simp [hfs] at hf
      | some fs =>
        cases ht : fs.tocs with
        | none => simp [hfs, movedFiles, ht] at hf
        | some l' =>
          simp only [hfs, Option.map_some, movedFiles, Option.bind_some, ht, Option.getD_some] at hf
          obtain ⟨f0, hf0, rfl⟩ := List.mem_map.mp hf
          have hm' : f0 ∈ (r0.files.bind Files.tocs).getD [] := by
            rw [hfs]; show f0 ∈ fs.tocs.getD []; rw [ht]; exact hf0
          exact fileStays_moved dig prev a b f0 (ha r0 hm f0 hm') (h r0 hm f0 hm')

/-- Offset `a` then `b` is offset `a + b`, while positions stay on film. -/
theorem C11_toc_compose (t : TocData) (mask : Nat) (a b : Int)
    (ha : TocStays (mask.testBit 0) (mask.testBit 1) a t)
    (hab : TocStays (mask.testBit 0) (mask.testBit 1) (a + b) t) :
    TocData.addFrameOffset (TocData.addFrameOffset t (uOfInt a) mask) (uOfInt b) mask =
      TocData.addFrameOffset t (uOfInt (a + b)) mask := by
  rw [C11_toc t mask a ha, C11_toc t mask (a + b) hab,
    C11_toc _ mask b (tocStays_moved _ _ a b t ha hab), movedToc_add _ _ a b t ha]

theorem moved_zero (p : Int) : moved 0 p = p := by unfold moved; split <;> omega

theorem movedFile_zero (dig prev : Bool) (f : File) : movedFile dig prev 0 f = f := by
  have hp : f.preview.map (movedPreview 0) = f.preview := by
    cases h : f.preview with
    | none => rfl
    | some p =>
      simp only [Option.map_some, Option.some.injEq]
      unfold movedPreview
      have : movedPage 0 = id := by funext q; simp [movedPage]
      rw [this]
      cases p with
      | mk pages dpi => cases pages <;> simp
  unfold movedFile
  simp only [moved_zero, hp, ite_self]

theorem movedToc_zero (dig prev : Bool) (t : TocData) : movedToc dig prev 0 t = t := by
  have h1 : movedFile dig prev 0 = id := funext (movedFile_zero dig prev)
  have h2 : movedReel dig prev 0 = id := by
    funext r
    unfold movedReel movedFiles
    rw [h1]
    cases r with
    | mk id files => cases files with
      | none => rfl
      | some f => cases f with
        | mk t => cases t <;> simp
  unfold movedToc movedReels
  rw [h2]
  cases t with
  | mk a b c d reels e f => cases reels with
    | none => rfl
    | some r => cases r with
      | mk l => cases l <;> simp

/-- Offset 0 changes nothing. -/
theorem C11_toc_zero (t : TocData) (mask : Nat)
    (h : TocStays (mask.testBit 0) (mask.testBit 1) 0 t) :
    TocData.addFrameOffset t 0 mask = t := by
  have e : uOfInt 0 = 0 := by decide
  rw [← e, C11_toc t mask 0 h, movedToc_zero]

/-- Moving there and back is the identity, as long as positions stay on film. -/
theorem C11_toc_undo (t : TocData) (mask : Nat) (d : Int)
    (h0 : TocStays (mask.testBit 0) (mask.testBit 1) 0 t)
    (h : TocStays (mask.testBit 0) (mask.testBit 1) d t) :
    TocData.addFrameOffset (TocData.addFrameOffset t (uOfInt d) mask) (uOfInt (-d)) mask = t := by
  have e : d + -d = 0 := by omega
  rw [C11_toc_compose t mask d (-d) h (by rw [e]; exact h0), e, C11_toc t mask 0 h0, movedToc_zero]

/-- Durations are unchanged (files with both ends on film). -/
theorem C11_duration (f : File) (d : Int) (hs : 0 ≤ f.startFrame) (he : 0 ≤ f.endFrame)
    (h1 : Stays d f.startFrame) (h2 : Stays d f.endFrame) :
    File.durationFrames (some (File.addFrameOffset f (uOfInt d))) = File.durationFrames (some f) := by
  rw [C11_file f d hs he h1 h2]
  unfold File.durationFrames
  have : f.endFrame + d - (f.startFrame + d) = f.endFrame - f.startFrame := by omega
  simp only [this]

/-- Leaving the film is not reversible: a position moved below zero is "not on film" and is not
    moved back. -/
theorem C11_leaving_film_is_irreversible :
    let f := okFile 5 20
    let g := File.addFrameOffset f (uOfInt (-10))
    g.startFrame = -5 ∧ File.addFrameOffset g (uOfInt 10) = g := by decide

/-- The two entry points differ on half-positioned files: the file function moves nothing when
    one end is not on film, the list function moves the other end. -/
theorem C11_half_positioned_files_differ :
    let f := { File.create with startFrame := 5 }
    File.addFrameOffset f 10 = f ∧ (Files.shiftFile 10 TYPE_DIGITAL f).startFrame = 15 := by decide

/-- Non-vacuity. -/
def shiftToc : TocData :=
  { TocData.create with reels := some ⟨some [⟨some (b! "r"), some ⟨some [okFile 5 20, File.create]⟩⟩]⟩ }

example : (allFiles (TocData.addFrameOffset shiftToc (uOfInt (-3)) 7)).map
    (fun f => (f.startFrame, f.endFrame)) = [(2, 17), (-1, -1)] := by decide

example : TocStays true true (-3) shiftToc := by
  intro r hr f hf
  simp only [shiftToc, Option.bind_some, Option.getD_some, List.mem_singleton] at hr
  subst hr
  simp only [Option.bind_some, Option.getD_some, List.mem_cons, List.not_mem_nil, or_false] at hf
  rcases hf with rfl | rfl <;>
    refine ⟨fun _ => ⟨⟨by decide, by decide⟩, ⟨by decide, by decide⟩⟩, fun _ p hp => ?_⟩ <;> cases hp

end Afs
