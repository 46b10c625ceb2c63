import Verif.Model.Extract
import Verif.Spec.Valid
/-!
# C36 — extracting preview sections

`boxing_image8_crop` is assumed only to do its job on rectangles inside the image
(`Spec.CropContract`); nothing is known about other calls, which may read outside the image.
A result `.ok` for every such function therefore says that the rectangle was always inside.
-/
namespace Afs

namespace Spec

/-- `im` holds exactly the pixels of the rectangle `w × h` of `src` whose corner is `(x, y)`. -/
def IsCut (src : Image) (x y w h : Nat) (im : Image) : Prop :=
  im.width = w ∧ im.height = h ∧ im.data.length = w * h ∧
  ∀ i j, i < w → j < h → im.pixel i j = src.pixel (x + i) (y + j)

/-- What is assumed about `boxing_image8_crop`: on a rectangle inside the image it returns the
    pixels of that rectangle. -/
def CropContract (crop : CropFn) : Prop :=
  ∀ src x y w h, src.data.length = src.width * src.height → x + w ≤ src.width → y + h ≤ src.height →
    ∃ im, crop src x y w h = .ok im ∧ IsCut src x y w h im

/-- The section lies inside the image. -/
def Inside (s : Section) (im : Image) : Prop := s.x + s.width ≤ im.width ∧ s.y + s.height ≤ im.height

/-- The section's far corner can be computed without wrapping around. -/
def CornerFits (s : Section) : Prop := s.x + s.width < 4294967296 ∧ s.y + s.height < 4294967296

instance (s : Section) (im : Image) : Decidable (Inside s im) := by unfold Inside; infer_instance

end Spec

open Spec

/-- A crop that meets the contract (and is undefined outside), used for the examples. -/
def refCrop : CropFn := fun src x y w h =>
  if x + w ≤ src.width ∧ y + h ≤ src.height then
    .ok ⟨w, h, (List.range (w * h)).map fun k => src.data.getD ((y + k / w) * src.width + (x + k % w)) 0⟩
  else .ub

theorem refCrop_contract : CropContract refCrop := by
  intro src x y w h hl hx hy
  refine ⟨_, by rw [refCrop, if_pos ⟨hx, hy⟩], rfl, rfl, by simp, ?_⟩
  intro i j hi hj
  have hk : j * w + i < w * h := by
    calc j * w + i < j * w + w := by omega
      _ = (j + 1) * w := by rw [Nat.succ_mul]
      _ ≤ h * w := Nat.mul_le_mul_right _ hj
      _ = w * h := Nat.mul_comm ..
  have hs : (y + j) * src.width + (x + i) < src.data.length := by
    rw [hl]
    calc (y + j) * src.width + (x + i) < (y + j) * src.width + src.width := by omega
      _ = (y + j + 1) * src.width := by rw [Nat.succ_mul]
      _ ≤ src.height * src.width := Nat.mul_le_mul_right _ (by omega)
      _ = src.width * src.height := Nat.mul_comm ..
  have e1 : (j * w + i) / w = j := by
    rw [Nat.mul_comm, Nat.mul_add_div (by omega), Nat.div_eq_of_lt hi, Nat.add_zero]
  have e2 : (j * w + i) % w = i := by rw [Nat.mul_comm, Nat.mul_add_mod, Nat.mod_eq_of_lt hi]
  simp only [Image.pixel, List.getElem?_map, List.getElem?_range hk, Option.map_some, e1, e2,
    List.getD_eq_getElem?_getD, List.getElem?_eq_getElem hs, Option.getD_some]

theorem fitsTest_iff {s : Section} {src : Image} (h : CornerFits s) :
    fitsTest s src = true ↔ Inside s src := by
  rw [fitsTest, u32, u32, two32, Nat.mod_eq_of_lt h.1, Nat.mod_eq_of_lt h.2]
  simp [Inside]

theorem getSection_eq (d : LayoutDef) (i : Nat) : d.getSection i = d.sectionList[i]? := by
  obtain ⟨id, name, ss⟩ := d
  cases ss with
  | none => rfl
  | some s =>
    obtain ⟨l⟩ := s
    cases l with
    | none => rfl
    | some l => simp [LayoutDef.getSection, Sections.get, LayoutDef.sectionList, vecGet]

theorem sectionCount_eq (d : LayoutDef) : d.sectionCount = d.sectionList.length := by
  obtain ⟨id, name, ss⟩ := d
  cases ss with
  | none => rfl
  | some s =>
    obtain ⟨l⟩ := s
    cases l with
    | none => rfl
    | some l => rfl

/-- The loop, when every test is exact. -/
theorem extractLoop_ok (crop : CropFn) (rotate : RotateFn) (hc : CropContract crop) (d : LayoutDef)
    (src : Image) (hl : src.data.length = src.width * src.height)
    (hs : ∀ s ∈ d.sectionList, CornerFits s) (k : Nat) (hk : k ≤ d.sectionList.length) :
    ∃ imgs, extractLoop crop rotate d src d.sectionCount k =
        .ok (imgs, ((d.sectionList.drop (d.sectionList.length - k)).filter fun s => decide (Inside s src)).length) ∧
      imgs.length = k ∧
      ∀ i s, i < k → d.sectionList[d.sectionList.length - k + i]? = some s →
        (Inside s src → ∃ cut, IsCut src s.x s.y s.width s.height cut ∧ imgs[i]? = some (rotate cut s.rotation)) ∧
        (¬ Inside s src → imgs[i]? = some none) := by
  induction k with
  | zero =>
    exact ⟨[], by simp [extractLoop], rfl, fun i s h => absurd h (by omega)⟩
  | succ k ih =>
    obtain ⟨imgs, e, hlen, hp⟩ := ih (by omega)
    have hlt : d.sectionList.length - (k + 1) < d.sectionList.length := by omega
    have hdrop : d.sectionList.drop (d.sectionList.length - (k + 1)) =
        d.sectionList[d.sectionList.length - (k + 1)] :: d.sectionList.drop (d.sectionList.length - k) := by
      rw [List.drop_eq_getElem_cons hlt]
      congr 2; omega
    rw [sectionCount_eq] at e ⊢
    rw [extractLoop, getSection_eq, List.getElem?_eq_getElem hlt, extractOne]
    rw [hdrop, List.filter_cons]
    generalize hg : d.sectionList[d.sectionList.length - (k + 1)] = s at *
    have hmem : s ∈ d.sectionList := hg ▸ List.getElem_mem hlt
    have hfit := hs s hmem
    have later : ∀ (x : Option Image) i t, i < k + 1 →
        d.sectionList[d.sectionList.length - (k + 1) + i]? = some t → i ≠ 0 →
        (Inside t src → ∃ cut, IsCut src t.x t.y t.width t.height cut ∧
          (x :: imgs)[i]? = some (rotate cut t.rotation)) ∧
        (¬ Inside t src → (x :: imgs)[i]? = some none) := by
      intro x i t hi ht h0
      obtain ⟨i', rfl⟩ : ∃ i', i = i' + 1 := ⟨i - 1, by omega⟩
      have := hp i' t (by omega) (by rw [← ht]; congr 1; omega)
      simpa using this
    by_cases hin : Inside s src
    · obtain ⟨cut, hcut, his⟩ := hc src s.x s.y s.width s.height hl hin.1 hin.2
      rw [if_pos ((fitsTest_iff hfit).2 hin), hcut, e]
      refine ⟨rotate cut s.rotation :: imgs, ?_, by simp [hlen], ?_⟩
      · simp [hin, Nat.add_comm]
      · intro i t hi ht
        by_cases h0 : i = 0
        · subst h0
          have : t = s := by
            rw [Nat.add_zero, List.getElem?_eq_getElem hlt, hg] at ht
            exact (Option.some.inj ht).symm
          subst this
          exact ⟨fun _ => ⟨cut, his, rfl⟩, fun c => absurd hin c⟩
        · exact later _ i t hi ht h0
    · rw [if_neg (fun c => hin ((fitsTest_iff hfit).1 c)), e]
      refine ⟨none :: imgs, ?_, by simp [hlen], ?_⟩
      · simp [hin]
      · intro i t hi ht
        by_cases h0 : i = 0
        · subst h0
          have : t = s := by
            rw [Nat.add_zero, List.getElem?_eq_getElem hlt, hg] at ht
            exact (Option.some.inj ht).symm
          subst this
          exact ⟨fun c => absurd c hin, fun _ => rfl⟩
        · exact later _ i t hi ht h0

/-- **C36.** For every layout definition whose sections' corners can be computed without wrapping
    around, and every image: extraction never reads outside the image; it returns the number of
    sections that lie inside the image; there is one array entry per section, holding the
    rotated cut of exactly the section's pixels if the section lies inside the image and NULL
    otherwise. -/
theorem C36_extract (crop : CropFn) (rotate : RotateFn) (hc : CropContract crop) (d : LayoutDef)
    (src : Image) (hl : src.data.length = src.width * src.height)
    (hs : ∀ s ∈ d.sectionList, CornerFits s) (hn : 0 < d.sectionList.length)
    (hn' : d.sectionList.length < 2147483648) :
    ∃ imgs : List (Option Image), extract crop rotate (some d) (some src) =
        .ok ((d.sectionList.filter fun s => decide (Inside s src)).length, some imgs) ∧
      imgs.length = d.sectionList.length ∧
      ∀ (i : Nat) (s : Section), d.sectionList[i]? = some s →
        (Inside s src → ∃ cut, IsCut src s.x s.y s.width s.height cut ∧ imgs[i]? = some (rotate cut s.rotation)) ∧
        (¬ Inside s src → imgs[i]? = some none) := by
  obtain ⟨imgs, e, hlen, hp⟩ := extractLoop_ok crop rotate hc d src hl hs _ (Nat.le_refl _)
  rw [Nat.sub_self, List.drop_zero] at e
  refine ⟨imgs, ?_, hlen, ?_⟩
  · have hle : (d.sectionList.filter fun s => decide (Inside s src)).length < 2147483648 :=
      Nat.lt_of_le_of_lt (List.length_filter_le ..) hn'
    rw [extract]
    rw [sectionCount_eq] at e ⊢
    rw [e]
    simp only [Res.ok_bind, Res.pure_eq]
    rw [if_pos hn, intOfU, two32, Nat.mod_eq_of_lt (by omega), if_pos (by omega)]
  · intro i s hi
    have hlt : i < d.sectionList.length := by
      rw [List.getElem?_eq_some_iff] at hi; exact hi.1
    exact hp i s hlt (by rw [Nat.sub_self, Nat.zero_add]; exact hi)

/-- **C36.** NULL arguments are reported as an error. -/
theorem C36_null (crop : CropFn) (rotate : RotateFn) (d : Option LayoutDef) (src : Option Image)
    (h : d = none ∨ src = none) : extract crop rotate d src = .ok (-1, none) := by
  rcases h with rfl | rfl
  · rfl
  · cases d <;> rfl

/-- **C36 (what does not hold).** Without sections nothing is stored in `*images`, although the
    result 0 is not an error: the caller's pointer stays uninitialised. -/
theorem C36_no_sections (crop : CropFn) (rotate : RotateFn) (d : LayoutDef) (src : Image)
    (h : d.sectionList = []) : extract crop rotate (some d) (some src) = .ok (0, none) := by
  have : d.sectionCount = 0 := by rw [sectionCount_eq, h]; rfl
  rw [extract]
  simp only [this, extractLoop]
  rfl

/-- **C36 (what does not hold).** The test in front of the cut wraps around: for every image
    there is a valid layout definition whose only section lies outside the image, and still the
    library asks for the cut, which may read outside the image. -/
theorem C36_wrap_reads_outside (src : Image) (rotate : RotateFn) (hw : src.width < 4294967296) :
    ∃ (d : LayoutDef) (crop : CropFn), d.isValid = true ∧ CropContract crop ∧
      (∀ s ∈ d.sectionList, ¬ Inside s src) ∧ extract crop rotate (some d) (some src) = .ub := by
  refine ⟨⟨some (b! "a"), some (b! "b"), some ⟨some [⟨1, 4294967295, 4294967295, 1, 1, 0⟩]⟩⟩, refCrop,
    by decide +kernel, refCrop_contract, ?_, ?_⟩
  · intro s hs
    simp only [LayoutDef.sectionList, Option.getD_some, List.mem_singleton] at hs
    subst hs
    simp only [Inside]
    omega
  · have hf : fitsTest ⟨1, 4294967295, 4294967295, 1, 1, 0⟩ src = true := by
      simp [fitsTest, u32, two32]
    have hcr : refCrop src 4294967295 4294967295 1 1 = .ub := by
      rw [refCrop, if_neg (by omega)]
    simp only [extract, sectionCount_eq, LayoutDef.sectionList, Option.getD_some, List.length_singleton,
      extractLoop, getSection_eq, List.getElem?_cons_zero, Nat.sub_self, extractOne, hf, if_true, hcr,
      Res.ub_bind]

/-- The hypotheses can be met: a 4 × 3 image with one section inside and one outside. -/
example : ∃ (d : LayoutDef) (src : Image), src.data.length = src.width * src.height ∧
    (∀ s ∈ d.sectionList, CornerFits s) ∧ d.sectionList.length = 2 ∧
    extract refCrop (fun i _ => some i) (some d) (some src) =
      .ok (1, some [some ⟨2, 1, [6, 7]⟩, none]) := by
  refine ⟨⟨some (b! "a"), some (b! "b"), some ⟨some [⟨1, 1, 1, 2, 1, 0⟩, ⟨2, 3, 0, 2, 1, 0⟩]⟩⟩,
    ⟨4, 3, [1, 2, 3, 4, 5, 6, 7, 8, 9, 10, 11, 12]⟩, rfl, ?_, rfl, by decide +kernel⟩
  intro s hs
  simp only [LayoutDef.sectionList, Option.getD_some, List.mem_cons, List.not_mem_nil, or_false] at hs
  rcases hs with rfl | rfl <;> simp [CornerFits]

end Afs
