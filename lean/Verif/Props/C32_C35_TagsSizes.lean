import Verif.Props.C12_FrameBounds
/-!
# C32 tag lists survive joining and splitting; C35 reel sizes
-/
namespace Afs
open Spec

/-! ### C32 -/

theorem splitOn_ne_nil (sep : UInt8) (s : Bytes) : splitOn sep s ≠ [] := by
  cases s with
  | nil => simp [splitOn]
  | cons c cs => unfold splitOn; split
                 · simp
                 · split <;> simp

theorem join_split (sep : UInt8) (s : Bytes) : joinWith sep (splitOn sep s) = s := by
  induction s with
  | nil => rfl
  | cons c cs ih =>
    unfold splitOn
    by_cases h : c = sep
    · rw [if_pos h]
      cases hs : splitOn sep cs with
      | nil => exact absurd hs (splitOn_ne_nil sep cs)
      | cons p ps => rw [hs] at ih; simp [joinWith, ih, h]
    · rw [if_neg h]
      cases hs : splitOn sep cs with
      | nil => exact absurd hs (splitOn_ne_nil sep cs)
      | cons p ps =>
        rw [hs] at ih
        cases ps with
        | nil => simpa [joinWith] using ih
        | cons q qs => simpa [joinWith] using ih

theorem split_piece (sep : UInt8) (t : Bytes) (h : sep ∉ t) : splitOn sep t = [t] := by
  induction t with
  | nil => rfl
  | cons c cs ih =>
    have hc : c ≠ sep := fun e => h (by simp [e])
    have := ih (fun e => h (by simp [e]))
    simp [splitOn, hc, this]

theorem split_append (sep : UInt8) (t s : Bytes) (h : sep ∉ t) :
    splitOn sep (t ++ sep :: s) = t :: splitOn sep s := by
  induction t with
  | nil => simp [splitOn]
  | cons c cs ih =>
    have hc : c ≠ sep := fun e => h (by simp [e])
    have := ih (fun e => h (by simp [e]))
    simp [splitOn, hc, this]

/-- Reading back tags set from any non-empty string gives that string. -/
theorem C32_set_get_tags (s : MetaSource) (t : Bytes) (h : t ≠ []) :
    (s.setTags (some t)).getTags = some t ∧ (s.setTags none) = s ∧ (s.setTags (some [])) = s := by
  have : ¬ t.length = 0 := by simpa using h
  refine ⟨?_, rfl, rfl⟩
  simp [MetaSource.setTags, this, MetaSource.getTags, join_split]

/-- The same through the constructors. -/
theorem C32_create_get_tags (format data : Option Bytes) (fileId id : Int) (t : Option Bytes) :
    (MetaSource.create7 format fileId data t id).getTags = t := by
  cases t <;> simp [MetaSource.create7, MetaSource.getTags, join_split]

/-- Any non-empty list of tags without ';' is what the joined string splits into. -/
theorem C32_tags_of_list (s : MetaSource) (tags : List Bytes) (hne : tags ≠ [])
    (h : ∀ t ∈ tags, semicolon ∉ t) (h0 : tags ≠ [[]]) :
    (s.setTags (some (joinWith semicolon tags))).tags = some tags := by
  have key : ∀ tags : List Bytes, tags ≠ [] → (∀ t ∈ tags, semicolon ∉ t) →
      splitOn semicolon (joinWith semicolon tags) = tags := by
    intro tags
    induction tags with
    | nil => intro h; exact absurd rfl h
    | cons t ts ih =>
      intro _ h
      cases ts with
      | nil => exact split_piece _ _ (h t (by simp))
      | cons u us =>
        simp only [joinWith]
        rw [split_append _ _ _ (h t (by simp)), ih (by simp) (fun x hx => h x (by simp [hx]))]
  have hl : ¬ (joinWith semicolon tags).length = 0 := by
    intro hz
    have := List.length_eq_zero_iff.mp hz
    have hk := key tags hne h
    rw [this] at hk
    exact h0 hk.symm
  simp only [MetaSource.setTags, hl, if_false, key tags hne h]

example : ((MetaSource.create.setTags (some (b! "a;;bc;"))).tags,
    (MetaSource.create.setTags (some (b! "a;;bc;"))).getTags) =
    (some [b! "a", [], b! "bc", []], some (b! "a;;bc;")) := by decide

/-! ### C35 -/

theorem sizeLoop_ok (l : List File) (acc : Int) (h0 : 0 ≤ acc)
    (h1 : ∀ f ∈ l, f.startByte ≤ f.endByte ∧ f.endByte - f.startByte < INT_MAX)
    (h2 : acc + (l.map fun f => f.endByte - f.startByte + 1).sum ≤ 9223372036854775807) :
    Reel.sizeLoop l acc = .ok (acc + (l.map fun f => f.endByte - f.startByte + 1).sum) := by
  induction l generalizing acc with
  | nil => simp [Reel.sizeLoop]
  | cons f fs ih =>
    have hf := h1 f (by simp)
    have hpos : ∀ l : List File, (∀ f ∈ l, f.startByte ≤ f.endByte) →
        0 ≤ (l.map fun f => f.endByte - f.startByte + 1).sum := by
      intro l
      induction l with
      | nil => simp
      | cons g gs ih =>
        intro hg
        have a := hg g (by simp)
        have b := ih (fun x hx => hg x (by simp [hx]))
        simp only [List.map_cons, List.sum_cons]; omega
    have hp := hpos fs (fun x hx => (h1 x (by simp [hx])).1)
    simp only [List.map_cons, List.sum_cons] at h2 ⊢
    unfold Reel.sizeLoop
    rw [if_neg (by omega)]
    have k1 : ckInt (f.endByte - f.startByte) = .ok (f.endByte - f.startByte) := by
      unfold ckInt; rw [if_pos (by unfold INT_MIN; omega)]
    have k2 : ckInt (f.endByte - f.startByte + 1) = .ok (f.endByte - f.startByte + 1) := by
      unfold ckInt; rw [if_pos (by unfold INT_MIN; omega)]
    have k3 : ckInt64 (acc + (f.endByte - f.startByte + 1)) = .ok (acc + (f.endByte - f.startByte + 1)) := by
      unfold ckInt64; rw [if_pos (by omega)]
    rw [k1]; simp only [Res.ok_bind]
    rw [k2]; simp only [Res.ok_bind]
    rw [k3]; simp only [Res.ok_bind]
    rw [ih _ (by omega) (fun x hx => h1 x (by simp [hx])) (by omega)]
    congr 1; omega

/-- A reel's size is the sum of its files' byte extents. -/
theorem C35_size_is_sum (r : Reel)
    (h1 : ∀ f ∈ reelFiles r, f.startByte ≤ f.endByte ∧ f.endByte - f.startByte < INT_MAX)
    (h2 : ((reelFiles r).map fun f => f.endByte - f.startByte + 1).sum ≤ 9223372036854775807) :
    Reel.sizeBytes (some r) = .ok ((reelFiles r).map fun f => f.endByte - f.startByte + 1).sum ∧
    Reel.sizeBytes none = .ok 0 := by
  refine ⟨?_, rfl⟩
  have := sizeLoop_ok (reelFiles r) 0 (by omega) h1 (by omega)
  show Reel.sizeLoop r.list 0 = _
  rw [reelFiles_eq, this]; simp

theorem sizeLoop_append (pre post : List File) (acc s : Int) (h : Reel.sizeLoop pre acc = .ok s)
    (hn : ∀ f ∈ pre, f.startByte ≤ f.endByte) :
    Reel.sizeLoop (pre ++ post) acc = Reel.sizeLoop post s := by
  induction pre generalizing acc with
  | nil => simp only [Reel.sizeLoop, Res.ok.injEq] at h; subst h; rfl
  | cons f fs ih =>
    have hf := hn f (by simp)
    rw [List.cons_append]
    rw [Reel.sizeLoop] at h ⊢
    rw [if_neg (by omega)] at h ⊢
    cases e1 : ckInt (f.endByte - f.startByte) with
    | ub => rw [e1] at h; cases h
    | ok d =>
      rw [e1] at h; simp only [Res.ok_bind] at h ⊢
      cases e2 : ckInt (d + 1) with
      | ub => rw [e2] at h; cases h
      | ok d' =>
        rw [e2] at h; simp only [Res.ok_bind] at h ⊢
        cases e3 : ckInt64 (acc + d') with
        | ub => rw [e3] at h; cases h
        | ok a =>
          rw [e3] at h; simp only [Res.ok_bind] at h ⊢
          exact ih a h (fun x hx => hn x (by simp [hx]))

/-- A file with reversed byte positions makes the whole answer 0 (files before it well-formed). -/
theorem C35_reversed_file_gives_zero (r : Reel) (pre post : List File) (f : File)
    (hr : reelFiles r = pre ++ f :: post) (hf : f.endByte < f.startByte)
    (h1 : ∀ g ∈ pre, g.startByte ≤ g.endByte ∧ g.endByte - g.startByte < INT_MAX)
    (h2 : (pre.map fun g => g.endByte - g.startByte + 1).sum ≤ 9223372036854775807) :
    Reel.sizeBytes (some r) = .ok 0 := by
  have hs := sizeLoop_ok pre 0 (by omega) h1 (by omega)
  show Reel.sizeLoop r.list 0 = _
  rw [reelFiles_eq, hr, sizeLoop_append pre _ 0 _ hs (fun g hg => (h1 g hg).1)]
  unfold Reel.sizeLoop
  rw [if_pos (by omega)]

/-- A single file spanning all of `int` overflows. -/
theorem C35_extent_overflows :
    Reel.sizeBytes (some ⟨some (b! "r"), some ⟨some [{ okFile 0 1 with endByte := 2147483647 }]⟩⟩) = .ub := by
  decide

/-- The byte extent ignores frames: a file spanning several frames, whose last byte position is
    before its first, is legal (`is_valid`) and yet makes the reel size 0. -/
theorem C35_valid_multi_frame_file_counts_zero :
    let f := { okFile 1 3 with startByte := 100, endByte := 50 }
    f.isValid = true ∧
    Reel.sizeBytes (some ⟨some (b! "r"), some ⟨some [okFile 0 0, f]⟩⟩) = .ok 0 := by decide

example : Reel.sizeBytes (some ⟨some (b! "r"), some ⟨some
    [{ okFile 0 1 with endByte := 9 }, { okFile 1 2 with startByte := 5, endByte := 5 }]⟩⟩) = .ok 11 := by
  decide

end Afs
