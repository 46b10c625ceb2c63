import Verif.Proof.Made
import Verif.Props.C31_SaveLoadValid
import Verif.Props.C12_FrameBounds
/-!
# C86 objects made through the API hold only sound parts

For every history of calls (`Spec.Made`): creating, setting, adding, cloning, loading any document
or text on top of what is there, moving frames, selecting files and layouts, taking objects out and
adding them elsewhere, failed calls included.
-/
namespace Afs
open Spec Xml

namespace Keep

theorem sound_sections {l : List Section} (h : SectionsInv l) : SoundSections l := by
  refine ⟨fun s hs => (C37_section s).mp (h.1 s hs), ?_, h.2.imp fun h => h.2⟩
  rw [List.Nodup, List.pairwise_map]
  exact h.2.imp fun h => h.1

theorem sound_layout {d : LayoutDef} (h : SectionsInv d.sectionList) : Sound (.layout d) := by
  intro s hs
  refine sound_sections ?_
  simpa only [LayoutDef.sectionList, hs] using h

theorem sound_layouts {l : List LayoutDef} (h : KDefs l) : SoundLayouts l :=
  ⟨fun d hd => ⟨(C37_layout d).mp (h.1.1 d hd), sound_layout (h.2 d hd)⟩, h.1.2⟩

theorem sound_file {f : File} (h : KFile f) : SoundFile f :=
  ⟨fun p hp q hq => (C37_page q).mp (h.1 p hp q hq),
   fun m hm s hs => (C37_file_metadata_source s).mp (h.2 m hm s hs)⟩

theorem sound_files {l : List File} (h : KFiles l) : SoundFiles l :=
  fun f hf => ⟨(C37_file f).mp (h f hf).1, sound_file (h f hf).2⟩

theorem sound_reel {r : Reel} (h : KFiles r.list) : ∀ f, r.files = some f → SoundFiles (f.tocs.getD []) := by
  intro f hf
  refine sound_files ?_
  simpa only [Reel.list, Files.list, hf] using h

theorem sound_reels {l : List Reel} (h : KReels l) : SoundReels l :=
  fun r hr => ⟨(C37_reel r).mp (h r hr).1, sound_reel (h r hr).2⟩

theorem lookup (l : List LayoutDef) (inv : DefsInv l) (k : Bytes) :
    ∃ found, LayoutDefs.byId (some ⟨some l⟩) (some k) = .ok found ∧
        (∀ d, found = some d ↔ (d ∈ l ∧ d.id = some k)) ∧
        LayoutDefs.has (some ⟨some l⟩) (some k) = .ok found.isSome := by
  have uniq : ∀ d e, d ∈ l → e ∈ l → d.id = e.id → d = e := by
    intro d e hd he hde
    have hp := inv.2
    rw [List.Nodup, List.pairwise_map] at hp
    obtain ⟨i, hi, rfl⟩ := List.getElem_of_mem hd
    obtain ⟨j, hj, rfl⟩ := List.getElem_of_mem he
    rcases Nat.lt_trichotomy i j with h | h | h
    · exact absurd hde (List.pairwise_iff_getElem.mp hp i j hi hj h)
    · subst h; rfl
    · exact absurd hde.symm (List.pairwise_iff_getElem.mp hp j i hj hi h)
  by_cases hk : k.length = 0
  · have hk0 : k = [] := List.length_eq_zero_iff.mp hk
    refine ⟨none, by simp [LayoutDefs.byId, hk], ?_, by simp [LayoutDefs.has, hk]⟩
    intro d
    simp only [reduceCtorEq, false_iff, not_and]
    intro hd he
    obtain ⟨k', h1, h2⟩ := layout_valid_id (inv.1 d hd)
    rw [he] at h1; cases h1; exact h2 hk0
  · have hf := findKey_ok LayoutDef.id k l (defsInv_ids inv)
    refine ⟨_, by simp only [LayoutDefs.byId, hk, if_false]; exact hf, ?_, ?_⟩
    · intro d
      constructor
      · intro h
        exact ⟨List.mem_of_find?_eq_some h, by simpa using List.find?_some h⟩
      · rintro ⟨hd, hdk⟩
        cases hfind : l.find? fun d => decide (d.id = some k) with
        | none =>
          have := List.find?_eq_none.mp hfind d hd
          simp [hdk] at this
        | some e =>
          have he := List.mem_of_find?_eq_some hfind
          have hek : e.id = some k := by simpa using List.find?_some hfind
          rw [uniq e d he hd (by rw [hek, hdk])]
    · simp only [LayoutDefs.has, hk, if_false, Option.getD_some, hf, Res.ok_bind, Res.pure_eq]

theorem lookup_some (ds : LayoutDefs) (inv : DefsInv (ds.defs.getD [])) (k : Bytes) :
    ∃ found, LayoutDefs.byId (some ds) (some k) = .ok found ∧
        (∀ d, found = some d ↔ (d ∈ ds.defs.getD [] ∧ d.id = some k)) ∧
        LayoutDefs.has (some ds) (some k) = .ok found.isSome := lookup _ inv k

end Keep

/-! ### What is inside -/

/-- Whatever the history: every part stored in an object is valid and sound, down to the sections,
    pages and metadata sources; ids of layout definitions and of the sections of one layout differ. -/
theorem C86_sound {o : Obj} (h : Made o) : Sound o := by
  have k := Keep.kept h
  cases o with
  | sections s => exact Keep.sound_sections k
  | layout d => exact Keep.sound_layout k
  | layouts ds => exact Keep.sound_layouts k
  | preview p => exact fun q hq => (C37_page q).mp (k q hq)
  | fileMeta m => exact fun s hs => (C37_file_metadata_source s).mp (k s hs)
  | file f => exact Keep.sound_file k
  | files fs => exact Keep.sound_files k
  | reel r => exact Keep.sound_reel k
  | reels rs => exact Keep.sound_reels k
  | tocMeta m => exact fun s hs => (C37_metadata_source s).mp (k s hs)
  | toc t =>
    exact ⟨fun r hr => Keep.sound_reels (k.1 r hr), fun d hd => Keep.sound_layouts (k.2.1 d hd),
      fun m hm s hs => (C37_metadata_source s).mp (k.2.2 m hm s hs)⟩

/-- No two sections of a layout anywhere in a table of contents share a pixel (sections that end
    inside the 32-bit coordinate space, see `C07_wraparound_overlap_accepted`). -/
theorem C86_pixels {t : TocData} (h : Made (.toc t)) (ds : LayoutDefs) (hd : t.layouts = some ds) (d : LayoutDef)
    (hm : d ∈ ds.defs.getD []) (hf : ∀ s ∈ d.sectionList, Fits s) :
    (d.sectionList.map Section.id).Nodup ∧ d.sectionList.Pairwise PixelDisjoint :=
  sectionsInv_spec (((Keep.kept h).2.1 ds hd).2 d hm) hf

/-! ### What the calls answer -/

/-- Lookups in a list of layout definitions are always defined and exact. -/
theorem C86_layout_lookup {ds : LayoutDefs} (h : Made (.layouts ds)) (k : Bytes) :
    ∃ found, LayoutDefs.byId (some ds) (some k) = .ok found ∧
      (∀ d, found = some d ↔ (d ∈ ds.defs.getD [] ∧ d.id = some k)) ∧
      LayoutDefs.has (some ds) (some k) = .ok found.isSome :=
  Keep.lookup_some ds (Keep.kept h).1 k

/-- Lookup by name is always defined: the first definition of that name. -/
theorem C86_layout_by_name {ds : LayoutDefs} (h : Made (.layouts ds)) (k : Bytes) :
    LayoutDefs.byName (some ds) (some k) = .ok ((ds.defs.getD []).find? fun d => decide (d.name = some k)) := by
  have hn : ∀ d ∈ ds.defs.getD [], NonEmpty d.name := fun d hd => ((C37_layout d).mp ((Keep.kept h).1.1 d hd)).2.1
  by_cases hk : k.length = 0
  · have hk0 : k = [] := List.length_eq_zero_iff.mp hk
    have e : (ds.defs.getD []).find? (fun d => decide (d.name = some k)) = none := by
      rw [List.find?_eq_none]
      intro d hd
      obtain ⟨b, hb, hne⟩ := hn d hd
      simp only [hb, hk0, Option.some.injEq, decide_eq_true_eq]
      exact hne
    rw [e]
    simp [LayoutDefs.byName, hk]
  · simp only [LayoutDefs.byName, hk, if_false]
    exact findKey_ok LayoutDef.name k _ fun d hd => by
      obtain ⟨b, hb, -⟩ := hn d hd
      rw [hb]; simp

/-- Calls on a table of contents are defined: adding a layout or a list of layouts, loading any
    document into it, and asking for the layouts in use. -/
theorem C86_toc_defined {t : TocData} (h : Made (.toc t)) :
    (∀ d, Made (.layout d) → ∃ b t', t.addLayout (some d) = .ok (b, t') ∧ Made (.toc t')) ∧
    (∀ ds, Made (.layouts ds) → ∃ b t', t.addLayouts (some ds) = .ok (b, t') ∧ Made (.toc t')) ∧
    (∀ n, ∃ b t', t.loadXml n = .ok (b, t') ∧ Made (.toc t')) ∧
    (∃ r, TocData.usedLayouts (some t) = .ok r ∧ ∀ u, r = some u → Made (.layouts u)) := by
  refine ⟨fun d hd => ?_, fun ds hd => ?_, fun n => ?_, ?_⟩
  · obtain ⟨b, t', e, -⟩ := Keep.toc_addLayout (Keep.kept h) (Keep.kept hd)
    exact ⟨b, t', e, .tocLayout h hd e⟩
  · obtain ⟨b, t', e, -⟩ := Keep.toc_addLayouts (Keep.kept h) (Keep.kept hd)
    exact ⟨b, t', e, .tocLayouts h hd e⟩
  · obtain ⟨b, t', e, -⟩ := Keep.toc_load (Keep.kept h) n
    exact ⟨b, t', e, .tocXml n h e⟩
  · obtain ⟨r, e, -⟩ := Keep.toc_used (Keep.kept h)
    exact ⟨r, e, fun u hu => .layoutsUsed h (by rw [e, hu])⟩

/-- Calls on a list of layout definitions are defined: adding a definition and loading a document. -/
theorem C86_layouts_defined {ds : LayoutDefs} (h : Made (.layouts ds)) :
    (∀ d, Made (.layout d) → ∃ b ds', LayoutDefs.add ds (some d) = .ok (b, ds') ∧ Made (.layouts ds')) ∧
    (∀ n, ∃ b ds', ds.loadXml n = .ok (b, ds') ∧ Made (.layouts ds')) := by
  refine ⟨fun d hd => ?_, fun n => ?_⟩
  · obtain ⟨b, t', e, -⟩ := Keep.defs_add (Keep.kept h) (Keep.kept hd)
    exact ⟨b, t', e, .layoutsAdd h hd e⟩
  · obtain ⟨b, t', e, -⟩ := Keep.defs_load (Keep.kept h) n
    exact ⟨b, t', e, .layoutsXml n h e⟩

namespace Keep

theorem page_frames_ok (q : Page) (ds : LayoutDefs) (h : DefsInv (ds.defs.getD [])) :
    ∃ r, Page.framesCount (some q) (some ds) = .ok r := by
  unfold Page.framesCount
  dsimp only
  cases hl : q.layoutId with
  | none => exact ⟨_, rfl⟩
  | some k =>
    obtain ⟨found, e, -⟩ := lookup_some ds h k
    dsimp only
    rw [e]
    simp only [Res.ok_bind]
    cases found with
    | none => exact ⟨_, rfl⟩
    | some d =>
      dsimp only
      repeat' split
      all_goals exact ⟨_, rfl⟩

theorem frames_loop_ok (ds : LayoutDefs) (h : DefsInv (ds.defs.getD [])) (l : List Page) :
    ∀ a b, ∃ r, Preview.framesLoop ds l a b = .ok r := by
  induction l with
  | nil => intro a b; exact ⟨_, rfl⟩
  | cons q l ih =>
    intro a b
    obtain ⟨r, e⟩ := page_frames_ok q ds h
    rw [Preview.framesLoop, e]
    simp only [Res.ok_bind]
    split
    · exact ⟨_, rfl⟩
    · split
      · exact ih _ _
      · exact ih _ _

theorem frames_ok (p : Preview) (ds : LayoutDefs) (h : DefsInv (ds.defs.getD [])) :
    ∃ r, Preview.framesCount (some p) (some ds) = .ok r := by
  unfold Preview.framesCount
  dsimp only
  obtain ⟨r, e⟩ := frames_loop_ok ds h (p.pages.getD []) 2147483647 0
  rw [e]
  simp only [Res.ok_bind]
  cases r with
  | none => exact ⟨_, rfl⟩
  | some r =>
    dsimp only
    split
    · exact ⟨_, rfl⟩
    · exact ⟨_, rfl⟩

theorem lastLoop_ok (type : Nat) (defs : Option LayoutDefs) (hd : ∀ ds, defs = some ds → DefsInv (ds.defs.getD []))
    (hp : type &&& TYPE_PREVIEW = 0 ∨ defs ≠ none) (l : List File) (h : ∀ f ∈ l, f.isValid = true) :
    ∃ r, Files.lastLoop type defs l = .ok r := by
  induction l with
  | nil => exact ⟨_, rfl⟩
  | cons f l ih =>
    rw [Files.lastLoop.eq_def]
    dsimp only
    split
    · exact ⟨_, rfl⟩
    · split
      · rename_i hc
        cases defs with
        | none =>
          rcases hp with hp | hp
          · exact absurd hp hc.1
          · exact absurd rfl hp
        | some ds =>
          have hv := ((C37_file f).mp (h f (by simp))).2.2.2.2.1
          have ht : f.types.testBit 1 = true := by
            have := hc.2
            unfold File.isPreview TYPE_PREVIEW at this
            rw [← and_two_ne]; simpa using this
          obtain ⟨p, hpv, -⟩ := hv ht
          obtain ⟨r, e⟩ := frames_ok p ds (hd ds rfl)
          rw [hpv]
          dsimp only
          rw [e]
          exact ⟨_, rfl⟩
      · exact ih fun g hg => h g (by simp [hg])

theorem last1_ok (f : Files) (type : Nat) (defs : Option LayoutDefs) (hd : ∀ ds, defs = some ds → DefsInv (ds.defs.getD []))
    (hp : type ≤ 2 ∨ defs ≠ none) (h : ∀ x ∈ f.list, x.isValid = true) :
    ∃ r, Files.lastFrame1 f type defs = .ok r := by
  unfold Files.lastFrame1
  split
  · exact ⟨_, rfl⟩
  · split
    · exact ⟨_, rfl⟩
    · rename_i hnp
      split
      · exact ⟨_, rfl⟩
      · refine lastLoop_ok type defs hd ?_ _ fun x hx => h x (by simpa using hx)
        rcases hp with hp | hp
        · by_cases e : defs = none
          · left
            have : type ≠ 2 := fun e' => hnp ⟨e', e⟩
            have : type = 0 ∨ type = 1 := by omega
            rcases this with rfl | rfl <;> rfl
          · exact Or.inr e
        · exact Or.inr hp

end Keep

/-- The frames of a preview can always be counted. -/
theorem C86_preview_frames_defined {p : Preview} {ds : LayoutDefs} (hd : Made (.layouts ds)) :
    ∃ r, Preview.framesCount (some p) (some ds) = .ok r :=
  Keep.frames_ok p ds (Keep.kept hd).1

/-- The last frame of a list of files is always defined, for every kind and with every list of
    layout definitions; without layout definitions for the kinds there are (digital, preview, both).
    The undefined answer of `C12_missing_preview_is_undefined` needs a list no history makes. -/
theorem C86_last_frame_defined {fs : Files} (h : Made (.files fs)) :
    (∀ type ds, Made (.layouts ds) → ∃ r, Files.lastFrame (some fs) type (some ds) = .ok r) ∧
    (∀ type, type ≤ 3 → ∃ r, Files.lastFrame (some fs) type none = .ok r) := by
  have hv : ∀ x ∈ fs.list, x.isValid = true := fun x hx => (Keep.kept h x hx).1
  have hn : ∀ ds : LayoutDefs, (none : Option LayoutDefs) = some ds → DefsInv (ds.defs.getD []) := fun _ e => nomatch e
  refine ⟨fun type ds hd => ?_, fun type ht => ?_⟩
  · have hi : ∀ x : LayoutDefs, some ds = some x → DefsInv (x.defs.getD []) := by
      intro x e; cases e; exact (Keep.kept hd).1
    unfold Files.lastFrame
    dsimp only
    split
    · split
      · exact ⟨_, rfl⟩
      · obtain ⟨a, ea⟩ := Keep.last1_ok fs TYPE_DIGITAL none hn (Or.inl (by decide)) hv
        obtain ⟨b, eb⟩ := Keep.last1_ok fs TYPE_PREVIEW (some ds) hi (Or.inl (by decide)) hv
        rw [ea, eb]
        exact ⟨_, rfl⟩
    · exact Keep.last1_ok fs type (some ds) hi (Or.inr (by simp)) hv
  · unfold Files.lastFrame
    dsimp only
    split
    · split
      · exact ⟨_, rfl⟩
      · obtain ⟨a, ea⟩ := Keep.last1_ok fs TYPE_DIGITAL none hn (Or.inl (by decide)) hv
        obtain ⟨b, eb⟩ := Keep.last1_ok fs TYPE_PREVIEW none hn (Or.inl (by decide)) hv
        rw [ea, eb]
        exact ⟨_, rfl⟩
    · rename_i h3
      exact Keep.last1_ok fs type none hn (Or.inl (by unfold TYPE_ALL at h3; omega)) hv

/-! ### When a made object is valid -/

/-- A list made through the API is never invalid because of its items. -/
theorem C86_lists_valid :
    (∀ ds, Made (.layouts ds) → LayoutDefs.isValid (some ds) = true) ∧
    (∀ fs, Made (.files fs) → Files.isValid (some fs) = true) ∧
    (∀ rs, Made (.reels rs) → Reels.isValid (some rs) = true) ∧
    (∀ r, Made (.reel r) → (r.isValid = true ↔ NonEmpty r.id)) ∧
    (∀ p, Made (.preview p) → (Preview.isValid (some p) = true ↔ p.pages.getD [] ≠ [])) ∧
    (∀ m, Made (.tocMeta m) → (TocMeta.isValid (some m) = true ↔ m.sources.getD [] ≠ [])) ∧
    (∀ s, Made (.sections s) → (Sections.isValid (some s) = true ↔ s.sections.getD [] ≠ [])) ∧
    (∀ d, Made (.layout d) → (d.isValid = true ↔ NonEmpty d.id ∧ NonEmpty d.name ∧ d.sectionList ≠ [])) := by
  have nz : ∀ {α : Type} {v : Option (List α)}, v.getD [] ≠ [] → ∃ l, v = some l ∧ l ≠ [] := by
    intro α v h
    cases v with
    | none => exact absurd rfl h
    | some l => exact ⟨l, rfl, h⟩
  have hsec : ∀ s : Sections, SectionsInv (s.sections.getD []) → (Sections.isValid (some s) = true ↔ s.sections.getD [] ≠ []) := by
    intro s h
    rw [C37_sections]
    constructor
    · rintro ⟨x, hx, l, hl, hne, -⟩
      cases hx; rw [hl]; exact hne
    · intro hne
      obtain ⟨l, hl, hne⟩ := nz hne
      have hh := Keep.sound_sections h
      rw [hl] at hh
      exact ⟨s, rfl, l, hl, hne, hh.1, hh.2.2⟩
  refine ⟨fun ds h => ?_, fun fs h => ?_, fun rs h => ?_, fun r h => ?_, fun p h => ?_, fun m h => ?_, fun s h => hsec s (Keep.kept h), fun d h => ?_⟩
  · exact (C37_layouts _).mpr ⟨ds, rfl, fun x hx => ((C86_sound h).1 x hx).1⟩
  · exact (C37_files _).mpr ⟨fs, rfl, fun x hx => (C86_sound h x hx).1⟩
  · exact (C37_reels _).mpr ⟨rs, rfl, fun x hx => (C86_sound h x hx).1⟩
  · rw [C37_reel]
    exact ⟨fun hh => hh.1, fun hh => ⟨hh, fun f hf x hx => (C86_sound h f hf x hx).1⟩⟩
  · rw [C37_preview]
    constructor
    · rintro ⟨x, hx, l, hl, hne, -⟩
      cases hx; rw [hl]; exact hne
    · intro hne
      obtain ⟨l, hl, hne⟩ := nz hne
      have hh : ∀ q ∈ p.pages.getD [], ValidPage q := C86_sound h
      rw [hl] at hh
      exact ⟨p, rfl, l, hl, hne, hh⟩
  · rw [C37_metadata]
    constructor
    · rintro ⟨x, hx, l, hl, hne, -⟩
      cases hx; rw [hl]; exact hne
    · intro hne
      obtain ⟨l, hl, hne⟩ := nz hne
      have hh : ∀ q ∈ m.sources.getD [], ValidMetaSource q := C86_sound h
      rw [hl] at hh
      exact ⟨m, rfl, l, hl, hne, hh⟩
  · rw [C37_layout]
    have k : SectionsInv d.sectionList := Keep.kept h
    unfold ValidLayout
    refine and_congr_right fun _ => and_congr_right fun _ => ?_
    cases hs : d.sections with
    | none => simp [LayoutDef.sectionList, hs]
    | some s =>
      have e : d.sectionList = s.sections.getD [] := by simp [LayoutDef.sectionList, hs]
      rw [e] at k ⊢
      have := hsec s k
      rw [C37_sections] at this
      simpa using this

/-- A file is valid exactly when its own fields are: its preview and metadata never stand in the way,
    except that a file of the preview kind must have a page. -/
theorem C86_file_valid {f : File} (h : Made (.file f)) :
    f.isValid = true ↔ -2 ≤ f.id ∧ NonEmpty f.name ∧ NonEmpty f.date ∧
      (f.types.testBit 0 = true → 0 ≤ f.startFrame ∧ 0 ≤ f.startByte ∧ f.startFrame ≤ f.endFrame ∧
        f.checksum ≠ none ∧ (f.endFrame = f.startFrame → f.startByte ≤ f.endByte)) ∧
      (f.types.testBit 1 = true → ∃ p, f.preview = some p ∧ p.pages.getD [] ≠ []) := by
  rw [C37_file]
  unfold ValidFile
  have s : SoundFile f := C86_sound h
  constructor
  · rintro ⟨h1, h2, h3, h4, h5, -⟩
    refine ⟨h1, h2, h3, h4, fun ht => ?_⟩
    obtain ⟨p, hp, l, hl, hne, -⟩ := h5 ht
    exact ⟨p, hp, by rw [hl]; exact hne⟩
  · rintro ⟨h1, h2, h3, h4, h5⟩
    refine ⟨h1, h2, h3, h4, fun ht => ?_, fun m hm x hx => s.2 m hm x hx⟩
    obtain ⟨p, hp, hne⟩ := h5 ht
    exact ⟨p, hp, (C37_preview _).mp ((C86_lists_valid.2.2.2.2.1 p (.previewOf h hp)).mpr hne) |>.elim fun x hx => by
      obtain ⟨e, hx⟩ := hx
      cases e
      exact hx⟩

/-- A table of contents is valid exactly when its four header fields are set and the index type is
    "job" or "reel": nothing that was ever added or loaded can make it invalid. -/
theorem C86_toc_valid {t : TocData} (h : Made (.toc t)) :
    t.isValid = true ↔ NonEmpty t.version ∧ NonEmpty t.jobId ∧ NonEmpty t.reelId ∧
      (t.indexType = some (b! "job") ∨ t.indexType = some (b! "reel")) := by
  rw [C37_toc]
  obtain ⟨s1, s2, s3⟩ : Sound (.toc t) := C86_sound h
  constructor
  · rintro ⟨h1, h2, h3, h4, -⟩
    exact ⟨h1, h2, h3, h4⟩
  · rintro ⟨h1, h2, h3, h4⟩
    exact ⟨h1, h2, h3, h4, fun r hr x hx => (s1 r hr x hx).1, fun d hd x hx => ((s2 d hd).1 x hx).1, s3⟩

/-- So a table of contents whose header is set can always be saved, as a text and as a file. -/
theorem C86_toc_saves {t : TocData} (h : Made (.toc t)) (compact : Bool)
    (hv : NonEmpty t.version) (hj : NonEmpty t.jobId) (hr : NonEmpty t.reelId)
    (hi : t.indexType = some (b! "job") ∨ t.indexType = some (b! "reel")) :
    (∃ text, t.saveString compact = some text) ∧ ∃ text, t.saveFile compact = (true, some text) :=
  (C31_toc_save t compact).1 ((C86_toc_valid h).mpr ⟨hv, hj, hr, hi⟩)

/-! ### What is left out, and why -/

/-- Moving the frames of a list off the film (beyond the last `int`) leaves an invalid file in it. -/
theorem C86_shift_off_film :
    let f : File := { File.create with
      name := some (b! "n"), date := some (b! "d"), checksum := some (b! "c"), id := 1, types := 1,
      startFrame := 0, startByte := 0, endFrame := 2147483647, endByte := 0 }
    Made (.files (Files.create.addToc (some f)).2) ∧ (Files.create.addToc (some f)).1 = true ∧
    Files.isValid (some ((Files.create.addToc (some f)).2.addFrameOffset 1 TYPE_DIGITAL)) = false := by
  refine ⟨.filesAdd .filesNew ?_, by decide, by decide⟩
  exact .fileNew2 (p := none) (m := none) _ _ _ 0 1 0 0 2147483647 0 none FILE_NO_PARENT 1 none
    (fun _ e => nomatch e) (fun _ e => nomatch e)

/-- A constructor that is handed a whole vector checks nothing. -/
theorem C86_vectors_unchecked :
    Files.isValid (some (Files.create2 (some [File.create]))) = false ∧ ¬ Made (.files (Files.create2 (some [File.create]))) := by
  refine ⟨by decide, fun h => ?_⟩
  have := C86_lists_valid.2.1 _ h
  revert this
  decide

/-! ### Non-vacuity -/

/-- A layout definition with two sections. -/
def madeLayout : LayoutDef :=
  (((LayoutDef.create2 (some (b! "1")) (some (b! "grid"))).addSection (some ⟨1, 0, 0, 10, 10, 0⟩)).2.addSection
    (some ⟨2, 10, 0, 10, 10, 90⟩)).2

/-- A file with a preview page in that layout. -/
def madeFile : File :=
  (((File.create.setName (some (b! "a.txt"))).setDate (some (b! "today"))).setPreview
    (some (Preview.create.addPage (some ⟨some (b! "1"), 5, 0, 3, 10, 10, 0, 0⟩)).2))

/-- A reel with that file. -/
def madeReel : Reel := ((Reel.create2 (some (b! "r1"))).addFile (some madeFile)).2

/-- A table of contents with that reel. -/
def madeToc : TocData :=
  ((TocData.create2 (some (b! "1.0")) (some (b! "job")) (some (b! "j")) (some (b! "r1"))).addReel (some madeReel)).2

theorem made_layout : Made (.layout madeLayout) := .layoutAdd _ (.layoutAdd _ (.layoutNew2 _ _))
theorem made_file : Made (.file madeFile) :=
  .filePreview (.fileDate _ (.fileName _ .fileNew)) (by intro q hq; cases hq; exact .previewAdd _ .previewNew)
theorem made_toc : Made (.toc madeToc) := .tocReel (.tocNew2 _ _ _ _) (.reelAdd (.reelNew2 _) made_file)

/-- A table of contents with a reel, a file, a page and a layout is made, and valid. -/
example : ∃ t ds, Made (.toc t) ∧ madeToc.addLayout (some madeLayout) = .ok (true, t) ∧ t.isValid = true ∧
    TocData.usedLayouts (some t) = .ok (some ds) ∧ ds.defs = some [madeLayout] ∧ Made (.layouts ds) := by
  have e : madeToc.addLayout (some madeLayout) = .ok (true, { madeToc with layouts := some ⟨some [madeLayout]⟩ }) := by
    decide +kernel
  have h := Made.tocLayout made_toc made_layout e
  have u : TocData.usedLayouts (some { madeToc with layouts := some ⟨some [madeLayout]⟩ }) = .ok (some ⟨some [madeLayout]⟩) := by
    decide +kernel
  exact ⟨_, _, h, e, by decide +kernel, u, rfl, .layoutsUsed h u⟩

end Afs
