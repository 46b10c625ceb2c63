import Verif.Proof.Stable2
import Verif.Proof.IoToc
/-!
# What loading file entries, reels and tables of contents from a clean document gives
-/
namespace Afs
open Spec Xml

/-- What a load of a file entry gives. -/
structure FileHeld (f : File) : Prop where
  fmt : AttrField f.fileFormat
  uid : Held f.uniqueId
  name : Held f.name
  date : Held f.date
  id : IsInt f.id
  parent : IsInt f.parentId
  size : IsInt64 f.size
  sf : IsInt f.startFrame
  sb : IsInt f.startByte
  ef : IsInt f.endFrame
  eb : IsInt f.endByte
  sum : Held f.checksum
  prev : ∀ p, f.preview = some p → PreviewHeld p
  mdata : ∀ m, f.metadata = some m → FileMetaHeld m

theorem FileHeld.create : FileHeld File.create :=
  ⟨(fun _ h => nomatch h), held_none, held_none, held_none, by decide, by decide, by decide, by decide, by decide, by decide, by decide,
    held_none, (fun _ h => nomatch h), (fun _ h => nomatch h)⟩

theorem FileHeld.addType {f : File} (h : FileHeld f) (t : Nat) : FileHeld (f.addType t) :=
  { h with fmt := h.fmt }

theorem held_undefined : AttrField (some (b! "undefined")) := by
  intro t e
  injection e with e
  subst e
  exact clean_ascii (by decide)

theorem FileHeld.fields {f : File} (h : FileHeld f) {n : Node} (hn : CleanDoc n) : FileHeld (f.loadFields n) := by
  have hx : ∀ {nm x}, find n nm = some x → Held (nodeText (some x)) := fun e => held_nodeText fun _ e' => by
    injection e' with e'; exact e' ▸ clean_find hn e
  have k1 : AttrField (match strClone (n.getAttr (b! "formatId")) with
      | none => some (b! "undefined")
      | some s => some s) := by
    have := strClone_field (clean_attr hn (b! "formatId"))
    split
    · exact held_undefined
    · rename_i e; rw [e] at this; exact this
  have k2 : IsInt (match intElement n (b! "parentId") with
      | some v => v
      | none => match intElement n (b! "parentid") with
        | some v => v
        | none => FILE_NO_PARENT) := by
    split
    · rename_i e; exact isInt_elem e
    · split
      · rename_i e; exact isInt_elem e
      · decide
  unfold File.loadFields
  dsimp only
  cases e1 : find n (b! "name") <;> cases e2 : find n (b! "uniqueId") <;> cases e3 : find n (b! "date") <;>
    dsimp only <;>
    exact { fmt := k1, uid := by first | exact hx e2 | exact h.uid, name := by first | exact hx e1 | exact h.name,
            date := by first | exact hx e3 | exact h.date, id := isInt_elemD h.id, parent := k2, size := h.size, sf := h.sf, sb := h.sb,
            ef := h.ef, eb := h.eb, sum := h.sum, prev := h.prev, mdata := h.mdata }

theorem FileHeld.preview {f : File} (h : FileHeld f) {n : Node} (hn : CleanDoc n) : FileHeld (f.loadPreview n).2 := by
  unfold File.loadPreview
  split
  · exact h
  · rename_i p hp
    dsimp only
    split
    · exact h.addType _
    · exact { h with prev := fun q e => by injection e with e; subst e; exact Preview.loadXml_held (clean_find hn hp) }

theorem FileHeld.metadata {f : File} (h : FileHeld f) {n : Node} (hn : CleanDoc n) : FileHeld (f.loadMetadata n).2 := by
  unfold File.loadMetadata
  split
  · exact h
  · rename_i p hp
    dsimp only
    split
    · exact h
    · exact { h with mdata := fun q e => by injection e with e; subst e; exact FileMeta.loadXml_held (clean_find hn hp) }

theorem isInt64_strtol (s : Bytes) : IsInt64 (strtol s) := by
  unfold strtol IsInt64
  split
  · omega
  · split
    · split <;> omega
    · split <;> omega

theorem held_safe {o : Option Node} (h : ∀ n, o = some n → CleanDoc n) : Held (nodeTextSafe o []) := by
  unfold nodeTextSafe
  have := held_nodeText h
  split
  · exact held_nil
  · rename_i e; rw [e] at this; exact this

theorem FileHeld.dataV1 {f : File} (h : FileHeld f) {n : Node} (hn : CleanDoc n) : FileHeld (f.loadDataV1 n) := by
  have k1 : Held (nodeTextSafe (find n (b! "checksum")) []) := held_safe fun _ e => clean_find hn e
  unfold File.loadDataV1
  dsimp only
  cases find n (b! "size") <;> cases find n (b! "start") <;> cases find n (b! "end") <;> dsimp only <;>
    exact { h with sum := k1, size := by first | exact isInt64_strtol _ | exact h.size,
                   sf := by first | exact isInt_elemD h.sf | exact h.sf, sb := by first | exact isInt_elemD h.sb | exact h.sb,
                   ef := by first | exact isInt_elemD h.ef | exact h.ef, eb := by first | exact isInt_elemD h.eb | exact h.eb }

theorem FileHeld.dataV2 {f : File} (h : FileHeld f) {n : Node} (hn : CleanDoc n) : FileHeld (f.loadDataV2 n) := by
  have k1 : Held (nodeTextSafe (find n (b! "checksum")) []) := held_safe fun _ e => clean_find hn e
  unfold File.loadDataV2
  dsimp only
  cases find n (b! "size") <;> cases find n (b! "start") <;> cases find n (b! "end") <;> dsimp only <;>
    exact { h with sum := k1, size := by first | exact isInt64_strtol _ | exact h.size,
                   sf := by first | exact isInt_attrD h.sf | exact h.sf, sb := by first | exact isInt_attrD h.sb | exact h.sb,
                   ef := by first | exact isInt_attrD h.ef | exact h.ef, eb := by first | exact isInt_attrD h.eb | exact h.eb }

theorem FileHeld.part {f : File} (h : FileHeld f) {n : Node} (hn : CleanDoc n) : FileHeld (f.loadDataPart n) := by
  unfold File.loadDataPart
  split
  · rename_i d hd
    exact (h.dataV2 (clean_findUnder hn hd)).addType _
  · dsimp only
    have reset : ∀ g, FileHeld g → FileHeld (if g.isValid = false then { g with types := TYPE_UNDEFINED } else g) := by
      intro g hg
      split
      · exact { hg with fmt := hg.fmt }
      · exact hg
    split
    · exact reset _ ((h.dataV1 hn).addType _)
    · exact reset _ (h.dataV1 hn)

theorem File.loadXml_held {t : Node} (h : CleanDoc t) {f : File} (hf : FileHeld f) : FileHeld (f.loadXml t).2 := by
  unfold File.loadXml
  split
  · exact hf
  · rename_i n hn
    have hc := clean_selfOrFind h hn
    dsimp only
    split
    · exact (hf.fields hc).preview hc
    · split
      · exact ((hf.fields hc).preview hc).metadata hc
      · exact (((hf.fields hc).preview hc).metadata hc).part hc

/-- A valid entry that was loaded and is kept can be written. -/
theorem FileHeld.writable {f : File} (h : FileHeld f) (hv : f.isValid = true) (hk : FileKept f) : f.writable := by
  have hv' := hv
  unfold File.isValid at hv'
  split at hv'
  · cases hv'
  · split at hv'
    · cases hv'
    · rename_i h2
      rw [Bool.not_eq_true, Bool.or_eq_false_iff] at h2
      split at hv'
      · cases hv'
      · split at hv'
        · cases hv'
        · rename_i h4
          refine ⟨hv, h.fmt, held_field h.uid hk.1, held_field h.name (nullOrEmpty_ne h2.1), held_field h.date (nullOrEmpty_ne h2.2),
            h.id, h.parent, h.size, h.sf, h.sb, h.ef, h.eb, fun _ => held_cases h.sum, ?_, ?_⟩
          · intro hp p e
            refine (h.prev p e).storable (hk.2.1 hp p e) ?_
            rw [← e]
            cases hb : Preview.isValid f.preview with
            | true => rfl
            | false => exact absurd ⟨hp, .inr hb⟩ h4
          · intro _ m e
            exact (h.mdata m e).storable (hk.2.2 m e)

theorem Files.loadXml_held {t : Node} (h : CleanDoc t) : VecAll (fun x => x.isValid = true ∧ FileHeld x) (Files.create.loadXml t).2.tocs :=
  Files.loadLoop_all _ (fun n hn _ => File.loadXml_held (clean_findAll h n hn) FileHeld.create) _ (vecAll_none _)

/-- What a load of a reel gives. -/
def ReelHeld (r : Reel) : Prop :=
  Held r.id ∧ ∀ f, r.files = some f → VecAll (fun x => x.isValid = true ∧ FileHeld x) f.tocs

theorem Reel.loadXml_held {t : Node} (h : CleanDoc t) {r : Reel} (hr : ReelHeld r) : ReelHeld (r.loadXml t).2 := by
  unfold Reel.loadXml
  split
  · exact hr
  · rename_i n hn
    have hc := clean_selfOrFind h hn
    split
    · exact hr
    · rename_i i hi
      have k1 : Held (nodeText (some i)) := held_nodeText fun _ e => by injection e with e; exact e ▸ clean_find hc hi
      dsimp only
      split
      · exact ⟨k1, hr.2⟩
      · rename_i fn hfn
        refine ⟨k1, fun f e => ?_⟩
        injection e with e
        subst e
        exact Files.loadXml_held (clean_find hc hfn)

theorem ReelHeld.create : ReelHeld Reel.create := ⟨held_none, (fun _ h => nomatch h)⟩

theorem ReelHeld.writable {r : Reel} (h : ReelHeld r) (hv : r.isValid = true) (hk : ∀ x ∈ r.list, FileKept x) : r.writable := by
  refine ⟨hv, held_field h.1 ?_, ?_⟩
  · unfold Reel.isValid at hv
    intro e
    rw [e] at hv
    split at hv
    · cases hv
    · simp [nullOrEmpty] at hv
  · intro x hx
    have : ∃ f, r.files = some f ∧ x ∈ f.list := by
      unfold Reel.list at hx
      split at hx
      · cases hx
      · rename_i f e; exact ⟨f, e, hx⟩
    obtain ⟨f, e, hf⟩ := this
    have := (h.2 f e).2 x hf
    exact this.2.writable this.1 (hk x hx)

theorem clean_drop_filter {t : Node} (h : CleanDoc t) {p q : Node → Bool} : ∀ d ∈ ((descendants t).dropWhile p).filter q, CleanDoc d :=
  fun d hd => clean_desc t h d ((List.dropWhile_sublist p).subset (List.mem_filter.mp hd).1)

theorem Reels.loadXml_held {t : Node} (h : CleanDoc t) : VecAll (fun x => x.isValid = true ∧ ReelHeld x) (Reels.create.loadXml t).2.reels := by
  refine Reels.loadLoop_all _ (fun n hn _ => Reel.loadXml_held ?_ ReelHeld.create) _ (vecAll_none _)
  unfold Reels.loadNodes at hn
  split at hn
  · exact clean_findAll h n hn
  · split at hn
    · cases hn
    · split at hn
      · cases hn
      · exact clean_drop_filter h n hn

/-- What a load of a table of contents gives. -/
structure TocHeld (t : TocData) : Prop where
  version : AttrField t.version
  job : Held t.jobId
  reel : Held t.reelId
  mdata : ∀ m, t.metadata = some m → VecAll (fun s => s.isValid = true ∧ SourceHeld s) m.sources
  layouts : ∀ d, t.layouts = some d → d.storable
  reels : ∀ r, t.reels = some r → VecAll (fun x => x.isValid = true ∧ ReelHeld x) r.reels

theorem TocHeld.create : TocHeld TocData.create :=
  ⟨(fun _ h => nomatch h), held_none, held_none, (fun _ h => nomatch h), (fun _ h => nomatch h), (fun _ h => nomatch h)⟩

theorem TocHeld.fields {t : TocData} (h : TocHeld t) {n : Node} (hn : CleanDoc n) : TocHeld (t.loadFields n) := by
  have hx : ∀ nm (o : Option Bytes), Held o → Held (match find n nm with
      | none => o
      | some x => nodeText (some x)) := by
    intro nm o ho
    split
    · exact ho
    · rename_i e
      exact held_nodeText fun _ e' => by injection e' with e'; exact e' ▸ clean_find hn e
  exact { h with version := strClone_field (clean_attr hn _), job := hx _ _ h.job, reel := hx _ _ h.reel }

theorem keepOld_or {α : Type} {P : α → Prop} {a b : Option α} (ha : ∀ x, a = some x → P x) (hb : ∀ x, b = some x → P x) :
    ∀ x, TocData.keepOld a b = some x → P x := by
  intro x hx
  unfold TocData.keepOld at hx
  split at hx
  · exact hb x hx
  · exact ha x hx

theorem TocData.loadXml_held {t : Node} (h : CleanDoc t) {x : TocData} (hx : TocHeld x) {b : Bool} {y : TocData}
    (hy : x.loadXml t = .ok (b, y)) : TocHeld y := by
  unfold TocData.loadXml at hy
  split at hy
  · cases hy; exact hx
  · rename_i n hn
    have hc := clean_selfOrFind h hn
    have hf := hx.fields hc
    have km : ∀ m, (TocData.loadMeta n).2 = some m → VecAll (fun s => s.isValid = true ∧ SourceHeld s) m.sources := by
      intro m e
      unfold TocData.loadMeta at e
      split at e
      · cases e
      · rename_i k hk
        injection e with e
        subst e
        exact TocMeta.loadXml_held (clean_findUnder hc hk)
    have kl : ∃ c o, TocData.loadLayouts n = .ok (c, o) ∧ ∀ d, o = some d → d.storable := by
      unfold TocData.loadLayouts
      split
      · exact ⟨true, none, rfl, fun _ h => nomatch h⟩
      · rename_i k hk
        obtain ⟨c, r, e, hr⟩ := LayoutDefs.loadXml_storable (clean_find hc hk)
        rw [e]
        exact ⟨c, some r, rfl, fun d e => by injection e with e; exact e ▸ hr⟩
    have kr : ∀ r, (TocData.loadReels n).2 = some r → VecAll (fun x => x.isValid = true ∧ ReelHeld x) r.reels := by
      intro r e
      unfold TocData.loadReels at e
      split at e
      · cases e
      · rename_i k hk
        injection e with e
        subst e
        exact Reels.loadXml_held (clean_find hc hk)
    obtain ⟨c, o, el, kl⟩ := kl
    dsimp only at hy
    split at hy
    · cases hy; exact hf
    · rw [el] at hy
      simp only [bind, Res.bind, pure] at hy
      split at hy
      · cases hy
        exact { hf with mdata := keepOld_or km hf.mdata }
      · split at hy
        · cases hy
          exact { hf with mdata := keepOld_or km hf.mdata, layouts := keepOld_or kl hf.layouts }
        · cases hy
          exact { hf with mdata := km, layouts := kl, reels := kr }

theorem TocHeld.writable {t : TocData} (h : TocHeld t) (hv : t.isValid = true) (hk : ∀ r ∈ t.reelList, ∀ x ∈ r.list, FileKept x) : t.writable := by
  have hv' := hv
  unfold TocData.isValid at hv'
  split at hv'
  · cases hv'
  · split at hv'
    · cases hv'
    · rename_i h2
      split at hv'
      · cases hv'
      · rename_i h3
        refine ⟨hv, h.version, held_field h.job (nullOrEmpty_ne (by simpa using h2)), held_field h.reel (nullOrEmpty_ne (by simpa using h3)), ?_, ?_, ?_⟩
        · intro m e hm
          refine TocMeta.storable_of_held (h.mdata m e) ?_
          have := (h.mdata m e).2
          unfold TocMeta.isValid
          cases hs : m.sources with
          | none => rw [hs] at hm; exact absurd rfl hm
          | some l =>
            rw [hs] at hm this
            simp only [Option.getD_some] at hm this
            simp only [hs]
            rw [if_neg (by simpa using hm)]
            rw [List.all_eq_true]
            exact fun x hx => (this x hx).1
        · intro d e _
          exact h.layouts d e
        · intro r hr
          have : ∃ f, t.reels = some f ∧ r ∈ f.list := by
            unfold TocData.reelList at hr
            split at hr
            · cases hr
            · rename_i f e; exact ⟨f, e, hr⟩
          obtain ⟨f, e, hf⟩ := this
          have := (h.reels f e).2 r hf
          exact this.2.writable this.1 (hk r hr)

/-! ### What was loaded once is not changed any more -/

theorem File.asLoaded_idem (f : File) (v1 : Bool) : (f.asLoaded v1).asLoaded v1 = f.asLoaded v1 := by
  have e1 := File.asLoaded_digital f v1
  have e2 := File.asLoaded_preview f v1
  have e3 := File.asLoaded_meta f v1
  have key : ∀ g : File, g.asLoaded v1 = ⟨g.name, g.date, if g.isDigital = true ∧ v1 = false then g.checksum else some [],
      if g.isDigital then g.size else 0, g.id, if g.isDigital then g.startFrame else -1, if g.isDigital then g.startByte else -1,
      if g.isDigital then g.endFrame else -1, if g.isDigital then g.endByte else -1, g.uniqueId, g.parentId,
      (if g.isDigital then 1 else 0) + (if g.isPreview then 2 else 0), if g.isPreview then g.preview else none,
      some (g.fileFormat.getD (b! "undefined")), if g.hasMetadata then g.metadata else none⟩ := fun _ => rfl
  rw [key (f.asLoaded v1), e1, e2, e3]
  unfold File.asLoaded
  cases f.isDigital <;> cases f.isPreview <;> cases f.hasMetadata <;> cases v1 <;> rfl

theorem File.asLoaded_writable {f : File} (h : f.writable) (v1 : Bool) : (f.asLoaded v1).writable := by
  obtain ⟨hv, h1, h2, h3, h4, h5, h6, h7, h8, h9, h10, h11, h12, h13, h14⟩ := h
  refine ⟨File.asLoaded_valid hv v1, ?_, h2, h3, h4, h5, h6, ?_, ?_, ?_, ?_, ?_, ?_, ?_, ?_⟩
  · show AttrField (some (f.fileFormat.getD (b! "undefined")))
    cases e : f.fileFormat with
    | none => exact held_undefined
    | some x => rw [e] at h1; exact h1
  · show IsInt64 (if f.isDigital then f.size else 0)
    split
    · exact h7
    · decide
  · show IsInt (if f.isDigital then f.startFrame else -1)
    split
    · exact h8
    · decide
  · show IsInt (if f.isDigital then f.startByte else -1)
    split
    · exact h9
    · decide
  · show IsInt (if f.isDigital then f.endFrame else -1)
    split
    · exact h10
    · decide
  · show IsInt (if f.isDigital then f.endByte else -1)
    split
    · exact h11
    · decide
  · rw [File.asLoaded_digital]
    intro hd
    show (if f.isDigital = true ∧ v1 = false then f.checksum else some []) = some [] ∨ TextField (if f.isDigital = true ∧ v1 = false then f.checksum else some [])
    split
    · exact h12 hd
    · exact .inl rfl
  · rw [File.asLoaded_preview]
    intro hp p e
    have : (f.asLoaded v1).preview = f.preview := by simp [File.asLoaded, hp]
    rw [this] at e
    exact h13 hp p e
  · rw [File.asLoaded_meta]
    intro hp p e
    have : (f.asLoaded v1).metadata = f.metadata := by simp [File.asLoaded, hp]
    rw [this] at e
    exact h14 hp p e

theorem Files.asLoaded_list (f : Files) : f.asLoaded.list = f.list.map fun x => x.asLoaded false := by
  have : f.asLoaded.list = (if f.list = [] then none else some (f.list.map fun x => x.asLoaded false)).getD [] := rfl
  rw [this]
  split
  · rename_i e; rw [e]; rfl
  · rfl

theorem Files.asLoaded_idem (f : Files) : f.asLoaded.asLoaded = f.asLoaded := by
  have : f.asLoaded.asLoaded = ⟨if f.asLoaded.list = [] then none else some (f.asLoaded.list.map fun x => x.asLoaded false)⟩ := rfl
  rw [this, Files.asLoaded_list, List.map_map]
  have e : ((fun x : File => x.asLoaded false) ∘ fun x : File => x.asLoaded false) = fun x : File => x.asLoaded false := by
    funext x; exact File.asLoaded_idem x false
  rw [e]
  unfold Files.asLoaded
  simp only [List.map_eq_nil_iff]

theorem Reel.asLoaded_list (r : Reel) : r.asLoaded.list = r.list.map fun x => x.asLoaded false := by
  unfold Reel.asLoaded Reel.list
  cases r.files with
  | none => rfl
  | some f => exact Files.asLoaded_list f

theorem Reel.asLoaded_idem (r : Reel) : r.asLoaded.asLoaded = r.asLoaded := by
  unfold Reel.asLoaded
  cases r.files with
  | none => rfl
  | some f => simp only [Option.map_some, Files.asLoaded_idem]

theorem Reel.asLoaded_writable {r : Reel} (h : r.writable) : r.asLoaded.writable := by
  refine ⟨Reel.asLoaded_valid h, h.2.1, ?_⟩
  rw [Reel.asLoaded_list]
  intro x hx
  obtain ⟨y, hy, rfl⟩ := List.mem_map.mp hx
  exact File.asLoaded_writable (h.2.2 y hy) false

theorem Reels.asLoaded_list (r : Reels) : r.asLoaded.list = r.list.map Reel.asLoaded := by
  have : r.asLoaded.list = (if r.list = [] then none else some (r.list.map Reel.asLoaded)).getD [] := rfl
  rw [this]
  split
  · rename_i e; rw [e]; rfl
  · rfl

theorem Reels.asLoaded_idem (r : Reels) : r.asLoaded.asLoaded = r.asLoaded := by
  have : r.asLoaded.asLoaded = ⟨if r.asLoaded.list = [] then none else some (r.asLoaded.list.map Reel.asLoaded)⟩ := rfl
  rw [this, Reels.asLoaded_list, List.map_map]
  have e : (Reel.asLoaded ∘ Reel.asLoaded) = Reel.asLoaded := by
    funext x; exact Reel.asLoaded_idem x
  rw [e]
  unfold Reels.asLoaded
  simp only [List.map_eq_nil_iff]

theorem TocData.asLoaded_idem (t : TocData) : t.asLoaded.asLoaded = t.asLoaded := by
  obtain ⟨v, i, j, r, rs, m, l⟩ := t
  unfold TocData.asLoaded
  dsimp only
  congr 1
  · cases rs with
    | none => rfl
    | some x =>
      rw [Option.bind_some]
      by_cases h : x.list = []
      · rw [if_pos h]; rfl
      · rw [if_neg h, Option.bind_some, Reels.asLoaded_list, if_neg (by simpa using h), Reels.asLoaded_idem]
  · cases m with
    | none => rfl
    | some x =>
      rw [Option.bind_some]
      by_cases h : x.sources.getD [] = []
      · rw [if_pos h]; rfl
      · rw [if_neg h, Option.bind_some, if_neg h]
  · cases l with
    | none => rfl
    | some x =>
      rw [Option.bind_some]
      by_cases h : x.defs.getD [] = []
      · rw [if_pos h]; rfl
      · rw [if_neg h, Option.bind_some, if_neg h]

theorem TocData.asLoaded_reelList (t : TocData) : t.asLoaded.reelList = t.reelList.map Reel.asLoaded := by
  unfold TocData.asLoaded TocData.reelList
  dsimp only
  cases t.reels with
  | none => rfl
  | some x =>
    rw [Option.bind_some]
    by_cases h : x.list = []
    · rw [if_pos h]; simp [h]
    · rw [if_neg h]; exact Reels.asLoaded_list x

theorem TocData.asLoaded_writable {t : TocData} (h : t.writable) : t.asLoaded.writable := by
  obtain ⟨hv, h1, h2, h3, h4, h5, h6⟩ := h
  refine ⟨?_, h1, h2, h3, ?_, ?_, ?_⟩
  · have hr : ∀ rs, t.asLoaded.reels = some rs → Reels.isValid (some rs) = true := by
      intro rs e
      show rs.list.all Reel.isValid = true
      have hl : rs.list = t.asLoaded.reelList := by unfold TocData.reelList; rw [e]
      rw [hl, TocData.asLoaded_reelList, List.all_eq_true]
      intro r hr
      obtain ⟨y, hy, rfl⟩ := List.mem_map.mp hr
      exact Reel.asLoaded_valid (h6 y hy)
    have hl : t.asLoaded.layouts = t.layouts ∨ t.asLoaded.layouts = none := by
      unfold TocData.asLoaded
      dsimp only
      cases t.layouts with
      | none => exact .inl rfl
      | some d => rw [Option.bind_some]; split <;> simp
    have hm : t.asLoaded.metadata = t.metadata ∨ t.asLoaded.metadata = none := by
      unfold TocData.asLoaded
      dsimp only
      cases t.metadata with
      | none => exact .inl rfl
      | some d => rw [Option.bind_some]; split <;> simp
    unfold TocData.isValid at hv ⊢
    have q1 : t.asLoaded.version = t.version := rfl
    have q2 : t.asLoaded.jobId = t.jobId := rfl
    have q3 : t.asLoaded.reelId = t.reelId := rfl
    have q4 : t.asLoaded.indexType = t.indexType := rfl
    rw [q1, q2, q3, q4]
    split at hv
    · cases hv
    · rename_i c1
      rw [if_neg c1]
      split at hv
      · cases hv
      · rename_i c2
        rw [if_neg c2]
        split at hv
        · cases hv
        · rename_i c3
          rw [if_neg c3]
          split at hv
          · cases hv
          · rename_i c4
            rw [if_neg c4]
            split at hv
            · cases hv
            · rw [if_neg]
              · split at hv
                · cases hv
                · rename_i c6
                  rw [if_neg]
                  · split at hv
                    · cases hv
                    · rename_i c7
                      rw [if_neg]
                      rcases hm with e | e
                      · rw [e]; exact c7
                      · rw [e]; exact fun h => h.1 rfl
                  · rcases hl with e | e
                    · rw [e]; exact c6
                    · rw [e]; exact fun h => h.2 rfl
              · rintro ⟨k1, k2⟩
                cases e : t.asLoaded.reels with
                | none => exact k2 e
                | some rs => rw [e, hr rs e] at k1; cases k1
  · intro m e hm
    refine h4 m ?_ hm
    unfold TocData.asLoaded at e
    dsimp only at e
    cases e' : t.metadata with
    | none => rw [e'] at e; cases e
    | some k =>
      rw [e', Option.bind_some] at e
      split at e
      · cases e
      · exact e
  · intro m e hm
    refine h5 m ?_ hm
    unfold TocData.asLoaded at e
    dsimp only at e
    cases e' : t.layouts with
    | none => rw [e'] at e; cases e
    | some k =>
      rw [e', Option.bind_some] at e
      split at e
      · cases e
      · exact e
  · rw [TocData.asLoaded_reelList]
    intro r hr
    obtain ⟨y, hy, rfl⟩ := List.mem_map.mp hr
    exact Reel.asLoaded_writable (h6 y hy)

/-! ### Shapes that a load gives -/

/-- A file entry as a load gives it: a format is there, no unknown types, and a preview only with its type, or without any type. -/
structure FileShape (f : File) : Prop where
  fmt : f.fileFormat ≠ none
  types : f.types ≤ 3
  prev : f.isDigital = true → f.isPreview = false → f.preview = none
  vec : ∀ m, f.metadata = some m → m.sources ≠ some []

theorem loadFields_rest (f : File) (n : Node) : (f.loadFields n).types = f.types ∧ (f.loadFields n).preview = f.preview ∧
    (f.loadFields n).fileFormat ≠ none ∧ (f.loadFields n).metadata = f.metadata := by
  have k : (match strClone (n.getAttr (b! "formatId")) with
      | none => some (b! "undefined")
      | some s => some s) ≠ none := by split <;> exact (fun h => nomatch h)
  unfold File.loadFields
  dsimp only
  cases find n (b! "name") <;> cases find n (b! "uniqueId") <;> cases find n (b! "date") <;> exact ⟨rfl, rfl, k, rfl⟩

theorem loadDataV1_rest (f : File) (n : Node) : (f.loadDataV1 n).types = f.types ∧ (f.loadDataV1 n).preview = f.preview ∧
    (f.loadDataV1 n).fileFormat = f.fileFormat ∧ (f.loadDataV1 n).metadata = f.metadata := by
  unfold File.loadDataV1
  dsimp only
  cases find n (b! "size") <;> cases find n (b! "start") <;> cases find n (b! "end") <;> exact ⟨rfl, rfl, rfl, rfl⟩

theorem loadDataV2_rest (f : File) (n : Node) : (f.loadDataV2 n).types = f.types ∧ (f.loadDataV2 n).preview = f.preview ∧
    (f.loadDataV2 n).fileFormat = f.fileFormat ∧ (f.loadDataV2 n).metadata = f.metadata := by
  unfold File.loadDataV2
  dsimp only
  cases find n (b! "size") <;> cases find n (b! "start") <;> cases find n (b! "end") <;> exact ⟨rfl, rfl, rfl, rfl⟩

theorem or_types {t : Nat} (h : t = 0 ∨ t = 2) : t ||| TYPE_DIGITAL ≤ 3 ∧ (((t ||| TYPE_DIGITAL) &&& TYPE_PREVIEW) != 0) = (t != 0) := by
  rcases h with rfl | rfl <;> exact ⟨by decide, by decide⟩

theorem File.loadXml_shape (t : Node) (h : (File.create.loadXml t).1 = true) : FileShape (File.create.loadXml t).2 := by
  unfold File.loadXml at h ⊢
  split at h
  · cases h
  · rename_i n hn
    obtain ⟨e1, e2, e3, e4⟩ := loadFields_rest File.create n
    generalize File.create.loadFields n = f at *
    have hp : ((f.loadPreview n).2.types = 0 ∨ (f.loadPreview n).2.types = 2) ∧
        ((f.loadPreview n).2.types = 0 → (f.loadPreview n).2.preview = none) ∧ (f.loadPreview n).2.fileFormat = f.fileFormat ∧
        (f.loadPreview n).2.metadata = f.metadata := by
      have e1 : f.types = 0 := e1
      have e2 : f.preview = none := e2
      unfold File.loadPreview
      split
      · exact ⟨.inl e1, fun _ => e2, rfl, rfl⟩
      · dsimp only
        have : (f.addType TYPE_PREVIEW).types = 2 := by
          show f.types ||| TYPE_PREVIEW = 2
          rw [e1]; rfl
        split
        · exact ⟨.inr this, fun h => absurd (this.symm.trans h) (by decide), rfl, rfl⟩
        · exact ⟨.inr this, fun h => absurd (this.symm.trans h) (by decide), rfl, rfl⟩
    dsimp only at h ⊢
    split at h
    · rename_i hf; rw [hf] at h; cases h
    · rename_i hf
      rw [if_neg hf]
      generalize f.loadPreview n = r at *
      obtain ⟨b, g⟩ := r
      dsimp only at hp h ⊢
      have hm : (g.loadMetadata n).2.types = g.types ∧ (g.loadMetadata n).2.preview = g.preview ∧ (g.loadMetadata n).2.fileFormat = g.fileFormat ∧
          ∀ m, (g.loadMetadata n).2.metadata = some m → m.sources ≠ some [] := by
        have hg : g.metadata = none := hp.2.2.2.trans e4
        unfold File.loadMetadata
        split
        · exact ⟨rfl, rfl, rfl, fun m e => by rw [hg] at e; cases e⟩
        · rename_i p hp'
          dsimp only
          split
          · exact ⟨rfl, rfl, rfl, fun m e => by rw [hg] at e; cases e⟩
          · refine ⟨rfl, rfl, rfl, fun m e => ?_⟩
            injection e with e
            subst e
            unfold FileMeta.loadXml
            split
            · exact (vecAll_none (fun _ : FileMetaSource => True)).1
            · exact (FileMeta.loadLoop_all (P := fun _ => True) _ (fun _ _ => trivial) _ (vecAll_none _)).1
      split at h
      · rename_i hf2; rw [hf2] at h; cases h
      · rename_i hf2
        rw [if_neg hf2]
        generalize g.loadMetadata n = q at *
        obtain ⟨b2, k⟩ := q
        dsimp only at hm ⊢
        have hfmt : k.fileFormat ≠ none := by rw [hm.2.2.1, hp.2.2.1]; exact e3
        have ht : k.types = 0 ∨ k.types = 2 := by rw [hm.1]; exact hp.1
        have hpr : k.types = 0 → k.preview = none := by rw [hm.1, hm.2.1]; exact hp.2.1
        unfold File.loadDataPart
        split
        · rename_i dn hdn
          obtain ⟨d1, d2, d3, d4⟩ := loadDataV2_rest k dn
          have htt : ((k.loadDataV2 dn).addType TYPE_DIGITAL).types = k.types ||| TYPE_DIGITAL := by
            show (k.loadDataV2 dn).types ||| TYPE_DIGITAL = _
            rw [d1]
          refine ⟨by show (k.loadDataV2 dn).fileFormat ≠ none; rw [d3]; exact hfmt, by rw [htt]; exact (or_types ht).1, ?_, ?_⟩
          · intro _ hp2
            unfold File.isPreview at hp2
            rw [htt, (or_types ht).2] at hp2
            show (k.loadDataV2 dn).preview = none
            rw [d2]; exact hpr (by simpa using hp2)
          · intro m e
            exact hm.2.2.2 m (by rw [← d4]; exact e)
        · dsimp only
          obtain ⟨d1, d2, d3, d4⟩ := loadDataV1_rest k n
          have reset : ∀ g : File, FileShape g → FileShape (if g.isValid = false then { g with types := TYPE_UNDEFINED } else g) := by
            intro g hg
            split
            · exact ⟨hg.fmt, Nat.zero_le _, fun h => absurd h (by show ¬ (TYPE_UNDEFINED &&& TYPE_DIGITAL != 0) = true; decide), hg.vec⟩
            · exact hg
          split
          · refine reset _ ⟨by show (k.loadDataV1 n).fileFormat ≠ none; rw [d3]; exact hfmt, ?_, ?_, ?_⟩
            · show (k.loadDataV1 n).types ||| TYPE_DIGITAL ≤ 3
              rw [d1]; exact (or_types ht).1
            · intro _ hp2
              have hp2 : (((k.loadDataV1 n).types ||| TYPE_DIGITAL) &&& TYPE_PREVIEW != 0) = false := hp2
              rw [d1, (or_types ht).2] at hp2
              show (k.loadDataV1 n).preview = none
              rw [d2]; exact hpr (by simpa using hp2)
            · intro m e
              exact hm.2.2.2 m (by rw [← d4]; exact e)
          · refine reset _ ⟨by rw [d3]; exact hfmt, by rw [d1]; omega, ?_, ?_⟩
            · intro hd _
              unfold File.isDigital at hd
              rw [d1] at hd
              rcases ht with e | e <;> rw [e] at hd <;> cases hd
            · intro m e
              exact hm.2.2.2 m (by rw [← d4]; exact e)

/-- A digital entry that was loaded, with sources in its metadata if it has any metadata, comes back as it is. -/
theorem FileShape.same {f : File} (h : FileShape f) (hw : f.writable) (hd : f.isDigital = true) (hm : ∀ m, f.metadata = some m → m.sources ≠ none) :
    f.storable := by
  refine ⟨hw, h.fmt, h.types, hd, h.prev hd, ?_⟩
  intro hm'
  cases e : f.metadata with
  | none => rfl
  | some m =>
    exfalso
    unfold File.hasMetadata FileMeta.sourcesCount at hm'
    rw [e] at hm'
    have h1 := hm m e
    have h2 := h.vec m e
    obtain ⟨o⟩ := m
    cases o with
    | none => exact h1 rfl
    | some l =>
      cases l with
      | nil => exact h2 rfl
      | cons a l => simp [vecSize] at hm'

/-- Files that were loaded into a list, a reel, a list of reels or a table of contents have that shape. -/
theorem Files.loadXml_shape (t : Node) : VecAll FileShape (Files.create.loadXml t).2.tocs :=
  have := Files.loadLoop_all (P := FileShape) (findAll t (b! "file")) (fun n _ h => File.loadXml_shape n h) Files.create (vecAll_none _)
  ⟨this.1, fun x hx => (this.2 x hx).2⟩

def ReelShape (r : Reel) : Prop := ∀ f, r.files = some f → VecAll FileShape f.tocs

theorem Reel.loadXml_shape (t : Node) : ReelShape (Reel.create.loadXml t).2 := by
  unfold Reel.loadXml
  split
  · exact fun _ h => nomatch h
  · split
    · exact fun _ h => nomatch h
    · dsimp only
      split
      · exact fun _ h => nomatch h
      · intro f e
        injection e with e
        subst e
        exact Files.loadXml_shape _

theorem Reels.loadXml_shape (t : Node) : VecAll ReelShape (Reels.create.loadXml t).2.reels :=
  have := Reels.loadLoop_all (P := ReelShape) (Reels.loadNodes t) (fun n _ _ => Reel.loadXml_shape n) Reels.create (vecAll_none _)
  ⟨this.1, fun x hx => (this.2 x hx).2⟩

theorem TocData.loadXml_shape {t : Node} {b : Bool} {x : TocData} (hx : TocData.create.loadXml t = .ok (b, x)) :
    ∀ r, x.reels = some r → VecAll ReelShape r.reels := by
  have kr : ∀ n r, (TocData.loadReels n).2 = some r → VecAll ReelShape r.reels := by
    intro n r e
    unfold TocData.loadReels at e
    split at e
    · cases e
    · injection e with e
      subst e
      exact Reels.loadXml_shape _
  unfold TocData.loadXml at hx
  split at hx
  · cases hx; exact fun _ h => nomatch h
  · rename_i n _
    dsimp only at hx
    split at hx
    · cases hx; exact fun _ h => nomatch h
    · cases hl : TocData.loadLayouts n with
      | ub => rw [hl] at hx; cases hx
      | ok l =>
        rw [hl] at hx
        simp only [bind, Res.bind, pure] at hx
        split at hx
        · cases hx; exact fun _ h => nomatch h
        · split at hx
          · cases hx; exact fun _ h => nomatch h
          · cases hx; exact kr _

theorem VecAll.files_same {f : Files} (h : VecAll FileShape f.tocs) (hw : ∀ x ∈ f.list, x.writable) (hd : ∀ x ∈ f.list, FileWhole x) : f.storable :=
  ⟨h.1, fun x hx => (h.2 x hx).same (hw x hx) (hd x hx).1 (hd x hx).2⟩

theorem ReelShape.same {r : Reel} (h : ReelShape r) (hw : r.writable) (hd : ∀ x ∈ r.list, FileWhole x) : r.storable := by
  refine ⟨hw, fun f e => ?_⟩
  have hl : r.list = f.list := by unfold Reel.list; rw [e]
  exact VecAll.files_same (h f e) (fun x hx => hw.2.2 x (hl ▸ hx)) (fun x hx => hd x (hl ▸ hx))

end Afs
