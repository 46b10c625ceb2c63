import Verif.Proof.IoFormat
import Verif.Proof.ExampleLib
import Verif.Props.C26_Toc
import Verif.Props.C34_C39_Boxing
/-! # C49: boxing formats survive being saved and loaded

`L` is any configuration library that keeps the laws `LawfulConfig`; `Format.create2` is
`afs_boxing_format_create2`. -/
namespace Afs
open Spec Xml

variable {L : ConfigLib}

theorem formatCb_space : SpaceCb Format.cb :=
  cb_white (by
    intro a n w; unfold Format.cb cbOf; dsimp only
    (repeat' refine all_ite ?_ ?_) <;> first | exact indent_white _ | rfl)

theorem format_loadString (f : Format L) (s : Bytes) : f.loadString s = loadFromString f.loadXml (false, f) s := by
  unfold Format.loadString loadFromString
  by_cases h : s.length = 0
  · rw [if_pos h, List.length_eq_zero_iff.mp h]; rfl
  · rw [if_neg h]; cases Xml.loadString s <;> rfl

/-- The general round trip: a format whose configuration `c` can be written, saved compact or indented to
    a string or a file and loaded into any format, gives the format of a configuration that has exactly the
    properties of `c`, without those with an empty value that are not the version of a class, and exactly
    the classes that have a property left. -/
theorem C49_roundtrip_general (hL : LawfulConfig L) (f : Format L) (c : L.Config) (hc : f.config = some c)
    (h : ConfigWritable L c) (before : Format L) (compact : Bool) :
    ∃ d : L.Config,
      (∀ k p, configGet L d k p = (configGet L c k p).filter fun v => p = b! "version" ∨ v ≠ []) ∧
      (∀ k, HasClass L d k ↔ ∃ p v, configGet L c k p = some v ∧ (p = b! "version" ∨ v ≠ [])) ∧
      L.aliases d = [] ∧
      (∃ s, f.saveString compact = some s ∧ before.loadString s = (true, Format.create2 (some d))) ∧
      (∃ s, f.saveFile compact = (true, some s) ∧ before.loadFile s = (true, Format.create2 (some d))) := by
  obtain ⟨h1, h2, h3⟩ := Format.loaded_config hL h
  refine ⟨_, h1, h2, h3, ?_⟩
  unfold Format.saveString Format.saveFile Format.loadFile
  simp only [format_loadString]
  rw [Format.saveXml_some hc]
  have hs := Format.configNode_savable h
  rw [Format.configNode_eq h.1] at hs ⊢
  exact doc_roundtrip formatCb_space compact (by decide) hs _ _ _ fun T hT => by
    rw [← Format.configNode_eq h.1] at hT
    exact Format.loadXml_some h before hT

/-- A storable format is loaded as an equal one, whatever the format held that it is loaded into. -/
theorem C49_roundtrip (hL : LawfulConfig L) (f : Format L) (h : f.storable) (before : Format L) (compact : Bool) :
    ∃ g, Format.equal (some f) (some g) = true ∧ g = Format.create2 g.config ∧
      (∃ s, f.saveString compact = some s ∧ before.loadString s = (true, g)) ∧
      (∃ s, f.saveFile compact = (true, some s) ∧ before.loadFile s = (true, g)) := by
  obtain ⟨hf, hc⟩ := h
  cases hcfg : f.config with
  | none =>
    refine ⟨Format.create2 none, ?_, rfl, ?_⟩
    · rw [hcfg] at hf; rw [hf]
      simp [Format.equal, ptrEqual, Format.create2, Format.init, Format.empty, Format.eqFields, hL.equal_null, strEqStrict]
    · unfold Format.saveString Format.saveFile Format.loadFile
      simp only [format_loadString]
      rw [Format.saveXml_none hcfg]
      exact doc_roundtrip formatCb_space compact (by decide) (.branch (by decide) cleanAttrs_nil (by simp)) _ _ _ fun T hT =>
        Format.loadXml_null before hT
  | some c =>
    have hst := hc c hcfg
    have he := (Format.loaded_equal hL hst).1
    refine ⟨Format.create2 (some (Format.setAll L.create (Format.configSets c))), ?_, ?_, ?_⟩
    · rw [hcfg] at hf; rw [hf]
      exact Format.equal_init hL he
    · have : (Format.create2 (some (Format.setAll L.create (Format.configSets c)))).config =
          some (Format.setAll L.create (Format.configSets c)) := by
        unfold Format.create2 Format.init
        dsimp only
        split <;> rfl
      rw [this]
    · unfold Format.saveString Format.saveFile Format.loadFile
      simp only [format_loadString]
      rw [Format.saveXml_some hcfg]
      have hs := Format.configNode_savable hst.1
      rw [Format.configNode_eq hst.1.1] at hs ⊢
      exact doc_roundtrip formatCb_space compact (by decide) hs _ _ _ fun T hT => by
        rw [← Format.configNode_eq hst.1.1] at hT
        exact Format.loadXml_some hst.1 before hT

/-- Two formats are equal exactly when both are missing, or the library calls their configurations equal and
    name and all ten numbers are the same. -/
theorem C49_equal_iff (a b : Option (Format L)) :
    Format.equal a b = true ↔ (a = none ∧ b = none) ∨ ∃ f g, a = some f ∧ b = some g ∧ L.isEqual f.config g.config = true ∧
      ({ f with config := none } : Format L) = { g with config := none } := by
  have hs : ∀ x y : Option Bytes, strEqStrict x y = true ↔ x = y := by
    intro x y; cases x <;> cases y <;> simp [strEqStrict]
  cases a with
  | none => cases b <;> simp [Format.equal, ptrEqual]
  | some f =>
    cases b with
    | none => simp [Format.equal, ptrEqual]
    | some g =>
      obtain ⟨f0, f1, f2, f3, f4, f5, f6, f7, f8, f9, f10, f11⟩ := f
      obtain ⟨g0, g1, g2, g3, g4, g5, g6, g7, g8, g9, g10, g11⟩ := g
      simp only [Format.equal, ptrEqual, Format.eqFields, Bool.and_eq_true, hs, beq_iff_eq, reduceCtorEq, false_and, false_or,
        Option.some.injEq, exists_and_left, exists_eq_left', Format.mk.injEq, true_and, and_assoc]

/-- Formats made from equal configurations are equal: every computed size agrees. -/
theorem C49_equal_configs (hL : LawfulConfig L) (a b : L.Config) (h : L.isEqual (some a) (some b) = true) :
    Format.equal (some (Format.create2 (some a))) (some (Format.create2 (some b))) = true := Format.equal_init hL h

/-- Setting a configuration leaves nothing of the old one: the format is as if it had been made from it. -/
theorem C49_set_config (f : Format L) (c : Option L.Config) : f.setConfig c = Format.create2 c := rfl

/-- What a format tells of its configuration `c` when the library can make the frame `f` for it.  The bit depth is
    the least that suffices for the grey levels; the scaling factor is the one of the raster, else the
    one of the builder, else 1. -/
def Spec.Describes (c : L.Config) (f : FrameInfo) (g : Format L) : Prop :=
  g.config = some c ∧ g.name = L.property c (b! "FormatInfo") (b! "name") ∧
  g.width = f.width ∧ g.height = f.height ∧ g.dataFrameWidth = f.dataWidth ∧ g.dataFrameHeight = f.dataHeight ∧
  (1 ≤ f.levels → f.levels ≤ 2 ^ g.bitsPerPixel ∧ ∀ d < g.bitsPerPixel, 2 ^ d < f.levels) ∧
  (2 ≤ f.levels → g.symbolPerPixel = 2 ^ g.bitsPerPixel) ∧
  (f.capacity * g.bitsPerPixel < 4294967296 → g.bytesPerFrame = f.capacity * g.bitsPerPixel / 8) ∧
  g.dataBytesPerFrame = L.packetSize f.capacity (2 ^ g.bitsPerPixel) c ∧ g.dataStripeSize = L.stripeSize c ∧
  (L.isSet c (b! "FrameRaster") (b! "scalingFactor") = true →
    g.scalingFactor = L.propertyInt c (b! "FrameRaster") (b! "scalingFactor")) ∧
  (L.isSet c (b! "FrameRaster") (b! "scalingFactor") = false → L.isSet c (b! "BaseBuilder") L.scalingKey = true →
    g.scalingFactor = L.propertyUint c (b! "BaseBuilder") L.scalingKey) ∧
  (L.isSet c (b! "FrameRaster") (b! "scalingFactor") = false → L.isSet c (b! "BaseBuilder") L.scalingKey = false →
    g.scalingFactor = 1)

/-- A format made from a configuration, or given one, describes it; whatever it described before. -/
theorem C49_describes (c : L.Config) (f : FrameInfo) (h : L.frame c = some f) (before : Format L) :
    Spec.Describes c f (Format.create2 (some c)) ∧ Spec.Describes c f (before.setConfig (some c)) := by
  have e : before.setConfig (some c) = Format.create2 (some c) := rfl
  rw [e, and_self]
  unfold Format.create2 Format.init
  dsimp only
  rw [h]
  dsimp only
  refine ⟨rfl, rfl, rfl, rfl, rfl, rfl, fun hl => ⟨C39_depth_suffices _ hl, fun d hd => C39_depth_is_least _ d hl hd⟩, ?_, ?_, rfl, rfl, ?_, ?_, ?_⟩
  · intro hl
    dsimp only
    have : bitsPerPixel f.levels ≠ 0 := by
      intro h0
      have := C39_depth_suffices f.levels (by omega)
      rw [h0] at this
      omega
    unfold symbolPerPixel
    rw [if_neg this]
  · intro hb
    dsimp only at hb ⊢
    unfold u32
    rw [Nat.mod_eq_of_lt (show _ < two32 from hb)]
  all_goals
    intros
    dsimp only
    unfold Format.getScaling
    simp_all

/-- Without a configuration, or without a frame for it, a format has no name and all its numbers are 0. -/
theorem C49_describes_nothing (c : Option L.Config) (h : ∀ d, c = some d → L.frame d = none) :
    Format.create2 c = ⟨c, none, 0, 0, 0, 0, 0, 0, 0, 0, 0, 0⟩ := by
  unfold Format.create2 Format.init Format.empty
  cases c with
  | none => rfl
  | some d => dsimp only; rw [h d rfl]

/-- A text that is not XML, or has neither element, is refused and the format stays as it was. -/
theorem C49_load_refused (f : Format L) (s : Bytes)
    (h : ∀ d, Xml.loadString s = some d → find d (b! "NULL") = none ∧ find d (b! "work") = none) :
    f.loadString s = (false, f) := by
  unfold Format.loadString
  cases hd : Xml.loadString s with
  | none => rfl
  | some d => simp [Format.loadXml, h d hd]

/-- The copy of a format made from a configuration is equal to it exactly when the configuration gives
    a frame or has no `FormatInfo`/`name`: the copy has the name even when no frame could be made
    (src/controlframe/boxingformat.c:210, 845-858). -/
theorem C49_clone_equal_iff (hL : LawfulConfig L) (c : L.Config) :
    Format.equal (some (Format.create2 (some c))) (some (Format.create2 (some c)).clone) = true ↔
      L.frame c ≠ none ∨ L.property c (b! "FormatInfo") (b! "name") = none := by
  have hs : ∀ x : Option Bytes, strEqStrict x x = true := by intro x; cases x <;> simp [strEqStrict]
  unfold Format.create2 Format.init Format.clone Format.equal ptrEqual
  dsimp only
  cases L.frame c with
  | some f => simp [Format.eqFields, hL.equal_refl, hs]
  | none =>
    cases hn : L.property c (b! "FormatInfo") (b! "name") with
    | none => simp [Format.eqFields, Format.empty, hL.equal_refl, hs, Format.getName, hn]
    | some v => simp [Format.eqFields, Format.empty, strEqStrict, Format.getName, hn]

/-- Without a configuration the copy is equal. -/
theorem C49_clone_null (hL : LawfulConfig L) :
    Format.equal (some (Format.create : Format L)) (some (Format.create : Format L).clone) = true := by
  simp [Format.equal, ptrEqual, Format.create, Format.clone, Format.init, Format.empty, Format.eqFields, hL.equal_null, strEqStrict,
    Format.getName]

/-- A copy of a copy is the copy. -/
theorem C49_clone_clone (f : Format L) : f.clone.clone = f.clone := rfl

/-- Of a class with an alias only its version and alias are written: configurations that agree on the
    names of the classes, on the aliases, on the versions, and on the other properties of the classes
    without alias, give the same text. -/
theorem C49_alias_loses_properties (f g : Format L) (c d : L.Config) (hf : f.config = some c) (hg : g.config = some d)
    (ha : L.aliases c = L.aliases d)
    (h : List.Forall₂ (fun x y : Bytes × List (Bytes × Bytes) =>
      x.1 = y.1 ∧ x.2.lookup (b! "version") = y.2.lookup (b! "version") ∧ (x.2 = y.2 ∨ ∃ a, (a, x.1) ∈ L.aliases c))
      (L.classes c) (L.classes d)) (compact : Bool) :
    f.saveString compact = g.saveString compact ∧ f.saveFile compact = g.saveFile compact := by
  have e : f.saveXml = g.saveXml := by
    rw [Format.saveXml_some hf, Format.saveXml_some hg]
    unfold Format.configNode
    rw [← ha]
    congr 2
    generalize L.classes c = l at h
    generalize L.classes d = m at h
    induction h with
    | nil => rfl
    | @cons x y l m h _ ih =>
      rw [List.map_cons, List.map_cons, ih]
      congr 1
      obtain ⟨h1, h2, h3⟩ := h
      have hh : Format.classHead x = Format.classHead y := by unfold Format.classHead; rw [h1, h2]
      unfold Format.classNode
      rw [hh, ← h1]
      rcases h3 with h3 | ⟨a, h3⟩
      · rw [h3]
      · cases hk : Format.keyByValue (L.aliases c) x.1 with
        | some b => rfl
        | none =>
          exfalso
          unfold Format.keyByValue at hk
          rw [Option.map_eq_none_iff, List.find?_eq_none] at hk
          exact hk _ h3 (by simp)
  unfold Format.saveString Format.saveFile
  rw [e]
  exact ⟨rfl, rfl⟩

/-! ### The hypotheses are met -/

noncomputable def exConfig : exLib.Config := ⟨[(b! "FormatInfo", b! "name", b! "4k"), (b! "FrameRaster", b! "version", []),
  (b! "FrameRaster", b! "w", b! "123"), (b! "FormatInfo", b! "name", b! "old")], []⟩

theorem exConfig_storable : ConfigStorable exLib exConfig := by
  have hc : exLib.classes exConfig = [(b! "FrameRaster", [(b! "version", []), (b! "w", b! "123")]), (b! "FormatInfo", [(b! "name", b! "4k")])] := by
    decide +kernel
  unfold ConfigStorable ConfigWritable PropertyWritable
  rw [hc]
  simp only [List.mem_cons, List.not_mem_nil, or_false, forall_eq_or_imp, forall_eq]
  refine ⟨⟨rfl, ⟨clean_ascii (by decide), by decide, ⟨clean_ascii (by decide), clean_ascii (by decide), by decide, by decide⟩,
    ⟨clean_ascii (by decide), clean_ascii (by decide), by decide, by decide⟩⟩,
    ⟨clean_ascii (by decide), by decide, ⟨clean_ascii (by decide), clean_ascii (by decide), by decide, by decide⟩⟩⟩,
    ⟨by decide, by simp, by simp⟩, ⟨by decide, by simp⟩⟩

noncomputable def exFormat : Format exLib := Format.create2 (some exConfig)

theorem exFormat_storable : exFormat.storable := by
  have : exFormat.config = some exConfig := rfl
  refine ⟨by rw [this]; rfl, ?_⟩
  intro c hc
  rw [this] at hc
  injection hc with hc
  subst hc
  exact exConfig_storable

example : ∃ g, Format.equal (some exFormat) (some g) = true ∧ g = Format.create2 g.config ∧
    (∃ s, exFormat.saveString false = some s ∧ Format.create.loadString s = (true, g)) ∧
    (∃ s, exFormat.saveFile false = (true, some s) ∧ Format.create.loadFile s = (true, g)) :=
  C49_roundtrip ExConfig.lawful _ exFormat_storable _ _

/-- The unequal copy does occur. -/
theorem C49_clone_unequal_occurs : ∃ (L : ConfigLib) (c : L.Config), LawfulConfig L ∧
    Format.equal (some (Format.create2 (some c))) (some (Format.create2 (some c)).clone) = false :=
  ⟨exLib, ⟨[(b! "FormatInfo", b! "name", b! "4k")], []⟩, ExConfig.lawful, by
    rw [Bool.eq_false_iff]
    intro h
    have := (C49_clone_equal_iff ExConfig.lawful _).mp h
    revert this
    decide⟩

/-- Two configurations that the library tells apart and that are saved as the same text. -/
theorem C49_alias_loss_occurs : ∃ (L : ConfigLib) (c d : L.Config), LawfulConfig L ∧ L.isEqual (some c) (some d) = false ∧
    (Format.create2 (some c)).saveString true = (Format.create2 (some d)).saveString true :=
  ⟨exLib, ⟨[(b! "A", b! "p", b! "1")], [(b! "x", b! "A")]⟩, ⟨[(b! "A", b! "p", b! "2")], [(b! "x", b! "A")]⟩, ExConfig.lawful, by
    rw [Bool.eq_false_iff]
    intro h
    have := congrFun (congrFun ((ExConfig.isEqual_some _ _).mp h).1 (b! "A")) (b! "p")
    revert this
    decide, by
    refine (C49_alias_loses_properties (L := exLib) _ _
      ⟨[(b! "A", b! "p", b! "1")], [(b! "x", b! "A")]⟩ ⟨[(b! "A", b! "p", b! "2")], [(b! "x", b! "A")]⟩ rfl rfl rfl ?_ true).1
    change List.Forall₂ _ [_] [_]
    exact .cons ⟨rfl, rfl, .inr ⟨b! "x", by decide⟩⟩ .nil⟩

/-- A library that makes frames of five grey levels, and a configuration that sets no scaling factor. -/
example : ∃ (L : ConfigLib) (c : L.Config) (f : FrameInfo), L.frame c = some f ∧ 2 ≤ f.levels ∧
    (Format.create2 (some c)).bitsPerPixel = 3 ∧ (Format.create2 (some c)).bytesPerFrame = 300 ∧
    (Format.create2 (some c)).scalingFactor = 1 :=
  ⟨{ exLib with frame := fun _ => some ⟨100, 50, 40, 20, 5, 800⟩ }, ⟨[(b! "FormatInfo", b! "name", b! "4k")], []⟩,
    ⟨100, 50, 40, 20, 5, 800⟩, rfl, by decide, by decide +kernel, by decide +kernel, by decide +kernel⟩

end Afs
