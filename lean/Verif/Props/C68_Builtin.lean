import Verif.Model.Builtin
import Verif.Spec.Builtin
import Verif.Proof.ControlSchema
import Verif.Proof.Eval
import Verif.Props.C49_FormatXml
/-!
# C68: the built-in boxing formats

The library has five control frame formats built in, as XML texts (src/controlframeboxingformat.c).  What they say is in
Spec/Builtin.lean, found with another XML parser.  `L` is any configuration library.
-/
namespace Afs
open Spec Xml Xml.Eval Spec.Document

/-- The settings in `work` of a document without `NULL`. -/
def foundIn (d : Option Node) : Option (List (Bytes × Bytes × Bytes)) :=
  d.bind fun d => if (find d (b! "NULL")).isNone then (find d (b! "work")).map settings else none

theorem found_builtin (i : Fin 5) : foundIn (Xml.loadString (builtinFormat i)) = some (builtinSays i) := by
  match i with
  | 0 => exact (congrArg foundIn (loadString_lines (ls := builtinV7) (by decide +kernel))).trans (by decide +kernel)
  | 1 => exact (congrArg foundIn (loadString_lines (ls := builtinV6) (by decide +kernel))).trans (by decide +kernel)
  | 2 => exact (congrArg foundIn (loadString_lines (ls := builtinV5) (by decide +kernel))).trans (by decide +kernel)
  | 3 => exact (congrArg foundIn (loadString_lines (ls := builtinV4) (by decide +kernel))).trans (by decide +kernel)
  | 4 => exact (congrArg foundIn (loadString_lines (ls := builtinV3) (by decide +kernel))).trans (by decide +kernel)

theorem builtin_ascii (i : Fin 5) : asciiLine (builtinFormat i) = true := by
  have h : ∀ ls : List Bytes, ls.all asciiLine = true → asciiLine ls.flatten = true := by
    intro ls h
    unfold asciiLine at *
    rw [List.all_eq_true] at *
    intro b hb
    obtain ⟨l, hl, hb⟩ := List.mem_flatten.mp hb
    exact List.all_eq_true.mp (h l hl) b hb
  match i with
  | 0 => exact h builtinV7 (by decide +kernel)
  | 1 => exact h builtinV6 (by decide +kernel)
  | 2 => exact h builtinV5 (by decide +kernel)
  | 3 => exact h builtinV4 (by decide +kernel)
  | 4 => exact h builtinV3 (by decide +kernel)

theorem decodeFile_asciiLine {l : Bytes} (h : asciiLine l = true) : decodeFile l = decode l := by
  induction l with
  | nil => rfl
  | cons b l ih =>
    unfold asciiLine at h ih
    rw [List.all_cons, Bool.and_eq_true, Bool.and_eq_true, decide_eq_true_eq, Bool.not_eq_true'] at h
    rw [decode.eq_def, decodeFile.eq_def]
    dsimp only
    rw [if_pos h.1.1, if_pos h.1.1, h.1.2, ih h.2]

/-- The texts are as long as the table of lengths says, and no byte of them is zero: nothing ends them, so they cannot be given to
    `afs_boxing_format_load_string` as they are, only a copy of that length with a zero byte after it. -/
theorem C68_text (i : Fin 5) : (builtinFormat i).length = builtinFormatLen i ∧ 0 ∉ builtinFormat i := by
  constructor
  · have h : ∀ ls : List Bytes, ls.flatten.length = (ls.map List.length).sum := fun ls => List.length_flatten
    match i with
    | 0 => exact (h builtinV7).trans (by decide +kernel)
    | 1 => exact (h builtinV6).trans (by decide +kernel)
    | 2 => exact (h builtinV5).trans (by decide +kernel)
    | 3 => exact (h builtinV4).trans (by decide +kernel)
    | 4 => exact (h builtinV3).trans (by decide +kernel)
  · intro h
    have := List.all_eq_true.mp (builtin_ascii i) 0 h
    revert this
    decide

variable {L : ConfigLib}

/-- Loading a built-in format, from a string or from a file with its text, succeeds.  The new format is made from a new configuration
    with the properties set one after the other, as the text says; nothing is left of what the format held before. -/
theorem C68_loads (f : Format L) (i : Fin 5) :
    let g := Format.create2 (some ((builtinSays i).foldl (fun c x => L.setProperty c x.1 x.2.1 x.2.2) L.create))
    f.loadString (builtinFormat i) = (true, g) ∧ f.loadFile (builtinFormat i) = (true, g) := by
  have h := found_builtin i
  have e : Xml.loadFile (builtinFormat i) = Xml.loadString (builtinFormat i) := by
    unfold Xml.loadFile Xml.loadString
    rw [decodeFile_asciiLine (builtin_ascii i)]
  have key : ∀ d, Xml.loadString (builtinFormat i) = some d →
      f.loadXml d = (true, Format.create2 (some (Format.setAll L.create (builtinSays i)))) := by
    intro d hd
    rw [hd] at h
    unfold foundIn at h
    rw [Option.bind_some] at h
    generalize builtinSays i = l at h ⊢
    unfold Format.loadXml
    cases hn : find d (b! "NULL") with
    | some x => rw [hn] at h; cases h
    | none =>
      rw [hn, Option.isNone_none, if_pos rfl] at h
      dsimp only
      cases hw : find d (b! "work") with
      | none => rw [hw] at h; cases h
      | some w =>
        rw [hw, Option.map_some] at h
        injection h with h
        dsimp only
        rw [loadConfig_settings, h]
        rfl
  intro g
  unfold Format.loadString Format.loadFile loadFromFile
  rw [e]
  cases hd : Xml.loadString (builtinFormat i) with
  | none => rw [hd] at h; cases h
  | some d => exact ⟨key d hd, key d hd⟩

variable (hL : LawfulConfig L)
include hL

/-- A configuration with clean, not empty settings can be stored. -/
theorem storable_of_holds {c : L.Config} {l : List (Bytes × Bytes × Bytes)} (h : Holds L c l)
    (hl : ∀ x ∈ l, CleanText x.1 ∧ x.1 ≠ [] ∧ PropertyWritable x.2 ∧ (x.2.1 = b! "version" ∨ x.2.2 ≠ [])) : ConfigStorable L c := by
  obtain ⟨h1, h2, h3⟩ := h
  have mem : ∀ k p v, configGet L c k p = some v → (k, p, v) ∈ l := by
    intro k p v hg
    rw [h1] at hg
    unfold lastValue at hg
    cases hf : l.reverse.find? fun x => decide (x.1 = k ∧ x.2.1 = p) with
    | none => rw [hf] at hg; cases hg
    | some x =>
      rw [hf, Option.map_some] at hg
      injection hg with hg
      have hx := List.find?_some hf
      have hm := List.mem_reverse.mp (List.mem_of_find?_eq_some hf)
      obtain ⟨k', p', v'⟩ := x
      simp only [decide_eq_true_eq] at hx
      obtain ⟨rfl, rfl⟩ := hx
      exact hg ▸ hm
  have cls : ∀ g ∈ L.classes c, ∃ p v, (g.1, p, v) ∈ l := by
    intro g hg
    obtain ⟨x, hx, hk⟩ := (h2 g.1).mp (List.mem_map.mpr ⟨g, hg, rfl⟩)
    exact ⟨x.2.1, x.2.2, hk ▸ hx⟩
  have prop : ∀ g ∈ L.classes c, ∀ p ∈ g.2, (g.1, p) ∈ l := fun g hg p hp =>
    mem g.1 p.1 p.2 ((Format.get_iff hL c g.1 p.1 p.2).mpr ⟨g.2, hg, hp⟩)
  refine ⟨⟨h3, fun g hg => ?_⟩, fun g hg => ⟨?_, fun p hp => (hl _ (prop g hg p hp)).2.2.2⟩⟩
  · obtain ⟨p, v, hm⟩ := cls g hg
    exact ⟨(hl _ hm).1, (hl _ hm).2.1, fun q hq => (hl _ (prop g hg q hq)).2.2.1⟩
  · obtain ⟨p, v, hm⟩ := cls g hg
    intro he
    have hs : configGet L c g.1 p ≠ none := by
      rw [h1]
      unfold lastValue
      intro hn
      rw [Option.map_eq_none_iff, List.find?_eq_none] at hn
      exact hn _ (List.mem_reverse.mpr hm) (by simp)
    cases hc : configGet L c g.1 p with
    | none => exact hs hc
    | some w =>
      obtain ⟨ps, hps, hw⟩ := (Format.get_iff hL c g.1 p w).mp hc
      have : ps = g.2 := by
        have e1 := Format.lookup_of_mem (hL.classes_nodup c) hps
        have e2 := Format.lookup_of_mem (hL.classes_nodup c) (p := g.1) (v := g.2) hg
        rw [e1] at e2
        injection e2
      rw [this, he] at hw
      cases hw

theorem builtin_noAlias (i : Fin 5) (hi : i.val < 3) : NoAlias (builtinSays i) := by
  have h : ∀ l : List (Bytes × Bytes × Bytes), l.all (fun x => x.2.1 != b! "alias") = true → NoAlias l := by
    intro l hl x hx
    simpa using List.all_eq_true.mp hl x hx
  match i with
  | 0 => exact h saidByV7 (by decide +kernel)
  | 1 => exact h saidByV6 (by decide +kernel)
  | 2 => exact h saidByV5 (by decide +kernel)

/-- The first three built-in formats (called v7, v6 and v5 in the texts) have exactly the settings of their texts, and the name
    `4k-controlframe-v7`, `-v6`, `-v5`.  The others set aliases, whose meaning is the library's. -/
theorem C68_settings (f : Format L) (i : Fin 5) (hi : i.val < 3) : ∃ c : L.Config,
    f.loadString (builtinFormat i) = (true, Format.create2 (some c)) ∧ Holds L c (builtinSays i) ∧
    configGet L c (b! "FormatInfo") (b! "name") = some ([b! "4k-controlframe-v7", b! "4k-controlframe-v6", b! "4k-controlframe-v5"][i.val]) := by
  have h := holds_settings hL (builtin_noAlias hL i hi)
  refine ⟨_, (C68_loads f i).1, h, (h.1 _ _).trans ?_⟩
  match i with
  | 0 => exact (by decide +kernel : lastValue saidByV7 (b! "FormatInfo") (b! "name") = some (b! "4k-controlframe-v7"))
  | 1 => exact (by decide +kernel : lastValue saidByV6 (b! "FormatInfo") (b! "name") = some (b! "4k-controlframe-v6"))
  | 2 => exact (by decide +kernel : lastValue saidByV5 (b! "FormatInfo") (b! "name") = some (b! "4k-controlframe-v5"))

theorem builtin_clean (i : Fin 5) (hi : i.val < 3) : ∀ x ∈ builtinSays i,
    CleanText x.1 ∧ x.1 ≠ [] ∧ PropertyWritable x.2 ∧ (x.2.1 = b! "version" ∨ x.2.2 ≠ []) := by
  have h : ∀ l : List (Bytes × Bytes × Bytes), l.all (fun x => x.1.all okByte && !x.1.isEmpty && x.2.1.all okByte && !x.2.1.isEmpty &&
      x.2.2.all okByte && !x.2.2.isEmpty) = true → NoAlias l →
      ∀ x ∈ l, CleanText x.1 ∧ x.1 ≠ [] ∧ PropertyWritable x.2 ∧ (x.2.1 = b! "version" ∨ x.2.2 ≠ []) := by
    intro l hl ha x hx
    have := List.all_eq_true.mp hl x hx
    simp only [Bool.and_eq_true, Bool.not_eq_true', List.isEmpty_eq_false_iff] at this
    obtain ⟨⟨⟨⟨⟨a1, a2⟩, a3⟩, a4⟩, a5⟩, a6⟩ := this
    exact ⟨clean_ascii (List.all_eq_true.mp a1), a2, ⟨clean_ascii (List.all_eq_true.mp a3), clean_ascii (List.all_eq_true.mp a5), a4, ha x hx⟩, .inr a6⟩
  have ha := builtin_noAlias hL i hi
  match i with
  | 0 => exact h saidByV7 (by decide +kernel) ha
  | 1 => exact h saidByV6 (by decide +kernel) ha
  | 2 => exact h saidByV5 (by decide +kernel) ha

/-- They can be stored: saved, compact or indented, to a string or a file, and loaded again, they are equal. -/
theorem C68_roundtrip (f before : Format L) (i : Fin 5) (hi : i.val < 3) (compact : Bool) : ∃ b g : Format L,
    f.loadString (builtinFormat i) = (true, b) ∧ Format.equal (some b) (some g) = true ∧
    (∃ s, b.saveString compact = some s ∧ before.loadString s = (true, g)) ∧
    (∃ s, b.saveFile compact = (true, some s) ∧ before.loadFile s = (true, g)) := by
  obtain ⟨c, h1, h2, _⟩ := C68_settings hL f i hi
  have hs : ConfigStorable L c := by
    refine storable_of_holds hL h2 ?_
    exact builtin_clean hL i hi
  have hcfg : (Format.create2 (some c)).config = some c := by
    unfold Format.create2 Format.init
    dsimp only
    split <;> rfl
  obtain ⟨g, g1, _, g2, g3⟩ := C49_roundtrip hL (Format.create2 (some c)) ⟨by rw [hcfg], by
    intro d hd
    rw [hcfg] at hd
    injection hd with hd
    exact hd ▸ hs⟩ before compact
  exact ⟨_, g, h1, g1, g2, g3⟩

example (f before : Format exLib) := C68_roundtrip ExConfig.lawful f before 1 (by decide) true

end Afs
