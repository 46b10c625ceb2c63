import Verif.Spec.Stable
import Verif.Proof.Grammar5
import Verif.Proof.Cut4
import Verif.Proof.Trim
import Verif.Proof.IoToc
import Verif.Proof.IoAdmin
import Verif.Proof.LoadValid
import Verif.Props.C27_C28_Text
/-! # What a load from a clean document gives is clean (C70) -/
namespace Afs
open Spec Xml

/-! ### Texts -/

theorem trimByte_small {c : UInt8} (h : isTrimByte c = true) : c.toNat < 128 := by
  unfold isTrimByte at h
  simp only [Bool.or_eq_true, beq_iff_eq] at h
  rcases h with (h | h) | h <;> subst h <;> decide

theorem clean_drop {a s : Bytes} (ha : ∀ c ∈ a, c.toNat < 128) (h : CleanText (a ++ s)) : CleanText s := by
  obtain ⟨cs, h1, h2⟩ := h
  obtain ⟨t, h3, h4⟩ := Xml.utf8_strip a cs s ha h2.symm
  exact ⟨t, fun c hc => h1 c (h4 c hc), h3⟩

theorem clean_cutR {s : Bytes} : ∀ {r : Bytes}, (∀ c ∈ r, c.toNat < 128) → CleanText (s ++ r.reverse) → CleanText s
  | [], _, h => by simpa using h
  | x :: r, hr, h => by
    rw [List.reverse_cons, ← List.append_assoc] at h
    obtain ⟨cs, h1, h2⟩ := h
    obtain ⟨p, c, e, _, h3⟩ := Xml.utf8_last (hr x (by simp)) h2.symm
    exact clean_cutR (r := r) (fun c hc => hr c (by simp [hc])) ⟨p, fun c hc => h1 c (by simp [e, hc]), h3.symm⟩

theorem clean_cut {s b : Bytes} (hb : ∀ c ∈ b, c.toNat < 128) (h : CleanText (s ++ b)) : CleanText s :=
  clean_cutR (r := b.reverse) (by simpa using hb) (by simpa using h)

theorem clean_trim {s : Bytes} (h : CleanText s) : CleanText (stringTrim s) := by
  obtain ⟨a, b, e, ha, hb, _⟩ := stringTrim_spec s
  rw [e] at h
  exact clean_drop (fun c hc => trimByte_small (ha c hc)) (clean_cut (fun c hc => trimByte_small (hb c hc)) h)

theorem cleanData_trim {s : Bytes} (h : CleanData s) : CleanData (stringTrim s) := by
  refine ⟨clean_trim h.1, fun hi => h.2 ?_⟩
  obtain ⟨a, b, e, _⟩ := stringTrim_spec s
  rw [e]
  exact hi.trans ⟨a, b, rfl⟩

theorem trimmed_trim (s : Bytes) : Trimmed (stringTrim s) := by
  obtain ⟨_, _, _, _, _, h⟩ := stringTrim_spec s
  intro c hc
  have : isTrimByte c = false := by exact hc.elim (h.1 c) (h.2 c)
  unfold isTrimByte at this
  simp only [Bool.or_eq_false_iff, beq_eq_false_iff_ne] at this
  exact ⟨this.2, this.1.1, this.1.2⟩

/-- A text as a load gives it: clean and trimmed. -/
def Held (s : Option Bytes) : Prop := ∀ t, s = some t → CleanText t ∧ Trimmed t

theorem held_none : Held none := fun _ h => nomatch h

theorem held_nil : Held (some []) := fun t h => by
  injection h with h
  subst h
  exact ⟨Xml.clean_nil, fun c hc => by simp at hc⟩

theorem held_field {s : Option Bytes} (h : Held s) (hn : s ≠ some []) : TextField s := fun t e =>
  ⟨(h t e).1, fun he => hn (he ▸ e), (h t e).2⟩

theorem held_cases {s : Option Bytes} (h : Held s) : s = some [] ∨ TextField s := by
  by_cases hn : s = some []
  · exact .inl hn
  · exact .inr (held_field h hn)

/-! ### Trees -/

theorem _root_.Afs.Spec.CleanDoc.child {n as cs c} (h : CleanDoc (.elem n as cs)) (hc : c ∈ cs) : CleanDoc c := by
  cases h with
  | cdata => cases hc
  | elem _ _ h _ => exact h c hc

mutual
theorem clean_desc : ∀ (t : Node), CleanDoc t → ∀ d ∈ descendants t, CleanDoc d
  | .text _, _, d, hd => by rw [descendants] at hd; cases hd
  | .elem n as cs, h, d, hd => by
    rw [descendants] at hd
    exact clean_descList cs (fun c hc => h.child hc) d hd
theorem clean_descList : ∀ (cs : List Node), (∀ c ∈ cs, CleanDoc c) → ∀ d ∈ descendantsList cs, CleanDoc d
  | [], _, d, hd => by rw [descendantsList] at hd; cases hd
  | c :: cs, h, d, hd => by
    rw [descendantsList, List.mem_cons, List.mem_append] at hd
    rcases hd with rfl | hd | hd
    · exact h _ (by simp)
    · exact clean_desc c (h c (by simp)) d hd
    · exact clean_descList cs (fun c hc => h c (by simp [hc])) d hd
end

theorem clean_find {t d : Node} {nm : Bytes} (h : CleanDoc t) (hd : find t nm = some d) : CleanDoc d :=
  clean_desc t h d (List.mem_of_find?_eq_some hd)

theorem named_find {t d : Node} {nm : Bytes} (hd : find t nm = some d) : named nm d = true := by
  unfold find at hd
  exact List.find?_some hd

theorem clean_findAll {t : Node} {nm : Bytes} (h : CleanDoc t) : ∀ d ∈ findAll t nm, CleanDoc d :=
  fun d hd => clean_desc t h d (List.mem_filter.mp hd).1

theorem clean_selfOrFind {t d : Node} {nm : Bytes} (h : CleanDoc t) (hd : selfOrFind t nm = some d) : CleanDoc d := by
  unfold selfOrFind at hd
  split at hd
  · injection hd with hd; exact hd ▸ h
  · exact clean_find h hd

mutual
theorem clean_under : ∀ (t : Node), CleanDoc t → ∀ d ∈ descUnder t, CleanDoc d.2
  | .text _, _, d, hd => by rw [descUnder] at hd; cases hd
  | .elem n as cs, h, d, hd => by
    rw [descUnder] at hd
    exact clean_underList n cs (fun c hc => h.child hc) d hd
theorem clean_underList (p : Bytes) : ∀ (cs : List Node), (∀ c ∈ cs, CleanDoc c) → ∀ d ∈ descUnderList p cs, CleanDoc d.2
  | [], _, d, hd => by rw [descUnderList] at hd; cases hd
  | c :: cs, h, d, hd => by
    rw [descUnderList, List.mem_cons, List.mem_append] at hd
    rcases hd with rfl | hd | hd
    · exact h _ (by simp)
    · exact clean_under c (h c (by simp)) d hd
    · exact clean_underList p cs (fun c hc => h c (by simp [hc])) d hd
end

theorem clean_findUnder {t d : Node} {p nm : Bytes} (h : CleanDoc t) (hd : findUnder t p nm = some d) : CleanDoc d := by
  unfold findUnder at hd
  rw [Option.map_eq_some_iff] at hd
  obtain ⟨x, hx, rfl⟩ := hd
  exact clean_under t h x (List.mem_of_find?_eq_some hx)

theorem findAttr_mem {nm v : Bytes} : ∀ {as : List (Bytes × Option Bytes)}, Node.findAttr nm as = some v → ∃ a ∈ as, a.2 = some v
  | [], h => nomatch h
  | (n, w) :: as, h => by
    rw [Node.findAttr] at h
    split at h
    · exact ⟨_, List.mem_cons_self, h⟩
    · obtain ⟨a, ha, hv⟩ := findAttr_mem h
      exact ⟨a, List.mem_cons_of_mem _ ha, hv⟩

theorem clean_attr {t : Node} (h : CleanDoc t) (nm : Bytes) : AttrField (t.getAttr nm) := by
  intro v hv
  unfold Node.getAttr at hv
  obtain ⟨a, ha, e⟩ := findAttr_mem hv
  cases h with
  | text => cases ha
  | cdata => cases ha
  | elem _ h _ _ => exact h a ha v e

theorem clean_opaque {t : Node} (h : CleanDoc t) : AttrField t.getOpaque := by
  intro v hv
  cases h with
  | text h => injection hv with hv; exact hv ▸ h
  | cdata => cases hv
  | @elem n as cs _ _ h _ =>
    cases cs with
    | nil => cases hv
    | cons c cs =>
      cases c with
      | elem => cases hv
      | text s =>
        injection hv with hv
        have := h _ List.mem_cons_self
        cases this with
        | text h => exact hv ▸ h

theorem held_nodeText {o : Option Node} (h : ∀ n, o = some n → CleanDoc n) : Held (nodeText o) := by
  intro t ht
  cases o with
  | none => cases ht
  | some n =>
    unfold nodeText at ht
    rw [Option.map_eq_some_iff] at ht
    obtain ⟨s, hs, rfl⟩ := ht
    exact ⟨clean_trim (clean_opaque (h n rfl) s hs), trimmed_trim s⟩

theorem held_find {t : Node} (h : CleanDoc t) (nm : Bytes) : Held (nodeText (find t nm)) :=
  held_nodeText fun _ hn => clean_find h hn

theorem clean_firstCData : ∀ {cs : List Node}, (∀ c ∈ cs, CleanDoc c) → ∀ d, firstCData cs = some d → CleanData d
  | [], _, d, hd => nomatch hd
  | c :: cs, h, d, hd => by
    rw [firstCData] at hd
    have hc := h c List.mem_cons_self
    cases hc with
    | text _ =>
      exact clean_firstCData (fun c hc => h c (List.mem_cons_of_mem _ hc)) d hd
    | @cdata e he =>
      have : (Node.newCDATA e).getCDATA = some (e ++ b! "]]") := by
        unfold Node.newCDATA Node.getCDATA Node.cdataOpen Node.cdataClose
        dsimp only
        rw [if_pos (by simp)]
        simp
      rw [this] at hd
      dsimp only at hd
      injection hd with hd
      have e2 : stripBrackets (e ++ b! "]]") = e := by
        unfold stripBrackets
        rw [if_pos (by simp)]
        simp
      rw [e2] at hd
      exact hd ▸ he
    | @elem n as ks hn _ _ _ =>
      have : (Node.elem n as ks).getCDATA = none := by
        unfold Node.getCDATA
        dsimp only
        rw [if_neg]
        intro e
        exact hn ⟨n.drop 8, by unfold Node.cdataOpen at e; rw [← e, List.take_append_drop]⟩
      rw [this] at hd
      exact clean_firstCData (fun c hc => h c (List.mem_cons_of_mem _ hc)) d hd

theorem clean_loadData {n : Node} (h : CleanDoc n) (hn : named (b! "data") n = true) : ∀ d, loadData none n = some d → CleanData d := by
  intro d hd
  unfold loadData at hd
  cases h with
  | text => cases hn
  | cdata => exact absurd hn (by unfold Node.newCDATA named Node.element Node.cdataOpen; simp)
  | @elem m as cs _ _ hc hx =>
    have hm : m = b! "data" := by
      unfold named Node.element at hn
      simpa using hn
    rw [Node.children] at hd
    cases hf : firstCData cs with
    | some e =>
      rw [hf] at hd
      dsimp only at hd
      injection hd with hd
      exact hd ▸ clean_firstCData hc e hf
    | none =>
      rw [hf] at hd
      dsimp only at hd
      unfold nodeText at hd
      rw [Option.map_eq_some_iff] at hd
      obtain ⟨s, hs, rfl⟩ := hd
      cases cs with
      | nil => cases hs
      | cons c cs =>
        cases c with
        | elem => cases hs
        | text t =>
          injection hs with hs
          subst hs
          exact cleanData_trim (hx hm t List.mem_cons_self)

theorem isUInt_attr {n : Node} {nm : Bytes} {v : Nat} (h : uintAttr n nm = some v) : IsUInt v := by
  unfold uintAttr at h
  rw [Option.map_eq_some_iff] at h
  obtain ⟨s, _, rfl⟩ := h
  unfold uOfInt IsUInt two32
  omega

theorem isInt_attr {n : Node} {nm : Bytes} {v : Int} (h : intAttr n nm = some v) : IsInt v := by
  unfold intAttr at h
  rw [Option.map_eq_some_iff] at h
  obtain ⟨s, _, rfl⟩ := h
  exact C27_atoi_range s

theorem isInt_attrD {n : Node} {nm : Bytes} {v : Int} (h : IsInt v) : IsInt ((intAttr n nm).getD v) := by
  cases e : intAttr n nm with
  | none => exact h
  | some w => exact isInt_attr e

theorem isInt_elem {n : Node} {nm : Bytes} {v : Int} (h : intElement n nm = some v) : IsInt v := by
  unfold intElement at h
  rw [Option.map_eq_some_iff] at h
  obtain ⟨s, _, rfl⟩ := h
  exact C27_atoi_range s

theorem isInt_elemD {n : Node} {nm : Bytes} {v : Int} (h : IsInt v) : IsInt ((intElement n nm).getD v) := by
  cases e : intElement n nm with
  | none => exact h
  | some w => exact isInt_elem e

end Afs
