import Verif.Proof.Stable4
/-!
# A check for clean trees of ASCII texts (for examples)
-/
namespace Afs
open Spec Xml

def asciiText (s : Bytes) : Bool := s.all okByte

/-- No `]]>`. -/
def noEnd : Bytes → Bool
  | [] => true
  | c :: s => !((b! "]]>").isPrefixOf (c :: s)) && noEnd s

def cdataText (n : Bytes) : Bytes := (n.drop 8).take (n.length - 10)

mutual
def asciiDoc : Node → Bool
  | .text s => asciiText s
  | .elem n as cs =>
    if cs.isEmpty && as.isEmpty && n == b! "![CDATA[" ++ cdataText n ++ b! "]]" then asciiText (cdataText n) && noEnd (cdataText n)
    else !(b! "![CDATA[").isPrefixOf n && as.all (fun a => asciiText (a.2.getD [])) && asciiDocs cs && (n != b! "data" || dataTexts cs)
def asciiDocs : List Node → Bool
  | [] => true
  | c :: cs => asciiDoc c && asciiDocs cs
/-- Texts among these nodes have no `]]>`. -/
def dataTexts : List Node → Bool
  | [] => true
  | .text s :: cs => noEnd s && dataTexts cs
  | .elem .. :: cs => dataTexts cs
end

theorem asciiText_clean {s : Bytes} (h : asciiText s = true) : CleanText s :=
  clean_ascii fun b hb => List.all_eq_true.mp h b hb

theorem noEnd_ok : ∀ {s : Bytes}, noEnd s = true → ¬ (b! "]]>") <:+: s
  | [], _, h => by
    obtain ⟨a, b, h⟩ := h
    simp at h
  | c :: s, hn, h => by
    rw [noEnd, Bool.and_eq_true, Bool.not_eq_true'] at hn
    rcases List.infix_cons_iff.mp h with h | h
    · rw [← List.isPrefixOf_iff_prefix] at h
      rw [h] at hn
      exact absurd hn.1 (by decide)
    · exact noEnd_ok hn.2 h

theorem dataTexts_ok : ∀ {cs : List Node}, dataTexts cs = true → ∀ s, .text s ∈ cs → noEnd s = true
  | [], _, _, h => nomatch h
  | .text t :: cs, hd, s, h => by
    rw [dataTexts, Bool.and_eq_true] at hd
    rcases List.mem_cons.mp h with e | h
    · injection e with e; exact e ▸ hd.1
    · exact dataTexts_ok hd.2 s h
  | .elem .. :: cs, hd, s, h => by
    rw [dataTexts] at hd
    rcases List.mem_cons.mp h with e | h
    · cases e
    · exact dataTexts_ok hd s h

mutual
theorem asciiDoc_clean : ∀ (n : Node), asciiDoc n = true → CleanDoc n
  | .text s, h => .text (asciiText_clean (by rwa [asciiDoc] at h))
  | .elem n as cs, h => by
    rw [asciiDoc] at h
    split at h
    · rename_i hc
      rw [Bool.and_eq_true, Bool.and_eq_true, List.isEmpty_iff, List.isEmpty_iff, beq_iff_eq] at hc
      rw [Bool.and_eq_true] at h
      obtain ⟨⟨rfl, rfl⟩, e⟩ := hc
      have : CleanDoc (Node.newCDATA (cdataText n)) := .cdata ⟨asciiText_clean h.1, noEnd_ok h.2⟩
      unfold Node.newCDATA at this
      rw [e]
      exact this
    · rw [Bool.and_eq_true, Bool.and_eq_true, Bool.and_eq_true, Bool.not_eq_true', Bool.or_eq_true] at h
      obtain ⟨⟨⟨h1, h2⟩, h3⟩, h4⟩ := h
      have hcs := asciiDocs_clean cs h3
      refine .elem ?_ ?_ hcs ?_
      · rw [← List.isPrefixOf_iff_prefix]
        intro e
        rw [e] at h1; cases h1
      · intro a ha v hv
        have := List.all_eq_true.mp h2 a ha
        rw [hv] at this
        exact asciiText_clean this
      · intro hn s hs
        rcases h4 with h4 | h4
        · simp [hn] at h4
        · refine ⟨?_, noEnd_ok (dataTexts_ok h4 s hs)⟩
          cases hcs _ hs with
          | text h => exact h
theorem asciiDocs_clean : ∀ (cs : List Node), asciiDocs cs = true → ∀ c ∈ cs, CleanDoc c
  | [], _, _, h => nomatch h
  | c :: cs, hd, d, h => by
    rw [asciiDocs, Bool.and_eq_true] at hd
    rcases List.mem_cons.mp h with e | h
    · rw [e]; exact asciiDoc_clean c hd.1
    · exact asciiDocs_clean cs hd.2 d h
end

instance decSome {α : Type} {P : α → Prop} [DecidablePred P] (o : Option α) : Decidable (∀ x, o = some x → P x) :=
  match o with
  | none => isTrue fun _ h => nomatch h
  | some x => if h : P x then isTrue fun y e => (by injection e with e; exact e ▸ h) else isFalse fun k => h (k x rfl)

instance (p : Page) : Decidable (SizesKept p) := by unfold SizesKept; infer_instance
instance (p : Preview) : Decidable (PreviewKept p) := by unfold PreviewKept; infer_instance
instance (m : FileMeta) : Decidable (MetaKept m) := by unfold MetaKept; infer_instance
instance (f : File) : Decidable (FileKept f) := by unfold FileKept; infer_instance
instance (f : File) : Decidable (FileWhole f) := by unfold FileWhole; infer_instance
instance (t : TocData) : Decidable (TocWhole t) := by unfold TocWhole; infer_instance

end Afs
