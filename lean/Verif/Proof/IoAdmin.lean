import Verif.Proof.IoFile
import Verif.Spec.Control
/-! # Saving and loading administrative metadata -/
namespace Afs
open Spec Xml

theorem textLeaf_savable {nm : Bytes} (hn : PlainName nm) {s : Option Bytes} (h : s = some [] ∨ TextField s) :
    ∀ c ∈ textNode nm s, Savable c := by
  rcases h with rfl | h
  · intro c hc
    have : textNode nm (some []) = [.elem nm [] []] := rfl
    rw [this] at hc
    simp only [List.mem_cons, List.not_mem_nil, or_false] at hc
    subst hc
    exact .branch hn cleanAttrs_nil (by simp)
  · exact textNode_savable hn h

/-- The text read back for a tag, when the search in the written tree finds the node of that tag. -/
theorem tagText_read {nm : Bytes} {s : Option Bytes} (hs : s = some [] ∨ TextField s) {t u : Node} (hd : IsRead t u)
    (hf : find u nm = findL (textNode nm s) nm) : Admin.tagText t nm = s := by
  unfold Admin.tagText
  rcases hs with rfl | hs
  · obtain ⟨x, h1, h2⟩ := isRead_find_some hd (nm := nm) (e := .elem nm [] []) (by rw [hf]; exact findL_self _ _ _ _)
    rw [h1]; dsimp only; rw [(isRead_empty h2).2]; rfl
  · rw [File.findL_text hs] at hf
    cases s with
    | none => rw [isRead_find_none hd hf]
    | some c =>
      obtain ⟨x, h1, h2⟩ := isRead_find_some hd hf
      rw [h1]; dsimp only; rw [isRead_text h2]; rfl

namespace Admin

/-- What is written below the element. -/
def parts (a : Admin) : List Node :=
  textNode (b! "ReelId") a.reelId ++ (textNode (b! "PrintReelId") a.printReelId ++ (textNode (b! "Title") a.title ++
    (textNode (b! "Description") a.description ++ (textNode (b! "Creator") a.creator ++
    textNode (b! "CreationDate") a.creationDate))))

def node (a : Admin) : Node := .elem (b! "AdministrativeMetadata") [] a.parts

theorem saveXml_eq (a : Admin) : a.saveXml = some a.node := by
  unfold saveXml node parts
  simp only [show Node.new (b! "AdministrativeMetadata") = .elem (b! "AdministrativeMetadata") [] [] from rfl, foldl_addChild,
    List.nil_append, List.append_assoc]

theorem node_savable {a : Admin} (h : a.storable) : Savable a.node := by
  refine .branch (by decide) cleanAttrs_nil ?_
  intro c hc
  unfold storable at h
  simp only [List.mem_cons, List.not_mem_nil, or_false, forall_eq_or_imp, forall_eq] at h
  obtain ⟨h1, h2, h3, h4, h5, h6⟩ := h
  unfold parts at hc
  simp only [List.mem_append] at hc
  rcases hc with hc | hc | hc | hc | hc | hc
  · exact textLeaf_savable (by decide) h1 c hc
  · exact textLeaf_savable (by decide) h2 c hc
  · exact textLeaf_savable (by decide) h3 c hc
  · exact textLeaf_savable (by decide) h4 c hc
  · exact textLeaf_savable (by decide) h5 c hc
  · exact textLeaf_savable (by decide) h6 c hc

theorem find_parts (a : Admin) (nm : Bytes) :
    find a.node nm = (findL (textNode (b! "ReelId") a.reelId) nm).or ((findL (textNode (b! "PrintReelId") a.printReelId) nm).or
      ((findL (textNode (b! "Title") a.title) nm).or ((findL (textNode (b! "Description") a.description) nm).or
      ((findL (textNode (b! "Creator") a.creator) nm).or (findL (textNode (b! "CreationDate") a.creationDate) nm))))) := by
  unfold node parts
  rw [find_eq_findL, findL_append, findL_append, findL_append, findL_append, findL_append]

theorem loadXml_of {a : Admin} (h : a.storable) (before : Admin) {T t : Node} (hT : find T (b! "AdministrativeMetadata") = some t)
    (hd : IsRead t a.node) : before.loadXml T = (true, a) := by
  unfold storable at h
  simp only [List.mem_cons, List.not_mem_nil, or_false, forall_eq_or_imp, forall_eq] at h
  obtain ⟨h1, h2, h3, h4, h5, h6⟩ := h
  unfold loadXml
  rw [hT]
  dsimp only
  rw [tagText_read h1 hd, tagText_read h2 hd, tagText_read h3 hd, tagText_read h4 hd, tagText_read h5 hd, tagText_read h6 hd]
  all_goals
    rw [find_parts]
    simp only [File.text_none _ (show (b! "ReelId" : Bytes) ≠ b! "PrintReelId" by decide), File.text_none _ (show (b! "ReelId" : Bytes) ≠ b! "Title" by decide),
      File.text_none _ (show (b! "ReelId" : Bytes) ≠ b! "Description" by decide), File.text_none _ (show (b! "ReelId" : Bytes) ≠ b! "Creator" by decide),
      File.text_none _ (show (b! "ReelId" : Bytes) ≠ b! "CreationDate" by decide), File.text_none _ (show (b! "PrintReelId" : Bytes) ≠ b! "ReelId" by decide),
      File.text_none _ (show (b! "PrintReelId" : Bytes) ≠ b! "Title" by decide), File.text_none _ (show (b! "PrintReelId" : Bytes) ≠ b! "Description" by decide),
      File.text_none _ (show (b! "PrintReelId" : Bytes) ≠ b! "Creator" by decide), File.text_none _ (show (b! "PrintReelId" : Bytes) ≠ b! "CreationDate" by decide),
      File.text_none _ (show (b! "Title" : Bytes) ≠ b! "ReelId" by decide), File.text_none _ (show (b! "Title" : Bytes) ≠ b! "PrintReelId" by decide),
      File.text_none _ (show (b! "Title" : Bytes) ≠ b! "Description" by decide), File.text_none _ (show (b! "Title" : Bytes) ≠ b! "Creator" by decide),
      File.text_none _ (show (b! "Title" : Bytes) ≠ b! "CreationDate" by decide), File.text_none _ (show (b! "Description" : Bytes) ≠ b! "ReelId" by decide),
      File.text_none _ (show (b! "Description" : Bytes) ≠ b! "PrintReelId" by decide), File.text_none _ (show (b! "Description" : Bytes) ≠ b! "Title" by decide),
      File.text_none _ (show (b! "Description" : Bytes) ≠ b! "Creator" by decide), File.text_none _ (show (b! "Description" : Bytes) ≠ b! "CreationDate" by decide),
      File.text_none _ (show (b! "Creator" : Bytes) ≠ b! "ReelId" by decide), File.text_none _ (show (b! "Creator" : Bytes) ≠ b! "PrintReelId" by decide),
      File.text_none _ (show (b! "Creator" : Bytes) ≠ b! "Title" by decide), File.text_none _ (show (b! "Creator" : Bytes) ≠ b! "Description" by decide),
      File.text_none _ (show (b! "Creator" : Bytes) ≠ b! "CreationDate" by decide), File.text_none _ (show (b! "CreationDate" : Bytes) ≠ b! "ReelId" by decide),
      File.text_none _ (show (b! "CreationDate" : Bytes) ≠ b! "PrintReelId" by decide), File.text_none _ (show (b! "CreationDate" : Bytes) ≠ b! "Title" by decide),
      File.text_none _ (show (b! "CreationDate" : Bytes) ≠ b! "Description" by decide), File.text_none _ (show (b! "CreationDate" : Bytes) ≠ b! "Creator" by decide),
      Option.none_or, Option.or_none]

end Admin
end Afs
