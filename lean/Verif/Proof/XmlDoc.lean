import Verif.Proof.Save
/-! # Documents with several top-level elements -/
namespace Afs
open Spec Xml

theorem noAdj_prefix : ∀ (a b : List Node), NoAdjacentText (a ++ b) → NoAdjacentText a
  | [], _, _ => trivial
  | .elem _ _ _ :: a, b, h => noAdj_prefix a b h
  | .text s :: a, b, h => by
    obtain ⟨h1, h2, h3⟩ := h
    refine ⟨h1, ?_, noAdj_prefix a b h3⟩
    intro t cs' e
    subst e
    exact h2 t (cs' ++ b) rfl

/-- A document with an XML declaration and any non-empty list of clean nodes is read; the children are
    the items of the list, the text after the last element dropped. -/
theorem load_documents {dec} (hd : GoodDec dec) {cb : SaveCb} (hcb : WhiteCb cb) {ts : List Node} (hne : ts ≠ [])
    (hts : ∀ t ∈ ts, CleanTree t) :
    ∃ A : Bytes, loadData (dec (saveText cb [] (.elem xmlDecl [] ts))) =
      some (.elem xmlDecl [] (((xmlItemsList cb [xmlDecl] ts).foldl itemStep (A, [])).2.reverse)) := by
  obtain ⟨w, hw, e⟩ := saveText_newline cb [] (.elem xmlDecl [] ts)
  have hw' := newline_white hw
  generalize hD : Node.elem xmlDecl [] ts = D at *
  refine ⟨cb [] D .afterOpen, ?_⟩
  unfold loadData
  change (run (feed dec PS.init _) _).result = _
  rw [e]
  have hlt : step PS.init (some 60) = { PS.init with pc := .name [] } := by
    simp [step, PS.init, PS.flush]
  have hwr : writeNode cb [] D = cb [] D .beforeOpen ++ (60 :: ((xmlDecl ++ [62]) ++ (cb [] D .afterOpen ++
      writeNodes cb [xmlDecl] ts))) := by
    rw [← hD]
    cases ts with
    | nil => exact absurd rfl hne
    | cons t ts =>
      rw [writeNode]
      have h1 : writeOpenName xmlDecl = xmlDecl := by decide
      have h2 : isDirective xmlDecl = true := by decide
      simp [h1, h2]
  have h0 := feed_white_out hd (hcb [] D .beforeOpen) PS.init rfl
      (60 :: ((xmlDecl ++ [62]) ++ (cb [] D .afterOpen ++ (writeNodes cb [xmlDecl] ts ++ w))))
  rw [hwr]
  simp only [List.append_assoc, List.cons_append, List.nil_append] at h0 ⊢
  erw [h0]
  rw [feed_byte hd (by decide), show (60 : UInt8).toNat = 60 from rfl]
  erw [hlt]
  have h1 := ascii_lit hd (w := xmlDecl ++ [62]) (by decide) { PS.init with pc := .name [] }
    (cb [] D .afterOpen ++ (writeNodes cb [xmlDecl] ts ++ w))
  rw [run_decl] at h1
  simp only [List.append_assoc, List.cons_append, List.nil_append] at h1
  rw [h1, feed_content_white hd (hcb _ _ _),
    reads_list (fun t ht => reads_node hd hcb (hts t ht)) [xmlDecl], end_content hd _ _ _ hw']
  rfl

/-- The document read from a list of savable elements is, white space aside, that list. -/
theorem isRead_documents {cb : SaveCb} (hcb : SpaceCb cb) {ts : List Node} (hne : ts ≠ [])
    (h : ∀ t ∈ ts, Savable t) (A : Bytes) :
    IsRead (.elem xmlDecl [] (((xmlItemsList cb [xmlDecl] ts).foldl itemStep (A, [])).2.reverse)) (.elem xmlDecl [] ts) := by
  have hfilt : ts.filter isElem = ts := List.filter_eq_self.mpr fun t ht => (h t ht).isElem
  have hels : itemEls (xmlItemsList cb [xmlDecl] ts) = ts.map (withWhite cb [xmlDecl]) := by
    rw [xmlItemsList_els, hfilt]
  have hall : ∀ n ∈ itemEls (xmlItemsList cb [xmlDecl] ts), isElem n = true := by
    rw [hels]
    intro n hn
    obtain ⟨t, ht, rfl⟩ := List.mem_map.mp hn
    rw [isElem_withWhite]; exact (h t ht).isElem
  generalize hq : (xmlItemsList cb [xmlDecl] ts).foldl itemStep (A, []) = q
  have hj := foldl_joinText (xmlItemsList cb [xmlDecl] ts) (A, [])
  rw [hq] at hj
  have hsplit : q.2.reverse ++ (if q.1 = [] then [] else [.text q.1]) = joinText A (xmlItemsList cb [xmlDecl] ts) := by
    rw [List.reverse_nil, List.nil_append] at hj
    rw [← hj]
    unfold flushRev
    split <;> simp
  have hmem : ∀ x ∈ q.2.reverse, NormalTree x := by
    intro x hx
    have : x ∈ joinText A (xmlItemsList cb [xmlDecl] ts) := by rw [← hsplit]; exact List.mem_append_left _ hx
    rcases mem_joinText this with ⟨s, rfl⟩ | hx
    · exact .text
    · rw [hels] at hx
      obtain ⟨t, ht, rfl⟩ := List.mem_map.mp hx
      exact normal_withWhite _ _ _
  have hf : q.2.reverse.filter isElem = ts.map (withWhite cb [xmlDecl]) := by
    have := joinText_els A _ hall
    rw [← hsplit, List.filter_append, hels] at this
    rw [← this]
    split <;> simp [isElem]
  refine ⟨.elem (noAdj_prefix _ _ (hsplit ▸ joinText_noAdj A _ hall)) hmem, ?_⟩
  rw [norm_elem, any_eq_filter, hf]
  cases ts with
  | nil => exact absurd rfl hne
  | cons t ts =>
    simp only [List.map_cons, List.isEmpty_cons, Bool.not_false, if_true, List.map_map]
    congr 1
    rw [norm_withWhite hcb (h t (by simp)).noEmpty, (h t (by simp)).norm]
    congr 1
    conv => rhs; rw [← List.map_id ts]
    apply List.map_congr_left
    intro x hx
    simp only [Function.comp]
    rw [norm_withWhite hcb (h x (by simp [hx])).noEmpty, (h x (by simp [hx])).norm]; rfl

/-- A document of savable elements is read back, by the string and the file reader. -/
theorem read_documents {cb : SaveCb} (hcb : SpaceCb cb) {ts : List Node} (hne : ts ≠ []) (h : ∀ t ∈ ts, Savable t) :
    (∃ T, Xml.loadString (saveText cb [] (.elem xmlDecl [] ts)) = some T ∧ IsRead T (.elem xmlDecl [] ts)) ∧
    (∃ T, Xml.loadFile (saveText cb [] (.elem xmlDecl [] ts)) = some T ∧ IsRead T (.elem xmlDecl [] ts)) := by
  have hc : ∀ t ∈ ts, CleanTree t := fun t ht => (h t ht).clean
  obtain ⟨A, e⟩ := load_documents good_decode hcb.white hne hc
  obtain ⟨B, f⟩ := load_documents good_decodeFile hcb.white hne hc
  exact ⟨⟨_, e, isRead_documents hcb hne h A⟩, ⟨_, f, isRead_documents hcb hne h B⟩⟩

end Afs
