import Verif.Proof.ControlSchema
import Verif.Proof.Schema3
/-! # Which saved control data follow the schema of the control frame -/
namespace Afs
open Spec Spec.Schema Xml

theorem valid_no_text {p : Bytes → Prop} : Valid (.text [] p) [] [] ↔ p [] := by
  rw [Valid]
  simp [attrsOk_nil, elements, chars]

theorem textNode_opt {nm : Bytes} {s : Option Bytes} (h : s = some [] ∨ TextField s) {p : Bytes → Prop} :
    (0 ≤ (textNode nm s).length ∧ (∀ h, some 1 = some h → (textNode nm s).length ≤ h) ∧
      ∀ x ∈ textNode nm s, Valid (.text [] p) x.attrs x.children) ↔ ∀ t, s = some t → p t := by
  rcases h with rfl | h
  · have e : textNode nm (some []) = [.elem nm [] []] := rfl
    rw [e]
    simp only [List.length_singleton, List.mem_singleton, forall_eq, Nat.zero_le, true_and, Option.some.injEq]
    rw [show (Node.elem nm [] []).attrs = [] from rfl, show (Node.elem nm [] []).children = [] from rfl, valid_no_text]
    exact ⟨fun h t e => e ▸ h.2, fun h => ⟨fun _ e => by omega, h _ rfl⟩⟩
  · cases s with
    | none => simp [textNode]
    | some t =>
      have := textNode_one (nm := nm) h (p := p)
      have hl : (textNode nm (some t)).length = 1 := by rw [textNode]; rfl
      rw [hl] at this ⊢
      simp only [Nat.le_refl, true_and, Nat.zero_le] at this ⊢
      rw [this]
      simp

theorem Admin.shape (a : Admin) : Shape a.node :=
  .branch (by decide) (shape_append (textNode_shape (by decide) _) (shape_append (textNode_shape (by decide) _) (shape_append (textNode_shape (by decide) _)
    (shape_append (textNode_shape (by decide) _) (shape_append (textNode_shape (by decide) _) (textNode_shape (by decide) _))))))

theorem Admin.valid {T : Bytes → Prop} {e : Edition} {a : Admin} (h : a.storable) :
    Valid (adminType T e) [] a.parts ↔ e = .written ∧ ∀ d, a.creationDate = some d → dateTime T d := by
  unfold Admin.storable at h
  simp only [List.mem_cons, List.not_mem_nil, or_false, forall_eq_or_imp, forall_eq] at h
  obtain ⟨h1, h2, h3, h4, h5, h6⟩ := h
  have hsh : ∀ x ∈ a.parts, Shape x := by
    have := a.shape
    generalize e : a.node = n at this
    unfold Admin.parts
    exact shape_append (textNode_shape (by decide) _) (shape_append (textNode_shape (by decide) _) (shape_append (textNode_shape (by decide) _)
      (shape_append (textNode_shape (by decide) _) (shape_append (textNode_shape (by decide) _) (textNode_shape (by decide) _)))))
  unfold adminType
  refine (valid_segs [textNode (b! "ReelId") a.reelId, textNode (b! "PrintReelId") a.printReelId, [], textNode (b! "Title") a.title,
    textNode (b! "Description") a.description, textNode (b! "Creator") a.creator, textNode (b! "CreationDate") a.creationDate, []]
    (by simp [Admin.parts]) (by simp only [partNames]; decide)
    (by exact ⟨textNode_named _ _, textNode_named _ _, (fun _ h => nomatch h), textNode_named _ _, textNode_named _ _, textNode_named _ _, textNode_named _ _,
      (fun _ h => nomatch h), trivial⟩) hsh).trans ?_
  cases e with
  | published =>
    refine iff_of_false ?_ (by simp)
    rintro ⟨-, h⟩
    exact absurd h.2.2.1.1 (by simp [Edition.least])
  | written =>
    simp only [SegsOk, Edition.least, and_true]
    rw [textNode_opt h1, textNode_opt h2, textNode_opt h3, textNode_opt h4, textNode_opt h5, textNode_opt h6]
    simp only [Schema.string, implies_true, true_and]
    have ha : AttrsOk [(⟨b! "version", fun _ => True, false⟩ : Attr)] [] := attrsOk_none (by simp)
    constructor
    · intro h; exact h.2.2.1
    · intro h; exact ⟨attrsOk_none (by simp), (by simp), h, by simp⟩

section
variable {L : ConfigLib}

theorem propertyNode_shape (p : Bytes × Bytes) : Shape (Format.propertyNode p) := .branch (by decide) (by simp)

theorem classNode_shape (g : Bytes × List (Bytes × Bytes)) : Shape (Format.classNode [] g) := by
  rw [Format.classNode_eq]
  exact .branch (by decide) (shape_map _ fun x _ => propertyNode_shape x)

theorem configNode_shape {c : L.Config} (h : L.aliases c = []) : Shape (Format.configNode c) := by
  rw [Format.configNode_eq h]
  exact .branch (by decide) (shape_map _ fun x _ => classNode_shape x)

theorem property_valid (p : Bytes × Bytes) : Valid propertyType (Format.propertyNode p).attrs (Format.propertyNode p).children := by
  rw [Format.propertyNode_eq, Node.attrs, Node.children, propertyType, Valid]
  refine ⟨⟨?_, by simp⟩, rfl, rfl⟩
  intro a ha
  simp only [List.mem_cons, List.not_mem_nil, or_false] at ha
  rcases ha with rfl | rfl
  · exact ⟨_, .head _, rfl, _, rfl, trivial⟩
  · exact ⟨_, .tail _ (.head _), rfl, _, rfl, trivial⟩

theorem class_valid (e : Edition) (g : Bytes × List (Bytes × Bytes)) :
    Valid (classType e) (Format.classNode [] g).attrs (Format.classNode [] g).children ↔ e = .written := by
  rw [Format.classNode_eq, Node.attrs, Node.children, classType]
  refine (valid_segs [(Format.plainProps g).map Format.propertyNode] (by simp) (by simp only [partNames]; decide)
    (by exact ⟨named_map _ (fun _ => rfl), trivial⟩) (shape_map _ fun x _ => propertyNode_shape x)).trans ?_
  cases e with
  | published =>
    refine iff_of_false ?_ (by simp)
    rintro ⟨⟨h, -⟩, -⟩
    obtain ⟨d, hd, -⟩ := h (b! "key", some g.1) (by unfold Format.classAttrs; simp)
    cases hd
  | written =>
    refine iff_of_true ⟨⟨?_, by simp [Edition.classAttrs]⟩, ?_⟩ rfl
    · intro a ha
      unfold Format.classAttrs at ha
      rcases List.mem_cons.mp ha with rfl | ha
      · exact ⟨_, .head _, rfl, _, rfl, trivial⟩
      · cases hv : g.2.lookup (b! "version") with
        | none => rw [hv] at ha; cases ha
        | some v =>
          rw [hv] at ha
          rw [List.mem_singleton.mp ha]
          exact ⟨_, .tail _ (.head _), rfl, _, rfl, trivial⟩
    · refine ⟨⟨Nat.zero_le _, (fun _ h => nomatch h), ?_⟩, trivial⟩
      intro x hx
      obtain ⟨p, _, rfl⟩ := List.mem_map.mp hx
      exact property_valid p

theorem config_valid (e : Edition) {c : L.Config} (h : L.aliases c = []) :
    Valid (formatType e) (Format.configNode c).attrs (Format.configNode c).children ↔ e = .written := by
  rw [Format.configNode_eq h, Node.attrs, Node.children, formatType]
  refine (valid_segs [(L.classes c).map (Format.classNode [])] (by simp) (by simp only [partNames]; decide)
    (by exact ⟨named_map _ (fun g => by rw [Format.classNode_eq]; rfl), trivial⟩) (shape_map _ fun x _ => classNode_shape x)).trans ?_
  have ha : AttrsOk [(⟨b! "version", Schema.string, false⟩ : Attr)] [(b! "version", some (b! "1.0.0.0"))] := by
    refine ⟨?_, by simp⟩
    intro a ha
    rw [List.mem_singleton.mp ha]
    exact ⟨_, .head _, rfl, _, rfl, trivial⟩
  simp only [SegsOk, and_true, ha, true_and]
  rw [many_seg]
  simp only [List.forall_mem_map, List.length_map, class_valid]
  cases e with
  | published =>
    refine iff_of_false ?_ (by simp)
    rintro ⟨h1, h2⟩
    cases hc : L.classes c with
    | nil => rw [hc] at h1; simp [Edition.least] at h1
    | cons g l => exact absurd (h2 g (by rw [hc]; simp)) (by simp)
  | written => simp [Edition.least]

theorem filesPart_shape {name : Bytes} (hn : PlainName name) (f : Option Files) : ∀ x ∈ TechMeta.filesPart name f, Shape x := by
  cases f with
  | none => simp [TechMeta.filesPart]
  | some f =>
    intro x hx
    change x ∈ [Node.elem name [] [f.node]] at hx
    rw [List.mem_singleton.mp hx]
    exact .branch hn (by simpa using Files.shape f)

theorem filesPart_named (name : Bytes) (f : Option Files) : ∀ x ∈ TechMeta.filesPart name f, Named name x := by
  cases f with
  | none => simp [TechMeta.filesPart]
  | some f =>
    intro x hx
    change x ∈ [Node.elem name [] [f.node]] at hx
    rw [List.mem_singleton.mp hx]
    rfl

theorem formatNode_shape {f : Format L} (h : f.storable) : Shape (TechMeta.formatNode f) := by
  unfold TechMeta.formatNode
  cases hc : f.config with
  | none => exact .branch (by decide) (by simp)
  | some c => exact configNode_shape (h.2 c hc).1.1

theorem tocs_valid {D : Char → Prop} (hD : HasDigits D) {e : Edition} {f : Files} (h : ∀ x ∈ f.list, x.writable) :
    Valid (.seq [] (Edition.tocs D e)) [] [f.node] ↔ e = .written ∧ f.conforms D := by
  cases e with
  | published =>
    refine iff_of_false ?_ (by simp)
    intro hv
    rw [Valid, shapes_elements (by simpa using Files.shape f)] at hv
    obtain ⟨n, hn, hx⟩ := inOrder_names hv.2.2 f.node (by simp)
    rw [Edition.tocs] at hn
    simp only [partNames, List.mem_singleton] at hn
    subst hn
    exact absurd hx (by unfold Named Files.node; rw [Node.element]; decide)
  | written =>
    refine (valid_segs [[f.node]] (by simp) (by simp only [Edition.tocs, partNames]; decide)
      (by exact ⟨by simp [Named, Files.node, Node.element], trivial⟩) (by simpa using Files.shape f)).trans ?_
    simp only [Edition.tocs, SegsOk, and_true, attrsOk_nil, true_and]
    rw [one_seg, Files.valid hD h]

theorem boxer_valid {e : Edition} {f : Format L} (h : f.storable) :
    Valid (boxerFormatType e) [] [TechMeta.formatNode f] ↔ e = .written ∧ f.config ≠ none := by
  have hsh := formatNode_shape h
  cases hc : f.config with
  | none =>
    refine iff_of_false ?_ (by simp)
    intro hv
    rw [boxerFormatType, Valid, shapes_elements (by simpa using hsh)] at hv
    obtain ⟨n, hn, hx⟩ := inOrder_names hv.2.2 _ (List.mem_singleton.mpr rfl)
    simp only [partNames, List.mem_singleton] at hn
    subst hn
    unfold TechMeta.formatNode at hx
    rw [hc] at hx
    exact absurd hx (by unfold Named Node.new; dsimp only; rw [Node.element]; decide)
  | some c =>
    have e1 : TechMeta.formatNode f = Format.configNode c := by unfold TechMeta.formatNode; rw [hc]
    rw [e1] at hsh ⊢
    refine (valid_segs [[Format.configNode c]] (by simp) (by simp only [partNames]; decide)
      (by exact ⟨by rw [Format.configNode_eq (h.2 c hc).1.1]; simp [Named, Node.element], trivial⟩) (by simpa using hsh)).trans ?_
    simp only [SegsOk, and_true, attrsOk_nil, true_and]
    rw [one_seg, config_valid e (h.2 c hc).1.1]
    simp

theorem tech_shape {f : Format L} (h : f.storable) (tocs apps : Option Files) : Shape (TechMeta.nodeOf f tocs apps) :=
  .branch (by decide) (shape_append (by simpa using Shape.branch (by decide) (by simpa using formatNode_shape h))
    (shape_append (filesPart_shape (by decide) _) (filesPart_shape (by decide) _)))

theorem tech_valid {D : Char → Prop} (hD : HasDigits D) {e : Edition} {f : Format L} {tocs apps : Option Files} (hf : f.storable)
    (ht : ∀ x, tocs = some x → ∀ y ∈ x.list, y.writable) (ha : ∀ x, apps = some x → ∀ y ∈ x.list, y.writable) :
    Valid (technicalType D e) (TechMeta.nodeOf f tocs apps).attrs (TechMeta.nodeOf f tocs apps).children ↔
      e = .written ∧ f.config ≠ none ∧ (∃ x, tocs = some x ∧ x.conforms D) ∧ ∀ x, apps = some x → x.conforms D := by
  have hsh : ∀ t ∈ [Node.elem (b! "BoxerFormat") [] [TechMeta.formatNode f]] ++ (TechMeta.filesPart (b! "Tocs") tocs ++ TechMeta.filesPart (b! "Applications") apps), Shape t :=
    shape_append (by simpa using Shape.branch (by decide) (by simpa using formatNode_shape hf))
      (shape_append (filesPart_shape (by decide) _) (filesPart_shape (by decide) _))
  have hat : AttrsOk [(⟨b! "version", Schema.string, false⟩ : Attr)] [] := attrsOk_none (by simp)
  unfold TechMeta.nodeOf
  rw [Node.attrs, Node.children]
  cases e with
  | published =>
    refine iff_of_false ?_ (by simp)
    intro hv
    rw [technicalType, Valid, shapes_elements hsh, InOrder] at hv
    obtain ⟨xs, ys, h1, h2, -, h4, -⟩ := hv.2.2
    cases xs with
    | nil => simp at h2
    | cons x xs =>
      have hx : Node.elem (b! "BoxerFormat") [] [TechMeta.formatNode f] = x := (List.cons.inj h1).1
      obtain ⟨as, cs, hxe, hv⟩ := h4 x (List.mem_cons_self ..)
      rw [← hx] at hxe
      injection hxe with _ h5 h6
      rw [← h5, ← h6, boxer_valid hf] at hv
      exact absurd hv.1 (by simp)
  | written =>
    refine (valid_segs [[Node.elem (b! "BoxerFormat") [] [TechMeta.formatNode f]], TechMeta.filesPart (b! "Tocs") tocs, TechMeta.filesPart (b! "Applications") apps]
      (by simp) (by simp only [Edition.applications, partNames]; decide)
      (by exact ⟨by simp [Named, Node.element], filesPart_named _ _, filesPart_named _ _, trivial⟩) hsh).trans ?_
    simp only [Edition.applications, SegsOk, and_true, hat, true_and]
    rw [one_seg, Node.attrs, Node.children, boxer_valid hf]
    have e2 : ∀ n x, TechMeta.filesPart n (some x) = [Node.elem n [] [x.node]] := fun _ _ => rfl
    have e3 : ∀ n, TechMeta.filesPart n none = [] := fun _ => rfl
    cases tocs with
    | none => simp [e3]
    | some t =>
      rw [e2, one_seg, Node.attrs, Node.children, tocs_valid hD (ht t rfl)]
      cases apps with
      | none => simp [e3]
      | some a =>
        rw [e2, opt_seg (by simp)]
        simp only [List.mem_singleton, forall_eq]
        rw [Node.attrs, Node.children, tocs_valid hD (ha a rfl)]
        simp [and_assoc]

end
end Afs
