import Verif.Proof.Strings2
/-!
# Loading files and sources (C72)
-/
namespace Afs.Strings
open Afs Afs.Xml Afs.Spec.Strings

/-- A text read if the element is there, else the old one. -/
def textOr (n : Node) (name : Bytes) (old : Option Bytes) : Option Bytes :=
  match find n name with
  | none => old
  | some x => nodeText (some x)

theorem upd_same (t : Field → Option Bytes) (f : Field) : upd t f (t f) = t := by
  funext g
  by_cases hg : g = f
  · simp [upd, hg]
  · simp [upd, hg]

theorem loadText_does {s : Strs} {t : Field → Option Bytes} {tg : Option (List Bytes)} {lost : Multiset Block} {Q : Blocks}
    (f : Field) (n : Node) (name : Bytes) (h : St s t tg lost Q) :
    Does (loadText s f n name) Q (fun s' Q' => St s' (upd t f (textOr n name (t f))) tg (lost + lostOf t (ifThere n name f)) Q') := by
  unfold loadText textOr ifThere
  cases hf : find n name with
  | none => exact Does.pure (h.cast (upd_same t f).symm rfl (by simp))
  | some x =>
    refine Does.bind (assign f (nodeText_does (some x)) h) ?_
    intro q Q' h'
    exact Does.pure (h'.cast rfl rfl (by simp))

theorem sizeText_does (x : Node) (d : Bytes) {α : Type} {k : M α} {Q : Blocks} {R : α → Blocks → Prop} (hk : Does k Q R) :
    Does (do
      let p ← nodeTextSafeM (some x) d
      free p
      k) Q R := by
  refine Does.bind ((nodeTextSafe_does (some x) d).anywhere Q) ?_
  rintro p _ ⟨_, ⟨hp, rfl⟩, rfl⟩
  refine Does.bind (freeOpt_does hp Q) ?_
  rintro _ _ rfl
  exact hk

theorem intElement_then {α : Type} {k : Option Int → M α} {Q : Blocks} {R : α → Blocks → Prop} (n : Node) (name : Bytes)
    (hk : Does (k (intElement n name)) Q R) : Does (intElementM n name >>= k) Q R := by
  refine Does.bind (aside (r := fun r => r = intElement n name) (intElement_does n name)) ?_
  rintro _ _ ⟨rfl, rfl⟩
  exact hk

theorem loadFileData_does {s : Strs} {t : Field → Option Bytes} {tg : Option (List Bytes)} {lost : Multiset Block} {Q : Blocks}
    (v1 : Bool) (n : Node) (h : St s t tg lost Q) :
    Does (loadFileData v1 s n) Q (fun s' Q' => St s' (upd t .fileChecksum (nodeTextSafe (find n (b! "checksum")) [])) tg
      (lost + blk (t .fileChecksum)) Q') := by
  have rest : Does (do
      let p ← nodeTextSafeM (find n (b! "checksum")) []
      let s := s.set .fileChecksum p
      if v1 then do
        match find n (b! "start") with
        | none => pure ()
        | some x => do
          let _ ← intElementM x (b! "frame")
          let _ ← intElementM x (b! "byte")
        match find n (b! "end") with
        | none => pure ()
        | some x => do
          let _ ← intElementM x (b! "frame")
          let _ ← intElementM x (b! "byte")
        pure s
      else pure s) Q (fun s' Q' => St s' (upd t .fileChecksum (nodeTextSafe (find n (b! "checksum")) [])) tg
        (lost + blk (t .fileChecksum)) Q') := by
    refine Does.bind (assign .fileChecksum (nodeTextSafe_does _ _) h) ?_
    intro q Q' h'
    cases v1 with
    | false => exact Does.pure h'
    | true =>
      simp only [if_true]
      cases find n (b! "start") with
      | none =>
        cases find n (b! "end") with
        | none => exact Does.pure h'
        | some y =>
          refine intElement_then _ _ ?_
          refine intElement_then _ _ ?_
          exact Does.pure h'
      | some x =>
        refine intElement_then _ _ ?_
        refine intElement_then _ _ ?_
        cases find n (b! "end") with
        | none => exact Does.pure h'
        | some y =>
          refine intElement_then _ _ ?_
          refine intElement_then _ _ ?_
          exact Does.pure h'
  unfold loadFileData
  cases find n (b! "size") with
  | none => exact rest
  | some x => exact sizeText_does x _ rest

theorem loadFileFields_does {s : Strs} {x : File} {lost : Multiset Block} {Q : Blocks} (n : Node)
    (h : St s (Val.text (.file x)) none lost Q) :
    Does (loadFileFields s n) Q (fun s' Q' => St s' (Val.text (.file (x.loadFields n))) none
      (lost + lostOf (Val.text (.file x)) (.fileFormat :: ifThere n (b! "name") .fileName ++ ifThere n (b! "uniqueId") .fileUniqueId ++
        ifThere n (b! "date") .fileDate)) Q') := by
  have rest : ∀ (q : Option Nat) (f : Option Bytes) (Q1 : Blocks),
      St (s.set .fileFormat q) (upd (Val.text (.file x)) .fileFormat f) none (lost + blk x.fileFormat) Q1 →
      f = (match strClone (n.getAttr (b! "formatId")) with
        | none => some (b! "undefined")
        | some s => some s) →
      Does (do
        let s ← loadText (s.set .fileFormat q) .fileName n (b! "name")
        let _ ← intElementM n (b! "id")
        let s ← loadText s .fileUniqueId n (b! "uniqueId")
        let s ← loadText s .fileDate n (b! "date")
        let i ← intElementM n (b! "parentId")
        match i with
        | some _ => pure s
        | none => do
          let _ ← intElementM n (b! "parentid")
          pure s) Q1 (fun s' Q' => St s' (Val.text (.file (x.loadFields n))) none
        (lost + lostOf (Val.text (.file x)) (.fileFormat :: ifThere n (b! "name") .fileName ++ ifThere n (b! "uniqueId") .fileUniqueId ++
          ifThere n (b! "date") .fileDate)) Q') := by
    intro q f Q1 h1 hf
    refine Does.bind (loadText_does .fileName n (b! "name") h1) ?_
    intro s2 Q2 h2
    refine intElement_then _ _ ?_
    refine Does.bind (loadText_does .fileUniqueId n (b! "uniqueId") h2) ?_
    intro s3 Q3 h3
    refine Does.bind (loadText_does .fileDate n (b! "date") h3) ?_
    intro s4 Q4 h4
    have h5 : St s4 (Val.text (.file (x.loadFields n))) none
        (lost + lostOf (Val.text (.file x)) (.fileFormat :: ifThere n (b! "name") .fileName ++ ifThere n (b! "uniqueId") .fileUniqueId ++
          ifThere n (b! "date") .fileDate)) Q4 := by
      refine h4.cast ?_ rfl ?_
      · subst hf
        funext g
        unfold File.loadFields textOr
        cases hname : find n (b! "name") <;> cases hu : find n (b! "uniqueId") <;> cases hd : find n (b! "date") <;> cases g <;> rfl
      · simp only [ifThere, lostOf_append, lostOf_cons]
        cases hname : find n (b! "name") <;> cases hu : find n (b! "uniqueId") <;> cases hd : find n (b! "date") <;>
          simp [Val.text, upd, add_assoc]
    refine intElement_then _ _ ?_
    cases intElement n (b! "parentId") with
    | some v => exact Does.pure h5
    | none =>
      refine intElement_then _ _ ?_
      exact Does.pure h5
  unfold loadFileFields
  refine Does.bind ((cloneText_does (n.getAttr (b! "formatId"))).anywhere Q) ?_
  rintro p _ ⟨_, ⟨hp, rfl⟩, rfl⟩
  cases hg : n.getAttr (b! "formatId") with
  | none =>
    rw [hg] at hp
    cases p with
    | some p => cases hp
    | none =>
      rw [cell_none_left, zero_add]
      refine Does.bind ((cloneText_does (some (b! "undefined"))).anywhere Q) ?_
      rintro q _ ⟨_, ⟨hq, rfl⟩, rfl⟩
      exact rest q _ _ (h.assign .fileFormat hq) (by rw [hg]; rfl)
  | some b =>
    rw [hg] at hp
    cases p with
    | none => cases hp
    | some p => exact rest (some p) _ _ (h.assign .fileFormat hp) (by rw [hg]; rfl)

/-- The texts of a file when its parts and its data are read. -/
theorem file_texts (x : File) (n : Node) :
    (Val.text (.file ((x.loadPreview n).2)) = Val.text (.file x)) ∧ (Val.text (.file ((x.loadMetadata n).2)) = Val.text (.file x)) := by
  constructor
  · unfold File.loadPreview
    cases find n (b! "preview") with
    | none => rfl
    | some p =>
      dsimp only
      by_cases hb : (Preview.create.loadXml p).1 = false
      · rw [if_pos hb]; funext f; cases f <;> rfl
      · rw [if_neg hb]; funext f; cases f <;> rfl
  · unfold File.loadMetadata
    cases find n (b! "metadata") with
    | none => rfl
    | some p =>
      dsimp only
      by_cases hb : (FileMeta.create.loadXml p).1 = false
      · rw [if_pos hb]
      · rw [if_neg hb]; funext f; cases f <;> rfl

theorem file_preview_ok (x : File) (n : Node) :
    (x.loadPreview n).1 = partLoads n (b! "preview") (fun x => (Preview.create.loadXml x).1) := by
  unfold File.loadPreview partLoads
  cases find n (b! "preview") with
  | none => rfl
  | some p =>
    dsimp only
    by_cases hb : (Preview.create.loadXml p).1 = false
    · rw [if_pos hb, hb]
    · rw [if_neg hb, Bool.not_eq_false _ |>.mp hb]

theorem file_metadata_ok (x : File) (n : Node) :
    (x.loadMetadata n).1 = partLoads n (b! "metadata") (fun x => (FileMeta.create.loadXml x).1) := by
  unfold File.loadMetadata partLoads
  cases find n (b! "metadata") with
  | none => rfl
  | some p =>
    dsimp only
    by_cases hb : (FileMeta.create.loadXml p).1 = false
    · rw [if_pos hb, hb]
    · rw [if_neg hb, Bool.not_eq_false _ |>.mp hb]

theorem v2_texts (x : File) (d : Node) : Val.text (.file (x.loadDataV2 d)) =
    upd (Val.text (.file x)) .fileChecksum (nodeTextSafe (find d (b! "checksum")) []) := by
  unfold File.loadDataV2
  funext f
  cases find d (b! "size") <;> cases find d (b! "start") <;> cases find d (b! "end") <;> cases f <;> rfl

theorem v1_texts (x : File) (d : Node) : Val.text (.file (x.loadDataV1 d)) =
    upd (Val.text (.file x)) .fileChecksum (nodeTextSafe (find d (b! "checksum")) []) := by
  unfold File.loadDataV1
  funext f
  cases find d (b! "size") <;> cases find d (b! "start") <;> cases find d (b! "end") <;> cases f <;> rfl

theorem types_texts (x : File) (t : Nat) : Val.text (.file { x with types := t }) = Val.text (.file x) := by
  funext f
  cases f <;> rfl

theorem data_texts (x : File) (n : Node) : Val.text (.file (x.loadDataPart n)) =
    upd (Val.text (.file x)) .fileChecksum (nodeTextSafe (find (match findUnder n (b! "file") (b! "data") with
      | some d => d
      | none => n) (b! "checksum")) []) := by
  unfold File.loadDataPart
  cases findUnder n (b! "file") (b! "data") with
  | some d =>
    dsimp only
    rw [← v2_texts]
    exact types_texts _ _
  | none =>
    dsimp only
    rw [← v1_texts]
    generalize ((find n (b! "size")).isSome || (find n (b! "start")).isSome || (find n (b! "end")).isSome) = c
    have hc : Val.text (.file (if c = true then (x.loadDataV1 n).addType TYPE_DIGITAL else x.loadDataV1 n)) =
        Val.text (.file (x.loadDataV1 n)) := by
      cases c with
      | false => rfl
      | true => exact types_texts _ _
    rw [← hc]
    generalize (if c = true then (x.loadDataV1 n).addType TYPE_DIGITAL else x.loadDataV1 n) = y
    by_cases hy : y.isValid = false
    · rw [if_pos hy]; exact types_texts _ _
    · rw [if_neg hy]

theorem partsLoad_eq (n : Node) : partsLoad n = (partLoads n (b! "preview") (fun x => (Preview.create.loadXml x).1) &&
    partLoads n (b! "metadata") (fun x => (FileMeta.create.loadXml x).1)) := rfl

theorem loadFile_loads (s : Strs) (x : File) (node : Node) : Loads (loadFileStrs s node) s (.file x) node := by
  rintro lost Q h b v' hv
  simp only [Val.load, Res.ok.injEq, Prod.mk.injEq] at hv
  obtain ⟨rfl, rfl⟩ := hv
  unfold loadFileStrs File.loadXml
  cases hf : selfOrFind node (b! "file") with
  | none => exact Does.pure ⟨rfl, h.cast rfl rfl (by simp [overwrites, Val.kind, hf])⟩
  | some n =>
    dsimp only
    have hw : overwrites (Val.kind (.file x)) node = .fileFormat :: ifThere n (b! "name") .fileName ++
        ifThere n (b! "uniqueId") .fileUniqueId ++ ifThere n (b! "date") .fileDate ++ (if partsLoad n then [.fileChecksum] else []) := by
      simp only [overwrites, Val.kind, hf]
    refine Does.bind (loadFileFields_does n h) ?_
    intro s1 Q1 h1
    have hp := file_preview_ok (x.loadFields n) n
    have hpt := (file_texts (x.loadFields n) n).1
    rw [hw, partsLoad_eq]
    cases hpl : partLoads n (b! "preview") (fun x => (Preview.create.loadXml x).1) with
    | false =>
      rw [hpl] at hp
      rw [if_pos rfl, if_pos hp]
      exact Does.pure ⟨hp.symm, h1.cast hpt.symm rfl (by simp)⟩
    | true =>
      rw [hpl] at hp
      have hp' : ¬ ((x.loadFields n).loadPreview n).1 = false := by rw [hp]; simp
      rw [if_neg (show ¬ true = false by simp), if_neg hp']
      have hm := file_metadata_ok ((x.loadFields n).loadPreview n).2 n
      have hmt := (file_texts ((x.loadFields n).loadPreview n).2 n).2
      cases hml : partLoads n (b! "metadata") (fun x => (FileMeta.create.loadXml x).1) with
      | false =>
        rw [hml] at hm
        rw [if_pos rfl, if_pos hm]
        exact Does.pure ⟨hm.symm, h1.cast (hpt.symm.trans hmt.symm) rfl (by simp)⟩
      | true =>
        rw [hml] at hm
        have hm' : ¬ (((x.loadFields n).loadPreview n).2.loadMetadata n).1 = false := by rw [hm]; simp
        rw [if_neg (show ¬ true = false by simp), if_neg hm']
        have hd := data_texts (((x.loadFields n).loadPreview n).2.loadMetadata n).2 n
        rw [hmt, hpt] at hd
        have hlost : (lost + lostOf (Val.text (.file x)) (.fileFormat :: ifThere n (b! "name") .fileName ++ ifThere n (b! "uniqueId") .fileUniqueId ++
            ifThere n (b! "date") .fileDate)) + blk (Val.text (.file (x.loadFields n)) .fileChecksum) =
            lost + lostOf (Val.text (.file x)) (.fileFormat :: ifThere n (b! "name") .fileName ++ ifThere n (b! "uniqueId") .fileUniqueId ++
            ifThere n (b! "date") .fileDate ++ [.fileChecksum]) := by
          have : Val.text (.file (x.loadFields n)) .fileChecksum = Val.text (.file x) .fileChecksum := by
            unfold File.loadFields
            cases find n (b! "name") <;> cases find n (b! "uniqueId") <;> cases find n (b! "date") <;> rfl
          rw [this, lostOf_append _ _ [.fileChecksum]]
          simp [add_assoc]
        cases hu : findUnder n (b! "file") (b! "data") with
        | some d =>
          rw [hu] at hd
          refine Does.bind (loadFileData_does false d h1) ?_
          intro s2 Q2 h2
          exact Does.pure ⟨rfl, h2.cast hd.symm rfl hlost⟩
        | none =>
          rw [hu] at hd
          refine Does.bind (loadFileData_does true n h1) ?_
          intro s2 Q2 h2
          exact Does.pure ⟨rfl, h2.cast hd.symm rfl hlost⟩

end Afs.Strings
