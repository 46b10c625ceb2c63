import Verif.Proof.Accepted3
import Verif.Proof.XmlReader
/-! # Every accepted text is one of the grammar Spec/Accepted: steps -/
namespace Afs.Xml.Acc
open Afs Afs.Xml Afs.Spec.Accepted

/-! ### Behind the outermost element -/

theorem late_after {k : PC} {n : Node} {o : Bool} (p : Stream) (b : Bytes) (ch : Option Nat) (hc : ch ≠ some 38) :
    Inv p (PS.afterName ⟨k, [], some n, o⟩ b ch) := by
  unfold PS.afterName
  split
  · exact .late .comment
  split
  · exact .late .cdata
  split
  · exact .late .pi
  split
  · unfold PS.declBody
    cases ch with
    | none => exact .late .decl
    | some c =>
      dsimp only
      split
      · exact .fail
      · split
        · rename_i h; subst h; exact absurd rfl hc
        · exact .late .decl
  split
  · exact .fail
  · exact .fail

theorem late_step {k : PC} {n : Node} {o : Bool} (p : Stream) (h : Late k) (ch : Option Nat) (hc : ch ≠ some 38) :
    Inv p (step ⟨k, [], some n, o⟩ ch) := by
  cases h with
  | @name b =>
    cases ch with
    | none => exact late_after p _ _ hc
    | some c =>
      have hc' : c ≠ 38 := fun e => hc (by rw [e])
      simp only [step]
      split
      · exact late_after p _ _ hc
      split
      · exact .fail
      split
      · exact .fail
      split
      · exact late_after p _ _ hc
      · exact .late .name
  | comment =>
    cases ch with
    | none => exact .fail
    | some c =>
      simp only [step]
      split
      · exact .fail
      · exact .late .comment
  | cdata =>
    cases ch with
    | none => exact .fail
    | some c =>
      simp only [step]
      split
      · exact .fail
      · exact .late .cdata
  | pi =>
    cases ch with
    | none => exact .fail
    | some c =>
      simp only [step]
      split
      · exact .fail
      · exact .late .pi
  | decl =>
    cases ch with
    | none => exact .fail
    | some c =>
      have hc' : c ≠ 38 := fun e => hc (by rw [e])
      simp only [step, PS.declBody]
      split
      · exact .fail
      exact .late .decl

/-! ### Text -/

theorem flush_eq {p t : Stream} {st : List Frame} {r : Option Node} {o : Bool} {b buf : Bytes} (h : Ctx p st r o) (ht : Text t b)
    (hb : o = true → buf = b) (k : PC) :
    (∃ st', PS.flush ⟨k, st, r, o⟩ buf = ⟨k, st', r, o⟩ ∧ Lt (p ++ t) st' r o) ∨ (st = [] ∧ ∃ n, r = some n ∧ PS.flush ⟨k, st, r, o⟩ buf = ⟨k, st, r, o⟩) := by
  cases h with
  | top => exact .inl ⟨[], by unfold PS.flush; split <;> rfl, .top ht⟩
  | @root p n o h =>
    refine .inr ⟨rfl, n, rfl, ?_⟩
    unfold PS.flush
    split
    · rfl
    · cases o <;> rfl
  | inside h =>
    have := hb rfl
    subst this
    generalize hst : st = st0 at h
    cases st with
    | nil => subst hst; cases h
    | cons f fs =>
      subst hst
      refine .inl ⟨inside f fs (textNodes buf), ?_, .inside h ht⟩
      have := inside_flush f fs [] buf k none
      simpa [inside] using this

theorem main_step {p t : Stream} {st : List Frame} {r : Option Node} {o : Bool} {b buf : Bytes} (h : Ctx p st r o) (ht : Text t b)
    (hb : o = true → buf = b) (ch : Option Nat) (hc : ch ≠ some 38) : Inv (p ++ t ++ [ch]) (step ⟨.main buf, st, r, o⟩ ch) := by
  cases ch with
  | none =>
    cases h with
    | top => exact .fail
    | @root p n o h =>
      have hd : Document (p ++ t ++ [none]) n := by
        cases h with
        | single a1 a2 => exact .single a1 a2 ht
        | closed a1 a2 a3 a4 a5 => exact .closed a1 a2 a3 a4 a5 ht
      have := Inv.done (q := []) (st := []) (r := some n) (o := o) hd
      simpa [step, PS.finish] using this
    | inside h =>
      cases h with
      | @first j b' h e c ns a1 a2 a3 =>
        have hd := Document.unclosed a1 a2 a3 ht
        have := Inv.done (q := []) (st := [⟨e.1, e.2, ns.reverse⟩]) (r := none) (o := true) hd
        simpa [step, PS.finish, Frame.node] using this
      | push => exact .fail
  | some c =>
    have hc' : c ≠ 38 := fun e => hc (by rw [e])
    by_cases h60 : c = 60
    · subst h60
      have e : step ⟨.main buf, st, r, o⟩ (some 60) = { PS.flush ⟨.close, st, r, o⟩ buf with pc := .name [] } :=
        run_lt ⟨.close, st, r, o⟩ buf
      rw [e]
      rcases flush_eq h ht hb .close with ⟨st', h1, h2⟩ | ⟨h0, n, h1, h2⟩
      · rw [h1]
        exact .sub h2 (.name .nil)
      · rw [h2, h0, h1]
        exact .late .name
    · have hx : ∃ buf', step ⟨.main buf, st, r, o⟩ (some c) = ⟨.main buf', st, r, o⟩ ∧ (o = true → buf' = buf ++ addChar c) := by
        cases o with
        | true => exact ⟨buf ++ addChar c, by simp [step, h60, hc'], fun _ => rfl⟩
        | false =>
          have hf : PS.flush ⟨.main buf, st, r, false⟩ buf = ⟨.main buf, st, r, false⟩ := by
            unfold PS.flush
            split <;> rfl
          simp only [step, h60, hc', if_false, hf]
          split <;> split <;> exact ⟨_, rfl, nofun⟩
      obtain ⟨buf', h1, h2⟩ := hx
      rw [h1, List.append_assoc]
      exact .main h (.char ht h60 hc') (fun ho => by rw [h2 ho, hb ho])

/-! ### Tags -/

theorem withAttr_values {e : Head} {an av : Bytes} (h : ∀ a ∈ e.2, a.2 ≠ none) : ∀ a ∈ (withAttr e an av).2, a.2 ≠ none := by
  intro a ha
  simp only [withAttr, List.mem_append, List.mem_singleton] at ha
  rcases ha with ha | ha
  · exact h a ha
  · rw [ha]; simp

mutual
theorem inTag_values : ∀ {t : Stream} {e : Head}, InTag t e → ∀ a ∈ e.2, a.2 ≠ none
  | _, _, .name _ _ _ => nofun
  | _, _, .space h _ => inTag_values h
  | _, _, .quoted h _ _ _ _ _ => withAttr_values (inTag_values h)
  | _, _, .bare h _ => inBare_values h
theorem inBare_values : ∀ {t : Stream} {e : Head}, InBare t e → ∀ a ∈ e.2, a.2 ≠ none
  | _, _, .mk h _ _ _ _ _ _ => withAttr_values (inTag_values h)
end

theorem Inv.assoc {p u v : Stream} {s : PS} (h : Inv (p ++ (u ++ v)) s) : Inv (p ++ u ++ v) s := by
  rw [List.append_assoc]; exact h

theorem sub_step {p u : Stream} {st : List Frame} {r : Option Node} {o : Bool} {k : PC} (h : Lt p st r o) (hu : Sub u k)
    (ch : Option Nat) (hc : ch ≠ some 38 ∨ (∃ e, k = .attr e) ∨ (∃ e an, k = .vskip e an) ∨ (∃ b, k = .comment b) ∨ (∃ b, k = .cdata b) ∨ (∃ b, k = .pi b)) :
    Inv (p ++ u ++ [ch]) (step ⟨k, st, r, o⟩ ch) := by
  apply Inv.assoc
  cases hu with
  | @name t b h1 =>
    have hc : ch ≠ some 38 := by simpa using hc
    cases ch with
    | none => exact afterName_inv h _ (.none h1)
    | some c =>
      have hc' : c ≠ 38 := fun e => hc (by rw [e])
      simp only [step]
      split
      · rename_i hx
        refine afterName_inv h _ (.fin h1 ?_)
        cases b <;> simp_all [NameEnd, or_assoc]
      rename_i hx
      split
      · exact .fail
      rename_i h60
      split
      · exact .fail
      rename_i h48
      have hn : NameChar b c := by
        have hx' : isSpace c = false ∧ c ≠ 62 ∧ ¬ (c = 47 ∧ b ≠ []) := by
          cases b <;> simp_all
        refine ⟨hx'.1, hx'.2.1, hx'.2.2, h60, hc', by omega⟩
      split
      · rename_i hs
        exact afterName_inv h _ (.special h1 hn hs)
      · rename_i hs
        exact .sub h (.name (.char h1 hn hs))
  | @comment u ch' t b h1 h2 =>
    cases ch with
    | none => exact .fail
    | some c =>
      have hs := step_comment ⟨.close, st, r, o⟩ b c
      by_cases hx : c = 62 ∧ CommentEnd b
      · obtain ⟨rfl, hx⟩ := hx
        rw [show step ⟨.comment b, st, r, o⟩ (some 62) = _ from hs.2 hx]
        exact special_inv h _ (.inl ⟨u, ch', t, h1, h2, hx, by simp⟩)
      · rw [show step ⟨.comment b, st, r, o⟩ (some c) = _ from hs.1 hx]
        have := Inv.sub h (.comment h1 (.char h2 hx))
        simpa using this
  | @cdata u ch' t b h1 h2 =>
    cases ch with
    | none => exact .fail
    | some c =>
      have hs := step_cdata ⟨.close, st, r, o⟩ b c
      by_cases hx : c = 62 ∧ CDataEnd b
      · obtain ⟨rfl, hx⟩ := hx
        rw [show step ⟨.cdata b, st, r, o⟩ (some 62) = _ from hs.2 hx]
        exact special_inv h _ (.inr ⟨u, ch', t, h1, h2, hx, by simp⟩)
      · rw [show step ⟨.cdata b, st, r, o⟩ (some c) = _ from hs.1 hx]
        have := Inv.sub h (.cdata h1 (.char h2 hx))
        simpa using this
  | @pi u b0 ch' t b h1 h0 h2 =>
    cases ch with
    | none => exact .fail
    | some c =>
      have hs := step_pi ⟨.close, st, r, o⟩ b c
      by_cases hx : c = 62 ∧ PIEnd b
      · obtain ⟨rfl, hx⟩ := hx
        rw [show step ⟨.pi b, st, r, o⟩ (some 62) = _ from hs.2 hx]
        exact directive_inv h _ (.inl ⟨u, b0, ch', t, h1, h0, h2, hx, by simp⟩)
      · rw [show step ⟨.pi b, st, r, o⟩ (some c) = _ from hs.1 hx]
        have := Inv.sub h (.pi h1 h0 (.char h2 hx))
        simpa using this
  | @decl u b ch' t x h1 h2 h3 h4 =>
    have hc : ch ≠ some 38 := by simpa using hc
    cases ch with
    | none => exact .fail
    | some c =>
      have hc' : c ≠ 38 := fun e => hc (by rw [e])
      simp only [step, PS.declBody]
      split
      · rename_i hx
        subst hx
        exact directive_inv h _ (.inr (.long h1 h2 h3 h4))
      rename_i hx
      have := Inv.sub h (.decl h1 h2 h3 (.char h4 hx hc'))
      simpa using this
  | @slash _ b h1 h2 =>
    simp only [step]
    split
    · rename_i hx
      subst hx
      exact empty_inv h _ (.name h1 h2)
    · exact .fail
  | @attr _ e h1 =>
    cases ch with
    | none => exact .fail
    | some c =>
      simp only [step]
      split
      · exact .sub h (.attr (.space h1 ‹_›))
      split
      · exact .sub h (.attrSlash h1 ‹_›)
      split
      · exact .fail
      split
      · rename_i a b c hx
        subst hx
        exact start_inv h _ (.attrs h1) (by decide)
      split
      · rename_i hx
        exact .sub h (.qname hx)
      · rename_i a1 a2 a3 a4 a5
        have := Inv.sub h (.aname h1 (.first (c := c) (by simpa using a1) (by omega) (by omega) a3 a4 (by omega) (by omega)))
        simpa using this
  | @attrSlash u e c h1 h2 =>
    simp only [step]
    split
    · rename_i hx
      subst hx
      rcases h2 with rfl | rfl
      · have := empty_inv h (.attrSlash e 47) (.attrs h1)
        simpa using this
      · have := start_inv h (.attrSlash e 63) (.question h1) (c := 63) (by decide)
        simpa using this
    · exact .fail
  | @qname _ e q b hq =>
    have hc : ch ≠ some 38 := by simpa using hc
    cases ch with
    | none =>
      simp only [step, PS.afterAttrName]
      split <;> exact .fail
    | some c =>
      have hc' : c ≠ 38 := fun e => hc (by rw [e])
      simp only [step]
      rw [if_neg hc']
      split
      · rename_i hx
        subst hx
        simp only [PS.afterAttrName]
        split
        · exact .fail
        · have h1 : isSpace c = false := by rcases hq with rfl | rfl <;> rfl
          have h2 : c ≠ 61 := by omega
          simp only [h1, h2, Bool.false_eq_true, if_false]
          exact .fail
      · exact .sub h (.qname hq)
  | @aname u e t b h1 h2 =>
    have hc : ch ≠ some 38 := by simpa using hc
    have hv := fun hf => findAttr_none' (an := cstr b) (inTag_values h1) hf
    cases ch with
    | none =>
      simp only [step, PS.afterAttrName]
      split <;> exact .fail
    | some c =>
      have hc' : c ≠ 38 := fun e => hc (by rw [e])
      simp only [step]
      split
      · simp only [PS.afterAttrName]
        split
        · exact .fail
        · rename_i hf
          have hn := hv (by simpa using hf)
          split
          · rename_i hs
            have := Inv.sub h (.aeq h1 h2 (w := [some c]) (fun x hx => ⟨c, by simpa using hx, hs⟩) hn)
            simpa [upToNul, cstr] using this
          · split
            · rename_i hs
              subst hs
              have ha : AttrEq (t ++ [some 61]) (upToNul b) := ⟨t, b, [], [], h2, nofun, nofun, rfl, by simp⟩
              have := Inv.sub h (.vskip h1 ha hn)
              simpa [upToNul, cstr] using this
            · exact .fail
      · rename_i hx
        simp only [Bool.or_eq_true, beq_iff_eq, not_or] at hx
        have := Inv.sub h (.aname h1 (.char h2 (by simpa using hx.1.1.1.1) hx.1.1.1.2 hx.1.1.2 hx.1.2 hx.2 hc'))
        simpa using this
  | @aeq u e t b w h1 h2 h3 h4 =>
    cases ch with
    | none => exact .fail
    | some c =>
      simp only [step]
      split
      · rename_i hs
        have := Inv.sub h (.aeq h1 h2 (w := w ++ [some c]) (fun x hx => by
          rcases List.mem_append.mp hx with hx | hx
          · exact h3 x hx
          · exact ⟨c, by simpa using hx, hs⟩) h4)
        simpa using this
      split
      · rename_i hs
        subst hs
        have ha : AttrEq (t ++ w ++ [some 61]) (upToNul b) := ⟨t, b, w, [], h2, h3, nofun, rfl, by simp⟩
        have := Inv.sub h (.vskip h1 ha h4)
        simpa using this
      · exact .fail
  | @vskip u e a an h1 h2 h3 =>
    cases ch with
    | none => exact .fail
    | some c =>
      simp only [step]
      split
      · rename_i hs
        obtain ⟨t, b, w, w', b1, b2, b3, b4, rfl⟩ := h2
        have ha : AttrEq (t ++ w ++ [some 61] ++ (w' ++ [some c])) an := ⟨t, b, w, w' ++ [some c], b1, b2, (fun x hx => by
          rcases List.mem_append.mp hx with hx | hx
          · exact b3 x hx
          · exact ⟨c, by simpa using hx, hs⟩), b4, rfl⟩
        have := Inv.sub h (.vskip h1 ha h3)
        simpa using this
      split
      · rename_i hs
        have := Inv.sub h (.qval h1 h2 h3 (q := c) (by omega) .nil)
        simpa using this
      · rename_i hs hs'
        have := Inv.sub h (.uval h1 h2 h3 (c := c) (by simpa using hs) (by omega) (by omega) .nil)
        simpa using this
  | @qval u e a an q w av h1 h2 h3 h4 h5 =>
    have hc : ch ≠ some 38 := by simpa using hc
    cases ch with
    | none =>
      simp only [step, PS.afterValue, withAttr_eq h3]
      exact .sub h (.attr (.quoted h1 h2 h3 h4 h5 (.inr rfl)))
    | some c =>
      have hc' : c ≠ 38 := fun e => hc (by rw [e])
      simp only [step]
      split
      · rename_i hx
        subst hx
        simp only [PS.afterValue, withAttr_eq h3]
        rw [if_neg (by omega), if_neg (by omega)]
        exact .sub h (.attr (.quoted h1 h2 h3 h4 h5 (.inl rfl)))
      have := Inv.sub h (.qval h1 h2 h3 h4 (.char h5 ‹_› hc'))
      simpa using this
  | @uval u e a an c' w av h1 h2 h3 h4 h5 h6 h7 =>
    have hc : ch ≠ some 38 := by simpa using hc
    have hb := InBare.mk h1 h2 h3 h4 h5 h6 h7
    cases ch with
    | none =>
      simp only [step, PS.afterValue, withAttr_eq h3]
      exact .sub h (.attr (.bare hb (.inl rfl)))
    | some c =>
      have hc' : c ≠ 38 := fun e => hc (by rw [e])
      simp only [step]
      split
      · rename_i hx
        simp only [PS.afterValue, withAttr_eq h3]
        split
        · rename_i hx'
          have : c = 47 := by
            rcases hx' with hx' | hx'
            · exact hx'
            · subst hx'; exact absurd hx (by decide)
          subst this
          exact .sub h (.valSlash hb)
        split
        · rename_i hx'
          subst hx'
          exact start_inv h _ (.bare hb) (by decide)
        · rename_i y1 y2
          refine .sub h (.attr (.bare hb (.inr ?_)))
          simp only [Bool.or_eq_true, beq_iff_eq] at hx
          rcases hx with ((hx | hx) | hx) | hx
          · exact .inr ⟨c, rfl, hx⟩
          · exact .inl (by rw [hx])
          · omega
          · omega
      · rename_i hx
        simp only [Bool.or_eq_true, beq_iff_eq, not_or] at hx
        have := Inv.sub h (.uval h1 h2 h3 h4 h5 h6 (.char h7 ⟨by simpa using hx.1.1.1, hx.1.1.2, hx.1.2, hx.2⟩ hc'))
        simpa using this
  | @valSlash u e h1 =>
    simp only [step]
    split
    · rename_i hx
      subst hx
      have := empty_inv h (.valSlash e 47) (.bare h1)
      simpa using this
    · exact .fail

/-! ### References -/

theorem main_takes {p t : Stream} {st : List Frame} {r : Option Node} {o : Bool} {b buf : Bytes} (h : Ctx p st r o) (ht : Text t b)
    (hb : o = true → buf = b) {m : Stream} {v : Nat} (hr : Ref m v) : Inv (p ++ t ++ m) ⟨.main (buf ++ addChar v), st, r, o⟩ := by
  rw [List.append_assoc]
  exact .main h (.ref ht hr) (fun ho => by rw [hb ho])

/-- A reference where one can be. -/
theorem ref_inv {p : Stream} {st : List Frame} {r : Option Node} {o : Bool} {k : PC} {m : Stream} {v : Nat} (h : Inv p ⟨k, st, r, o⟩)
    (hr : Ref m v) (k0 : PC) : Inv (p ++ m) (resume ⟨k0, st, r, o⟩ k v) := by
  cases h with
  | main h1 h2 h3 => exact main_takes h1 h2 h3 hr
  | sub h1 h2 =>
    apply Inv.assoc
    cases h2 with
    | name a => exact .sub h1 (.name (.ref a hr))
    | decl a1 a2 a3 a4 =>
      have := Inv.sub h1 (.decl a1 a2 a3 (.ref a4 hr))
      simpa [resume] using this
    | @qname _ e q b hq =>
      simp only [resume]
      split
      · rename_i hx
        subst hx
        simp only [PS.afterAttrName]
        split
        · exact .fail
        · have h1 : isSpace v = false := by rcases hq with rfl | rfl <;> rfl
          have h2 : v ≠ 61 := by omega
          simp only [h1, h2, Bool.false_eq_true, if_false]
          exact .fail
      · exact .sub h1 (.qname hq)
    | aname a1 a2 =>
      have := Inv.sub h1 (.aname a1 (.ref a2 hr))
      simpa [resume] using this
    | qval a1 a2 a3 a4 a5 =>
      have := Inv.sub h1 (.qval a1 a2 a3 a4 (.ref a5 hr))
      simpa [resume] using this
    | uval a1 a2 a3 a4 a5 a6 a7 =>
      have := Inv.sub h1 (.uval a1 a2 a3 a4 a5 a6 (.ref a7 hr))
      simpa [resume] using this
    | _ => exact .fail
  | late h1 =>
    cases h1 with
    | name => exact .late .name
    | decl => exact .late .decl
    | _ => exact .fail
  | _ => exact .fail

theorem ent_step {p : Stream} {st : List Frame} {r : Option Node} {o : Bool} {k : PC} {acc : List Nat} (h : Inv p ⟨k, st, r, o⟩)
    (h1 : ∀ x ∈ acc, isEntChar x = true) (h2 : acc.length ≤ 63) (ch : Option Nat) :
    Inv (p ++ some 38 :: acc.map some ++ [ch]) (step ⟨.ent k (acc.map UInt8.ofNat), st, r, o⟩ ch) := by
  cases ch with
  | none => exact .fail
  | some c =>
    simp only [step]
    split
    · rename_i hc
      split
      · rename_i hl
        have := Inv.ent h (acc := acc ++ [c]) (by
          intro x hx
          rcases List.mem_append.mp hx with hx | hx
          · exact h1 x hx
          · rw [List.mem_singleton.mp hx]; exact hc) (by simp at hl ⊢; omega)
        simpa using this
      · exact .fail
    · split
      · rename_i hc
        subst hc
        split
        · exact .fail
        · rename_i v hv
          have := ref_inv h (m := some 38 :: acc.map some ++ [some 59]) ⟨acc, h1, h2, hv, rfl⟩ (.ent k (acc.map UInt8.ofNat))
          simpa using this
      · exact .fail

theorem amp_step {p : Stream} {st : List Frame} {r : Option Node} {o : Bool} {k : PC} (h : Inv p ⟨k, st, r, o⟩)
    (he : step ⟨k, st, r, o⟩ (some 38) = ⟨.ent k [], st, r, o⟩) : Inv (p ++ [some 38]) (step ⟨k, st, r, o⟩ (some 38)) := by
  rw [he]
  exact .ent h (acc := []) nofun (by simp)

/-! ### All steps -/

theorem close_step {p : Stream} {f : Frame} {fs : List Frame} {u : Stream} {c : Nat} {w : Stream} (h : Lt p (f :: fs) none true)
    (h1 : Named u (47 :: f.name) (some c)) (h2 : c ≠ 62) (h3 : ∀ x ∈ w, ∃ y, x = some y ∧ y ≠ 62) (ch : Option Nat) :
    Inv (p ++ (u ++ w) ++ [ch]) (step ⟨.close, f :: fs, none, true⟩ ch) := by
  apply Inv.assoc
  simp only [step, PS.closeBody]
  cases ch with
  | none => exact pop_inv h _ (.long h1 h2 h3 (.inr rfl))
  | some d =>
    dsimp only
    split
    · rename_i hd
      subst hd
      exact pop_inv h _ (.long h1 h2 h3 (.inl rfl))
    · rename_i hd
      have := Inv.close h h1 h2 (w := w ++ [some d]) (by
        intro x hx
        rcases List.mem_append.mp hx with hx | hx
        · exact h3 x hx
        · exact ⟨d, by simpa using hx, hd⟩)
      simpa using this

theorem step_inv {p : Stream} {s : PS} (h : Inv p s) (ch : Option Nat) : Inv (p ++ [ch]) (step s ch) := by
  have h0 := h
  cases h with
  | @main p st r o t b buf h1 h2 h3 =>
    by_cases hc : ch = some 38
    · subst hc
      exact amp_step h0 (step_amp_main ⟨.close, st, r, o⟩ buf)
    · exact main_step h1 h2 h3 ch hc
  | @sub p st r o u k h1 h2 =>
    by_cases hc : ch = some 38
    · subst hc
      cases h2 with
      | @name t b a => exact amp_step h0 (step_amp_name ⟨.close, st, r, o⟩ b)
      | decl a1 a2 a3 a4 => exact amp_step h0 (step_amp_decl ⟨.close, st, r, o⟩ _)
      | @qname _ e q b hq => exact amp_step h0 (by simp [step])
      | @aname u e t b a1 a2 => exact amp_step h0 (step_amp_aname ⟨.close, st, r, o⟩ e b)
      | @qval u e a an q w av a1 a2 a3 a4 a5 => exact amp_step h0 (step_amp_qval ⟨.close, st, r, o⟩ e an av q (by omega))
      | uval a1 a2 a3 a4 a5 a6 a7 => exact amp_step h0 (step_amp_uval ⟨.close, st, r, o⟩ _ _ _)
      | comment a1 a2 => exact sub_step h1 (.comment a1 a2) _ (by simp)
      | cdata a1 a2 => exact sub_step h1 (.cdata a1 a2) _ (by simp)
      | pi a1 a2 a3 => exact sub_step h1 (.pi a1 a2 a3) _ (by simp)
      | attr a1 => exact sub_step h1 (.attr a1) _ (by simp)
      | vskip a1 a2 a3 => exact sub_step h1 (.vskip a1 a2 a3) _ (by simp)
      | slash a1 a2 => exact .fail
      | attrSlash a1 a2 => exact .fail
      | aeq a1 a2 a3 a4 => exact .fail
      | valSlash a => exact .fail
    · exact sub_step h1 h2 ch (.inl hc)
  | @late p k n o h1 =>
    by_cases hc : ch = some 38
    · subst hc
      cases h1 with
      | @name b => exact amp_step h0 (step_amp_name ⟨.close, _, _, o⟩ b)
      | @decl b => exact amp_step h0 (step_amp_decl ⟨.close, _, _, o⟩ b)
      | comment => 
        simp only [step]
        split
        · exact .fail
        · exact .late .comment
      | cdata => 
        simp only [step]
        split
        · exact .fail
        · exact .late .cdata
      | pi => 
        simp only [step]
        split
        · exact .fail
        · exact .late .pi
    · exact late_step _ h1 ch hc
  | close h1 h2 h3 h4 => exact close_step h1 h2 h3 h4 ch
  | ent h1 h2 h3 => exact ent_step h1 h2 h3 ch
  | @done p q v st r o h1 =>
    have := Inv.done (q := q ++ [ch]) (st := st) (r := r) (o := o) h1
    cases ch <;> simpa [step] using this
  | fail => cases ch <;> exact .fail

theorem run_inv (l : Stream) : ∀ {p : Stream} {s : PS}, Inv p s → Inv (p ++ l) (Xml.run s l) := by
  induction l with
  | nil => intro p s h; simpa [Xml.run] using h
  | cons c l ih =>
    intro p s h
    have := ih (step_inv h c)
    simpa [run_cons'] using this

/-- An accepted text begins with a document of the grammar. -/
theorem complete {l : Stream} {v : Node} (h : Xml.loadData l = some v) : ∃ p q, l ++ [none, none, none] = p ++ q ∧ Document p v := by
  unfold Xml.loadData at h
  have e : Xml.run (Xml.run PS.init l) [none, none, none] = Xml.run PS.init (l ++ [none, none, none]) := (run_app _ _ _).symm
  rw [e] at h
  have hi : Inv (l ++ [none, none, none]) (Xml.run PS.init (l ++ [none, none, none])) := run_inv _ (inv_main .top)
  generalize l ++ [none, none, none] = m at hi h
  generalize Xml.run PS.init m = s at hi h
  unfold PS.result at h
  cases hi with
  | done hd => injection h with h; subst h; exact ⟨_, _, rfl, hd⟩
  | fail => cases h
  | sub _ hs => cases hs <;> cases h
  | late hs => cases hs <;> cases h
  | _ => cases h

theorem accepted_iff (l : Stream) (v : Node) : Xml.loadData l = some v ↔ ∃ p q, l ++ [none, none, none] = p ++ q ∧ Document p v :=
  ⟨complete, fun ⟨_, _, h, hd⟩ => sound h hd⟩

end Afs.Xml.Acc
