import Verif.Proof.Accepted
/-! # Texts of the grammar Spec/Accepted are read as it says: trees and documents -/
namespace Afs.Xml.Acc
open Afs Afs.Xml Afs.Spec.Accepted

/-- Inside elements: with the nodes `ns` more in the innermost one. -/
def inside (f : Frame) (fs : List Frame) (ns : List Node) : List Frame := { f with rev := ns.reverse ++ f.rev } :: fs

theorem inside_flush (f : Frame) (fs : List Frame) (ns : List Node) (b : Bytes) (k : PC) (r : Option Node) :
    PS.flush ⟨k, inside f fs ns, r, true⟩ b = ⟨k, inside f fs (ns ++ textNodes b), r, true⟩ := by
  unfold PS.flush textNodes
  by_cases h : b = []
  · simp [h]
  · simp [h, PS.addNode, inside]

mutual
theorem run_item : ∀ {m : Stream} {n : Node}, Item m n → ∀ (f : Frame) (fs : List Frame) (ns : List Node) (b : Bytes),
    Xml.run ⟨.main b, inside f fs ns, none, true⟩ m = ⟨.main [], inside f fs (ns ++ textNodes b ++ [n]), none, true⟩
  | _, _, .comment h, f, fs, ns, b => by
    rw [show (⟨.main b, inside f fs ns, none, true⟩ : PS) = { (⟨.close, inside f fs ns, none, true⟩ : PS) with pc := .main b } from rfl,
      run_comment h, inside_flush]
    simp [PS.addSpecial, PS.secondRoot, PS.addNode, inside]
  | _, _, .cdata h, f, fs, ns, b => by
    rw [show (⟨.main b, inside f fs ns, none, true⟩ : PS) = { (⟨.close, inside f fs ns, none, true⟩ : PS) with pc := .main b } from rfl,
      run_cdata h, inside_flush]
    simp [PS.addSpecial, PS.secondRoot, PS.addNode, inside]
  | _, _, .pi h, f, fs, ns, b => by
    rw [show (⟨.main b, inside f fs ns, none, true⟩ : PS) = { (⟨.close, inside f fs ns, none, true⟩ : PS) with pc := .main b } from rfl,
      run_pi h, inside_flush]
    simp [PS.addDirective, PS.secondRoot, PS.addNode, inside]
  | _, _, .decl h, f, fs, ns, b => by
    rw [show (⟨.main b, inside f fs ns, none, true⟩ : PS) = { (⟨.close, inside f fs ns, none, true⟩ : PS) with pc := .main b } from rfl,
      run_decl h, inside_flush]
    simp [PS.addDirective, PS.secondRoot, PS.addNode, inside]
  | _, _, .empty h, f, fs, ns, b => by
    rw [show (⟨.main b, inside f fs ns, none, true⟩ : PS) = { (⟨.close, inside f fs ns, none, true⟩ : PS) with pc := .main b } from rfl,
      run_emptyTag h _ _ (by rw [inside_flush]; rfl), inside_flush]
    simp [PS.addNode, inside]
  | _, _, .elem (e := e) (b := d) h1 h2 h3 h4, f, fs, ns, b => by
    rw [run_app, run_app, run_app]
    rw [show (⟨.main b, inside f fs ns, none, true⟩ : PS) = { (⟨.close, inside f fs ns, none, true⟩ : PS) with pc := .main b } from rfl,
      run_start h1 _ _ (by rw [inside_flush]; rfl), inside_flush]
    have e1 : ({ PS.push ⟨.close, inside f fs (ns ++ textNodes b), none, true⟩ e with pc := .main [] } : PS) =
        ⟨.main [], inside ⟨e.1, e.2, []⟩ (inside f fs (ns ++ textNodes b)) [], none, true⟩ := by simp [PS.push, inside]
    rw [e1, run_items h2]
    obtain ⟨d', hd, he⟩ : ∃ d', Text [] d' ∧ d' = [] := ⟨_, .nil, rfl⟩
    rw [show ∀ st, (⟨.main [], st, none, true⟩ : PS) = { (⟨.close, st, none, true⟩ : PS) with pc := .main [] } from fun _ => rfl,
      run_text h3 _ rfl, run_end h4 _ _ (f := _) (fs := _) (by rw [inside_flush]; rfl) rfl, List.nil_append, inside_flush]
    simp [PS.pop, inside, Frame.node]
theorem run_items : ∀ {c : Stream} {ms : List Node}, Items c ms → ∀ (f : Frame) (fs : List Frame) (ns : List Node),
    Xml.run ⟨.main [], inside f fs ns, none, true⟩ c = ⟨.main [], inside f fs (ns ++ ms), none, true⟩
  | _, _, .nil, f, fs, ns => by simp [Xml.run]
  | _, _, .snoc (ns := ns') (b := b) (n := n) h1 h2 h3, f, fs, ns => by
    rw [run_app, run_app, run_items h1]
    rw [show ∀ st, (⟨.main [], st, none, true⟩ : PS) = { (⟨.close, st, none, true⟩ : PS) with pc := .main [] } from fun _ => rfl,
      run_text h2 _ rfl]
    have := run_item h3 f fs (ns ++ ns') ([] ++ b)
    rw [show ({ (⟨.close, inside f fs (ns ++ ns'), none, true⟩ : PS) with pc := .main ([] ++ b) } : PS) =
      ⟨.main ([] ++ b), inside f fs (ns ++ ns'), none, true⟩ from rfl, this]
    simp
end

theorem idle_top : Idle ⟨.close, [], none, false⟩ := by
  intro b
  unfold PS.flush
  split
  · rfl
  · rfl

theorem idle_root (n : Node) (o : Bool) : Idle ⟨.close, [], some n, o⟩ := by
  intro b
  unfold PS.flush
  split
  · rfl
  · cases o <;> rfl

theorem flush_top (b : Bytes) : PS.flush ⟨.close, [], none, false⟩ b = ⟨.close, [], none, false⟩ := idle_top b

theorem run_top {j : Stream} {b : Bytes} (h : Text j b) : ∃ b', Xml.run PS.init j = { (⟨.close, [], none, false⟩ : PS) with pc := .main b' } :=
  run_idle h ⟨.close, [], none, false⟩ idle_top []

theorem run_opening {t : Stream} {e : Head} (h : Opening t e) (b : Bytes) :
    Xml.run { (⟨.close, [], none, false⟩ : PS) with pc := .main b } t = ⟨.main [], inside ⟨e.1, e.2, []⟩ [] [], none, true⟩ := by
  rcases h with h | ⟨x, h | h, rfl⟩
  · rw [run_start h _ _ (by rw [flush_top]; rfl), flush_top]
    rfl
  · rw [run_pi h, flush_top]
    rfl
  · rw [run_decl h, flush_top]
    rfl

theorem run_single {t : Stream} {n : Node} (h : Single t n) (b : Bytes) :
    Xml.run { (⟨.close, [], none, false⟩ : PS) with pc := .main b } t = { (⟨.close, [], some n, false⟩ : PS) with pc := .main [] } := by
  rcases h with ⟨x, h | h, rfl⟩ | ⟨e, h, rfl⟩
  · rw [run_comment h, flush_top]
    rfl
  · rw [run_cdata h, flush_top]
    rfl
  · rw [run_emptyTag h _ _ (by rw [flush_top]; rfl), flush_top]
    rfl

theorem run_trail {j : Stream} {b : Bytes} (h : Text j b) (n : Node) (o : Bool) :
    (Xml.run (Xml.run { (⟨.close, [], some n, o⟩ : PS) with pc := .main [] } j) [none]).pc = .done (some n) := by
  obtain ⟨b', h'⟩ := run_idle h _ (idle_root n o) []
  rw [h']
  rfl

/-- Behind a document of the grammar the answer is settled. -/
theorem run_document {s : Stream} {v : Node} (h : Document s v) : (Xml.run PS.init s).pc = .done (some v) := by
  have start : ∀ {j : Stream} {b : Bytes} {h : Stream} {e : Head} {c : Stream} {ns : List Node} {t : Stream} {d : Bytes}, Text j b → Opening h e →
      Items c ns → Text t d → Xml.run PS.init (j ++ h ++ c ++ t) =
        { (⟨.close, inside ⟨e.1, e.2, []⟩ [] ns, none, true⟩ : PS) with pc := .main d } := by
    intro j b h e c ns t d h1 h2 h3 h4
    obtain ⟨b', hb⟩ := run_top h1
    rw [run_app, run_app, run_app, hb, run_opening h2, run_items h3,
      show ∀ st, (⟨.main [], st, none, true⟩ : PS) = { (⟨.close, st, none, true⟩ : PS) with pc := .main [] } from fun _ => rfl,
      run_text h4 _ rfl]
    simp
  cases h with
  | single h1 h2 h3 =>
    obtain ⟨b', hb⟩ := run_top h1
    rw [run_app, run_app, run_app, hb, run_single h2]
    exact run_trail h3 _ _
  | @closed j b h e c ns t d u j' b' h1 h2 h3 h4 h5 h6 =>
    rw [run_app, run_app, run_app, start h1 h2 h3 h4, run_end h5 _ _ (by rw [inside_flush]; rfl) rfl, inside_flush]
    have e1 : PS.pop ⟨.close, inside ⟨e.1, e.2, []⟩ [] (ns ++ textNodes d), none, true⟩ =
        { (⟨.close, [], some (.elem e.1 e.2 (ns ++ textNodes d)), true⟩ : PS) with pc := .main [] } := by
      simp [PS.pop, inside, Frame.node]
    rw [e1]
    exact run_trail h6 _ _
  | @unclosed j b h e c ns t d h1 h2 h3 h4 =>
    rw [run_snoc, start h1 h2 h3 h4]
    simp [step, PS.finish, inside, Frame.node]
  | @inName j b h e c ns t d u n h1 h2 h3 h4 h5 h6 =>
    rw [run_app, start h1 h2 h3 h4, run_named h5, inside_flush, afterName_plain_none h6 rfl]
    simp [PS.addNode, inside, PS.finish, Frame.node]
  | @inRootName j b u n h1 h2 h3 =>
    obtain ⟨b', hb⟩ := run_top h1
    rw [run_app, hb, run_named h2, flush_top, afterName_plain_none h3 rfl]
    rfl

theorem done_run (l : Stream) : ∀ (s : PS) {r : Option Node}, s.pc = .done r → (Xml.run s l).pc = .done r := by
  induction l with
  | nil => intro s r h; exact h
  | cons c l ih =>
    intro s r h
    rw [run_cons']
    apply ih
    obtain ⟨k, st, ro, o⟩ := s
    cases h
    cases c <;> rfl

/-- A text that begins with a document of the grammar is accepted. -/
theorem sound {l p q : Stream} {v : Node} (h : l ++ [none, none, none] = p ++ q) (hd : Document p v) : Xml.loadData l = some v := by
  unfold Xml.loadData
  have : Xml.run (Xml.run PS.init l) [none, none, none] = Xml.run PS.init (l ++ [none, none, none]) := (run_app _ _ _).symm
  rw [this, h, run_app]
  unfold PS.result
  rw [done_run q _ (run_document hd)]

end Afs.Xml.Acc
