import Verif.SpecWell
import Verif.Lemmas.XmlUnique
import Verif.Props.AnyText

/-!
# C92: the parts that are written are well-formed XML
-/

namespace Docx

/-! ## Replacing characters does not touch names -/

mutual
theorem well_clean : ∀ n : Node, n.wellFormed → n.clean.wellFormed
  | .elem q as kids, h => by
    obtain ⟨h1, h2, h3, h4⟩ := h
    refine ⟨h1, ?_, ?_, well_cleanL kids h4⟩
    · intro a ha
      obtain ⟨b, hb, rfl⟩ := List.mem_map.1 ha
      exact h2 b hb
    · rw [List.map_map]
      exact h3
  | .text _, _ => trivial
  | .other, h => h
theorem well_cleanL : ∀ ns : List Node, wellFormedL ns → wellFormedL (cleanL ns)
  | [], _ => trivial
  | n :: ns, h => ⟨well_clean n h.1, well_cleanL ns h.2⟩
end

/-! ## The tokens of a tree -/

mutual
theorem well_toks : ∀ (n : Node) (q : QName) (st : List QName) (r : List Tok), n.wellFormed →
    wellToks (q :: st) true r → wellToks (q :: st) true (n.toks ++ r)
  | .elem q' as kids, q, st, r, h, hr => by
    obtain ⟨h1, h2, h3, h4⟩ := h
    have := well_toksL kids q' (q :: st) (.stop q' :: r) h4 (by simp only [wellToks]; exact ⟨trivial, hr⟩)
    simp only [Node.toks, List.cons_append, List.append_assoc, wellToks]
    exact ⟨h1, h2, h3, fun e => (by cases e), this⟩
  | .text _, q, st, r, _, hr => by simp only [Node.toks, List.cons_append, List.nil_append, wellToks]; exact hr
  | .other, q, st, r, _, hr => by simp only [Node.toks, List.cons_append, List.nil_append, wellToks]; exact hr
theorem well_toksL : ∀ (ns : List Node) (q : QName) (st : List QName) (r : List Tok), wellFormedL ns →
    wellToks (q :: st) true r → wellToks (q :: st) true (toksL ns ++ r)
  | [], _, _, _, _, hr => hr
  | n :: ns, q, st, r, h, hr => by
    simp only [toksL, List.append_assoc]
    exact well_toks n q st _ h.1 (well_toksL ns q st r h.2 hr)
end

theorem well_part {q : QName} {as : List Attr} {kids : List Node} (h : (Node.elem q as kids).wellFormed) :
    wellToks [] false (partToks (.elem q as kids)) := by
  obtain ⟨h1, h2, h3, h4⟩ := h
  have := well_toksL kids q [] [.stop q] h4 (by simp [wellToks])
  simp only [partToks, Node.toks, wellToks]
  exact ⟨by decide, h1, h2, h3, fun _ => trivial, this⟩

/-! ## C92 -/

/-- **C92.** Whatever is in a document, built or read or changed by hand: if it is saved, the main part and
the relationships are well-formed XML. -/
theorem C92_well_formed [GoEnv] (f : Doc) (out : Saved) (h : Saves f out none) :
    (∃ b, Stored out "word/document.xml" b ∧ wellToks [] false (lex b)) ∧
    ∃ b, Stored out "word/_rels/document.xml.rels" b ∧ wellToks [] false (lex b) := by
  obtain ⟨c1, c2, _, _⟩ := C49_contents f out h
  refine ⟨⟨_, c1, ?_⟩, ⟨_, c2, ?_⟩⟩
  · rw [C48_document]
    exact well_part (well_clean _ (uq_mDocument f.items))
  · rw [C48_rels]
    exact well_part (well_clean _ (uq_mRels f.relXmlns f.rels))

/-! ## Cases -/

local instance wellEnv : GoEnv := ⟨fun _ => none, fun _ => false, fun _ => false⟩
local instance wellImg : ImgEnv := ⟨fun _ => none⟩

/-- A text and a link with control characters and with `<` in them: the document can be saved, and what is
written is well-formed. -/
example : ∃ f out, run [] oddCalls = .ok [f] ∧ Saves f out none ∧
    ∃ b, Stored out "word/document.xml" b ∧ wellToks [] false (lex b) := by
  have key : (match run [] oddCalls with
    | .ok [f] => f.tmpfslst == [] && f.media.length == 0
    | _ => false) = true := by decide +kernel
  split at key
  · rename_i f hr
    simp only [Bool.and_eq_true, beq_iff_eq, List.length_eq_zero_iff] at key
    obtain ⟨k2, k3⟩ := key
    obtain ⟨out, e, hs⟩ := C53_returns f (.inr k2)
    obtain rfl := C53_success f (by simp [k2]) (by simp [k2]) (by simp [k3]) out e hs
    exact ⟨f, out, hr, hs, (C92_well_formed f out hs).1⟩
  · cases key

/-- What is not well-formed: an attribute twice, a wrong end tag, no end tag, two root elements, text outside -/
example : ¬ wellToks [] false [.start ⟨"", "a"⟩ [⟨⟨"", "x"⟩, "1"⟩, ⟨⟨"", "x"⟩, "2"⟩], .stop ⟨"", "a"⟩] ∧
    ¬ wellToks [] false [.start ⟨"", "a"⟩ [], .stop ⟨"", "b"⟩] ∧
    ¬ wellToks [] false [.start ⟨"", "a"⟩ []] ∧
    ¬ wellToks [] false [.start ⟨"", "a"⟩ [], .stop ⟨"", "a"⟩, .start ⟨"", "a"⟩ [], .stop ⟨"", "a"⟩] ∧
    ¬ wellToks [] false [.start ⟨"", "a"⟩ [], .stop ⟨"", "a"⟩, .chars "x"] := by
  simp [wellToks]

end Docx
