import Verif.SpecBuilt

/-!
# Specification for C25: calls after which `MergeText` keeps the text
-/

namespace Docx

/-- No tab or break comes after a text: first the tabs and breaks, then the text. -/
def TextsLast (bits : List Bit) : Prop :=
  ∃ os ts : List Bit, bits = os ++ ts ∧ (∀ s, Bit.text s ∉ os) ∧ ∀ b ∈ ts, ∃ s, b = .text s

/-- The calls that keep `MergeText` from losing and moving text: no links, and in every text added at once the tabs and line
breaks come first.  (`AddTab`, `AddPageBreaks`, pictures, shapes, all setters and filters are allowed.) -/
def Call.Apart : Call → Prop
  | .text _ s => TextsLast (bitsOf s.toList)
  | .textTab _ s => TextsLast (bitsOf s.toList ++ [.tab])
  | .link _ _ _ => False
  | _ => True

/-- Texts, tabs and breaks -/
def Bit.written : Bit → Bool
  | .text _ => true
  | .tab => true
  | .newline => true
  | .pageBreak => true
  | _ => false

end Docx
