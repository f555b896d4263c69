import Verif.Reader

/-!
# Specification for C108
-/

namespace Docx

/-- The document inside -/
def Wrap.inside : Wrap → Doc
  | .doc f => f
  | .nop r => r.inside
  | .limit _ r => r.inside
  | .tee r => r.inside
  | .bufio _ _ r => r.inside

/-- Nothing has been read yet. -/
def Wrap.Unread : Wrap → Prop
  | .doc _ => True
  | .nop r => r.Unread
  | .limit _ r => r.Unread
  | .tee r => r.Unread
  | .bufio buf err r => buf = [] ∧ err = none ∧ r.Unread

/-- The program asks for 0 bytes: a limit is 0. -/
def Wrap.AsksNothing : Wrap → Prop
  | .doc _ => False
  | .nop r => r.AsksNothing
  | .limit n r => n = 0 ∨ r.AsksNothing
  | .tee r => r.AsksNothing
  | .bufio _ _ r => r.AsksNothing

/-- Only `io.NopCloser` and `bufio.Reader` are around the document. -/
def Wrap.Direct : Wrap → Prop
  | .doc _ => True
  | .nop r => r.Direct
  | .limit _ _ => False
  | .tee _ => False
  | .bufio _ _ r => r.Direct

end Docx
