import Verif.Handles

/-!
# Specification: files left open
-/

namespace Docx

/-- The files that are open after these events, given those open before -/
def openAfter (before : List String) : List FileEv → List String
  | [] => before
  | .opened n :: t => openAfter (before ++ [n]) t
  | .closed n :: t => openAfter (before.erase n) t

/-- Files left open by a call -/
def leftOpen (t : List FileEv) : List String := openAfter [] t

end Docx
