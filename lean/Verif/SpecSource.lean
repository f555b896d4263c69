import Verif.Source
import Verif.World

/-!
# Documents and the files they were opened from (C88)
-/

namespace Docx

variable [GoEnv] [ImgEnv]

/-- Document `g` at `d` was opened from the package `a`, and then any calls were made, of this document
and others, but no UseTemplate of this one. -/
def OpenedFrom (a : Archive) (d : DocId) (w' : World) (g : Doc) : Prop :=
  ∃ (w : World) (f : Doc) (os : List Op), w.length = d ∧ unpack d a = (f, none) ∧
    (∀ t l fs, .useTemplate d t l fs ∉ os) ∧ run (w ++ [f]) os = .ok w' ∧ w'[d]? = some g

end Docx
