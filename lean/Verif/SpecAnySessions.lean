import Verif.SpecSessions
import Verif.SpecText

/-!
# Programs that open, change, save and open again, with any strings (C87)
-/

namespace Docx

variable [GoEnv] [ImgEnv]

/-- Document `d` is saved without an error, and opened again as `g`.  Nothing is assumed about its strings. -/
def ReopensAny (w : World) (d : DocId) (g : Doc) : Prop :=
  ∃ f out, w[d]? = some f ∧ Saves f out none ∧ unpack w.length (reread out) = (g, none)

/-- The document at `d'` in `w'` goes back to the document at `d` in `w`, through calls and any number
of times saving it and opening it again. -/
inductive LaterAny (w : World) (d : DocId) : World → DocId → Prop
  | same : LaterAny w d w d
  | action {w1 w2 : World} {d1 : DocId} : LaterAny w d w1 d1 → Action w1 w2 → LaterAny w d w2 d1
  | reopened {w1 : World} {d1 : DocId} {g : Doc} : LaterAny w d w1 d1 → ReopensAny w1 d1 g →
      LaterAny w d (w1 ++ [g]) w1.length

end Docx
