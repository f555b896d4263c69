import Verif.SpecPack
import Verif.SpecSessions

/-!
# Opening and saving, again and again
-/

namespace Docx

variable [GoEnv]

/-- Opening the archive `a` and saving the document at once may leave the archive `out`. -/
def Resave (a : Archive) (out : Saved) : Prop := ∃ me f, unpack me a = (f, none) ∧ Saves f out none

/-- The archive `o'` comes from `o` by opening and saving any number of times. -/
inductive Resaved (o : Saved) : Saved → Prop
  | same : Resaved o o
  | again {o1 o2 : Saved} : Resaved o o1 → Resave (reread o1) o2 → Resaved o o2

/-- The names under `word/media/` are relative paths without empty, `.` or `..` elements and without
backslashes. -/
def PlainMedia (a : Archive) : Prop := ∀ e ∈ a, isMediaName e.name = true → plainPath e.name = true

end Docx
