import Verif.SpecJoin
import Verif.SpecClean

/-!
# Joining files (C94)
-/

namespace Docx

/-- The links of a body in their order: the label that `AddLink` gave them (the field instruction of the run),
and where they lead -/
def World.targets (w : World) (items : List BItem) : List (String × Option String) :=
  (items.flatMap BItem.paras).flatMap fun p => p.children.filterMap fun
    | .link h => some (h.run.instr, w.resolve p.file h.id)
    | _ => none

/-- The drawings in the paragraphs of a body (not those in links), in their order -/
def bodyDrawings (items : List BItem) : List Drawing :=
  (items.flatMap BItem.paras).flatMap Para.drawings

/-- The label and the target with the characters replaced that XML cannot carry -/
def cleanLink (l : String × Option String) : String × Option String := (clean l.1, l.2.map clean)

end Docx
