import Verif.Spec

/-!
# The words of a document (C36)

What String prints of a body item, without its drawings: the texts, tabs and line breaks of runs, and links
with their text and target.
-/

namespace Docx

/-- The text of a child of a run; drawings have none -/
def RChild.words : RChild → String
  | .text t => t.text
  | .tab _ => "\t"
  | .br _ => "\n"
  | .drawing _ => ""

/-- The text of a child of a paragraph that belongs to the document `file` -/
def PChild.words (w : World) (file : Option DocId) : PChild → String
  | .run r => String.join (r.children.map RChild.words)
  | .link h => "[" ++ h.run.instr ++ "](" ++ (w.resolve file h.id).getD "" ++ ")"
  | .rpr _ => ""

/-- The text of a paragraph -/
def Para.words (w : World) (p : Para) : String := String.join (p.children.map (PChild.words w p.file))

/-- The texts of a body item: one for a paragraph; for a table those of the paragraphs in each cell, row by row -/
def itemWords (w : World) : BItem → List (List (List String))
  | .para p => [[[p.words w]]]
  | .table t => t.rows.map fun r => r.cells.map fun c => c.paras.map (Para.words w)
  | .sect _ => []

/-- All links of the paragraph lead somewhere. -/
def Para.Linked (w : World) (p : Para) : Prop := ∀ h, .link h ∈ p.children → w.resolve p.file h.id ≠ none

end Docx
