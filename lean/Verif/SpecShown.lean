import Verif.SpecContent
import Verif.SpecPack
import Verif.SpecForms

/-!
# The text of a file (C82)

What someone sees of the paragraphs and tables of a file, as one line of text each: the texts, tabs and
breaks of a paragraph in order, and for a link its text and its target.
-/

namespace Docx

/-- One piece of a run -/
def Piece.shown : Piece → String
  | .text s => s
  | .tab => "\t"
  | .br _ => "\n"
  | .drawing => ""

/-- The pieces of a run -/
def showPieces : List Piece → String
  | [] => ""
  | p :: ps => p.shown ++ showPieces ps

/-- The target of the first relationship with this id; the id itself if there is none -/
def targetIn (rs : List Rel) (id : String) : String :=
  match rs.find? fun r => r.id == id with
  | some r => r.target
  | none => id

/-- A child of a paragraph: a run is its pieces, a link is `[text](target)`, where the text is the code of
its field, if it has one, followed by its pieces. -/
def PPart.shown (rs : List Rel) : PPart → String
  | .run r => showPieces r.pieces
  | .link id r => "[" ++ r.instr ++ showPieces r.pieces ++ "](" ++ targetIn rs id ++ ")"
  | .rpr _ => ""

/-- The text of a paragraph -/
def showParts (rs : List Rel) : List PPart → String
  | [] => ""
  | p :: ps => p.shown rs ++ showParts rs ps

/-- No drawings, and links without texts of their own -/
def PPart.plain : PPart → Bool
  | .run r => !r.pieces.contains .drawing
  | .link _ r => r.pieces.isEmpty
  | .rpr _ => true

/-- The text of a cell: its paragraphs, one line each -/
def showCell (rs : List Rel) (c : CellCont) : String := "\n".intercalate (c.paras.map fun p => showParts rs p.parts)

/-- The same for the cells of a row -/
def showCells (rs : List Rel) : List CellCont → String
  | [] => ""
  | c :: cs => (if c.paras.all (·.parts.isEmpty) then "       " else " " ++ showCell rs c) ++ " |" ++ showCells rs cs

/-- A row of a table: its cells between bars -/
def showRows (rs : List Rel) : List RowCont → String
  | [] => ""
  | r :: rows => "\n|" ++ showCells rs r.cells ++ showRows rs rows

/-- This many times the same -/
def timesText (s : String) : Nat → String
  | 0 => ""
  | n + 1 => s ++ timesText s n

/-- A table in the way of Markdown; nothing if the first row has no cells -/
def showTable (rs : List Rel) (t : TableCont) : String :=
  match t.rows with
  | [] => ""
  | r :: _ => if r.cells.isEmpty then "" else "| " ++ timesText " :----: |" r.cells.length ++ showRows rs t.rows

/-- An item of the body -/
def Content.shown (rs : List Rel) : Content → String
  | .para p => showParts rs p.parts
  | .table t => showTable rs t
  | .sect _ => ""

/-- All parts of the item are plain; the cells of a table have one paragraph or none. -/
def Content.plain : Content → Bool
  | .para p => p.parts.all PPart.plain
  | .table t => t.rows.all fun r => r.cells.all fun c =>
      c.paras.length ≤ 1 && c.paras.all fun p => p.parts.all PPart.plain
  | .sect _ => true

/-- The archive has one file of this name, which can be read as XML whose root has these children. -/
def OneXml (a : Archive) (name : String) (kids : List Node) : Prop :=
  ∃ (pre post : Archive) (cs : List Char) (before after : List Node) (q : QName) (as : List Attr),
    a = pre ++ ⟨name, .ok ⟨utf8 cs, none⟩⟩ :: post ∧ name ∉ pre.map (·.name) ∧ name ∉ post.map (·.name) ∧
    Forms (before ++ .elem q as kids :: after) cs ∧ before.all (fun n => !n.isElem) = true

end Docx
