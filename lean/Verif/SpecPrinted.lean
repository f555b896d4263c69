import Verif.SpecMakes
import Verif.Text

/-!
# What documents of programs print (C105)

`Prints b t`: `t` is a text of a block that shows `b`.  The text of a paragraph is that of its pieces; a picture is
printed as a name and the MD5 sum of its bytes, a shape as a name and its kind.  A cell of a table prints its first
paragraph between spaces; one that shows nothing may be printed as eight spaces instead.
-/

namespace Docx

/-- The text of a piece -/
inductive BitPrints [HashEnv] : Bit → String → Prop
  | words (b : Bit) : b.drawn = false → BitPrints b b.words
  | picture (inline : Bool) (data : Bytes) (name : String) : BitPrints (.picture inline data)
      ("![" ++ (if inline then "inln" else "anch") ++ "im " ++ name ++ "](" ++ HashEnv.md5hex data ++ ")")
  | shape (inline : Bool) (w h : Int64) (kind name : String) : BitPrints (.shape inline w h kind)
      ("![" ++ (if inline then "inln" else "anch") ++ "sp " ++ name ++ "](" ++ kind ++ ")")

/-- The text of a paragraph -/
inductive BitsPrint [HashEnv] : List Bit → String → Prop
  | nil : BitsPrint [] ""
  | cons {b bs s t} : BitPrints b s → BitsPrint bs t → BitsPrint (b :: bs) (s ++ t)

/-- The part of a line for one cell -/
inductive CellPrints [HashEnv] : List (List Bit) → String → Prop
  | noParagraph : CellPrints [] "        |"
  | nothing (ps : List (List Bit)) : CellPrints ([] :: ps) "        |"
  | shown {p t} (ps : List (List Bit)) : BitsPrint p t → CellPrints (p :: ps) (" " ++ t ++ " |")

/-- The cells of a line -/
inductive CellsPrint [HashEnv] : List (List (List Bit)) → String → Prop
  | nil : CellsPrint [] ""
  | cons {c cs s t} : CellPrints c s → CellsPrint cs t → CellsPrint (c :: cs) (s ++ t)

/-- The lines of a table -/
inductive RowsPrint [HashEnv] : List (List (List (List Bit))) → String → Prop
  | nil : RowsPrint [] ""
  | cons {r rs s t} : CellsPrint r s → RowsPrint rs t → RowsPrint (r :: rs) ("\n|" ++ s ++ t)

/-- The text of a block -/
inductive Prints [HashEnv] : Block → String → Prop
  | para {bits t} : BitsPrint bits t → Prints (.para bits) t
  | noRow : Prints (.table []) ""
  | noCell (rs : List (List (List (List Bit)))) : Prints (.table ([] :: rs)) ""
  | table (r : List (List (List Bit))) (rs : List (List (List (List Bit)))) (s : String) : r ≠ [] → RowsPrint (r :: rs) s →
      Prints (.table (r :: rs)) ("| " ++ String.join (List.replicate r.length " :----: |") ++ s)
  | page (w h : Int64) : Prints (.page w h) ""

/-- No picture where the text is taken from: a paragraph, or the first paragraph of a cell -/
def Block.Pictureless : Block → Prop
  | .para bits => ∀ inline data, .picture inline data ∉ bits
  | .table rows => ∀ r ∈ rows, ∀ c ∈ r, ∀ p, c.head? = some p → ∀ inline data, .picture inline data ∉ p
  | _ => True

/-- `String` of paragraphs and tables; a section has none.  cmd/main/main.go:221-228 prints them. -/
def BItem.printed [HashEnv] (w : World) : BItem → Res String
  | .para p => p.str w
  | .table t => t.str w
  | .sect _ => .ok ""

end Docx
