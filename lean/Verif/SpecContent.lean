import Verif.SpecFormat

/-!
# The content of a document, as written in the XML and as parsed

`xmlContent` says what paragraphs, runs and texts an XML document has, with their formatting (see
`Verif.SpecFormat`); `itemContent` says what a parsed body item has.  What is inside drawings is left
out.
-/

namespace Docx

/-- A child of a run -/
inductive Piece where
  | text (s : String)
  | tab
  | br (type : String)
  | drawing
deriving DecidableEq, Repr

/-- A run: its formatting, the code of its field and its children -/
structure RunCont where
  rpr : Option RPr := none
  instr : String := ""
  pieces : List Piece := []
deriving DecidableEq, Repr

/-- A child of a paragraph; a link with its id or anchor -/
inductive PPart where
  | run (r : RunCont)
  | link (id : String) (r : RunCont)
  | rpr (f : RPr)
deriving DecidableEq, Repr

/-- A paragraph -/
structure ParaCont where
  props : Option PPr := none
  parts : List PPart := []
deriving DecidableEq, Repr

/-- A cell of a table -/
structure CellCont where
  props : Option TcPr := none
  paras : List ParaCont := []
deriving DecidableEq, Repr

/-- A row of a table -/
structure RowCont where
  props : Option TrPr := none
  cells : List CellCont := []
deriving DecidableEq, Repr

/-- A table -/
structure TableCont where
  props : Option TblPr := none
  grid : Option (List (Option Int64)) := none
  rows : List RowCont := []
deriving DecidableEq, Repr

/-- A body item -/
inductive Content where
  | para (p : ParaCont)
  | table (t : TableCont)
  | sect (s : SectPr)
deriving DecidableEq, Repr

/-! ## In the XML -/

mutual
/-- The pieces of character data in a tree, in order -/
def charData : Node → List String
  | .elem _ _ kids => charDataL kids
  | .text s => [s]
  | .other => []
/-- The same for a sequence of trees -/
def charDataL : List Node → List String
  | [] => []
  | n :: ns => charData n ++ charDataL ns
end

/-- A `Choice` whose extension the library knows -/
def supported (q : QName) (as : List Attr) : Bool :=
  q.loc == "Choice" && ["wps", "wpc", "wpg"].contains (firstAttr "Requires" as)

/-- The character data directly in an element with these children -/
def ownText : List Node → String
  | [] => ""
  | .text s :: ns => s ++ ownText ns
  | _ :: ns => ownText ns

/-- What a child of a `w:r` element can stand for: a child of the run, its formatting or the code of
its field -/
inductive RunEl where
  | piece (p : Piece)
  | format (f : RPr)
  | code (s : String)
deriving DecidableEq, Repr

/-- The children of the run among these -/
def RunEl.pieces : List RunEl → List Piece
  | [] => []
  | .piece p :: es => p :: RunEl.pieces es
  | _ :: es => RunEl.pieces es

/-- The last formatting among these -/
def RunEl.format? : List RunEl → Option RPr
  | [] => none
  | .format f :: es => some ((RunEl.format? es).getD f)
  | _ :: es => RunEl.format? es

/-- The last field code among these -/
def RunEl.code? : List RunEl → Option String
  | [] => none
  | .code s :: es => some ((RunEl.code? es).getD s)
  | _ :: es => RunEl.code? es

/-- A run made up of these: the last formatting and the last field code count. -/
def runCont (es : List RunEl) : RunCont :=
  ⟨RunEl.format? es, (RunEl.code? es).getD "", RunEl.pieces es⟩

section
variable [GoEnv]
-- `tx`: what becomes of the pieces of character data of a text element
variable (tx : List String → String)

mutual
/-- What a child of a `w:r` element stands for -/
def runEls : Node → List RunEl
  | .elem q as kids =>
    if q.loc = "t" then [.piece (.text (tx (charDataL kids)))]
    else if q.loc = "tab" then .piece .tab :: runElsL kids
    else if q.loc = "br" then [.piece (.br (firstAttr "type" as))]
    else if q.loc = "drawing" then [.piece .drawing]
    else if q.loc = "rPr" then [.format (xmlRPr kids)]
    else if q.loc = "instrText" then [.code (ownText kids)]
    else if q.loc = "AlternateContent" then altEls kids
    else []
  | .text _ => []
  | .other => []
/-- The same for a sequence of nodes -/
def runElsL : List Node → List RunEl
  | [] => []
  | n :: ns => runEls n ++ runElsL ns
/-- An `AlternateContent` element with these children stands for the children of its first supported
`Choice`, followed by what stands after that `Choice`. -/
def altEls : List Node → List RunEl
  | [] => []
  | .elem q as kids :: ns => if supported q as then runElsL kids ++ runElsL ns else altEls ns
  | .text _ :: ns => altEls ns
  | .other :: ns => altEls ns
end

/-- What a child of a `w:p` element stands for.  All runs of a link make up one run. -/
def xmlPart : Node → List PPart
  | .elem q as kids =>
    if q.loc = "r" then [.run (runCont (runElsL tx kids))]
    else if q.loc = "hyperlink" then
      [.link (if firstAttr "anchor" as ≠ "" then firstAttr "anchor" as else firstAttr "id" as)
        (runCont ((kids.flatMap (childrenOf "r")).flatMap (runElsL tx)))]
    else if q.loc = "rPr" then [.rpr (xmlRPr kids)]
    else []
  | _ => []

/-- What the last child with this name says, according to `of` -/
def lastChild {α : Type} (n : String) (of : List Node → α) (ks : List Node) : Option α :=
  (ks.flatMap (childrenOf n)).getLast?.map of

/-- The content of a `w:p` element with these children -/
def xmlPara (ks : List Node) : ParaCont := ⟨lastChild "pPr" xmlPPr ks, ks.flatMap (xmlPart tx)⟩

/-- The content of a `w:tc` element with these children -/
def xmlCell (ks : List Node) : CellCont :=
  ⟨lastChild "tcPr" xmlTcPr ks, (ks.flatMap (childrenOf "p")).map (xmlPara tx)⟩

/-- The content of a `w:tr` element with these children -/
def xmlRow (ks : List Node) : RowCont :=
  ⟨lastChild "trPr" xmlTrPr ks, (ks.flatMap (childrenOf "tc")).map (xmlCell tx)⟩

/-- The content of a `w:tbl` element with these children -/
def xmlTable (ks : List Node) : TableCont :=
  ⟨lastChild "tblPr" xmlTblPr ks, lastChild "tblGrid" xmlGrid ks,
    (ks.flatMap (childrenOf "tr")).map (xmlRow tx)⟩

/-- The content of a child of `w:body` -/
def xmlItemContent : Node → List Content
  | .elem q _ kids =>
    if q.loc = "p" then [.para (xmlPara tx kids)]
    else if q.loc = "tbl" then [.table (xmlTable tx kids)]
    else if q.loc = "sectPr" then [.sect (xmlSect kids)]
    else []
  | _ => []

/-- The content of a `w:document` element with these children -/
def xmlContent (ks : List Node) : List Content :=
  (ks.flatMap (childrenOf "body")).flatMap fun b => b.flatMap (xmlItemContent tx)

end

/-- All pieces of character data together -/
def whole : List String → String
  | [] => ""
  | s :: ss => s ++ whole ss

/-- The last piece of character data -/
def lastPiece (ss : List String) : String := ss.getLast?.getD ""

mutual
/-- No text element in the tree has several pieces of character data. -/
def textsOk : Node → Prop
  | .elem q _ kids => (q.loc = "t" → (charDataL kids).length ≤ 1) ∧ textsOkL kids
  | .text _ => True
  | .other => True
/-- The same for a sequence of trees -/
def textsOkL : List Node → Prop
  | [] => True
  | n :: ns => textsOk n ∧ textsOkL ns
end

/-- There is nothing but elements before the first supported `Choice` (or, without one, at all). -/
def altFront : List Node → Bool
  | [] => true
  | .elem q as _ :: ns => supported q as || altFront ns
  | _ => false

mutual
/-- `altFront` holds for all `AlternateContent` elements in the tree. -/
def altsOk : Node → Prop
  | .elem q _ kids => (q.loc = "AlternateContent" → altFront kids = true) ∧ altsOkL kids
  | .text _ => True
  | .other => True
/-- The same for a sequence of trees -/
def altsOkL : List Node → Prop
  | [] => True
  | n :: ns => altsOk n ∧ altsOkL ns
end

/-! ## Parsed -/

/-- A child of a run -/
def pieceOf : RChild → Piece
  | .text t => .text t.text
  | .tab _ => .tab
  | .br b => .br b.type
  | .drawing _ => .drawing

/-- A run -/
def runContent (r : Run) : RunCont := ⟨r.rpr, r.instr, r.children.map pieceOf⟩

/-- A child of a paragraph -/
def partOf : PChild → PPart
  | .run r => .run (runContent r)
  | .link h => .link h.id (runContent h.run)
  | .rpr f => .rpr f

/-- A paragraph -/
def paraContent (p : Para) : ParaCont := ⟨p.props, p.children.map partOf⟩

/-- A cell -/
def cellContent (c : Cell) : CellCont := ⟨c.props, c.paras.map paraContent⟩

/-- A row -/
def rowContent (r : Row) : RowCont := ⟨r.props, r.cells.map cellContent⟩

/-- A table -/
def tableContent (t : Table) : TableCont := ⟨t.props, t.grid, t.rows.map rowContent⟩

/-- A body item -/
def itemContent : BItem → Content
  | .para p => .para (paraContent p)
  | .table t => .table (tableContent t)
  | .sect s => .sect s

end Docx
