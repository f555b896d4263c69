import Verif.Xml

/-!
# What saving and parsing again keeps of a document

`norm file x` is `x` without the things the XML round trip of `/repo` loses.  `keptBody file x` and
`looksOk x` say that there is nothing to lose in `x`.  Both are used in the statements of C41 and C42.

Lost are: numbering (`numPr` has no case in structpara.go:60-165); the attributes of a tab inside a
run (structrun.go:117-118); the `avLst` of a shape's geometry (structeffects.go:217-218); the
name-space attribute of pictures inside groups (structgroup.go:66-72, 196-202); group shapes inside
group shapes (no case in structgroup.go:173-226); nil grid columns; and all but the first digit of
the numbers of `tblLook` (structtable.go:316-327).
The document pointers are set to the parsed document, except inside hyperlinks
(structlink.go:47-59), where they stay nil.
-/

namespace Docx

/-- `numPr` is lost -/
def normPPr (p : PPr) : PPr := { p with numPr := none }

/-- `avLst` is lost -/
def normShapePr (s : ShapePr) : ShapePr := { s with prstGeom := { s.prstGeom with avLst := false } }

/-- Of a number in `tblLook` only the first character of its decimal form is read, as a byte minus
`'0'` -/
def normLookInt (n : Int64) : Int64 :=
  if n < 0 then 253 else ((itoa n).toList.head?.map fun c => Int64.ofNat (c.toNat - 48)).getD 0

/-- The numbers of `tblLook` -/
def normLook (l : TblLook) : TblLook :=
  { l with
    firstRow := normLookInt l.firstRow, lastRow := normLookInt l.lastRow
    firstCol := normLookInt l.firstCol, lastCol := normLookInt l.lastCol
    noHBand := normLookInt l.noHBand, noVBand := normLookInt l.noVBand }

mutual
/-- paragraph -/
def normPara (file : Option DocId) : Para → Para
  | ⟨props, children, _⟩ => ⟨props.map normPPr, normPChildren file children, file⟩
/-- children of a paragraph -/
def normPChildren (file : Option DocId) : List PChild → List PChild
  | [] => []
  | c :: cs => normPChild file c :: normPChildren file cs
/-- child of a paragraph -/
def normPChild (file : Option DocId) : PChild → PChild
  | .run r => .run (normRun file r)
  | .link h => .link (normLink h)
  | .rpr p => .rpr p
/-- hyperlink: its run is parsed without a document pointer -/
def normLink : Hyperlink → Hyperlink
  | ⟨id, run⟩ => ⟨id, normRun none run⟩
/-- run -/
def normRun (file : Option DocId) : Run → Run
  | ⟨space, rpr, instr, children⟩ => ⟨space, rpr, instr, normRChildren file children⟩
/-- children of a run -/
def normRChildren (file : Option DocId) : List RChild → List RChild
  | [] => []
  | c :: cs => normRChild file c :: normRChildren file cs
/-- child of a run: the attributes of a tab are lost -/
def normRChild (file : Option DocId) : RChild → RChild
  | .text t => .text t
  | .tab _ => .tab {}
  | .br b => .br b
  | .drawing d => .drawing (normDrawing file d)
/-- drawing -/
def normDrawing (file : Option DocId) : Drawing → Drawing
  | ⟨inl, anchor⟩ => ⟨normInlineO file inl, normAnchorO file anchor⟩
/-- pointer to an inline drawing -/
def normInlineO (file : Option DocId) : Option Inline → Option Inline
  | none => none
  | some i => some (normInline file i)
/-- pointer to an anchored drawing -/
def normAnchorO (file : Option DocId) : Option Anchor → Option Anchor
  | none => none
  | some a => some (normAnchor file a)
/-- inline drawing -/
def normInline (file : Option DocId) : Inline → Inline
  | ⟨distT, distB, distL, distR, extent, effectExtent, docPr, framePr, graphic, _⟩ =>
    ⟨distT, distB, distL, distR, extent, effectExtent, docPr, framePr, normGraphicO file graphic, file⟩
/-- anchored drawing -/
def normAnchor (file : Option DocId) : Anchor → Anchor
  | ⟨distT, distB, distL, distR, simplePos, relativeHeight, behindDoc, locked, layoutInCell,
      allowOverlap, simplePosXY, positionH, positionV, extent, effectExtent, wrapNone, wrapSquare,
      docPr, framePr, graphic, _⟩ =>
    ⟨distT, distB, distL, distR, simplePos, relativeHeight, behindDoc, locked, layoutInCell,
      allowOverlap, simplePosXY, positionH, positionV, extent, effectExtent, wrapNone, wrapSquare,
      docPr, framePr, normGraphicO file graphic, file⟩
/-- pointer to a graphic -/
def normGraphicO (file : Option DocId) : Option Graphic → Option Graphic
  | none => none
  | some g => some (normGraphic file g)
/-- graphic -/
def normGraphic (file : Option DocId) : Graphic → Graphic
  | ⟨xmlA, data⟩ => ⟨xmlA, normGraphicDataO file data⟩
/-- pointer to graphic data -/
def normGraphicDataO (file : Option DocId) : Option GraphicData → Option GraphicData
  | none => none
  | some g => some (normGraphicData file g)
/-- graphic data -/
def normGraphicData (file : Option DocId) : GraphicData → GraphicData
  | ⟨uri, pic, shape, canvas, group⟩ =>
    ⟨uri, pic, normShapeO file shape, normCanvasO file canvas, normGroupO file group⟩
/-- pointer to a shape -/
def normShapeO (file : Option DocId) : Option Shape → Option Shape
  | none => none
  | some s => some (normShape file s)
/-- pointer to a canvas -/
def normCanvasO (file : Option DocId) : Option Canvas → Option Canvas
  | none => none
  | some c => some (normCanvas file c)
/-- pointer to a group -/
def normGroupO (file : Option DocId) : Option Group → Option Group
  | none => none
  | some g => some (normGroup file g)
/-- shape -/
def normShape (file : Option DocId) : Shape → Shape
  | ⟨cNvPr, cNvCnPr, cNvSpPr, spPr, textBox, bodyPr⟩ =>
    ⟨cNvPr, cNvCnPr, cNvSpPr, spPr.map normShapePr, normTextBoxO file textBox, bodyPr⟩
/-- pointer to a text box -/
def normTextBoxO (file : Option DocId) : Option TextBox → Option TextBox
  | none => none
  | some t => some (normTextBox file t)
/-- text box -/
def normTextBox (file : Option DocId) : TextBox → TextBox
  | ⟨content⟩ => ⟨normContentO file content⟩
/-- content of a text box -/
def normContentO (file : Option DocId) : Option (List Para) → Option (List Para)
  | none => none
  | some ps => some (normParas file ps)
/-- paragraphs -/
def normParas (file : Option DocId) : List Para → List Para
  | [] => []
  | p :: ps => normPara file p :: normParas file ps
/-- canvas -/
def normCanvas (file : Option DocId) : Canvas → Canvas
  | ⟨background, whole, items⟩ => ⟨background, whole, normCItems file items⟩
/-- items of a canvas -/
def normCItems (file : Option DocId) : List CItem → List CItem
  | [] => []
  | c :: cs => normCItem file c :: normCItems file cs
/-- item of a canvas -/
def normCItem (file : Option DocId) : CItem → CItem
  | .shape s => .shape (normShape file s)
  | .pic p => .pic p
  | .group g => .group (normGroup file g)
/-- group -/
def normGroup (file : Option DocId) : Group → Group
  | ⟨cNvGrpSpPr, grpSpPr, elems⟩ => ⟨cNvGrpSpPr, grpSpPr.map normShapePr, normGItems file elems⟩
/-- group shape: the group shapes inside it are lost -/
def normGroupShape (file : Option DocId) : GroupShape → GroupShape
  | ⟨cNvPr, cNvGrpSpPr, grpSpPr, elems⟩ =>
    ⟨cNvPr, cNvGrpSpPr, grpSpPr.map normShapePr, normInnerItems file elems⟩
/-- items of a group -/
def normGItems (file : Option DocId) : List GItem → List GItem
  | [] => []
  | g :: gs => normGItem file g :: normGItems file gs
/-- item of a group: a picture loses its name-space attribute -/
def normGItem (file : Option DocId) : GItem → GItem
  | .shape s => .shape (normShape file s)
  | .pic p => .pic { p with xmlPic := "" }
  | .canvas c => .canvas (normCanvas file c)
  | .groupShape g => .groupShape (normGroupShape file g)
/-- items of a group shape -/
def normInnerItems (file : Option DocId) : List GItem → List GItem
  | [] => []
  | g :: gs => normInnerItem file g ++ normInnerItems file gs
/-- item of a group shape -/
def normInnerItem (file : Option DocId) : GItem → List GItem
  | .shape s => [.shape (normShape file s)]
  | .pic p => [.pic { p with xmlPic := "" }]
  | .canvas c => [.canvas (normCanvas file c)]
  | .groupShape _ => []
end

/-- table properties -/
def normTblPr (t : TblPr) : TblPr := { t with look := t.look.map normLook }

/-- cell -/
def normCell (file : Option DocId) (c : Cell) : Cell :=
  { props := c.props, paras := c.paras.map (normPara file), file := file }

/-- row -/
def normRow (file : Option DocId) (r : Row) : Row :=
  { props := r.props, cells := r.cells.map (normCell file) }

/-- table: nil grid columns are lost -/
def normTable (file : Option DocId) (t : Table) : Table :=
  { props := t.props.map normTblPr
    grid := t.grid.map fun g => g.filter Option.isSome
    rows := t.rows.map (normRow file) }

/-- item of a body -/
def normItem (file : Option DocId) : BItem → BItem
  | .para p => .para (normPara file p)
  | .table t => .table (normTable file t)
  | .sect s => .sect s

/-- The body after saving and parsing into document `file` -/
def normBody (file : Option DocId) (items : List BItem) : List BItem := items.map (normItem file)

/-! ## Documents in which there is nothing to lose -/

/-- The number is a single digit -/
def digit (n : Int64) : Prop := 0 ≤ n ∧ n ≤ 9

/-- The numbers of `tblLook` are single digits -/
def lookOk (l : TblLook) : Prop :=
  digit l.firstRow ∧ digit l.lastRow ∧ digit l.firstCol ∧ digit l.lastCol ∧ digit l.noHBand ∧
    digit l.noVBand

/-- No numbering -/
def keptPPr (o : Option PPr) : Prop := ∀ p, o = some p → p.numPr = none

/-- No `avLst` -/
def keptShapePr (o : Option ShapePr) : Prop := ∀ s, o = some s → s.prstGeom.avLst = false

mutual
/-- paragraph: no numbering, and it belongs to the document -/
def keptPara (file : Option DocId) : Para → Prop
  | ⟨props, children, f⟩ => keptPPr props ∧ keptPChildren file children ∧ f = file
/-- children of a paragraph -/
def keptPChildren (file : Option DocId) : List PChild → Prop
  | [] => True
  | c :: cs => keptPChild file c ∧ keptPChildren file cs
/-- child of a paragraph -/
def keptPChild (file : Option DocId) : PChild → Prop
  | .run r => keptRun file r
  | .link h => keptLink h
  | .rpr _ => True
/-- hyperlink -/
def keptLink : Hyperlink → Prop
  | ⟨_, run⟩ => keptRun none run
/-- run -/
def keptRun (file : Option DocId) : Run → Prop
  | ⟨_, _, _, children⟩ => keptRChildren file children
/-- children of a run -/
def keptRChildren (file : Option DocId) : List RChild → Prop
  | [] => True
  | c :: cs => keptRChild file c ∧ keptRChildren file cs
/-- child of a run: tabs have no attributes -/
def keptRChild (file : Option DocId) : RChild → Prop
  | .text _ => True
  | .tab t => t = {}
  | .br _ => True
  | .drawing d => keptDrawing file d
/-- drawing -/
def keptDrawing (file : Option DocId) : Drawing → Prop
  | ⟨inl, anchor⟩ => keptInlineO file inl ∧ keptAnchorO file anchor
/-- pointer to an inline drawing -/
def keptInlineO (file : Option DocId) : Option Inline → Prop
  | none => True
  | some i => keptInline file i
/-- pointer to an anchored drawing -/
def keptAnchorO (file : Option DocId) : Option Anchor → Prop
  | none => True
  | some a => keptAnchor file a
/-- inline drawing -/
def keptInline (file : Option DocId) : Inline → Prop
  | ⟨_, _, _, _, _, _, _, _, graphic, f⟩ => keptGraphicO file graphic ∧ f = file
/-- anchored drawing -/
def keptAnchor (file : Option DocId) : Anchor → Prop
  | ⟨_, _, _, _, _, _, _, _, _, _, _, _, _, _, _, _, _, _, _, graphic, f⟩ =>
    keptGraphicO file graphic ∧ f = file
/-- pointer to a graphic -/
def keptGraphicO (file : Option DocId) : Option Graphic → Prop
  | none => True
  | some g => keptGraphic file g
/-- graphic -/
def keptGraphic (file : Option DocId) : Graphic → Prop
  | ⟨_, data⟩ => keptGraphicDataO file data
/-- pointer to graphic data -/
def keptGraphicDataO (file : Option DocId) : Option GraphicData → Prop
  | none => True
  | some g => keptGraphicData file g
/-- graphic data -/
def keptGraphicData (file : Option DocId) : GraphicData → Prop
  | ⟨_, _, shape, canvas, group⟩ =>
    keptShapeO file shape ∧ keptCanvasO file canvas ∧ keptGroupO file group
/-- pointer to a shape -/
def keptShapeO (file : Option DocId) : Option Shape → Prop
  | none => True
  | some s => keptShape file s
/-- pointer to a canvas -/
def keptCanvasO (file : Option DocId) : Option Canvas → Prop
  | none => True
  | some c => keptCanvas file c
/-- pointer to a group -/
def keptGroupO (file : Option DocId) : Option Group → Prop
  | none => True
  | some g => keptGroup file g
/-- shape -/
def keptShape (file : Option DocId) : Shape → Prop
  | ⟨_, _, _, spPr, textBox, _⟩ => keptShapePr spPr ∧ keptTextBoxO file textBox
/-- pointer to a text box -/
def keptTextBoxO (file : Option DocId) : Option TextBox → Prop
  | none => True
  | some t => keptTextBox file t
/-- text box -/
def keptTextBox (file : Option DocId) : TextBox → Prop
  | ⟨content⟩ => keptContentO file content
/-- content of a text box -/
def keptContentO (file : Option DocId) : Option (List Para) → Prop
  | none => True
  | some ps => keptParas file ps
/-- paragraphs -/
def keptParas (file : Option DocId) : List Para → Prop
  | [] => True
  | p :: ps => keptPara file p ∧ keptParas file ps
/-- canvas -/
def keptCanvas (file : Option DocId) : Canvas → Prop
  | ⟨_, _, items⟩ => keptCItems file items
/-- items of a canvas -/
def keptCItems (file : Option DocId) : List CItem → Prop
  | [] => True
  | c :: cs => keptCItem file c ∧ keptCItems file cs
/-- item of a canvas -/
def keptCItem (file : Option DocId) : CItem → Prop
  | .shape s => keptShape file s
  | .pic _ => True
  | .group g => keptGroup file g
/-- group -/
def keptGroup (file : Option DocId) : Group → Prop
  | ⟨_, grpSpPr, elems⟩ => keptShapePr grpSpPr ∧ keptGItems file elems
/-- group shape: no group shapes inside -/
def keptGroupShape (file : Option DocId) : GroupShape → Prop
  | ⟨_, _, grpSpPr, elems⟩ => keptShapePr grpSpPr ∧ keptInnerItems file elems
/-- items of a group -/
def keptGItems (file : Option DocId) : List GItem → Prop
  | [] => True
  | g :: gs => keptGItem file g ∧ keptGItems file gs
/-- item of a group: pictures have no name-space attribute -/
def keptGItem (file : Option DocId) : GItem → Prop
  | .shape s => keptShape file s
  | .pic p => p.xmlPic = ""
  | .canvas c => keptCanvas file c
  | .groupShape g => keptGroupShape file g
/-- items of a group shape -/
def keptInnerItems (file : Option DocId) : List GItem → Prop
  | [] => True
  | g :: gs => keptInnerItem file g ∧ keptInnerItems file gs
/-- item of a group shape -/
def keptInnerItem (file : Option DocId) : GItem → Prop
  | .shape s => keptShape file s
  | .pic p => p.xmlPic = ""
  | .canvas c => keptCanvas file c
  | .groupShape _ => False
end

/-- cell -/
def keptCell (file : Option DocId) (c : Cell) : Prop :=
  (∀ p ∈ c.paras, keptPara file p) ∧ c.file = file

/-- row -/
def keptRow (file : Option DocId) (r : Row) : Prop := ∀ c ∈ r.cells, keptCell file c

/-- table: no nil grid columns -/
def keptTable (file : Option DocId) (t : Table) : Prop :=
  (∀ g, t.grid = some g → none ∉ g) ∧ ∀ r ∈ t.rows, keptRow file r

/-- item of a body -/
def keptItem (file : Option DocId) : BItem → Prop
  | .para p => keptPara file p
  | .table t => keptTable file t
  | .sect _ => True

/-- There is nothing to lose in the body, apart from the numbers of `tblLook` -/
def keptBody (file : Option DocId) (items : List BItem) : Prop := ∀ i ∈ items, keptItem file i

/-- The numbers of `tblLook` of all tables are single digits -/
def looksOk (items : List BItem) : Prop :=
  ∀ i ∈ items, ∀ t pr l, i = .table t → t.props = some pr → pr.look = some l → lookOk l

/-! ## The text of a body -/

/-- The texts of a run, in order -/
def runTexts (r : Run) : List String :=
  r.children.filterMap fun c => match c with
    | .text t => some t.text
    | _ => none

/-- The texts of a paragraph, in order, those of hyperlinks included -/
def paraTexts (p : Para) : List String :=
  p.children.flatMap fun c => match c with
    | .run r => runTexts r
    | .link h => runTexts h.run
    | .rpr _ => []

/-- The texts of every item of a body: of a paragraph, of the paragraphs of the cells of a table -/
def bodyTexts (items : List BItem) : List (List (List (List (List String)))) :=
  items.map fun i => match i with
    | .para p => [[[paraTexts p]]]
    | .table t => t.rows.map fun r => r.cells.map fun c => c.paras.map paraTexts
    | .sect _ => []

/-! ## Unsupported elements (C43) -/

/-- The local names the library handles, anywhere in a document -/
def known : List String :=
  ["tab", "rFonts", "b", "iCs", "i", "u", "highlight", "color", "sz", "spacing", "szCs", "rStyle",
    "pStyle", "shd", "kern", "vertAlign", "strike", "tabs", "ind", "jc", "rPr", "textAlignment",
    "adjustRightInd", "snapToGrid", "kinsoku", "overflowPunct", "graphicFrameLocks", "picLocks",
    "cNvPr", "cNvPicPr", "alphaModFix", "fillRect", "blip", "stretch", "off", "ext", "chOff",
    "chExt", "avLst", "xfrm", "prstGeom", "nvPicPr", "blipFill", "spPr", "posOffset", "srcRect",
    "tile", "srgbClr", "noFill", "solidFill", "prstDash", "miter", "round", "headEnd", "tailEnd",
    "ln", "cxnSpLocks", "spLocks", "noAutofit", "grpSpLocks", "top", "left", "bottom", "right",
    "insideH", "insideV", "tblpPr", "tblStyle", "tblW", "tblLook", "tblBorders", "gridCol",
    "trHeight", "tcW", "vMerge", "gridSpan", "vAlign", "tcBorders", "pgSz", "pgMar", "cols",
    "docGrid", "p", "txbxContent", "cNvCnPr", "cNvSpPr", "txbx", "bodyPr", "cNvGrpSpPr", "grpSpPr",
    "pic", "wsp", "wpc", "grpSp", "bg", "whole", "wgp", "graphicData", "extent", "effectExtent",
    "docPr", "cNvGraphicFramePr", "graphic", "simplePos", "positionH", "positionV", "wrapNone",
    "wrapSquare", "inline", "anchor", "r", "hyperlink", "pPr", "tcPr", "trPr", "tc", "tr", "tblPr",
    "tblGrid", "tbl", "sectPr", "body", "instrText", "t", "drawing", "br", "AlternateContent",
    "Choice"]

/-- The elements the library expects to have no child elements (or, for `Choice` and `tabs`, only
certain ones): inside them nothing may be inserted -/
def fragile : List String :=
  ["tab", "rFonts", "spacing", "shd", "ind", "tile", "headEnd", "tailEnd", "spLocks", "top", "left",
    "bottom", "right", "insideH", "insideV", "tblpPr", "tblStyle", "tblW", "tblLook", "gridCol",
    "pgSz", "pgMar", "cols", "docGrid", "cNvPr", "docPr", "extent", "effectExtent", "t", "br",
    "tabs", "Choice"]

/-- `Ins ks ks'`: the children `ks'` are the children `ks` with any number of elements of unknown
names inserted, among `ks` themselves and among their descendants, but not inside `fragile`
elements.  Such an element can have any attributes and any content. -/
inductive Ins : List Node → List Node → Prop
  | nil : Ins [] []
  | insert {q as kids ks ks'} (h : q.loc ∉ known) (hk : Ins ks ks') : Ins ks (.elem q as kids :: ks')
  | keep {n ks ks'} (hk : Ins ks ks') : Ins (n :: ks) (n :: ks')
  | inside {q as kids kids' ks ks'} (h : q.loc ∉ fragile) (hi : Ins kids kids') (hk : Ins ks ks') :
      Ins (.elem q as kids :: ks) (.elem q as kids' :: ks')

/-- The elements among whose children nothing can be inserted: all `fragile` ones but `tabs` -/
def rigid : List String := fragile.erase "tabs"

/-- Elements whose character data is a value: a field code and the offset of a position.  (`t` is
another, but it is in `fragile`.) -/
def textual : List String := ["instrText", "posOffset"]

/-- An element, not character data or a comment -/
def Node.isElem : Node → Bool
  | .elem .. => true
  | _ => false

mutual
/-- Every `AlternateContent` has only elements as children. -/
def altTight : Node → Prop
  | .elem q _ kids => (q.loc = "AlternateContent" → ∀ n ∈ kids, n.isElem = true) ∧ altTightL kids
  | _ => True
def altTightL : List Node → Prop
  | [] => True
  | n :: ks => altTight n ∧ altTightL ks
end

/-- `Pad v ks ks'`: the children `ks'` are the children `ks` with any number of comments (or processing
instructions) and character data (line breaks and indentation, for instance) inserted, among `ks`
themselves and among their descendants, but not inside `rigid` elements, not directly inside an
`AlternateContent`, and no character data directly inside `textual` elements.  `v` says whether character
data can be inserted among `ks` themselves. -/
inductive Pad : Bool → List Node → List Node → Prop
  | nil {v} : Pad v [] []
  | comment {v ks ks'} (hk : Pad v ks ks') : Pad v ks (.other :: ks')
  | space {s ks ks'} (hk : Pad true ks ks') : Pad true ks (.text s :: ks')
  | keep {v n ks ks'} (hk : Pad v ks ks') : Pad v (n :: ks) (n :: ks')
  | inside {v q as kids kids' ks ks'} (h : q.loc ∉ rigid) (ha : q.loc ≠ "AlternateContent")
      (hi : Pad (decide (q.loc ∉ textual)) kids kids') (hk : Pad v ks ks') :
      Pad v (.elem q as kids :: ks) (.elem q as kids' :: ks')

mutual
/-- A tool that breaks lines and indents: `ws d` before each child at depth `d` and before the end tag of
its parent.  It leaves empty elements, elements with `rigid` or `textual` names and `AlternateContent`
as they are. -/
def indent (ws : Nat → String) (d : Nat) : Node → Node
  | .elem q as kids =>
    if q.loc ∈ rigid ∨ q.loc ∈ textual ∨ q.loc = "AlternateContent" ∨ kids.isEmpty then .elem q as kids
    else .elem q as (indentL ws (d + 1) kids ++ [.text (ws d)])
  | .text s => .text s
  | .other => .other
def indentL (ws : Nat → String) (d : Nat) : List Node → List Node
  | [] => []
  | n :: ks => .text (ws d) :: indent ws d n :: indentL ws d ks
end

/-! ## Bad numbers (C44) -/

/-- The attributes (local names) that should hold numbers, per element (local name) -/
def numeric (l : String) : List String :=
  match l with
  | "spacing" => ["val", "beforeLines", "before", "line"]
  | "ind" => ["leftChars", "left", "firstLineChars", "firstLine", "hangingChars", "hanging"]
  | "tab" => ["pos"]
  | "kern" => ["val"]
  | "adjustRightInd" => ["val"]
  | "snapToGrid" => ["val"]
  | "kinsoku" => ["val"]
  | "overflowPunct" => ["val"]
  | "extent" => ["cx", "cy"]
  | "ext" => ["cx", "cy"]
  | "chExt" => ["cx", "cy"]
  | "effectExtent" => ["l", "t", "r", "b"]
  | "docPr" => ["id"]
  | "cNvPr" => ["id"]
  | "graphicFrameLocks" => ["noChangeAspect"]
  | "picLocks" => ["noChangeAspect"]
  | "alphaModFix" => ["amt"]
  | "xfrm" => ["rot", "flipH", "flipV"]
  | "off" => ["x", "y"]
  | "chOff" => ["x", "y"]
  | "simplePos" => ["x", "y"]
  | "tile" => ["tx", "ty", "sx", "sy"]
  | "blipFill" => ["dpi", "rotWithShape"]
  | "ln" => ["w"]
  | "spLocks" => ["noChangeArrowheads"]
  | "cNvSpPr" => ["txBox"]
  | "tblpPr" => ["leftFromText", "rightFromText", "tblpX", "tblpY"]
  | "tblW" => ["w"]
  | "top" => ["sz", "space"]
  | "left" => ["sz", "space"]
  | "bottom" => ["sz", "space"]
  | "right" => ["sz", "space"]
  | "insideH" => ["sz", "space"]
  | "insideV" => ["sz", "space"]
  | "gridCol" => ["w"]
  | "trHeight" => ["val"]
  | "tcW" => ["w"]
  | "gridSpan" => ["val"]
  | "inline" => ["distT", "distB", "distL", "distR"]
  | "anchor" => ["distT", "distB", "distL", "distR", "simplePos", "relativeHeight", "behindDoc",
      "locked", "layoutInCell", "allowOverlap"]
  | _ => []

/-- `GetInt` does not report "expected integer" for this text: it starts with a number (after blanks
and a sign), or is one `ParseFloat` reads, or is not even the beginning of one (empty, for example,
which makes parsing fail) -/
def numLike [GoEnv] (v : String) : Prop := (getInt v).2 ≠ some .expected

/-- The attributes of an element that should hold numbers do. -/
def attrsOk [GoEnv] (l : String) (as : List Attr) : Prop :=
  ∀ a ∈ as, a.name.loc ∈ numeric l → numLike a.val

mutual
/-- All attributes that should hold numbers do, in the whole tree. -/
def numsOk [GoEnv] : Node → Prop
  | .elem q as kids => attrsOk q.loc as ∧ numsOkL kids
  | .text _ => True
  | .other => True
/-- The same for a sequence of trees -/
def numsOkL [GoEnv] : List Node → Prop
  | [] => True
  | n :: ns => numsOk n ∧ numsOkL ns
end

/-- What a paragraph consists of -/
inductive PKind where
  | run
  | link
  | rpr
deriving DecidableEq, Repr

/-- What a body item consists of: the parts of a paragraph, the paragraphs of each cell of each row -/
inductive Outline where
  | para (kids : List PKind)
  | table (rows : List (List (List (List PKind))))
  | sect
deriving DecidableEq, Repr

/-- The children of an element of this name -/
def childrenOf (l : String) : Node → List (List Node)
  | .elem q _ kids => if q.loc = l then [kids] else []
  | _ => []

/-- What a child of a `w:p` element stands for -/
def xmlPKind : Node → List PKind
  | .elem q _ _ =>
    if q.loc = "r" then [.run] else if q.loc = "hyperlink" then [.link]
    else if q.loc = "rPr" then [.rpr] else []
  | _ => []

/-- The outlines of the paragraphs among these nodes -/
def xmlParas (ks : List Node) : List (List PKind) :=
  (ks.flatMap (childrenOf "p")).map fun k => k.flatMap xmlPKind

/-- The outline of a `w:tbl` element with these children -/
def xmlRows (ks : List Node) : List (List (List (List PKind))) :=
  (ks.flatMap (childrenOf "tr")).map fun r => (r.flatMap (childrenOf "tc")).map xmlParas

/-- The outline of a child of `w:body` -/
def xmlItem : Node → List Outline
  | .elem q _ kids =>
    if q.loc = "p" then [.para (kids.flatMap xmlPKind)]
    else if q.loc = "tbl" then [.table (xmlRows kids)]
    else if q.loc = "sectPr" then [.sect]
    else []
  | _ => []

/-- The outline of the body of a `w:document` element with these children -/
def xmlOutline (ks : List Node) : List Outline :=
  (ks.flatMap (childrenOf "body")).flatMap fun b => b.flatMap xmlItem

/-- What a paragraph consists of -/
def paraOutline (p : Para) : List PKind :=
  p.children.map fun c => match c with
    | .run _ => .run
    | .link _ => .link
    | .rpr _ => .rpr

/-- The outline of a body item -/
def itemOutline : BItem → Outline
  | .para p => .para (paraOutline p)
  | .table t => .table (t.rows.map fun r => r.cells.map fun c => c.paras.map paraOutline)
  | .sect _ => .sect

end Docx
