import Verif.Doc

/-!
# Building documents

Models apipara.go, apitext.go, apirun.go, apilink.go, apitable.go, apidrawing.go, apishape.go and
theme.go.  Functions that change the document a paragraph points to take that document as an
argument and return it; `Verif.World` finds it through `Paragraph.file`.
-/

namespace Docx

/-! ## apipara.go -/

/-- apipara.go:24-31 `(*Docx).AddParagraph`; `self` is the address of `f` -/
def Doc.addParagraph (f : Doc) (self : DocId) : Doc :=
  { f with items := f.items ++ [.para { file := some self }] }

/-- apipara.go:34-41 `(*WTableCell).AddParagraph` -/
def Cell.addParagraph (c : Cell) : Cell :=
  { c with paras := c.paras ++ [{ file := c.file }] }

/-- Append a run to the children (apipara.go:69, apitext.go:35 and others) -/
def Para.addRun (p : Para) (r : Run) : Para :=
  { p with children := p.children ++ [.run r] }

/-- apipara.go:52-54 and others: `if p.Properties == nil { p.Properties = &ParagraphProperties{} }` -/
def Para.ensureProps (p : Para) : PPr := p.props.getD {}

/-- apipara.go:51-57 `Justification` -/
def Para.justification (p : Para) (val : String) : Para :=
  { p with props := some { p.ensureProps with jc := some val } }

/-- apipara.go:60-71 `AddPageBreaks` -/
def Para.addPageBreaks (p : Para) : Para × Run :=
  let r : Run := { rpr := some {}, children := [.br { type := "page" }] }
  (p.addRun r, r)

/-- apipara.go:74-80 `Style` -/
def Para.setStyle (p : Para) (val : String) : Para :=
  { p with props := some { p.ensureProps with style := some val } }

/-- apipara.go:83-100 `NumPr` -/
def Para.setNumPr (p : Para) (numID ilvl : String) : Para :=
  let pp := p.ensureProps
  { p with props := some { pp with rpr := some (pp.rpr.getD {}),
                                   numPr := some { numId := some numID, ilvl := some ilvl } } }

/-- apipara.go:103-117 `NumFont` -/
def Para.numFont (p : Para) (ascii eastAsia hansi hint : String) : Para :=
  let pp := p.ensureProps
  let rp := pp.rpr.getD {}
  { p with props := some { pp with rpr := some { rp with fonts := some ⟨ascii, eastAsia, hansi, hint⟩ } } }

/-- apipara.go:120-129 `NumSize` -/
def Para.numSize (p : Para) (size : String) : Para :=
  let pp := p.ensureProps
  let rp := pp.rpr.getD {}
  { p with props := some { pp with rpr := some { rp with size := some size } } }

/-! ## apitext.go -/

/-- apitext.go:26-38 `AddTab` -/
def Para.addTab (p : Para) : Para × Run :=
  let r : Run := { rpr := some {}, children := [.tab {}] }
  (p.addRun r, r)

/-- `strings.Split(s, sep)` for a one-character separator -/
def splitOn (sep : Char) : List Char → List (List Char)
  | [] => [[]]
  | c :: cs =>
    if c = sep then [] :: splitOn sep cs
    else match splitOn sep cs with
      | [] => [[c]]
      | x :: xs => (c :: x) :: xs

/-- apitext.go:50-59: the children for the tab separated pieces of one line; `idx` is `tabIndex` -/
def tabPieces (idx : Nat) : List (List Char) → List RChild
  | [] => []
  | k :: ks =>
    (if idx > 0 then [.tab {}] else []) ++
    (if k = [] then [] else [.text { text := String.ofList k }]) ++
    tabPieces (idx + 1) ks

/-- apitext.go:46-60: the children for the lines of a text; `i` is the line index -/
def linePieces (i : Nat) : List (List Char) → List RChild
  | [] => []
  | s :: ss =>
    (if i > 0 then [.br {}] else []) ++ tabPieces 0 (splitOn '\t' s) ++ linePieces (i + 1) ss

/-- apitext.go:41-67 `AddText` -/
def Para.addText (p : Para) (text : String) : Para × Run :=
  if text = "\t" then p.addTab
  else
    let r : Run := { rpr := some {}, children := linePieces 0 (splitOn '\n' text.toList) }
    (p.addRun r, r)

/-! ## apirun.go -/

/-- Every run setter writes through `r.RunProperties`, a nil dereference when there is none. -/
def Run.setProp (r : Run) (f : RPr → RPr) : Res Run :=
  match r.rpr with
  | none => .panic
  | some p => .ok { r with rpr := some (f p) }

/-- apirun.go:24-29 `Color` -/
def Run.setColor (r : Run) (v : String) : Res Run := r.setProp ({ · with color := some v })
/-- apirun.go:32-37 `Size` -/
def Run.setSize (r : Run) (v : String) : Res Run := r.setProp ({ · with size := some v })
/-- apirun.go:40-45 `SizeCs` -/
def Run.setSizeCs (r : Run) (v : String) : Res Run := r.setProp ({ · with sizeCs := some v })
/-- apirun.go:48-55 `Shade` -/
def Run.setShade (r : Run) (val color fill : String) : Res Run :=
  r.setProp ({ · with shade := some { val := val, color := color, fill := fill } })
/-- apirun.go:58-63 `Spacing` -/
def Run.setSpacing (r : Run) (line : Int64) : Res Run :=
  r.setProp ({ · with spacing := some { line := line } })
/-- apirun.go:66-69 `Bold` -/
def Run.setBold (r : Run) : Res Run := r.setProp ({ · with bold := true })
/-- apirun.go:72-75 `Italic` -/
def Run.setItalic (r : Run) : Res Run := r.setProp ({ · with italic := true })
/-- apirun.go:91-94 `Underline` -/
def Run.setUnderline (r : Run) (v : String) : Res Run := r.setProp ({ · with underline := some v })
/-- apirun.go:97-100 `Highlight` -/
def Run.setHighlight (r : Run) (v : String) : Res Run := r.setProp ({ · with highlight := some v })
/-- apirun.go:103-110 `Strike` -/
def Run.setStrike (r : Run) (v : Bool) : Res Run :=
  r.setProp ({ · with strike := some (if v then "true" else "false") })
/-- apirun.go:113-116 `AddTab` -/
def Run.addTab (r : Run) : Res Run := .ok { r with children := r.children ++ [.tab {}] }
/-- apirun.go:119-127 `Font` -/
def Run.setFont (r : Run) (ascii eastAsia hansi hint : String) : Res Run :=
  r.setProp ({ · with fonts := some ⟨ascii, eastAsia, hansi, hint⟩ })

/-! ## apilink.go -/

/-- apilink.go:29-46 `AddLink`; `f` is `*p.file` -/
def Para.addLink (p : Para) (f : Doc) (text link : String) : Doc × Para × Hyperlink :=
  let (f', rid) := f.addLinkRelation link
  let h : Hyperlink := { id := rid, run := { rpr := some { runStyle := some "a3" }, instr := text } }
  (f', { p with children := p.children ++ [.link h] }, h)

/-! ## apitable.go -/

/-- apitable.go:205-212 `APITableBorderColors` -/
structure BorderColors where
  top : String := ""
  left : String := ""
  bottom : String := ""
  right : String := ""
  insideH : String := ""
  insideV : String := ""
deriving DecidableEq, Repr, Inhabited

/-- apitable.go:214-222 `applyDefault`, one field -/
def defColor (s : String) : String := if s = "" then "#000000" else s

/-- apitable.go:214-222 `applyDefault` -/
def BorderColors.applyDefault (b : BorderColors) : BorderColors :=
  { top := defColor b.top, left := defColor b.left, bottom := defColor b.bottom,
    right := defColor b.right, insideH := defColor b.insideH, insideV := defColor b.insideV }

/-- apitable.go:68-73: one border -/
def mkBorder (color : String) : Border := { val := "single", size := 4, space := 0, color := color }

/-- apitable.go:55-78 and 131-152: table properties from width and colours -/
def mkTblPr (tableWidth : Int64) (b : BorderColors) : TblPr :=
  { width := some (if tableWidth > 0 then { w := tableWidth } else { type := "auto" })
    borders := some
      { top := some (mkBorder b.top), left := some (mkBorder b.left),
        bottom := some (mkBorder b.bottom), right := some (mkBorder b.right),
        insideH := some (mkBorder b.insideH), insideV := some (mkBorder b.insideV) }
    look := some { val := "0000" } }

/-- apitable.go:30-84 `AddTable`.  `make` panics on a negative length.  Result: the document, the
table and the colour struct as the caller sees it afterwards. -/
def Doc.addTable (f : Doc) (self : DocId) (row col : Int64) (tableWidth : Int64)
    (colors : Option BorderColors) : Res (Doc × Table × Option BorderColors) :=
  if row < 0 then .panic
  else if row > 0 ∧ col < 0 then .panic
  else
    let cell : Cell := { props := some { width := some { type := "auto" } }, file := some self }
    let tr : Row := { props := some {}, cells := List.replicate col.toInt.toNat cell }
    let b := (colors.getD {}).applyDefault
    let t : Table :=
      { props := some (mkTblPr tableWidth b), grid := some []
        rows := List.replicate row.toInt.toNat tr }
    .ok ({ f with items := f.items ++ [.table t] }, t, colors.map (·.applyDefault))

/-- apitable.go:89-158 `AddTableTwips` -/
def Doc.addTableTwips (f : Doc) (self : DocId) (rowHeights colWidths : List Int64)
    (tableWidth : Int64) (colors : Option BorderColors) : Doc × Table × Option BorderColors :=
  let grids := colWidths.map fun w => if w > 0 then some w else none
  let cells := colWidths.map fun w =>
    ({ props := some { width := some { w := w, type := "dxa" } }, file := some self } : Cell)
  let trs := rowHeights.map fun h =>
    ({ props := some { height := if h > 0 then some { val := h } else none }, cells := cells } : Row)
  let b := (colors.getD {}).applyDefault
  let t : Table := { props := some (mkTblPr tableWidth b), grid := some grids, rows := trs }
  ({ f with items := f.items ++ [.table t] }, t, colors.map (·.applyDefault))

/-- apitable.go:168-175 `(*Table).Justification` -/
def Table.justification (t : Table) (val : String) : Res Table :=
  match t.props with
  | none => .panic
  | some p => .ok { t with props := some { p with jc := some val } }

/-- apitable.go:185-192 `(*WTableRow).Justification` -/
def Row.justification (r : Row) (val : String) : Res Row :=
  match r.props with
  | none => .panic
  | some p => .ok { r with props := some { p with jc := some val } }

/-- apitable.go:195-202 `(*WTableCell).Shade` -/
def Cell.setShade (c : Cell) (val color fill : String) : Res Cell :=
  match c.props with
  | none => .panic
  | some p => .ok { c with props := some { p with shade := some { val := val, color := color, fill := fill } } }

/-! ## apidrawing.go -/

/-- structdrawing.go:36 `A4_EMU_MAX_WIDTH` -/
def a4EmuMaxWidth : Int64 := 5274310

/-- structdrawing.go:41 `XMLNS_DRAWINGML_MAIN` -/
def xmlnsDrawingMain : String := "http://schemas.openxmlformats.org/drawingml/2006/main"
/-- structdrawing.go:42 `XMLNS_DRAWINGML_PICTURE` -/
def xmlnsDrawingPicture : String := "http://schemas.openxmlformats.org/drawingml/2006/picture"
/-- structdoc.go:45 `XMLNS_PICTURE` -/
def xmlnsPicture : String := "http://schemas.openxmlformats.org/drawingml/2006/picture"
/-- structdoc.go:36 `XMLNS_WPS` -/
def xmlnsWPS : String := "http://schemas.microsoft.com/office/word/2010/wordprocessingShape"

/-- `imgsz.DecodeSize` (external): width, height and format of a picture, or an error. -/
class ImgEnv where
  decodeSize : Bytes → Option (Int64 × Int64 × String)

/-- apidrawing.go:43 `float64(w)/float64(h) > 1.2`, taken as the exact comparison `w/h > 6/5`
(`+Inf` for `w > 0, h = 0`, `NaN` for `0/0`).  Exact for the sizes image headers can hold
(`0 ≤ w, h < 2^32`): a quotient above 6/5 is above it by at least 1/(5h), far more than the rounding
of the division and of the constant, and 6/5 itself rounds to the constant. -/
def wideRatio (w h : Int64) : Bool := decide (5 * w.toInt > 6 * h.toInt)

/-- apidrawing.go:42-49: display size; `none` is the division by zero panic (only for `w = 0`,
where the first test is false) -/
def scaleSize (w h : Int64) : Option (Int64 × Int64) :=
  if wideRatio w h then
    if w = 0 then none else some (a4EmuMaxWidth, a4EmuMaxWidth * h / w)
  else
    if w = 0 then none else some (a4EmuMaxWidth / 2, a4EmuMaxWidth * h / w / 2)

/-- apidrawing.go:70-100: the graphic of an added picture -/
def mkPicGraphic (id : Int64) (rid : String) (w h : Int64) : Graphic :=
  { xmlA := xmlnsDrawingMain
    data := some
      { uri := xmlnsPicture
        pic := some
          { xmlPic := xmlnsDrawingPicture
            nvPicPr := some { cNvPr := { id := id, name := "图片 " ++ itoa id } }
            blipFill := some { blip := { embed := rid, cstate := "print" } }
            spPr := some { xfrm := { ext := { cx := w, cy := h } },
                           prstGeom := some { prst := "rect" } } } } }

/-- apidrawing.go:51-102: the inline drawing of an added picture (its `file` stays nil) -/
def mkInlinePic (idn id : Int64) (rid : String) (w h : Int64) : Inline :=
  { extent := some { cx := w, cy := h }
    effectExtent := some {}
    docPr := some { id := idn, name := "图片 " ++ itoa id }
    framePr := some { xmlA := xmlnsDrawingMain, noChangeAspect := 1 }
    graphic := some (mkPicGraphic id rid w h) }

/-- apidrawing.go:154-214: the anchored drawing of an added picture (its `file` stays nil) -/
def mkAnchorPic (idn id : Int64) (rid : String) (w h : Int64) : Anchor :=
  { layoutInCell := 1, allowOverlap := 1
    simplePosXY := some {}
    positionH := some { relativeFrom := "column" }
    positionV := some { relativeFrom := "paragraph" }
    extent := some { cx := w, cy := h }
    effectExtent := some {}
    wrapNone := true
    docPr := some { id := idn, name := "图片 " ++ itoa id }
    framePr := some { xmlA := xmlnsDrawingMain, noChangeAspect := 1 }
    graphic := some (mkPicGraphic id rid w h) }

/-- apidrawing.go:104-110: a run holding one drawing -/
def drawingRun (d : Drawing) : Run := { rpr := some {}, children := [.drawing d] }

/-- apidrawing.go:33-49 and 136-152: the common start of both picture calls: ids, media and size.
The document as it is afterwards, and the outcome: an undecodable picture is an error before anything
is changed, the division by zero comes after the ids and the media were added. -/
def Doc.addPicture [ImgEnv] (f : Doc) (pic : Bytes) :
    Doc × Res (Int64 × Int64 × String × Int64 × Int64) :=
  match ImgEnv.decodeSize pic with
  | none => (f, .err .decode)
  | some (w0, h0, format) =>
    let (f, idn) := f.nextDocID
    let (f, id) := f.increaseID picName
    let (f, rid) := f.addImage format pic
    match scaleSize w0 h0 with
    | none => (f, .panic)
    | some (w, h) => (f, .ok (idn.toInt64, id.toInt64, rid, w, h))

/-- apidrawing.go:33-112 `AddInlineDrawing`; `f` is `*p.file`.  Result: document and paragraph as
they are afterwards, and the outcome of the call. -/
def Para.addInlineDrawing [ImgEnv] (p : Para) (f : Doc) (pic : Bytes) : Doc × Para × Res Run :=
  match f.addPicture pic with
  | (f, .ok (idn, id, rid, w, h)) =>
    let r := drawingRun { inl := some (mkInlinePic idn id rid w h) }
    (f, p.addRun r, .ok r)
  | (f, .err e) => (f, p, .err e)
  | (f, .panic) => (f, p, .panic)

/-- apidrawing.go:115-121 `AddInlineDrawingFrom`; `read` is what `os.ReadFile` gives -/
def Para.addInlineDrawingFrom [ImgEnv] (p : Para) (f : Doc) (read : Except Err Bytes) : Doc × Para × Res Run :=
  match read with
  | .error e => (f, p, .err e)
  | .ok data => p.addInlineDrawing f data

/-- apidrawing.go:136-224 `AddAnchorDrawing`; `f` is `*p.file` -/
def Para.addAnchorDrawing [ImgEnv] (p : Para) (f : Doc) (pic : Bytes) : Doc × Para × Res Run :=
  match f.addPicture pic with
  | (f, .ok (idn, id, rid, w, h)) =>
    let r := drawingRun { anchor := some (mkAnchorPic idn id rid w h) }
    (f, p.addRun r, .ok r)
  | (f, .err e) => (f, p, .err e)
  | (f, .panic) => (f, p, .panic)

/-- apidrawing.go:227-233 `AddAnchorDrawingFrom`; `read` is what `os.ReadFile` gives -/
def Para.addAnchorDrawingFrom [ImgEnv] (p : Para) (f : Doc) (read : Except Err Bytes) : Doc × Para × Res Run :=
  match read with
  | .error e => (f, p, .err e)
  | .ok data => p.addAnchorDrawing f data

/-- apidrawing.go:129-132, 241-244: set the size of the picture inside a graphic, if it is there -/
def sizeGraphic (g : Option Graphic) (w h : Int64) : Option Graphic :=
  match g with
  | none => none
  | some g => some <|
    match g.data with
    | none => g
    | some gd =>
      match gd.pic with
      | none => g
      | some pic =>
        match pic.spPr with
        | none => g
        | some sp =>
          { g with data := some { gd with pic := some { pic with
              spPr := some { sp with xfrm := { sp.xfrm with ext := { cx := w, cy := h } } } } } }

/-- apidrawing.go:124-133 `(*WPInline).Size` -/
def Inline.setSize (r : Inline) (w h : Int64) : Inline :=
  { r with extent := r.extent.map (fun _ => { cx := w, cy := h })
           graphic := sizeGraphic r.graphic w h }

/-- apidrawing.go:236-245 `(*WPAnchor).Size` -/
def Anchor.setSize (r : Anchor) (w h : Int64) : Anchor :=
  { r with extent := r.extent.map (fun _ => { cx := w, cy := h })
           graphic := sizeGraphic r.graphic w h }

/-! ## apishape.go -/

/-- apishape.go:47-75: the graphic of an added shape -/
def mkShapeGraphic (w h : Int64) (bwMode prst : String) (ln : Option Line) : Graphic :=
  { xmlA := xmlnsDrawingMain
    data := some
      { uri := xmlnsWPS
        shape := some
          { cNvCnPr := some true
            spPr := some { bwMode := bwMode, xfrm := { ext := { cx := w, cy := h } },
                           prstGeom := { prst := prst }, noFill := true, line := ln }
            bodyPr := some {} } } }

/-- apishape.go:29-83 `AddInlineShape`; `f` is `*p.file` -/
def Para.addInlineShape (p : Para) (f : Doc) (w h : Int64) (name bwMode prst : String)
    (ln : Option Line) : Doc × Para × Run :=
  let (f, idn) := f.nextDocID
  let (f, id) := f.increaseID name
  let i : Inline :=
    { extent := some { cx := w, cy := h }
      effectExtent := some {}
      docPr := some { id := idn.toInt64, name := name ++ " " ++ itoa id.toInt64 }
      framePr := some { xmlA := xmlnsDrawingMain }
      graphic := some (mkShapeGraphic w h bwMode prst ln) }
  let r := drawingRun { inl := some i }
  (f, p.addRun r, r)

/-- apishape.go:86-152 `AddAnchorShape`; `f` is `*p.file` -/
def Para.addAnchorShape (p : Para) (f : Doc) (w h : Int64) (name bwMode prst : String)
    (ln : Option Line) : Doc × Para × Run :=
  let (f, idn) := f.nextDocID
  let (f, id) := f.increaseID name
  let a : Anchor :=
    { layoutInCell := 1, allowOverlap := 1
      simplePosXY := some {}
      positionH := some { relativeFrom := "column" }
      positionV := some { relativeFrom := "paragraph" }
      extent := some { cx := w, cy := h }
      effectExtent := some {}
      wrapNone := true
      docPr := some { id := idn.toInt64, name := name ++ " " ++ itoa id.toInt64 }
      framePr := some { xmlA := xmlnsDrawingMain }
      graphic := some (mkShapeGraphic w h bwMode prst ln) }
  let r := drawingRun { anchor := some a }
  (f, p.addRun r, r)

/-! ## theme.go -/

/-- theme.go:28-33 `UseTemplate` -/
def Doc.useTemplate (f : Doc) (template : String) (lst : List String) (tfs : Option FS) : Doc :=
  { f with template := template, tmplfs := tfs, tmpfslst := lst }

/-- theme.go:41-50 `WithA3Page` -/
def Doc.withA3Page (f : Doc) : Doc :=
  { f with items := f.items ++ [.sect { pgSz := some { w := 16838, h := 23811 } }] }

/-- theme.go:53-62 `WithA4Page` -/
def Doc.withA4Page (f : Doc) : Doc :=
  { f with items := f.items ++ [.sect { pgSz := some { w := 11906, h := 16838 } }] }

end Docx
