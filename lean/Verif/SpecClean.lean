import Verif.SpecText
import Verif.Doc
import Verif.SpecSessions

/-!
# Documents with the characters XML cannot carry replaced

XML has no way to write most control characters and some others.  `clean` replaces them by U+FFFD.  The
definitions below do this in all strings of a document and change nothing else.
-/

namespace Docx

/-- All strings of a `Shade` -/
def clShade (x : Shade) : Shade :=
  { x with
    val := clean x.val,
    color := clean x.color,
    fill := clean x.fill,
    themeFill := clean x.themeFill,
    themeFillTint := clean x.themeFillTint }

/-- All strings of a `Spacing` -/
def clSpacing (x : Spacing) : Spacing := { x with lineRule := clean x.lineRule }

/-- All strings of a `Tab` -/
def clTab (x : Tab) : Tab := { x with val := clean x.val }

/-- All strings of a `RunFonts` -/
def clRunFonts (x : RunFonts) : RunFonts :=
  { x with
    ascii := clean x.ascii,
    eastAsia := clean x.eastAsia,
    hAnsi := clean x.hAnsi,
    hint := clean x.hint }

/-- All strings of a `RPr` -/
def clRPr (x : RPr) : RPr :=
  { x with
    fonts := x.fonts.map clRunFonts,
    highlight := x.highlight.map clean,
    color := x.color.map clean,
    size := x.size.map clean,
    sizeCs := x.sizeCs.map clean,
    spacing := x.spacing.map clSpacing,
    runStyle := x.runStyle.map clean,
    style := x.style.map clean,
    shade := x.shade.map clShade,
    underline := x.underline.map clean,
    vertAlign := x.vertAlign.map clean,
    strike := x.strike.map clean }

/-- All strings of a `NumPr` -/
def clNumPr (x : NumPr) : NumPr := { x with numId := x.numId.map clean, ilvl := x.ilvl.map clean }

/-- All strings of a `PPr` -/
def clPPr (x : PPr) : PPr :=
  { x with
    tabs := x.tabs.map (List.map clTab),
    spacing := x.spacing.map clSpacing,
    numPr := x.numPr.map clNumPr,
    jc := x.jc.map clean,
    shade := x.shade.map clShade,
    style := x.style.map clean,
    textAlignment := x.textAlignment.map clean,
    rpr := x.rpr.map clRPr }

/-- All strings of a `Text` -/
def clText (x : Text) : Text := { x with space := clean x.space, text := clean x.text }

/-- All strings of a `Br` -/
def clBr (x : Br) : Br := { x with type := clean x.type }

/-- All strings of a `IdName` -/
def clIdName (x : IdName) : IdName := { x with name := clean x.name }

/-- All strings of a `FrameLocks` -/
def clFrameLocks (x : FrameLocks) : FrameLocks := { x with xmlA := clean x.xmlA }

/-- All strings of a `NvPicPr` -/
def clNvPicPr (x : NvPicPr) : NvPicPr := { x with cNvPr := clIdName x.cNvPr }

/-- All strings of a `Blip` -/
def clBlip (x : Blip) : Blip := { x with embed := clean x.embed, cstate := clean x.cstate }

/-- All strings of a `BlipFill` -/
def clBlipFill (x : BlipFill) : BlipFill := { x with blip := clBlip x.blip }

/-- All strings of a `PrstGeom` -/
def clPrstGeom (x : PrstGeom) : PrstGeom := { x with prst := clean x.prst }

/-- All strings of a `PicSpPr` -/
def clPicSpPr (x : PicSpPr) : PicSpPr := { x with prstGeom := x.prstGeom.map clPrstGeom }

/-- All strings of a `Picture` -/
def clPicture (x : Picture) : Picture :=
  { x with
    xmlPic := clean x.xmlPic,
    nvPicPr := x.nvPicPr.map clNvPicPr,
    blipFill := x.blipFill.map clBlipFill,
    spPr := x.spPr.map clPicSpPr }

/-- All strings of a `Tile` -/
def clTile (x : Tile) : Tile := { x with flip := clean x.flip, algn := clean x.algn }

/-- All strings of a `ABlipFill` -/
def clABlipFill (x : ABlipFill) : ABlipFill := { x with blip := x.blip.map clBlip, tile := x.tile.map clTile }

/-- All strings of a `LineEnd` -/
def clLineEnd (x : LineEnd) : LineEnd := { x with type := clean x.type, w := clean x.w, len := clean x.len }

/-- All strings of a `Line` -/
def clLine (x : Line) : Line :=
  { x with
    cap := clean x.cap,
    compound := clean x.compound,
    align := clean x.align,
    solidFill := x.solidFill.map (Option.map clean),
    prstDash := x.prstDash.map clean,
    miter := x.miter.map clean,
    headEnd := x.headEnd.map clLineEnd,
    tailEnd := x.tailEnd.map clLineEnd }

/-- All strings of a `ShapePr` -/
def clShapePr (x : ShapePr) : ShapePr :=
  { x with
    bwMode := clean x.bwMode,
    prstGeom := clPrstGeom x.prstGeom,
    solidFill := x.solidFill.map (Option.map clean),
    blipFill := x.blipFill.map clABlipFill,
    line := x.line.map clLine }

/-- All strings of a `BodyPr` -/
def clBodyPr (x : BodyPr) : BodyPr :=
  { x with
    vert := clean x.vert,
    wrap := clean x.wrap,
    anchor := clean x.anchor }

/-- All strings of a `Position` -/
def clPosition (x : Position) : Position := { x with relativeFrom := clean x.relativeFrom }

/-- All strings of a `TblpPr` -/
def clTblpPr (x : TblpPr) : TblpPr :=
  { x with
    vertAnchor := clean x.vertAnchor,
    horzAnchor := clean x.horzAnchor,
    tblpXSpec := clean x.tblpXSpec,
    tblpYSpec := clean x.tblpYSpec }

/-- All strings of a `Width` -/
def clWidth (x : Width) : Width := { x with type := clean x.type }

/-- All strings of a `TblLook` -/
def clTblLook (x : TblLook) : TblLook := { x with val := clean x.val }

/-- All strings of a `Border` -/
def clBorder (x : Border) : Border := { x with val := clean x.val, color := clean x.color }

/-- All strings of a `Borders` -/
def clBorders (x : Borders) : Borders :=
  { x with
    top := x.top.map clBorder,
    left := x.left.map clBorder,
    bottom := x.bottom.map clBorder,
    right := x.right.map clBorder,
    insideH := x.insideH.map clBorder,
    insideV := x.insideV.map clBorder }

/-- All strings of a `TblPr` -/
def clTblPr (x : TblPr) : TblPr :=
  { x with
    position := x.position.map clTblpPr,
    style := x.style.map clean,
    width := x.width.map clWidth,
    jc := x.jc.map clean,
    borders := x.borders.map clBorders,
    look := x.look.map clTblLook }

/-- All strings of a `RowHeight` -/
def clRowHeight (x : RowHeight) : RowHeight := { x with rule := clean x.rule }

/-- All strings of a `TrPr` -/
def clTrPr (x : TrPr) : TrPr := { x with height := x.height.map clRowHeight, jc := x.jc.map clean }

/-- All strings of a `TcPr` -/
def clTcPr (x : TcPr) : TcPr :=
  { x with
    width := x.width.map clWidth,
    vMerge := x.vMerge.map clean,
    borders := x.borders.map clBorders,
    shade := x.shade.map clShade,
    vAlign := x.vAlign.map clean }

/-- All strings of a `DocGrid` -/
def clDocGrid (x : DocGrid) : DocGrid := { x with type := clean x.type }

/-- All strings of a `SectPr` -/
def clSectPr (x : SectPr) : SectPr := { x with docGrid := x.docGrid.map clDocGrid }

mutual
/-- paragraph -/
def clPara : Para → Para
  | ⟨props, children, file⟩ => ⟨props.map clPPr, clPChildren children, file⟩
/-- children of a paragraph -/
def clPChildren : List PChild → List PChild
  | [] => []
  | c :: cs => clPChild c :: clPChildren cs
/-- child of a paragraph -/
def clPChild : PChild → PChild
  | .run r => .run (clRun r)
  | .link ⟨id, run⟩ => .link ⟨clean id, clRun run⟩
  | .rpr p => .rpr (clRPr p)
/-- run -/
def clRun : Run → Run
  | ⟨space, rpr, instr, children⟩ => ⟨clean space, rpr.map clRPr, clean instr, clRChildren children⟩
/-- children of a run -/
def clRChildren : List RChild → List RChild
  | [] => []
  | c :: cs => clRChild c :: clRChildren cs
/-- child of a run -/
def clRChild : RChild → RChild
  | .text t => .text (clText t)
  | .tab t => .tab (clTab t)
  | .br b => .br (clBr b)
  | .drawing d => .drawing (clDrawing d)
/-- drawing -/
def clDrawing : Drawing → Drawing
  | ⟨inl, anchor⟩ => ⟨clInlineO inl, clAnchorO anchor⟩
/-- inline drawing, if there is one -/
def clInlineO : Option Inline → Option Inline
  | none => none
  | some i => some (clInline i)
/-- anchored drawing, if there is one -/
def clAnchorO : Option Anchor → Option Anchor
  | none => none
  | some a => some (clAnchor a)
/-- inline drawing -/
def clInline : Inline → Inline
  | ⟨distT, distB, distL, distR, extent, effectExtent, docPr, framePr, graphic, file⟩ =>
    ⟨distT, distB, distL, distR, extent, effectExtent, docPr.map clIdName, framePr.map clFrameLocks,
      clGraphicO graphic, file⟩
/-- anchored drawing -/
def clAnchor : Anchor → Anchor
  | ⟨distT, distB, distL, distR, simplePos, relativeHeight, behindDoc, locked, layoutInCell,
      allowOverlap, simplePosXY, positionH, positionV, extent, effectExtent, wrapNone, wrapSquare,
      docPr, framePr, graphic, file⟩ =>
    ⟨distT, distB, distL, distR, simplePos, relativeHeight, behindDoc, locked, layoutInCell,
      allowOverlap, simplePosXY, positionH.map clPosition, positionV.map clPosition, extent, effectExtent,
      wrapNone, wrapSquare.map clean, docPr.map clIdName, framePr.map clFrameLocks, clGraphicO graphic, file⟩
/-- graphic, if there is one -/
def clGraphicO : Option Graphic → Option Graphic
  | none => none
  | some g => some (clGraphic g)
/-- graphic -/
def clGraphic : Graphic → Graphic
  | ⟨xmlA, data⟩ => ⟨clean xmlA, clGraphicDataO data⟩
/-- content of a graphic, if there is one -/
def clGraphicDataO : Option GraphicData → Option GraphicData
  | none => none
  | some g => some (clGraphicData g)
/-- content of a graphic -/
def clGraphicData : GraphicData → GraphicData
  | ⟨uri, pic, shape, canvas, group⟩ =>
    ⟨clean uri, pic.map clPicture, clShapeO shape, clCanvasO canvas, clGroupO group⟩
/-- shape, if there is one -/
def clShapeO : Option Shape → Option Shape
  | none => none
  | some s => some (clShape s)
/-- canvas, if there is one -/
def clCanvasO : Option Canvas → Option Canvas
  | none => none
  | some c => some (clCanvas c)
/-- group, if there is one -/
def clGroupO : Option Group → Option Group
  | none => none
  | some g => some (clGroup g)
/-- shape -/
def clShape : Shape → Shape
  | ⟨cNvPr, cNvCnPr, cNvSpPr, spPr, textBox, bodyPr⟩ =>
    ⟨cNvPr.map clIdName, cNvCnPr, cNvSpPr, spPr.map clShapePr, clTextBoxO textBox, bodyPr.map clBodyPr⟩
/-- text box, if there is one -/
def clTextBoxO : Option TextBox → Option TextBox
  | none => none
  | some t => some (clTextBox t)
/-- text box -/
def clTextBox : TextBox → TextBox
  | ⟨content⟩ => ⟨clContentO content⟩
/-- content of a text box, if there is one -/
def clContentO : Option (List Para) → Option (List Para)
  | none => none
  | some ps => some (clParas ps)
/-- paragraphs -/
def clParas : List Para → List Para
  | [] => []
  | p :: ps => clPara p :: clParas ps
/-- canvas -/
def clCanvas : Canvas → Canvas
  | ⟨background, whole, items⟩ => ⟨background, whole.map (Option.map clLine), clCItems items⟩
/-- items of a canvas -/
def clCItems : List CItem → List CItem
  | [] => []
  | c :: cs => clCItem c :: clCItems cs
/-- item of a canvas -/
def clCItem : CItem → CItem
  | .shape s => .shape (clShape s)
  | .pic p => .pic (clPicture p)
  | .group g => .group (clGroup g)
/-- group -/
def clGroup : Group → Group
  | ⟨cNvGrpSpPr, grpSpPr, elems⟩ => ⟨cNvGrpSpPr, grpSpPr.map clShapePr, clGItems elems⟩
/-- group shape -/
def clGroupShape : GroupShape → GroupShape
  | ⟨cNvPr, cNvGrpSpPr, grpSpPr, elems⟩ =>
    ⟨cNvPr.map clIdName, cNvGrpSpPr, grpSpPr.map clShapePr, clGItems elems⟩
/-- items of a group -/
def clGItems : List GItem → List GItem
  | [] => []
  | g :: gs => clGItem g :: clGItems gs
/-- item of a group -/
def clGItem : GItem → GItem
  | .shape s => .shape (clShape s)
  | .pic p => .pic (clPicture p)
  | .canvas c => .canvas (clCanvas c)
  | .groupShape g => .groupShape (clGroupShape g)
end

/-- cell -/
def clCell (c : Cell) : Cell := { c with props := c.props.map clTcPr, paras := c.paras.map clPara }

/-- row -/
def clRow (r : Row) : Row := { props := r.props.map clTrPr, cells := r.cells.map clCell }

/-- table -/
def clTable (t : Table) : Table := { t with props := t.props.map clTblPr, rows := t.rows.map clRow }

/-- item of a body -/
def clItem : BItem → BItem
  | .para p => .para (clPara p)
  | .table t => .table (clTable t)
  | .sect s => .sect (clSectPr s)

/-- relationship -/
def clRel (r : Rel) : Rel := ⟨clean r.id, clean r.type, clean r.target, clean r.targetMode⟩

/-- The document with all its strings cleaned -/
def Doc.clean (f : Doc) : Doc :=
  { f with items := f.items.map clItem, rels := f.rels.map clRel, relXmlns := Docx.clean f.relXmlns }

/-- What a program may have done by now: it called the API in any order, and opened any files whose
relationship ids are below 2^62; each document has fewer than 2^62 relationships. -/
inductive Program [GoEnv] [ImgEnv] : World → Prop
  | start : Program []
  | call {w w' : World} (o : Op) : Program w → step w o = .ok w' →
      (∀ f ∈ w', f.rels.length < 2 ^ 62) → Program w'
  | opening {w : World} (a : Archive) (g : Doc) : Program w → unpack w.length a = (g, none) →
      (∀ r ∈ g.rels, ∀ n, IdNumber r.id n → n < 2 ^ 62) → g.rels.length < 2 ^ 62 → Program (w ++ [g])

end Docx
