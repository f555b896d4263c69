import Verif.SpecContent

/-!
# The whole document, as written in the XML (C71)

Like `Verif.SpecContent`, but nothing is left out: `xmlItems` says what the body items of an XML document
are, down to the pictures, shapes, text boxes, canvases and groups in its drawings.

The rules are those of `Verif.SpecFormat`: of several elements or attributes with the same name the last
one counts.  Where the library reads several elements with the same name into one value, their
attributes and children count as if they were those of one element (`attrsAll`, `kidsAll`).

Text boxes contain paragraphs, which contain drawings, and groups contain canvases.  These are
read by `Readers`; `readers k` reads `k` levels of them.
-/

namespace Docx

/-- The attributes of all elements with this name -/
def attrsAll (n : String) (es : List El) : List Attr := (es.filter fun e => e.name == n).flatMap El.attrs

/-- The children of all elements with this name -/
def kidsAll (n : String) (es : List El) : List Node := (es.filter fun e => e.name == n).flatMap El.kids

/-- The child elements -/
def children (ks : List Node) : List El := elsL (fun _ => false) ks

/-- The attribute `a` of the last element with this name, "" if there is none -/
def elAttr (n a : String) (es : List El) : String := ((lastEl n es).map fun e => e.attr a).getD ""

/-- The number in the text of an element with these children, 0 if it has no text -/
def textNumber (ks : List Node) : Int64 :=
  (atoi? (String.ofList (trimSpace (ownText ks).toList))).getD 0

section
variable [GoEnv]

/-- The number in the attribute `a` of the last element with this name that has one -/
def elNumAttr (n a : String) (es : List El) : Option Int64 :=
  (es.filter fun e => e.name == n && e.attr a != "").getLast?.map fun e => number (e.attr a)

/-! ## Elements of which only the attributes count -/

/-- `wp:extent`, `a:ext` -/
def xmlExt (as : List Attr) : Ext := { cx := numAttr "cx" as, cy := numAttr "cy" as }

/-- `a:off`, `wp:simplePos` -/
def xmlOff (as : List Attr) : Off := { x := numAttr "x" as, y := numAttr "y" as }

/-- `wp:effectExtent` -/
def xmlEffect (as : List Attr) : EffectExtent :=
  { l := numAttr "l" as, t := numAttr "t" as, r := numAttr "r" as, b := numAttr "b" as }

/-- `wp:docPr`, `wps:cNvPr` -/
def xmlIdName (as : List Attr) : IdName := { id := numAttr "id" as, name := attrLast "name" as }

/-- `a:tile` -/
def xmlTile (as : List Attr) : Tile :=
  { tx := numAttr "tx" as, ty := numAttr "ty" as, sx := numAttr "sx" as, sy := numAttr "sy" as
    flip := attrLast "flip" as, algn := attrLast "algn" as }

/-- `a:headEnd`, `a:tailEnd` -/
def xmlLineEnd (as : List Attr) : LineEnd :=
  { type := attrLast "type" as, w := attrLast "w" as, len := attrLast "len" as }

/-! ## Parts of pictures -/

/-- `wp:cNvGraphicFramePr` with these children -/
def xmlFramePr (ks : List Node) : FrameLocks :=
  let es := elsL (fun n => n == "graphicFrameLocks") ks
  { xmlA := elAttr "graphicFrameLocks" "a" es
    noChangeAspect := (elNumAttr "graphicFrameLocks" "noChangeAspect" es).getD 0 }

/-- `pic:nvPicPr` by these elements: a `pic:cNvPr` without an id does not count. -/
def nvPicPrOf (es : List El) : NvPicPr :=
  { cNvPr := ((es.filter fun e => e.name == "cNvPr" && e.attr "id" != "").getLast?.map fun e =>
      (⟨number (e.attr "id"), e.attr "name"⟩ : IdName)).getD {}
    locks := elNumAttr "picLocks" "noChangeAspect" (elsL (fun n => n == "picLocks") (kidsAll "cNvPicPr" es)) }

/-- `pic:nvPicPr` with these children -/
def xmlNvPicPr (ks : List Node) : NvPicPr := nvPicPrOf (elsL (fun n => n == "cNvPr") ks)

/-- `a:blip` by these attributes and elements -/
def blipOf (as : List Attr) (es : List El) : Blip :=
  { embed := attrLast "embed" as, cstate := attrLast "cstate" as
    alphaModFix := elNumAttr "alphaModFix" "amt" es }

/-- `a:blip` with these attributes and children -/
def xmlBlip (as : List Attr) (ks : List Node) : Blip := blipOf as (elsL (fun n => n == "alphaModFix") ks)

/-- `pic:blipFill` by these elements -/
def picFillOf (es : List El) : BlipFill :=
  { blip := xmlBlip (attrsAll "blip" es) (kidsAll "blip" es)
    fillRect := hasEl "fillRect" (children (kidsAll "stretch" es)) }

/-- `a:xfrm` by these attributes and elements -/
def xfrmOf (as : List Attr) (es : List El) : Xfrm :=
  { rot := numAttr "rot" as, flipH := numAttr "flipH" as, flipV := numAttr "flipV" as
    off := xmlOff (attrsAll "off" es)
    ext := xmlExt (attrsAll "ext" es)
    chOff := (lastEl "chOff" es).map fun e => xmlOff e.attrs
    chExt := (lastEl "chExt" es).map fun e => xmlExt e.attrs }

/-- The children of `a:xfrm` of which only the start tag is read -/
def xfrmOpen (n : String) : Bool := ["off", "ext", "chOff", "chExt"].contains n

/-- `a:xfrm` with these attributes and children -/
def xmlXfrm (as : List Attr) (ks : List Node) : Xfrm := xfrmOf as (elsL xfrmOpen ks)

/-- `a:prstGeom` by these attributes and elements -/
def prstGeomOf (as : List Attr) (es : List El) : PrstGeom :=
  { prst := attrLast "prst" as, avLst := hasEl "avLst" es }

/-- `pic:spPr` by these elements -/
def picSpPrOf (es : List El) : PicSpPr :=
  { xfrm := xmlXfrm (attrsAll "xfrm" es) (kidsAll "xfrm" es)
    prstGeom := (lastEl "prstGeom" es).map fun e => prstGeomOf e.attrs (children e.kids) }

/-- `pic:pic` by these elements -/
def picOf (es : List El) : Picture :=
  { nvPicPr := (lastEl "nvPicPr" es).map fun e => xmlNvPicPr e.kids
    blipFill := (lastEl "blipFill" es).map fun e => picFillOf (children e.kids)
    spPr := (lastEl "spPr" es).map fun e => picSpPrOf (children e.kids) }

/-- `wp:positionH`, `wp:positionV` by these attributes and elements -/
def positionOf (as : List Attr) (es : List El) : Position :=
  { relativeFrom := firstAttr "relativeFrom" as
    posOffset := ((lastEl "posOffset" es).map fun e => textNumber e.kids).getD 0 }

/-! ## Parts of shapes -/

/-- `a:blipFill` by these attributes and elements -/
def aBlipFillOf (as : List Attr) (es : List El) : ABlipFill :=
  { dpi := numAttr "dpi" as, rotWithShape := numAttr "rotWithShape" as
    blip := (lastEl "blip" es).map fun e => xmlBlip e.attrs e.kids
    srcRect := hasEl "srcRect" es
    tile := (lastEl "tile" es).map fun e => xmlTile e.attrs }

/-- `a:blipFill` with these attributes and children -/
def xmlABlipFill (as : List Attr) (ks : List Node) : ABlipFill :=
  aBlipFillOf as (elsL (fun n => n == "srcRect") ks)

/-- `a:solidFill` with these children: its colour -/
def xmlSolidFill (ks : List Node) : Option String := elVal "srgbClr" (children ks)

/-- The children of `a:ln` of which only the start tag is read -/
def lineOpen (n : String) : Bool := ["noFill", "prstDash", "miter", "round"].contains n

/-- `a:ln` by these attributes and elements -/
def lineOf (as : List Attr) (es : List El) : Line :=
  { w := numAttr "w" as, cap := attrLast "cap" as, compound := attrLast "cmpd" as
    align := attrLast "algn" as
    noFill := hasEl "noFill" es
    solidFill := (lastEl "solidFill" es).map fun e => xmlSolidFill e.kids
    prstDash := elVal "prstDash" es
    miter := (lastEl "miter" es).map fun e => e.attr "lim"
    round := hasEl "round" es
    headEnd := (lastEl "headEnd" es).map fun e => xmlLineEnd e.attrs
    tailEnd := (lastEl "tailEnd" es).map fun e => xmlLineEnd e.attrs }

/-- `a:ln` with these attributes and children -/
def xmlLine (as : List Attr) (ks : List Node) : Line := lineOf as (elsL lineOpen ks)

/-- The children of `wps:spPr` of which only the start tag is read -/
def shapePrOpen (n : String) : Bool := ["prstGeom", "noFill"].contains n

/-- `wps:spPr`, `wpg:grpSpPr` by these attributes and elements.  The adjustments of the form are not
read. -/
def shapePrOf (as : List Attr) (es : List El) : ShapePr :=
  { bwMode := attrLast "bwMode" as
    xfrm := xmlXfrm (attrsAll "xfrm" es) (kidsAll "xfrm" es)
    prstGeom := { prst := elAttr "prstGeom" "prst" es }
    solidFill := (lastEl "solidFill" es).map fun e => xmlSolidFill e.kids
    blipFill := (lastEl "blipFill" es).map fun e => xmlABlipFill e.attrs e.kids
    noFill := hasEl "noFill" es
    line := (lastEl "ln" es).map fun e => xmlLine e.attrs e.kids }

/-- `wps:spPr`, `wpg:grpSpPr` with these attributes and children -/
def xmlShapePr (as : List Attr) (ks : List Node) : ShapePr := shapePrOf as (elsL shapePrOpen ks)

/-- `wps:cNvSpPr` by these attributes and elements -/
def cNvSpPrOf (as : List Attr) (es : List El) : CNvSpPr :=
  { txBox := numAttr "txBox" as
    spLocks := (lastEl "spLocks" es).map fun e => numAttr "noChangeArrowheads" e.attrs }

/-- `wps:bodyPr` with these attributes and children -/
def bodyPrOf (as : List Attr) (es : List El) : BodyPr :=
  { rot := numAttr "rot" as, vert := attrLast "vert" as, wrap := attrLast "wrap" as
    lIns := numAttr "lIns" as, tIns := numAttr "tIns" as, rIns := numAttr "rIns" as
    bIns := numAttr "bIns" as, anchor := attrLast "anchor" as, anchorCtr := numAttr "anchorCtr" as
    upright := numAttr "upright" as
    noAutofit := hasEl "noAutofit" es }

/-- `wpg:cNvGrpSpPr` with these children: are there locks? -/
def xmlCNvGrpSpPr (ks : List Node) : Bool := hasEl "grpSpLocks" (children ks)

/-! ## Shapes, canvases, groups and drawings -/

/-- How to read the paragraphs in a text box and the canvases in a group -/
structure Readers where
  para : Option DocId → List Node → Para
  canvas : Option DocId → List Node → Canvas

variable (R : Readers) (file : Option DocId)

/-- `wps:txbx` by these elements -/
def textBoxOf (es : List El) : TextBox :=
  { content := (lastEl "txbxContent" es).map fun e =>
      ((children e.kids).filter fun e => e.name == "p").map fun e => R.para file e.kids }

/-- `wps:wsp` by these elements -/
def shapeOf (es : List El) : Shape :=
  { cNvPr := (lastEl "cNvPr" es).map fun e => xmlIdName e.attrs
    cNvCnPr := (lastEl "cNvCnPr" es).map fun e =>
      hasEl "cxnSpLocks" (elsL (fun n => n == "cxnSpLocks") e.kids)
    cNvSpPr := (lastEl "cNvSpPr" es).map fun e => cNvSpPrOf e.attrs (children e.kids)
    spPr := (lastEl "spPr" es).map fun e => xmlShapePr e.attrs e.kids
    textBox := (lastEl "txbx" es).map fun e => textBoxOf R file (children e.kids)
    bodyPr := (lastEl "bodyPr" es).map fun e =>
      bodyPrOf e.attrs (elsL (fun n => n == "noAutofit") e.kids) }

/-- An element of a group -/
def groupItem (e : El) : List GItem :=
  if e.name = "pic" then [.pic (picOf (children e.kids))]
  else if e.name = "wsp" then [.shape (shapeOf R file (children e.kids))]
  else if e.name = "wpc" then [.canvas (R.canvas file e.kids)]
  else []

/-- `wpg:grpSp` by these elements -/
def groupShapeOf (es : List El) : GroupShape :=
  { cNvPr := (lastEl "cNvPr" es).map fun e => xmlIdName e.attrs
    cNvGrpSpPr := (lastEl "cNvGrpSpPr" es).map fun e => xmlCNvGrpSpPr e.kids
    grpSpPr := (lastEl "grpSpPr" es).map fun e => xmlShapePr e.attrs e.kids
    elems := es.flatMap (groupItem R file) }

/-- `wpg:wgp` by these elements -/
def groupOf (es : List El) : Group :=
  { cNvGrpSpPr := (lastEl "cNvGrpSpPr" es).map fun e => xmlCNvGrpSpPr e.kids
    grpSpPr := (lastEl "grpSpPr" es).map fun e => xmlShapePr e.attrs e.kids
    elems := es.flatMap fun e =>
      if e.name = "grpSp" then [.groupShape (groupShapeOf R file (children e.kids))]
      else groupItem R file e }

/-- An element of a canvas -/
def canvasItem (e : El) : List CItem :=
  if e.name = "wsp" then [.shape (shapeOf R file (children e.kids))]
  else if e.name = "pic" then [.pic { picOf (children e.kids) with xmlPic := e.attr "pic" }]
  else if e.name = "wgp" then [.group (groupOf R file (children e.kids))]
  else []

/-- `wpc:wpc` by these elements -/
def canvasOf (es : List El) : Canvas :=
  { background := (lastEl "bg" es).map fun e => hasEl "noFill" (elsL (fun n => n == "noFill") e.kids)
    whole := (lastEl "whole" es).map fun e =>
      (lastEl "ln" (children e.kids)).map fun l => xmlLine l.attrs l.kids
    items := es.flatMap (canvasItem R file) }

/-- `a:graphicData` by these attributes and elements -/
def graphicDataOf (as : List Attr) (es : List El) : GraphicData :=
  { uri := firstAttr "uri" as
    pic := (lastEl "pic" es).map fun e => { picOf (children e.kids) with xmlPic := e.attr "pic" }
    shape := (lastEl "wsp" es).map fun e => shapeOf R file (children e.kids)
    canvas := (lastEl "wpc" es).map fun e => canvasOf R file (children e.kids)
    group := (lastEl "wgp" es).map fun e => groupOf R file (children e.kids) }

/-- `a:graphic` by these attributes and elements -/
def graphicOf (as : List Attr) (es : List El) : Graphic :=
  { xmlA := attrLast "a" as
    data := (lastEl "graphicData" es).map fun e => graphicDataOf R file e.attrs (children e.kids) }

/-- The children of `wp:inline` of which only the start tag is read -/
def inlineOpen (n : String) : Bool := ["extent", "effectExtent"].contains n

/-- `wp:inline` by these attributes and elements -/
def inlineOf (as : List Attr) (es : List El) : Inline :=
  { distT := numAttr "distT" as, distB := numAttr "distB" as, distL := numAttr "distL" as
    distR := numAttr "distR" as
    extent := (lastEl "extent" es).map fun e => xmlExt e.attrs
    effectExtent := (lastEl "effectExtent" es).map fun e => xmlEffect e.attrs
    docPr := (lastEl "docPr" es).map fun e => xmlIdName e.attrs
    framePr := (lastEl "cNvGraphicFramePr" es).map fun e => xmlFramePr e.kids
    graphic := (lastEl "graphic" es).map fun e => graphicOf R file e.attrs (children e.kids)
    file := file }

/-- The children of `wp:anchor` of which only the start tag is read -/
def anchorOpen (n : String) : Bool := ["simplePos", "wrapNone", "wrapSquare"].contains n

/-- `wp:anchor` by these attributes and elements -/
def anchorOf (as : List Attr) (es : List El) : Anchor :=
  { distT := numAttr "distT" as, distB := numAttr "distB" as, distL := numAttr "distL" as
    distR := numAttr "distR" as
    simplePos := numAttr "simplePos" as
    relativeHeight := numAttr "relativeHeight" as
    behindDoc := numAttr "behindDoc" as
    locked := numAttr "locked" as
    layoutInCell := numAttr "layoutInCell" as
    allowOverlap := numAttr "allowOverlap" as
    simplePosXY := (lastEl "simplePos" es).map fun e => xmlOff e.attrs
    positionH := (lastEl "positionH" es).map fun e => positionOf e.attrs (children e.kids)
    positionV := (lastEl "positionV" es).map fun e => positionOf e.attrs (children e.kids)
    extent := (lastEl "extent" es).map fun e => xmlExt e.attrs
    effectExtent := (lastEl "effectExtent" es).map fun e => xmlEffect e.attrs
    wrapNone := hasEl "wrapNone" es
    wrapSquare := (lastEl "wrapSquare" es).map fun e => e.attr "wrapText"
    docPr := (lastEl "docPr" es).map fun e => xmlIdName e.attrs
    framePr := (lastEl "cNvGraphicFramePr" es).map fun e => xmlFramePr e.kids
    graphic := (lastEl "graphic" es).map fun e => graphicOf R file e.attrs (children e.kids)
    file := file }

/-- `w:drawing` by these elements -/
def drawingOf (es : List El) : Drawing :=
  { inl := (lastEl "inline" es).map fun e => inlineOf R file e.attrs (elsL inlineOpen e.kids)
    anchor := (lastEl "anchor" es).map fun e => anchorOf R file e.attrs (elsL anchorOpen e.kids) }

/-! ## Runs and paragraphs -/

/-- What a child of a `w:r` element can stand for: a child of the run, its formatting or the code of
its field -/
inductive RunItem where
  | child (c : RChild)
  | format (f : RPr)
  | code (s : String)

/-- The children of the run among these -/
def RunItem.children : List RunItem → List RChild
  | [] => []
  | .child c :: es => c :: RunItem.children es
  | _ :: es => RunItem.children es

/-- The last formatting among these -/
def RunItem.format? : List RunItem → Option RPr
  | [] => none
  | .format f :: es => some ((RunItem.format? es).getD f)
  | _ :: es => RunItem.format? es

/-- The last field code among these -/
def RunItem.code? : List RunItem → Option String
  | [] => none
  | .code s :: es => some ((RunItem.code? es).getD s)
  | _ :: es => RunItem.code? es

mutual
/-- What a child of a `w:r` element stands for -/
def runItems : Node → List RunItem
  | .elem q as kids =>
    if q.loc = "t" then [.child (.text ⟨attrLast "space" as, lastPiece (charDataL kids)⟩)]
    else if q.loc = "tab" then .child (.tab {}) :: runItemsL kids
    else if q.loc = "br" then [.child (.br ⟨firstAttr "type" as⟩)]
    else if q.loc = "drawing" then [.child (.drawing (drawingOf R file (Docx.children kids)))]
    else if q.loc = "rPr" then [.format (xmlRPr kids)]
    else if q.loc = "instrText" then [.code (ownText kids)]
    else if q.loc = "AlternateContent" then altItems kids
    else []
  | .text _ => []
  | .other => []
/-- The same for a sequence of nodes -/
def runItemsL : List Node → List RunItem
  | [] => []
  | n :: ns => runItems n ++ runItemsL ns
/-- An `AlternateContent` element with these children stands for the children of its first supported
`Choice`, followed by what stands after that `Choice`. -/
def altItems : List Node → List RunItem
  | [] => []
  | .elem q as kids :: ns => if supported q as then runItemsL kids ++ runItemsL ns else altItems ns
  | .text _ :: ns => altItems ns
  | .other :: ns => altItems ns
end

/-- `w:r` with these attributes and children -/
def xmlRun (as : List Attr) (ks : List Node) : Run :=
  let es := runItemsL R file ks
  { space := attrLast "space" as
    rpr := RunItem.format? es
    instr := (RunItem.code? es).getD ""
    children := RunItem.children es }

/-- A child of a `w:p` element.  All runs of a link make up one run; its drawings belong to no
document. -/
def paraItem (e : El) : List PChild :=
  if e.name = "r" then [.run (xmlRun R file e.attrs e.kids)]
  else if e.name = "hyperlink" then
    let es := children e.kids
    [.link ⟨if e.attr "anchor" ≠ "" then e.attr "anchor" else e.attr "id",
      xmlRun R none (attrsAll "r" es) (kidsAll "r" es)⟩]
  else if e.name = "rPr" then [.rpr (xmlRPr e.kids)]
  else []

/-- `w:p` by these elements -/
def paraOf (es : List El) : Para :=
  { props := (lastEl "pPr" es).map fun e => xmlPPr e.kids
    children := es.flatMap (paraItem R file)
    file := file }

end

/-- What is read of `k` levels of text boxes and groups -/
def readers [GoEnv] : Nat → Readers
  | 0 => ⟨fun _ _ => {}, fun _ _ => {}⟩
  | k + 1 => ⟨fun file ks => paraOf (readers k) file (children ks),
      fun file ks => canvasOf (readers k) file (children ks)⟩

section
variable [GoEnv] (R : Readers) (file : Option DocId)

/-! ## Tables and the document -/

/-- The elements with this name -/
def elsNamed (n : String) (es : List El) : List El := es.filter fun e => e.name == n

/-- `w:tc` by these elements -/
def cellOf (es : List El) : Cell :=
  { props := (lastEl "tcPr" es).map fun e => xmlTcPr e.kids
    paras := (elsNamed "p" es).map fun e => paraOf R file (children e.kids)
    file := file }

/-- `w:tr` by these elements -/
def rowOf (es : List El) : Row :=
  { props := (lastEl "trPr" es).map fun e => xmlTrPr e.kids
    cells := (elsNamed "tc" es).map fun e => cellOf R file (children e.kids) }

/-- `w:tbl` by these elements -/
def tableOf (es : List El) : Table :=
  { props := (lastEl "tblPr" es).map fun e => xmlTblPr e.kids
    grid := (lastEl "tblGrid" es).map fun e => xmlGrid e.kids
    rows := (elsNamed "tr" es).map fun e => rowOf R file (children e.kids) }

/-- A child of `w:body` -/
def bodyItem (e : El) : List BItem :=
  if e.name = "p" then [.para (paraOf R file (children e.kids))]
  else if e.name = "tbl" then [.table (tableOf R file (children e.kids))]
  else if e.name = "sectPr" then [.sect (xmlSect e.kids)]
  else []

/-- The body items of a `w:document` element with these children, with drawings nested up to `k`
levels -/
def xmlItems (k : Nat) (file : Option DocId) (ks : List Node) : List BItem :=
  (children (kidsAll "body" (children ks))).flatMap (bodyItem (readers k) file)

end

end Docx
