import Verif.Xml
import Verif.Spec
import Verif.World
import Verif.Doc

/-!
# Content models (C62)

ECMA-376 (and, for `wps`, `wpc` and `wpg`, [MS-DOCX]) fixes for every element which elements it may
contain and in which order.  The table below is a copy of these content models, cut down to the
elements that the library knows; attributes and their values are not looked at.
-/

namespace Docx

/-- One place of a content model: the elements that may stand there, whether one must, whether there
may be more than one. -/
structure Place where
  names : List QName
  need : Bool := false
  many : Bool := false

/-- The elements `ks` fill the places of a content model from left to right. -/
def fits : List Place → List QName → Bool
  | [], ks => ks.isEmpty
  | p :: ps, ks =>
    if p.many then
      (!p.need || ks.head?.any p.names.contains) && fits ps (ks.dropWhile p.names.contains)
    else
      match ks with
      | [] => !p.need && fits ps []
      | k :: ks' => if p.names.contains k then fits ps ks' else !p.need && fits ps (k :: ks')

/-- What an element may contain: child elements, and whether text. -/
structure ContentModel where
  places : List Place := []
  text : Bool := false

/-- Elements of one name space -/
def nsOf (pre : String) (ls : List String) : List QName := ls.map (⟨pre, ·⟩)
/-- A sequence of optional elements -/
def opts (pre : String) (ls : List String) : List Place := ls.map fun l => { names := [⟨pre, l⟩] }
/-- A required element -/
def req (pre loc : String) : Place := { names := [⟨pre, loc⟩], need := true }
/-- An optional element -/
def opt (pre loc : String) : Place := { names := [⟨pre, loc⟩] }
/-- Any number of elements from a list, in any order -/
def anyOf (names : List QName) : Place := { names := names, many := true }
/-- At least one element from a list, in any order -/
def some1 (names : List QName) : Place := { names := names, many := true, need := true }
/-- An element without content -/
def noKids (pre : String) (ls : List String) : List (QName × ContentModel) := ls.map fun l => (⟨pre, l⟩, {})
/-- An element with child elements -/
def par (pre loc : String) (places : List Place) : QName × ContentModel := (⟨pre, loc⟩, { places := places })
/-- An element with text -/
def txt (pre loc : String) : QName × ContentModel := (⟨pre, loc⟩, { text := true })

/-- The content models -/
def schema : List (QName × ContentModel) :=
  -- the document
  [ par "w" "document" [req "w" "body"],
    par "w" "body" [anyOf (nsOf "w" ["p", "tbl"]), opt "w" "sectPr"],
    par "w" "sectPr" (opts "w" ["pgSz", "pgMar", "cols", "docGrid"]),
    -- paragraphs
    par "w" "p" [opt "w" "pPr", anyOf (nsOf "w" ["r", "hyperlink"])],
    par "w" "pPr" (opts "w" ["pStyle", "numPr", "shd", "tabs", "kinsoku", "overflowPunct",
      "adjustRightInd", "snapToGrid", "spacing", "ind", "jc", "textAlignment", "rPr"]),
    par "w" "numPr" (opts "w" ["ilvl", "numId"]),
    par "w" "tabs" [some1 (nsOf "w" ["tab"])],
    par "w" "hyperlink" [anyOf (nsOf "w" ["r"])],
    -- runs
    par "w" "r" [opt "w" "rPr", anyOf (nsOf "w" ["t", "tab", "br", "drawing", "instrText"])],
    par "w" "rPr" [anyOf (nsOf "w" ["rStyle", "rFonts", "b", "i", "iCs", "strike", "color", "spacing",
      "kern", "sz", "szCs", "highlight", "u", "shd", "vertAlign"])],
    txt "w" "t", txt "w" "instrText",
    -- tables
    par "w" "tbl" [req "w" "tblPr", req "w" "tblGrid", anyOf (nsOf "w" ["tr"])],
    par "w" "tblPr" (opts "w" ["tblStyle", "tblpPr", "tblW", "jc", "tblBorders", "tblLook"]),
    par "w" "tblBorders" (opts "w" ["top", "left", "bottom", "right", "insideH", "insideV"]),
    par "w" "tblGrid" [anyOf (nsOf "w" ["gridCol"])],
    par "w" "tr" [opt "w" "trPr", anyOf (nsOf "w" ["tc"])],
    par "w" "trPr" [anyOf (nsOf "w" ["trHeight", "jc"])],
    par "w" "tc" [opt "w" "tcPr", some1 (nsOf "w" ["p", "tbl"])],
    par "w" "tcPr" (opts "w" ["tcW", "gridSpan", "vMerge", "tcBorders", "shd", "vAlign"]),
    par "w" "tcBorders" (opts "w" ["top", "left", "bottom", "right", "insideH", "insideV"]),
    -- drawings
    par "w" "drawing" [some1 (nsOf "wp" ["inline", "anchor"])],
    par "wp" "inline" [req "wp" "extent", opt "wp" "effectExtent", req "wp" "docPr",
      opt "wp" "cNvGraphicFramePr", req "a" "graphic"],
    par "wp" "anchor" [req "wp" "simplePos", req "wp" "positionH", req "wp" "positionV",
      req "wp" "extent", opt "wp" "effectExtent",
      { names := nsOf "wp" ["wrapNone", "wrapSquare"], need := true }, req "wp" "docPr",
      opt "wp" "cNvGraphicFramePr", req "a" "graphic"],
    par "wp" "positionH" [req "wp" "posOffset"],
    par "wp" "positionV" [req "wp" "posOffset"],
    txt "wp" "posOffset",
    par "wp" "cNvGraphicFramePr" [opt "a" "graphicFrameLocks"],
    par "a" "graphic" [req "a" "graphicData"],
    par "a" "graphicData" [anyOf [⟨"pic", "pic"⟩, ⟨"wps", "wsp"⟩, ⟨"wpc", "wpc"⟩, ⟨"wpg", "wgp"⟩]],
    -- pictures
    par "pic" "pic" [req "pic" "nvPicPr", req "pic" "blipFill", req "pic" "spPr"],
    par "pic" "nvPicPr" [req "pic" "cNvPr", req "pic" "cNvPicPr"],
    par "pic" "cNvPicPr" [opt "a" "picLocks"],
    par "pic" "blipFill" [opt "a" "blip", opt "a" "srcRect", { names := nsOf "a" ["tile", "stretch"] }],
    par "pic" "spPr" [opt "a" "xfrm", opt "a" "prstGeom",
      { names := nsOf "a" ["noFill", "solidFill", "blipFill"] }, opt "a" "ln"],
    par "a" "blip" [anyOf (nsOf "a" ["alphaModFix"])],
    par "a" "stretch" [opt "a" "fillRect"],
    par "a" "xfrm" (opts "a" ["off", "ext", "chOff", "chExt"]),
    par "a" "prstGeom" [opt "a" "avLst"],
    par "a" "solidFill" [opt "a" "srgbClr"],
    par "a" "blipFill" [opt "a" "blip", opt "a" "srcRect", { names := nsOf "a" ["tile", "stretch"] }],
    par "a" "ln" [{ names := nsOf "a" ["noFill", "solidFill"] }, opt "a" "prstDash",
      { names := nsOf "a" ["round", "miter"] }, opt "a" "headEnd", opt "a" "tailEnd"],
    -- shapes
    par "wps" "wsp" [opt "wps" "cNvPr", { names := nsOf "wps" ["cNvSpPr", "cNvCnPr"], need := true },
      req "wps" "spPr", opt "wps" "txbx", req "wps" "bodyPr"],
    par "wps" "cNvCnPr" [opt "a" "cxnSpLocks"],
    par "wps" "cNvSpPr" [opt "a" "spLocks"],
    par "wps" "spPr" [opt "a" "xfrm", opt "a" "prstGeom",
      { names := nsOf "a" ["noFill", "solidFill", "blipFill"] }, opt "a" "ln"],
    par "wps" "txbx" [req "w" "txbxContent"],
    par "w" "txbxContent" [some1 (nsOf "w" ["p", "tbl"])],
    par "wps" "bodyPr" [opt "a" "noAutofit"],
    -- canvases and groups; the properties of a group have no geometry and no line
    par "wpc" "wpc" [opt "wpc" "bg", opt "wpc" "whole",
      anyOf [⟨"wps", "wsp"⟩, ⟨"pic", "pic"⟩, ⟨"wpg", "wgp"⟩]],
    par "wpc" "bg" [opt "a" "noFill"],
    par "wpc" "whole" [opt "a" "ln"],
    par "wpg" "wgp" [opt "wpg" "cNvPr", req "wpg" "cNvGrpSpPr", req "wpg" "grpSpPr",
      anyOf [⟨"wps", "wsp"⟩, ⟨"wpg", "grpSp"⟩, ⟨"pic", "pic"⟩]],
    par "wpg" "grpSp" [opt "wpg" "cNvPr", req "wpg" "cNvGrpSpPr", req "wpg" "grpSpPr",
      anyOf [⟨"wps", "wsp"⟩, ⟨"wpg", "grpSp"⟩, ⟨"pic", "pic"⟩]],
    par "wpg" "cNvGrpSpPr" [opt "a" "grpSpLocks"],
    par "wpg" "grpSpPr" [opt "a" "xfrm", { names := nsOf "a" ["noFill", "solidFill", "blipFill"] }] ] ++
  noKids "w" ["pStyle", "shd", "kinsoku", "overflowPunct", "adjustRightInd", "snapToGrid", "spacing",
    "ind", "jc", "textAlignment", "ilvl", "numId", "tab", "br", "rStyle", "rFonts", "b", "i", "iCs",
    "strike", "color", "kern", "sz", "szCs", "highlight", "u", "vertAlign", "pgSz", "pgMar", "cols",
    "docGrid", "tblStyle", "tblpPr", "tblW", "tblLook", "top", "left", "bottom", "right", "insideH",
    "insideV", "gridCol", "trHeight", "tcW", "gridSpan", "vMerge", "vAlign"] ++
  noKids "wp" ["extent", "effectExtent", "docPr", "simplePos", "wrapNone", "wrapSquare"] ++
  noKids "a" ["graphicFrameLocks", "picLocks", "alphaModFix", "fillRect", "off", "ext", "chOff", "chExt",
    "avLst", "srgbClr", "noFill", "prstDash", "round", "miter", "headEnd", "tailEnd", "srcRect", "tile",
    "cxnSpLocks", "spLocks", "noAutofit", "grpSpLocks"] ++
  noKids "pic" ["cNvPr"] ++ noKids "wps" ["cNvPr"] ++ noKids "wpg" ["cNvPr"]

/-- The content model of an element; none for unknown elements -/
def contentOf (q : QName) : Option ContentModel := schema.lookup q

/-- The names of the elements among some pieces of XML -/
def kidNames : List Node → List QName
  | [] => []
  | .elem q _ _ :: ns => q :: kidNames ns
  | _ :: ns => kidNames ns

/-- There is text among some pieces of XML -/
def hasText : List Node → Bool
  | [] => false
  | .text _ :: _ => true
  | _ :: ns => hasText ns

mutual
/-- Every element of the tree is known and what is in it fits its content model. -/
def follows : Node → Bool
  | .elem q _ kids =>
    (match contentOf q with
      | none => false
      | some c => fits c.places (kidNames kids) && (c.text || !hasText kids)) && followsL kids
  | .text _ => true
  | .other => true
/-- The same for a sequence of trees -/
def followsL : List Node → Bool
  | [] => true
  | n :: ns => follows n && followsL ns
end

/-! ## Documents that are saved in accordance with the content models

Every condition below names a way in which a saved document breaks a content model. -/

/-- At most one of two -/
def NotBoth (a b : Prop) : Prop := ¬ (a ∧ b)

/-- Run properties: no paragraph style -/
def NeatRPr (r : RPr) : Prop := r.style = none

/-- Numbering: not both the numbering and the level, which are saved in the wrong order -/
def NeatNumPr (n : NumPr) : Prop := n.numId = none ∨ n.ilvl = none

/-- Paragraph properties: a list of tab stops is not empty, there is no kerning, and none of the
properties is there together with one that is saved before it and belongs after it. -/
structure NeatPPr (p : PPr) : Prop where
  tabs : p.tabs ≠ some []
  kern : p.kern = none
  num : ∀ n, p.numPr = some n → NeatNumPr n
  rpr : ∀ r, p.rpr = some r → NeatRPr r
  style : p.style ≠ none → p.tabs = none ∧ p.spacing = none ∧ p.numPr = none ∧ p.ind = none ∧
    p.jc = none ∧ p.shade = none
  numPr : p.numPr ≠ none → p.tabs = none ∧ p.spacing = none
  shade : p.shade ≠ none → p.tabs = none ∧ p.spacing = none ∧ p.ind = none ∧ p.jc = none
  right : p.adjustRightInd ≠ none ∨ p.snapToGrid ≠ none →
    p.spacing = none ∧ p.ind = none ∧ p.jc = none ∧ p.textAlignment = none
  kinsoku : p.kinsoku ≠ none ∨ p.overflowPunct ≠ none →
    p.spacing = none ∧ p.ind = none ∧ p.jc = none ∧ p.textAlignment = none ∧
      p.adjustRightInd = none ∧ p.snapToGrid = none

/-- Lines: one fill, one kind of joint -/
def NeatLine (l : Line) : Prop :=
  NotBoth (l.noFill = true) (l.solidFill ≠ none) ∧ NotBoth (l.miter ≠ none) (l.round = true)

/-- Shape properties: one fill, and the same for the line -/
structure NeatShapePr (s : ShapePr) : Prop where
  solidBlip : NotBoth (s.solidFill ≠ none) (s.blipFill ≠ none)
  solidNo : NotBoth (s.solidFill ≠ none) (s.noFill = true)
  blipNo : NotBoth (s.blipFill ≠ none) (s.noFill = true)
  line : ∀ l, s.line = some l → NeatLine l

/-- Pictures: all three parts are there -/
def NeatPic (p : Picture) : Prop := p.nvPicPr ≠ none ∧ p.blipFill ≠ none ∧ p.spPr ≠ none

mutual
/-- paragraph -/
def NeatPara : Para → Prop
  | ⟨props, children, _⟩ => (∀ p, props = some p → NeatPPr p) ∧ NeatPChildren children
/-- children of a paragraph -/
def NeatPChildren : List PChild → Prop
  | [] => True
  | c :: cs => NeatPChild c ∧ NeatPChildren cs
/-- child of a paragraph: no bare run properties -/
def NeatPChild : PChild → Prop
  | .run r => NeatRun r
  | .link h => NeatLink h
  | .rpr _ => False
/-- hyperlink -/
def NeatLink : Hyperlink → Prop
  | ⟨_, run⟩ => NeatRun run
/-- run -/
def NeatRun : Run → Prop
  | ⟨_, rpr, _, children⟩ => (∀ r, rpr = some r → NeatRPr r) ∧ NeatRChildren children
/-- children of a run -/
def NeatRChildren : List RChild → Prop
  | [] => True
  | c :: cs => NeatRChild c ∧ NeatRChildren cs
/-- child of a run -/
def NeatRChild : RChild → Prop
  | .text _ => True
  | .tab _ => True
  | .br _ => True
  | .drawing d => NeatDrawing d
/-- drawing: not empty -/
def NeatDrawing : Drawing → Prop
  | ⟨inl, anchor⟩ => (inl.isSome = true ∨ anchor.isSome = true) ∧ NeatInlineO inl ∧ NeatAnchorO anchor
/-- pointer to an inline drawing -/
def NeatInlineO : Option Inline → Prop
  | none => True
  | some i => NeatInline i
/-- pointer to an anchored drawing -/
def NeatAnchorO : Option Anchor → Prop
  | none => True
  | some a => NeatAnchor a
/-- inline drawing: the required parts are there -/
def NeatInline : Inline → Prop
  | ⟨_, _, _, _, extent, _, docPr, _, graphic, _⟩ =>
    extent ≠ none ∧ docPr ≠ none ∧ NeatGraphicO graphic
/-- anchored drawing: the required parts are there, and exactly one way to wrap text -/
def NeatAnchor : Anchor → Prop
  | ⟨_, _, _, _, _, _, _, _, _, _, simplePosXY, positionH, positionV, extent, _, wrapNone, wrapSquare,
      docPr, _, graphic, _⟩ =>
    simplePosXY ≠ none ∧ positionH ≠ none ∧ positionV ≠ none ∧ extent ≠ none ∧
      (wrapNone = true ↔ wrapSquare = none) ∧ docPr ≠ none ∧ NeatGraphicO graphic
/-- pointer to a graphic: it is set -/
def NeatGraphicO : Option Graphic → Prop
  | none => False
  | some g => NeatGraphic g
/-- graphic -/
def NeatGraphic : Graphic → Prop
  | ⟨_, data⟩ => NeatGraphicDataO data
/-- pointer to graphic data: it is set -/
def NeatGraphicDataO : Option GraphicData → Prop
  | none => False
  | some g => NeatGraphicData g
/-- graphic data: no group -/
def NeatGraphicData : GraphicData → Prop
  | ⟨_, pic, shape, canvas, group⟩ =>
    (∀ p, pic = some p → NeatPic p) ∧ NeatShapeO shape ∧ NeatCanvasO canvas ∧ group.isNone = true
/-- pointer to a shape -/
def NeatShapeO : Option Shape → Prop
  | none => True
  | some s => NeatShape s
/-- pointer to a canvas -/
def NeatCanvasO : Option Canvas → Prop
  | none => True
  | some c => NeatCanvas c
/-- shape: the required parts are there, and exactly one of the two kinds of properties -/
def NeatShape : Shape → Prop
  | ⟨_, cNvCnPr, cNvSpPr, spPr, textBox, bodyPr⟩ =>
    (cNvCnPr = none ↔ cNvSpPr ≠ none) ∧ spPr ≠ none ∧ (∀ s, spPr = some s → NeatShapePr s) ∧
      NeatTextBoxO textBox ∧ bodyPr ≠ none
/-- pointer to a text box -/
def NeatTextBoxO : Option TextBox → Prop
  | none => True
  | some t => NeatTextBox t
/-- text box -/
def NeatTextBox : TextBox → Prop
  | ⟨content⟩ => NeatContentO content
/-- content of a text box: there is a paragraph -/
def NeatContentO : Option (List Para) → Prop
  | none => False
  | some ps => ps.isEmpty = false ∧ NeatParas ps
/-- paragraphs -/
def NeatParas : List Para → Prop
  | [] => True
  | p :: ps => NeatPara p ∧ NeatParas ps
/-- canvas -/
def NeatCanvas : Canvas → Prop
  | ⟨_, whole, items⟩ => (∀ l, whole = some (some l) → NeatLine l) ∧ NeatCItems items
/-- items of a canvas -/
def NeatCItems : List CItem → Prop
  | [] => True
  | c :: cs => NeatCItem c ∧ NeatCItems cs
/-- item of a canvas: no group -/
def NeatCItem : CItem → Prop
  | .shape s => NeatShape s
  | .pic p => NeatPic p
  | .group _ => False
end

/-- Table properties: not both a position and a style, which are saved in the wrong order -/
def NeatTblPr (t : TblPr) : Prop := NotBoth (t.position ≠ none) (t.style ≠ none)

/-- Cell properties: not merged both ways, which is saved in the wrong order -/
def NeatTcPr (t : TcPr) : Prop := NotBoth (t.vMerge ≠ none) (t.gridSpan ≠ none)

/-- Cell: there is a paragraph -/
def NeatCell (c : Cell) : Prop :=
  (∀ p, c.props = some p → NeatTcPr p) ∧ c.paras ≠ [] ∧ ∀ p ∈ c.paras, NeatPara p

/-- Table: properties and grid are there -/
def NeatTable (t : Table) : Prop :=
  t.props ≠ none ∧ (∀ p, t.props = some p → NeatTblPr p) ∧ t.grid ≠ none ∧
    ∀ r ∈ t.rows, ∀ c ∈ r.cells, NeatCell c

/-- Body item -/
def NeatItem : BItem → Prop
  | .para p => NeatPara p
  | .table t => NeatTable t
  | .sect _ => True

/-- Section properties are only at the end of the body. -/
def SectLast (items : List BItem) : Prop := ∀ i s, items[i]? = some (.sect s) → i + 1 = items.length

/-- Body: section properties are only at the end -/
def NeatBody (items : List BItem) : Prop := (∀ x ∈ items, NeatItem x) ∧ SectLast items

/-! ## Histories -/

/-- Every cell of every table has a paragraph. -/
def CellsFilled (items : List BItem) : Prop :=
  ∀ t, .table t ∈ items → ∀ r ∈ t.rows, ∀ c ∈ r.cells, c.paras ≠ []

/-- The graphic shows something, and a picture only in a drawing without a document, so that copies of
the drawing show it too. -/
def Shows (file : Option DocId) (g : Option Graphic) : Prop :=
  ∀ x, g = some x → ∀ gd, x.data = some gd →
    (gd.pic ≠ none ∧ file = none) ∨ (gd.pic = none ∧ (gd.shape.isSome ∨ gd.canvas.isSome))

/-- A drawing like the ones that the calls make -/
def ShowsDrawing (d : Drawing) : Prop :=
  (∀ i, d.inl = some i → Shows i.file i.graphic) ∧ ∀ a, d.anchor = some a → Shows a.file a.graphic

/-- A paragraph that follows the content models and has only drawings like the ones that calls make -/
def TidyPara (p : Para) : Prop := NeatPara p ∧ ∀ d ∈ p.draws, ShowsDrawing d

/-- The same for a body item, but cells of tables may be empty -/
def TidyItem : BItem → Prop
  | .para p => TidyPara p
  | .table t => (∃ p, t.props = some p ∧ NeatTblPr p) ∧ t.grid ≠ none ∧
      ∀ r ∈ t.rows, ∀ c ∈ r.cells, (∀ p, c.props = some p → NeatTcPr p) ∧ ∀ p ∈ c.paras, TidyPara p
  | .sect _ => True

/-- The lines given to the shape calls are in accordance with the content models, and the client's own
changes of a document keep tidy items tidy. -/
def Op.Tidy : Op → Prop
  | .load items _ => ∀ x ∈ items, TidyItem x
  | .edit _ g => ∀ items, (∀ x ∈ items, TidyItem x) → ∀ x ∈ g items, TidyItem x
  | .addInlineShape _ _ _ _ _ _ _ ln => ∀ l, ln = some l → NeatLine l
  | .addAnchorShape _ _ _ _ _ _ _ ln => ∀ l, ln = some l → NeatLine l
  | _ => True

end Docx
