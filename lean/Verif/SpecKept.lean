import Verif.SpecContent
import Verif.Marshal

/-!
# What a document looks like after it was opened and saved (C70)

Which elements and attributes can be written for a parsed document, outside drawings, and which
attributes are always or never written.
-/

namespace Docx

/-- The elements of a tree, at any depth, but not those in drawings -/
def written (n : Node) : List El := els (fun l => l != "drawing") n

/-- The local names of the elements that can be written for a parsed document, outside drawings, with
the local names of the attributes they can have -/
def vocabulary : List (String × List String) :=
  [ ("document", ["w", "r", "wp", "wps", "wpc", "wpg"]), ("body", []),
    -- paragraphs and runs
    ("p", []), ("r", ["space"]), ("hyperlink", ["id"]), ("instrText", []), ("t", ["space"]),
    ("tab", ["val", "pos"]), ("br", ["type"]), ("drawing", []),
    -- formatting of paragraphs
    ("pPr", []), ("tabs", []), ("spacing", ["val", "beforeLines", "before", "line", "lineRule"]),
    ("ind", ["leftChars", "left", "firstLineChars", "firstLine", "hangingChars", "hanging"]),
    ("jc", ["val"]), ("shd", ["val", "color", "fill", "themeFill", "themeFillTint"]),
    ("kern", ["val"]), ("pStyle", ["val"]), ("textAlignment", ["val"]), ("adjustRightInd", ["val"]),
    ("snapToGrid", ["val"]), ("kinsoku", ["val"]), ("overflowPunct", ["val"]),
    -- formatting of runs
    ("rPr", []), ("rFonts", ["ascii", "eastAsia", "hAnsi", "hint"]), ("b", []), ("iCs", []), ("i", []),
    ("highlight", ["val"]), ("color", ["val"]), ("sz", ["val"]), ("szCs", ["val"]), ("rStyle", ["val"]),
    ("u", ["val"]), ("vertAlign", ["val"]), ("strike", ["val"]),
    -- tables
    ("tbl", []), ("tr", []), ("tc", []), ("tblPr", []),
    ("tblpPr", ["leftFromText", "rightFromText", "vertAnchor", "horzAnchor", "tblpXSpec", "tblpYSpec",
      "tblpX", "tblpY"]),
    ("tblStyle", ["val"]), ("tblW", ["w", "type"]), ("tblBorders", []), ("tcBorders", []),
    ("top", ["val", "sz", "space", "color"]), ("left", ["val", "sz", "space", "color"]),
    ("bottom", ["val", "sz", "space", "color"]), ("right", ["val", "sz", "space", "color"]),
    ("insideH", ["val", "sz", "space", "color"]), ("insideV", ["val", "sz", "space", "color"]),
    ("tblLook", ["val", "firstRow", "lastRow", "firstColumn", "lastColumn", "noHBand", "noVBand"]),
    ("tblGrid", []), ("gridCol", ["w"]), ("trPr", []), ("trHeight", ["hRule", "val"]),
    ("tcPr", []), ("tcW", ["w", "type"]), ("vMerge", ["val"]), ("gridSpan", ["val"]), ("vAlign", ["val"]),
    -- sections
    ("sectPr", []), ("pgSz", ["w", "h"]),
    ("pgMar", ["top", "left", "bottom", "right", "header", "footer", "gutter"]), ("cols", ["space"]),
    ("docGrid", ["type", "linePitch"]) ]

/-- The attributes that are written whether or not the file had them -/
def always (l : String) : List String :=
  if ["jc", "kern", "pStyle", "textAlignment", "adjustRightInd", "snapToGrid", "kinsoku", "overflowPunct",
      "color", "sz", "szCs", "rStyle", "vertAlign", "strike", "tblStyle", "trHeight", "gridSpan",
      "vAlign"].contains l then ["val"]
  else if l = "hyperlink" then ["id"]
  else if l = "tblW" ∨ l = "tcW" then ["w", "type"]
  else if l = "tblLook" then ["val", "firstRow", "lastRow", "firstColumn", "lastColumn", "noHBand", "noVBand"]
  else if l = "gridCol" then ["w"]
  else if l = "pgSz" then ["w", "h"]
  else if l = "pgMar" then ["top", "left", "bottom", "right", "header", "footer", "gutter"]
  else if l = "cols" then ["space"]
  else if l = "docGrid" then ["type", "linePitch"]
  else []

/-- The attributes that are never written with the value 0, even if the file had a 0 -/
def zeroLost (l : String) : List String :=
  if l = "spacing" then ["val", "beforeLines", "before", "line"]
  else if l = "ind" then ["leftChars", "left", "firstLineChars", "firstLine", "hangingChars", "hanging"]
  else if l = "tab" then ["pos"]
  else if l = "tblpPr" then ["leftFromText", "rightFromText", "tblpX", "tblpY"]
  else if ["top", "left", "bottom", "right", "insideH", "insideV"].contains l then ["sz", "space"]
  else []

/-- An element as saving writes it -/
structure AsSaved [GoEnv] (e : El) : Prop where
  /-- it is in the vocabulary, -/
  known : ∃ as, (e.name, as) ∈ vocabulary ∧ ∀ a ∈ e.attrs, a.name.loc ∈ as
  /-- it has the attributes that are always written, -/
  always : ∀ n ∈ always e.name, attrLast? n e.attrs ≠ none
  /-- it has no zeros that are never written, -/
  zeros : ∀ a ∈ e.attrs, a.name.loc ∈ zeroLost e.name → number a.val ≠ 0
  /-- and if it is a link it has exactly one run. -/
  link : e.name = "hyperlink" → ∃ q as ks, e.kids = [.elem q as ks] ∧ q.loc = "r"

/-- What is written for a parsed document -/
def resaved [GoEnv] (toks : List Tok) : Node := mDocument (decodeDocument none [] toks).val

/-- The attributes of the elements with this name, in order -/
def attrsOf (n : String) (t : Node) : List (List Attr) :=
  ((written t).filter fun e => e.name == n).map El.attrs

/-- The flags of `w:tblLook` elements are written as 0 and 1. -/
def lookFlags (ks : List Node) : Prop :=
  ∀ e ∈ elsL (fun _ => true) ks, e.name = "tblLook" → ∀ a ∈ e.attrs,
    a.name.loc ∈ ["firstRow", "lastRow", "firstColumn", "lastColumn", "noHBand", "noVBand"] →
    a.val = "0" ∨ a.val = "1"

end Docx
