import Verif.SpecOoxml

/-!
# The DrawingML that the picture and shape calls stand for (C61)

The drawings of ECMA-376 part 1, 20.4 (`wp`), 20.2 (`pic`) and 20.1 (`a`) that show one picture or one
shape, written out.
-/

namespace Docx

/-- An attribute without prefix -/
def plainAttr (n v : String) : Attr := ⟨⟨"", n⟩, v⟩

/-- The declaration of the prefix `a` -/
def declA : Attr := ⟨⟨"xmlns", "a"⟩, "http://schemas.openxmlformats.org/drawingml/2006/main"⟩

/-- `a:off` and `a:ext` -/
def boxXml (x y : String) : Node :=
  .elem ⟨"a", "xfrm"⟩ []
    [.elem ⟨"a", "off"⟩ [plainAttr "x" "0", plainAttr "y" "0"] [],
     .elem ⟨"a", "ext"⟩ [plainAttr "cx" x, plainAttr "cy" y] []]

/-- A picture with the number `id` and this name, that shows the file with the relationship `rid` -/
def pictureXml (id name rid x y : String) : Node :=
  .elem ⟨"a", "graphic"⟩ [declA]
    [.elem ⟨"a", "graphicData"⟩ [plainAttr "uri" "http://schemas.openxmlformats.org/drawingml/2006/picture"]
      [.elem ⟨"pic", "pic"⟩ [⟨⟨"xmlns", "pic"⟩, "http://schemas.openxmlformats.org/drawingml/2006/picture"⟩]
        [.elem ⟨"pic", "nvPicPr"⟩ []
          [.elem ⟨"pic", "cNvPr"⟩ [plainAttr "id" id, plainAttr "name" name] [], .elem ⟨"pic", "cNvPicPr"⟩ [] []],
         .elem ⟨"pic", "blipFill"⟩ []
          [.elem ⟨"a", "blip"⟩ [⟨⟨"r", "embed"⟩, rid⟩, plainAttr "cstate" "print"] [], .elem ⟨"a", "stretch"⟩ [] []],
         .elem ⟨"pic", "spPr"⟩ [] [boxXml x y, .elem ⟨"a", "prstGeom"⟩ [plainAttr "prst" "rect"] []]]]]

/-- A shape of this kind, with no filling and this line -/
def shapeXml (mode kind x y : String) (line : List Node) : Node :=
  .elem ⟨"a", "graphic"⟩ [declA]
    [.elem ⟨"a", "graphicData"⟩ [plainAttr "uri" "http://schemas.microsoft.com/office/word/2010/wordprocessingShape"]
      [.elem ⟨"wps", "wsp"⟩ []
        [.elem ⟨"wps", "cNvCnPr"⟩ [] [.elem ⟨"a", "cxnSpLocks"⟩ [] []],
         .elem ⟨"wps", "spPr"⟩ [plainAttr "bwMode" mode]
          ([boxXml x y, .elem ⟨"a", "prstGeom"⟩ [plainAttr "prst" kind] [], .elem ⟨"a", "noFill"⟩ [] []] ++ line),
         .elem ⟨"wps", "bodyPr"⟩ (["rot", "lIns", "tIns", "rIns", "bIns", "anchorCtr", "upright"].map fun n =>
            plainAttr n "0") []]]]

/-- The distances of a drawing from the text around it -/
def noDistance : List Attr := ["distT", "distB", "distL", "distR"].map fun n => plainAttr n "0"

/-- What a drawing says about itself: size, effects, number, name and what may be changed -/
def frontXml (num name x y : String) (locks : List Attr) : List Node × List Node :=
  ([.elem ⟨"wp", "extent"⟩ [plainAttr "cx" x, plainAttr "cy" y] [],
    .elem ⟨"wp", "effectExtent"⟩ (["l", "t", "r", "b"].map fun n => plainAttr n "0") []],
   [.elem ⟨"wp", "docPr"⟩ [plainAttr "id" num, plainAttr "name" name] [],
    .elem ⟨"wp", "cNvGraphicFramePr"⟩ [] [.elem ⟨"a", "graphicFrameLocks"⟩ (declA :: locks) []]])

/-- A run with a drawing in the text -/
def inTextXml (front : List Node × List Node) (graphic : Node) : Node :=
  .elem ⟨"w", "r"⟩ [] [.elem ⟨"w", "rPr"⟩ [] [], .elem ⟨"w", "drawing"⟩ []
    [.elem ⟨"wp", "inline"⟩ noDistance (front.1 ++ front.2 ++ [graphic])]]

/-- A run with a drawing before the text, at the place where it is anchored -/
def floatingXml (front : List Node × List Node) (graphic : Node) : Node :=
  .elem ⟨"w", "r"⟩ [] [.elem ⟨"w", "rPr"⟩ [] [], .elem ⟨"w", "drawing"⟩ []
    [.elem ⟨"wp", "anchor"⟩
      (noDistance ++ [plainAttr "simplePos" "0", plainAttr "relativeHeight" "0", plainAttr "behindDoc" "0",
        plainAttr "locked" "0", plainAttr "layoutInCell" "1", plainAttr "allowOverlap" "1"])
      ([.elem ⟨"wp", "simplePos"⟩ [plainAttr "x" "0", plainAttr "y" "0"] [],
        .elem ⟨"wp", "positionH"⟩ [plainAttr "relativeFrom" "column"] [.elem ⟨"wp", "posOffset"⟩ [] [.text "0"]],
        .elem ⟨"wp", "positionV"⟩ [plainAttr "relativeFrom" "paragraph"] [.elem ⟨"wp", "posOffset"⟩ [] [.text "0"]]] ++
       front.1 ++ [.elem ⟨"wp", "wrapNone"⟩ [] []] ++ front.2 ++ [graphic])]]

end Docx
