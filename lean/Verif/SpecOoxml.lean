import Verif.Spec
import Verif.Xml

/-!
# What the calls mean in WordprocessingML (C61)

The element that ECMA-376 has for each formatting call, written down independently of the code that
saves documents.
-/

namespace Docx

/-- The element `w:loc` with attributes in the name space `w` -/
def wEl (loc : String) (as : List (String × String)) (kids : List Node := []) : Node :=
  .elem ⟨"w", loc⟩ (as.map fun a => ⟨⟨"w", a.1⟩, a.2⟩) kids

/-- Attributes with an empty value are left out -/
def given (as : List (String × String)) : List (String × String) := as.filter fun a => !(a.2 == "")

/-- The node is an element `w:loc` -/
def isW (loc : String) : Node → Bool
  | .elem q _ _ => q == ⟨"w", loc⟩
  | _ => false

/-- `new` has `x` as its only `w:loc`, and besides that the same nodes in the same order as `old` -/
def Sets (old new : List Node) (loc : String) (x : Node) : Prop :=
  new.filter (isW loc) = [x] ∧ (new.filter fun n => !isW loc n) = old.filter fun n => !isW loc n

/-- The run property element a call stands for -/
def RSetter.tag : RSetter → String
  | .color _ => "color"
  | .size _ => "sz"
  | .sizeCs _ => "szCs"
  | .shade _ _ _ => "shd"
  | .spacing _ => "spacing"
  | .bold => "b"
  | .italic => "i"
  | .underline _ => "u"
  | .highlight _ => "highlight"
  | .strike _ => "strike"
  | .font _ _ _ _ => "rFonts"

/-- The attributes it gets -/
def RSetter.attrs : RSetter → List (String × String)
  | .color v => [("val", v)]
  | .size v => [("val", v)]
  | .sizeCs v => [("val", v)]
  | .shade v c f => given [("val", v), ("color", c), ("fill", f)]
  | .spacing n => if n = 0 then [] else [("line", itoa n)]
  | .bold => []
  | .italic => []
  | .underline v => given [("val", v)]
  | .highlight v => given [("val", v)]
  | .strike v => [("val", if v then "true" else "false")]
  | .font a e h t => given [("ascii", a), ("eastAsia", e), ("hAnsi", h), ("hint", t)]

/-- `a` and `b` are the same element `w:outer`, up to their first child `w:props`, which `b` has and `a`
may have; the contents of the two are related by `R` (no content if `a` has none) -/
def SetsIn (outer props : String) (a b : Node) (R : List Node → List Node → Prop) : Prop :=
  ∃ as rest ps', b = .elem ⟨"w", outer⟩ as (wEl props [] ps' :: rest) ∧
    ((a = .elem ⟨"w", outer⟩ as rest ∧ R [] ps') ∨
      ∃ ps, a = .elem ⟨"w", outer⟩ as (wEl props [] ps :: rest) ∧ R ps ps')

/-- The change of one child `w:loc` of a list; the child is made if there is none -/
def SetsKid (loc : String) (R : List Node → List Node → Prop) (old new : List Node) : Prop :=
  ∃ qs', Sets old new loc (wEl loc [] qs') ∧
    ((old.filter (isW loc) = [] ∧ R [] qs') ∨ ∃ qs, old.filter (isW loc) = [wEl loc [] qs] ∧ R qs qs')

mutual
/-- The elements with a name anywhere in a tree, in document order -/
def Node.find (pre loc : String) : Node → List Node
  | .elem q as kids => (if q = ⟨pre, loc⟩ then [.elem q as kids] else []) ++ findL pre loc kids
  | .text _ => []
  | .other => []
/-- The same for a sequence of trees -/
def findL (pre loc : String) : List Node → List Node
  | [] => []
  | n :: ns => n.find pre loc ++ findL pre loc ns
end

/-- The attributes of an element -/
def Node.attrsOf : Node → List Attr
  | .elem _ as _ => as
  | _ => []

/-- The runs of characters, tabs and line breaks of a text: `acc` is the run of characters read so far,
in reverse -/
def textXml (acc : List Char) : List Char → List Node
  | [] => flushXml acc
  | c :: cs =>
    if c = '\t' then flushXml acc ++ wEl "tab" [] :: textXml [] cs
    else if c = '\n' then flushXml acc ++ wEl "br" [] :: textXml [] cs
    else textXml (c :: acc) cs
where
  /-- A `w:t` for the characters, none for no characters -/
  flushXml (acc : List Char) : List Node :=
    if acc = [] then [] else [wEl "t" [] [.text (String.ofList acc.reverse)]]

/-- A `w:tblBorders` with single lines of the given colours -/
def bordersXml (top left bottom right insideH insideV : String) : Node :=
  let line (side color : String) := wEl side [("val", "single"), ("sz", "4"), ("color", color)]
  wEl "tblBorders" [] [line "top" top, line "left" left, line "bottom" bottom, line "right" right,
    line "insideH" insideH, line "insideV" insideV]

end Docx
