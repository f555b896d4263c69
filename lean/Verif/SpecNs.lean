import Verif.Xml
import Verif.Doc

/-!
# Name-space prefixes (C59)

An XML document with name spaces may use a prefix only inside an element that declares it.  Word
refuses to open files that break this rule.
-/

namespace Docx

/-- The prefixes that the attributes of an element declare -/
def declaredBy (as : List Attr) : List String :=
  as.filterMap fun a => if a.name.pre = "xmlns" ∧ a.val ≠ "" then some a.name.loc else none

/-- A prefix that may be used where the prefixes `scope` are declared -/
def prefixOk (scope : List String) (pre : String) : Bool :=
  pre == "" || pre == "xml" || pre == "xmlns" || scope.contains pre

mutual
/-- Every prefix in the tree is declared, `scope` being declared outside -/
def nsOk (scope : List String) : Node → Bool
  | .elem q as kids =>
    prefixOk (declaredBy as ++ scope) q.pre &&
      as.all (fun a => prefixOk (declaredBy as ++ scope) a.name.pre) &&
      nsOkL (declaredBy as ++ scope) kids
  | .text _ => true
  | .other => true
/-- The same for a sequence of trees -/
def nsOkL (scope : List String) : List Node → Bool
  | [] => true
  | n :: ns => nsOk scope n && nsOkL scope ns
end

/-! ## Documents whose drawings declare the prefixes they use -/

mutual
/-- paragraph -/
def declPara : Para → Prop
  | ⟨_, children, _⟩ => declPChildren children
/-- children of a paragraph -/
def declPChildren : List PChild → Prop
  | [] => True
  | c :: cs => declPChild c ∧ declPChildren cs
/-- child of a paragraph -/
def declPChild : PChild → Prop
  | .run r => declRun r
  | .link h => declLink h
  | .rpr _ => True
/-- hyperlink -/
def declLink : Hyperlink → Prop
  | ⟨_, run⟩ => declRun run
/-- run -/
def declRun : Run → Prop
  | ⟨_, _, _, children⟩ => declRChildren children
/-- children of a run -/
def declRChildren : List RChild → Prop
  | [] => True
  | c :: cs => declRChild c ∧ declRChildren cs
/-- child of a run -/
def declRChild : RChild → Prop
  | .text _ => True
  | .tab _ => True
  | .br _ => True
  | .drawing d => declDrawing d
/-- drawing -/
def declDrawing : Drawing → Prop
  | ⟨inl, anchor⟩ => declInlineO inl ∧ declAnchorO anchor
/-- pointer to an inline drawing -/
def declInlineO : Option Inline → Prop
  | none => True
  | some i => declInline i
/-- pointer to an anchored drawing -/
def declAnchorO : Option Anchor → Prop
  | none => True
  | some a => declAnchor a
/-- inline drawing: the locks of the frame have the attribute `xmlns:a` -/
def declInline : Inline → Prop
  | ⟨_, _, _, _, _, _, _, framePr, graphic, _⟩ =>
    (∀ f, framePr = some f → f.xmlA ≠ "") ∧ declGraphicO graphic
/-- anchored drawing: the same -/
def declAnchor : Anchor → Prop
  | ⟨_, _, _, _, _, _, _, _, _, _, _, _, _, _, _, _, _, _, framePr, graphic, _⟩ =>
    (∀ f, framePr = some f → f.xmlA ≠ "") ∧ declGraphicO graphic
/-- pointer to a graphic -/
def declGraphicO : Option Graphic → Prop
  | none => True
  | some g => declGraphic g
/-- graphic: it has the attribute `xmlns:a` -/
def declGraphic : Graphic → Prop
  | ⟨xmlA, data⟩ => xmlA ≠ "" ∧ declGraphicDataO data
/-- pointer to graphic data -/
def declGraphicDataO : Option GraphicData → Prop
  | none => True
  | some g => declGraphicData g
/-- graphic data: a picture has the attribute `xmlns:pic` -/
def declGraphicData : GraphicData → Prop
  | ⟨_, pic, shape, canvas, group⟩ =>
    (∀ p, pic = some p → p.xmlPic ≠ "") ∧ declShapeO shape ∧ declCanvasO canvas ∧ declGroupO group
/-- pointer to a shape -/
def declShapeO : Option Shape → Prop
  | none => True
  | some s => declShape s
/-- pointer to a canvas -/
def declCanvasO : Option Canvas → Prop
  | none => True
  | some c => declCanvas c
/-- pointer to a group -/
def declGroupO : Option Group → Prop
  | none => True
  | some g => declGroup g
/-- shape -/
def declShape : Shape → Prop
  | ⟨_, _, _, _, textBox, _⟩ => declTextBoxO textBox
/-- pointer to a text box -/
def declTextBoxO : Option TextBox → Prop
  | none => True
  | some t => declTextBox t
/-- text box -/
def declTextBox : TextBox → Prop
  | ⟨content⟩ => declContentO content
/-- content of a text box -/
def declContentO : Option (List Para) → Prop
  | none => True
  | some ps => declParas ps
/-- paragraphs -/
def declParas : List Para → Prop
  | [] => True
  | p :: ps => declPara p ∧ declParas ps
/-- canvas -/
def declCanvas : Canvas → Prop
  | ⟨_, _, items⟩ => declCItems items
/-- items of a canvas -/
def declCItems : List CItem → Prop
  | [] => True
  | c :: cs => declCItem c ∧ declCItems cs
/-- item of a canvas: a picture has the attribute `xmlns:pic` -/
def declCItem : CItem → Prop
  | .shape s => declShape s
  | .pic p => p.xmlPic ≠ ""
  | .group g => declGroup g
/-- group -/
def declGroup : Group → Prop
  | ⟨_, _, elems⟩ => declGItems elems
/-- group shape -/
def declGroupShape : GroupShape → Prop
  | ⟨_, _, _, elems⟩ => declGItems elems
/-- items of a group -/
def declGItems : List GItem → Prop
  | [] => True
  | g :: gs => declGItem g ∧ declGItems gs
/-- item of a group: a picture has the attribute `xmlns:pic` -/
def declGItem : GItem → Prop
  | .shape s => declShape s
  | .pic p => p.xmlPic ≠ ""
  | .canvas c => declCanvas c
  | .groupShape g => declGroupShape g
end

/-- item of a body -/
def declItem : BItem → Prop
  | .para p => declPara p
  | .table t => ∀ r ∈ t.rows, ∀ c ∈ r.cells, ∀ p ∈ c.paras, declPara p
  | .sect _ => True

/-- Every graphic and every lock of a frame in the body has the attribute `xmlns:a`, every picture
the attribute `xmlns:pic` -/
def declBody (items : List BItem) : Prop := ∀ i ∈ items, declItem i

/-! ## Files whose drawings declare the prefixes they use -/

/-- The attribute `l` is there, with a value (a name-space attribute `xmlns:l` that declares `l`) -/
def hasAttr (as : List Attr) (l : String) : Prop :=
  (∃ a ∈ as, a.name.loc = l) ∧ ∀ a ∈ as, a.name.loc = l → a.val ≠ ""

/-- The next token is a start tag with this local name -/
def nextStart : List Tok → String → Prop
  | .start q _ :: _, l => q.loc = l
  | _, _ => False

/-- A start tag of a drawing, and the tokens after it: graphics and frame locks declare `a`,
pictures declare `pic`, the properties of a frame begin with the locks, there are no groups. -/
def declStart (l : String) (as : List Attr) (rest : List Tok) : Prop :=
  (l = "graphic" → hasAttr as "a") ∧ (l = "graphicFrameLocks" → hasAttr as "a") ∧
    (l = "pic" → hasAttr as "pic") ∧ l ≠ "wgp" ∧
    (l = "cNvGraphicFramePr" → nextStart rest "graphicFrameLocks")

/-- All start tags of a file are as above -/
def declToks : List Tok → Prop
  | [] => True
  | .start q as :: r => declStart q.loc as r ∧ declToks r
  | _ :: r => declToks r

instance (as : List Attr) (l : String) : Decidable (hasAttr as l) := by
  unfold hasAttr; exact inferInstance

instance (r : List Tok) (l : String) : Decidable (nextStart r l) := by
  unfold nextStart; split <;> exact inferInstance

instance (l : String) (as : List Attr) (r : List Tok) : Decidable (declStart l as r) := by
  unfold declStart; exact inferInstance

/-- `declToks` can be decided -/
def decDeclToks : (ts : List Tok) → Decidable (declToks ts)
  | [] => .isTrue trivial
  | .start q as :: r =>
    have := decDeclToks r
    inferInstanceAs (Decidable (declStart q.loc as r ∧ declToks r))
  | .stop _ :: r => decDeclToks r
  | .chars _ :: r => decDeclToks r
  | .other :: r => decDeclToks r
  | .bad :: r => decDeclToks r

instance (ts : List Tok) : Decidable (declToks ts) := decDeclToks ts

end Docx
