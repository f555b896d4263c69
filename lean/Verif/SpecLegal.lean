import Verif.Spec

/-!
# Specification: calls a careful client makes (C68)
-/

namespace Docx

/-- The documents that the paragraphs and cells of a body item belong to. -/
def BItem.owners : BItem → List (Option DocId)
  | .para p => [p.file]
  | .table t => t.rows.flatMap fun r => r.cells.flatMap fun c => c.file :: c.paras.map (·.file)
  | .sect _ => []

/-- All paragraphs and cells belong to one of the first `n` documents. -/
def ItemsIn (n : Nat) (items : List BItem) : Prop :=
  ∀ x ∈ items, ∀ o ∈ x.owners, ∃ i, o = some i ∧ i < n

/-- All paragraphs and cells of all documents belong to a document that exists. -/
def World.Closed (w : World) : Prop := ∀ f ∈ w, ItemsIn w.length f.items

/-- There is a document `d` and it has a paragraph at `l`. -/
def HasPara (w : World) (d : DocId) (l : Loc) : Prop :=
  ∃ f p, w[d]? = some f ∧ getPara f.items l = some p

/-- The picture, if it can be decoded, has a width. -/
def HasWidth [ImgEnv] (pic : Bytes) : Prop :=
  ∀ w h fmt, ImgEnv.decodeSize pic = some (w, h, fmt) → w ≠ 0

/-- What a careful client sees to before a call: the document and the paragraph exist, tables do not have
negative sizes, pictures have a width, paragraphs that the client brings in belong to documents that
exist; documents are only split and appended when their paragraphs can be copied, and the rule for
splitting returns normally. -/
def Op.Legal [ImgEnv] (w : World) : Op → Prop
  | .new => True
  | .load items _ => ItemsIn w.length items
  | .addParagraph d | .cellAddParagraph d _ _ _ | .addTableTwips d _ _ _ _ | .withA3Page d
  | .withA4Page d | .useTemplate d _ _ _ | .increaseID d _ => d < w.length
  | .addTable d row col _ _ => d < w.length ∧ 0 ≤ row ∧ (0 < row → 0 ≤ col)
  | .addText d l _ | .addLink d l _ _ | .addInlineShape d l _ _ _ _ _ _
  | .addAnchorShape d l _ _ _ _ _ _ => HasPara w d l
  | .addInlineDrawing d l pic | .addAnchorDrawing d l pic => HasPara w d l ∧ HasWidth pic
  | .append f af => f < w.length ∧ ∃ a, w[af]? = some a ∧
      ∀ x ∈ a.items, ∀ p ∈ x.paras, p.Copyable w f
  | .split d sep => ∃ f, w[d]? = some f ∧
      (∀ nd, w.length ≤ nd → ∀ x ∈ f.items, ∀ p ∈ x.paras, p.Copyable w nd) ∧
      (∀ p, .para p ∈ f.items → ∀ w1, Keeps w w1 → ∃ b, sep w1 p = .ok b)
  | .edit d g => ∃ f, w[d]? = some f ∧ ItemsIn w.length (g f.items)

/-- Every call of the history is made with care, in the state that the calls before it have left. -/
def CarefulRun [ImgEnv] (w : World) (os : List Op) : Prop :=
  ∀ pre o post, os = pre ++ o :: post → ∀ w1, run w pre = .ok w1 → o.Legal w1

/-- A drawing that is a shape, not a picture: what is shown of it has a graphic with data and without a
picture. -/
def Drawing.NotPicture (d : Drawing) : Prop :=
  match d.inl with
  | some i => ∃ g gd, i.graphic = some g ∧ g.data = some gd ∧ gd.pic = none
  | none => ∀ a, d.anchor = some a → ∃ g gd, a.graphic = some g ∧ g.data = some gd ∧ gd.pic = none

/-- No drawing of the body is a picture. -/
def Pictureless (items : List BItem) : Prop := ∀ x ∈ items, ∀ d ∈ x.draws, d.NotPicture

/-- The call brings in no picture. -/
def Op.Pictureless : Op → Prop
  | .load items _ => Docx.Pictureless items
  | .addInlineDrawing _ _ _ | .addAnchorDrawing _ _ _ => False
  | .edit _ g => ∀ items, Docx.Pictureless items → Docx.Pictureless (g items)
  | _ => True

/-- As `Op.Legal`, but nothing is asked of what is split or appended except that it exists; the rule for
splitting returns normally for every paragraph that can be printed. -/
def Op.Simple [ImgEnv] (w : World) : Op → Prop
  | .append f af => f < w.length ∧ af < w.length
  | .split d sep => d < w.length ∧ ∀ w1 p, p.Printable w1 → ∃ b, sep w1 p = .ok b
  | o => o.Legal w

/-- Every call of the history is `Op.Simple` in the state that the calls before it have left. -/
def SimpleRun [ImgEnv] (w : World) (os : List Op) : Prop :=
  ∀ pre o post, os = pre ++ o :: post → ∀ w1, run w pre = .ok w1 → o.Simple w1

end Docx
