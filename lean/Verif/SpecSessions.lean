import Verif.SpecPack
import Verif.World

/-!
# Programs that open, change, save and open again (C73)
-/

namespace Docx

variable [GoEnv] [ImgEnv]

/-- The document can be written as it is: all its strings consist of characters that XML can express,
the ids of its relationships are those that Parse takes, and no template file lies in the media folder. -/
structure Expressible (f : Doc) : Prop where
  nameSpace : xmlText f.relXmlns
  rels : ∀ r ∈ f.rels, GoodId r.id ∧ xmlText r.type ∧ xmlText r.target ∧ xmlText r.targetMode
  body : ∀ s ∈ (mDocument f.items).strings, xmlText s
  templates : ∀ n ∈ f.tmpfslst, isMediaName n = false

/-- One action of a program: a call of the API (the documents fit into memory afterwards), or opening
some file, which makes a new document. -/
inductive Action : World → World → Prop
  | call {w w' : World} (o : Op) (h : step w o = .ok w')
      (fits : ∀ f ∈ w', f.rels.length < 2 ^ 62 ∧ f.media.length < 2 ^ 62) : Action w w'
  | opening {w : World} (a : Archive) (g : Doc) (h : unpack w.length a = (g, none)) : Action w (w ++ [g])

/-- Document `d` is saved without an error, and opened again as `g`. -/
def Reopens (w : World) (d : DocId) (g : Doc) : Prop :=
  ∃ f out, w[d]? = some f ∧ Expressible f ∧ Saves f out none ∧ unpack w.length (reread out) = (g, none)

/-- The document at `d'` in `w'` goes back to the document at `d` in `w`, through calls and any number
of times saving it and opening it again. -/
inductive Later (w : World) (d : DocId) : World → DocId → Prop
  | same : Later w d w d
  | action {w1 w2 : World} {d1 : DocId} : Later w d w1 d1 → Action w1 w2 → Later w d w2 d1
  | reopened {w1 : World} {d1 : DocId} {g : Doc} : Later w d w1 d1 → Reopens w1 d1 g →
      Later w d (w1 ++ [g]) w1.length

/-- Every number in an id of the table is at most the counter. -/
def NumbersBelow (f : Doc) : Prop := ∀ r ∈ f.rels, ∀ n, IdNumber r.id n → n ≤ f.rID.toNat

/-- A call that adds a drawing to the paragraph at `l` of document `d` -/
inductive Draws : Op → DocId → Loc → Prop
  | inlinePicture {d l pic} (h : ImgEnv.decodeSize pic ≠ none) : Draws (.addInlineDrawing d l pic) d l
  | anchorPicture {d l pic} (h : ImgEnv.decodeSize pic ≠ none) : Draws (.addAnchorDrawing d l pic) d l
  | inlineShape {d l w h name bw prst ln} : Draws (.addInlineShape d l w h name bw prst ln) d l
  | anchorShape {d l w h name bw prst ln} : Draws (.addAnchorShape d l w h name bw prst ln) d l

end Docx
