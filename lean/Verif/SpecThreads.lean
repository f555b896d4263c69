import Verif.SpecSessions

/-!
# Specification: threads that make their own documents (C96)

Every thread opens files, makes new documents, splits them, and works on the documents it has made.  It
knows its documents by their numbers in the order in which it got them.  The addresses of the documents
depend on what the other threads do; so contents are compared up to the addresses.
-/

namespace Docx

/-! ## Contents with other addresses

All pointers to documents are replaced, `ρ` says by which; everything else stays.
-/

mutual
/-- paragraph -/
def rnPara (ρ : DocId → DocId) : Para → Para
  | ⟨props, children, f⟩ => ⟨props, rnPChildren ρ children, f.map ρ⟩
/-- children of a paragraph -/
def rnPChildren (ρ : DocId → DocId) : List PChild → List PChild
  | [] => []
  | c :: cs => rnPChild ρ c :: rnPChildren ρ cs
/-- child of a paragraph -/
def rnPChild (ρ : DocId → DocId) : PChild → PChild
  | .run r => .run (rnRun ρ r)
  | .link h => .link (rnLink ρ h)
  | .rpr p => .rpr p
/-- hyperlink -/
def rnLink (ρ : DocId → DocId) : Hyperlink → Hyperlink
  | ⟨id, run⟩ => ⟨id, rnRun ρ run⟩
/-- run -/
def rnRun (ρ : DocId → DocId) : Run → Run
  | ⟨space, rpr, instr, children⟩ => ⟨space, rpr, instr, rnRChildren ρ children⟩
/-- children of a run -/
def rnRChildren (ρ : DocId → DocId) : List RChild → List RChild
  | [] => []
  | c :: cs => rnRChild ρ c :: rnRChildren ρ cs
/-- child of a run -/
def rnRChild (ρ : DocId → DocId) : RChild → RChild
  | .text t => .text t
  | .tab t => .tab t
  | .br b => .br b
  | .drawing d => .drawing (rnDrawing ρ d)
/-- drawing -/
def rnDrawing (ρ : DocId → DocId) : Drawing → Drawing
  | ⟨inl, anchor⟩ => ⟨rnInlineO ρ inl, rnAnchorO ρ anchor⟩
/-- pointer to an inline drawing -/
def rnInlineO (ρ : DocId → DocId) : Option Inline → Option Inline
  | none => none
  | some i => some (rnInline ρ i)
/-- pointer to an anchored drawing -/
def rnAnchorO (ρ : DocId → DocId) : Option Anchor → Option Anchor
  | none => none
  | some a => some (rnAnchor ρ a)
/-- inline drawing -/
def rnInline (ρ : DocId → DocId) : Inline → Inline
  | ⟨distT, distB, distL, distR, extent, effectExtent, docPr, framePr, graphic, f⟩ =>
    ⟨distT, distB, distL, distR, extent, effectExtent, docPr, framePr, rnGraphicO ρ graphic, f.map ρ⟩
/-- anchored drawing -/
def rnAnchor (ρ : DocId → DocId) : Anchor → Anchor
  | ⟨distT, distB, distL, distR, simplePos, relativeHeight, behindDoc, locked, layoutInCell,
      allowOverlap, simplePosXY, positionH, positionV, extent, effectExtent, wrapNone, wrapSquare,
      docPr, framePr, graphic, f⟩ =>
    ⟨distT, distB, distL, distR, simplePos, relativeHeight, behindDoc, locked, layoutInCell,
      allowOverlap, simplePosXY, positionH, positionV, extent, effectExtent, wrapNone, wrapSquare,
      docPr, framePr, rnGraphicO ρ graphic, f.map ρ⟩
/-- pointer to a graphic -/
def rnGraphicO (ρ : DocId → DocId) : Option Graphic → Option Graphic
  | none => none
  | some g => some (rnGraphic ρ g)
/-- graphic -/
def rnGraphic (ρ : DocId → DocId) : Graphic → Graphic
  | ⟨xmlA, data⟩ => ⟨xmlA, rnGraphicDataO ρ data⟩
/-- pointer to graphic data -/
def rnGraphicDataO (ρ : DocId → DocId) : Option GraphicData → Option GraphicData
  | none => none
  | some g => some (rnGraphicData ρ g)
/-- graphic data -/
def rnGraphicData (ρ : DocId → DocId) : GraphicData → GraphicData
  | ⟨uri, pic, shape, canvas, group⟩ =>
    ⟨uri, pic, rnShapeO ρ shape, rnCanvasO ρ canvas, rnGroupO ρ group⟩
/-- pointer to a shape -/
def rnShapeO (ρ : DocId → DocId) : Option Shape → Option Shape
  | none => none
  | some s => some (rnShape ρ s)
/-- pointer to a canvas -/
def rnCanvasO (ρ : DocId → DocId) : Option Canvas → Option Canvas
  | none => none
  | some c => some (rnCanvas ρ c)
/-- pointer to a group -/
def rnGroupO (ρ : DocId → DocId) : Option Group → Option Group
  | none => none
  | some g => some (rnGroup ρ g)
/-- shape -/
def rnShape (ρ : DocId → DocId) : Shape → Shape
  | ⟨cNvPr, cNvCnPr, cNvSpPr, spPr, textBox, bodyPr⟩ =>
    ⟨cNvPr, cNvCnPr, cNvSpPr, spPr, rnTextBoxO ρ textBox, bodyPr⟩
/-- pointer to a text box -/
def rnTextBoxO (ρ : DocId → DocId) : Option TextBox → Option TextBox
  | none => none
  | some t => some (rnTextBox ρ t)
/-- text box -/
def rnTextBox (ρ : DocId → DocId) : TextBox → TextBox
  | ⟨content⟩ => ⟨rnContentO ρ content⟩
/-- content of a text box -/
def rnContentO (ρ : DocId → DocId) : Option (List Para) → Option (List Para)
  | none => none
  | some ps => some (rnParas ρ ps)
/-- paragraphs -/
def rnParas (ρ : DocId → DocId) : List Para → List Para
  | [] => []
  | p :: ps => rnPara ρ p :: rnParas ρ ps
/-- canvas -/
def rnCanvas (ρ : DocId → DocId) : Canvas → Canvas
  | ⟨background, whole, items⟩ => ⟨background, whole, rnCItems ρ items⟩
/-- items of a canvas -/
def rnCItems (ρ : DocId → DocId) : List CItem → List CItem
  | [] => []
  | c :: cs => rnCItem ρ c :: rnCItems ρ cs
/-- item of a canvas -/
def rnCItem (ρ : DocId → DocId) : CItem → CItem
  | .shape s => .shape (rnShape ρ s)
  | .pic p => .pic p
  | .group g => .group (rnGroup ρ g)
/-- group -/
def rnGroup (ρ : DocId → DocId) : Group → Group
  | ⟨cNvGrpSpPr, grpSpPr, elems⟩ => ⟨cNvGrpSpPr, grpSpPr, rnGItems ρ elems⟩
/-- group shape -/
def rnGroupShape (ρ : DocId → DocId) : GroupShape → GroupShape
  | ⟨cNvPr, cNvGrpSpPr, grpSpPr, elems⟩ =>
    ⟨cNvPr, cNvGrpSpPr, grpSpPr, rnGItems ρ elems⟩
/-- items of a group -/
def rnGItems (ρ : DocId → DocId) : List GItem → List GItem
  | [] => []
  | g :: gs => rnGItem ρ g :: rnGItems ρ gs
/-- item of a group -/
def rnGItem (ρ : DocId → DocId) : GItem → GItem
  | .shape s => .shape (rnShape ρ s)
  | .pic p => .pic p
  | .canvas c => .canvas (rnCanvas ρ c)
  | .groupShape g => .groupShape (rnGroupShape ρ g)
end

/-- table cell -/
def rnCell (ρ : DocId → DocId) (c : Cell) : Cell :=
  { c with paras := c.paras.map (rnPara ρ), file := c.file.map ρ }

/-- table row -/
def rnRow (ρ : DocId → DocId) (r : Row) : Row := { r with cells := r.cells.map (rnCell ρ) }

/-- table -/
def rnTable (ρ : DocId → DocId) (t : Table) : Table := { t with rows := t.rows.map (rnRow ρ) }

/-- item of a body -/
def rnItem (ρ : DocId → DocId) : BItem → BItem
  | .para p => .para (rnPara ρ p)
  | .table t => .table (rnTable ρ t)
  | .sect s => .sect s

/-- body -/
def rnItems (ρ : DocId → DocId) (items : List BItem) : List BItem := items.map (rnItem ρ)

/-- document -/
def rnDoc (ρ : DocId → DocId) (f : Doc) : Doc := { f with items := rnItems ρ f.items }

/-- The two documents differ at most in the addresses of documents: with all addresses replaced by the same
one, they are equal.  Relationships, media, counters and template are equal anyway. -/
def SameApart (f g : Doc) : Prop := rnDoc (fun _ => 0) f = rnDoc (fun _ => 0) g

/-- A change of a body that does not look at addresses. -/
def Uniform (g : List BItem → List BItem) : Prop := ∀ ρ items, g (rnItems ρ items) = rnItems ρ (g items)

/-! ## Threads -/

/-- One action of a thread.  Its documents are given by their numbers in the order in which it got them. -/
inductive Act where
  /-- a call -/
  | call (o : Op)
  /-- SplitByParagraph with SplitDocxByPlainTextRegex -/
  | split (k : Nat) (re : String → Bool)
  /-- LoadBodyItems with some of the items of a document, and its media -/
  | load (k : Nat) (pick : List BItem → List BItem)
  /-- Parse -/
  | opening (a : Archive)

/-- The call with other addresses. -/
def Op.at (ρ : DocId → DocId) : Op → Op
  | .new => .new
  | .load items media => .load (rnItems ρ items) media
  | .addParagraph d => .addParagraph (ρ d)
  | .cellAddParagraph d i r c => .cellAddParagraph (ρ d) i r c
  | .addTable d row col width colors => .addTable (ρ d) row col width colors
  | .addTableTwips d rows cols width colors => .addTableTwips (ρ d) rows cols width colors
  | .withA3Page d => .withA3Page (ρ d)
  | .withA4Page d => .withA4Page (ρ d)
  | .useTemplate d t l tfs => .useTemplate (ρ d) t l tfs
  | .increaseID d name => .increaseID (ρ d) name
  | .addText d l text => .addText (ρ d) l text
  | .addLink d l text link => .addLink (ρ d) l text link
  | .addInlineDrawing d l pic => .addInlineDrawing (ρ d) l pic
  | .addAnchorDrawing d l pic => .addAnchorDrawing (ρ d) l pic
  | .addInlineShape d l w h name bw prst ln => .addInlineShape (ρ d) l w h name bw prst ln
  | .addAnchorShape d l w h name bw prst ln => .addAnchorShape (ρ d) l w h name bw prst ln
  | .append f af => .append (ρ f) (ρ af)
  | .split d sep => .split (ρ d) sep
  | .edit d g => .edit (ρ d) g

/-- The documents a call is about. -/
def Op.about : Op → List DocId
  | .new | .load _ _ => []
  | .addParagraph d | .cellAddParagraph d _ _ _ | .addTable d _ _ _ _ | .addTableTwips d _ _ _ _
  | .withA3Page d | .withA4Page d | .useTemplate d _ _ _ | .increaseID d _ | .addText d _ _
  | .addLink d _ _ _ | .addInlineDrawing d _ _ | .addAnchorDrawing d _ _
  | .addInlineShape d _ _ _ _ _ _ _ | .addAnchorShape d _ _ _ _ _ _ _ | .split d _ | .edit d _ => [d]
  | .append f af => [f, af]

/-- Changes by the client do not look at addresses; splitting and loading have their own actions. -/
def Op.Blind : Op → Prop
  | .load _ _ | .split _ _ => False
  | .edit _ g => Uniform g
  | _ => True

/-- Where the computation stands: all documents, and for every thread the addresses of its documents in
the order in which it got them. -/
structure Threads where
  docs : World := []
  mine : Nat → List DocId := fun _ => []

/-- The document with number `k` of thread `t` -/
def Threads.doc (s : Threads) (t k : Nat) : Option Doc := (s.mine t)[k]?.bind (s.docs[·]?)

/-- All documents that were added belong to thread `t`. -/
def Threads.grow (s : Threads) (t : Nat) (w' : World) : Threads :=
  { docs := w'
    mine := fun u => if u = t then s.mine t ++ List.range' s.docs.length (w'.length - s.docs.length) else s.mine u }

variable [GoEnv] [ImgEnv] [HashEnv]

/-- What an action of thread `t` does to the documents, if it returns normally. -/
inductive Acts (s : Threads) (t : Nat) : Act → World → Prop
  | call {o : Op} {w' : World} (blind : o.Blind) (own : ∀ k ∈ o.about, k < (s.mine t).length)
      (h : step s.docs (o.at fun k => (s.mine t).getD k 0) = .ok w') : Acts s t (.call o) w'
  | split {k d : Nat} {re : String → Bool} {w' : World} (own : (s.mine t)[k]? = some d)
      (h : step s.docs (.split d (splitByText re)) = .ok w') : Acts s t (.split k re) w'
  | load {k : Nat} {f : Doc} {pick : List BItem → List BItem} {w' : World} (uniform : Uniform pick)
      (own : s.doc t k = some f) (h : step s.docs (.load (pick f.items) f.media) = .ok w') :
      Acts s t (.load k pick) w'
  | opening {a : Archive} {g : Doc} (h : unpack s.docs.length a = (g, none)) :
      Acts s t (.opening a) (s.docs ++ [g])

/-- The actions are done in this order, each by the thread that is named. -/
inductive Interleaved : Threads → List (Nat × Act) → Threads → Prop
  | nil {s : Threads} : Interleaved s [] s
  | cons {s s' : Threads} {t : Nat} {a : Act} {w' : World} {as : List (Nat × Act)} :
      Acts s t a w' → Interleaved (s.grow t w') as s' → Interleaved s ((t, a) :: as) s'

/-- The actions of one thread, in their order -/
def onlyOf (t : Nat) (as : List (Nat × Act)) : List (Nat × Act) := as.filter (·.1 == t)

end Docx
