import Verif.Spec

/-!
# Splitting a document and joining the parts (C90)
-/

namespace Docx

/-- A client appends documents one after the other to the document `to` (structdoc.go:358-372 each time). -/
def World.appendEach (w : World) (to : DocId) : List DocId → Res World
  | [] => .ok w
  | d :: ds =>
    match w.appendFile to d with
    | .ok w' => w'.appendEach to ds
    | .err e => .err e
    | .panic => .panic

/-- The bodies of documents, one after the other -/
def World.bodies (w : World) (ds : List DocId) : List BItem :=
  ds.flatMap fun d => (w[d]?.map Doc.items).getD []

/-- The picture of a drawing has these bytes. -/
def Drawing.Shows (w : World) (d : Drawing) (data : Bytes) : Prop :=
  (∃ i g, d.inl = some i ∧ i.graphic = some g ∧ ShowsPicture w i.file g data) ∨
    ∃ a g, d.inl = none ∧ d.anchor = some a ∧ a.graphic = some g ∧ ShowsPicture w a.file g data

/-- The drawing belongs to the document `to`. -/
def Drawing.In (to : DocId) (d : Drawing) : Prop :=
  (∀ i, d.inl = some i → i.file = some to) ∧ ∀ a, d.anchor = some a → a.file = some to

/-- Nothing is left out, links lead to the same targets, pictures have the same bytes and belong to the
new document: `w` with the original, `w'` with the copy in the document `to`. -/
def sameRules (w w' : World) (to : DocId) : CopyRules where
  draw := fun d d' => ∀ data, d.Shows w data → d'.Shows w' data ∧ d'.In to
  link := fun file id id' => ∃ tgt, w.resolve file id = some tgt ∧ w'.resolve (some to) id' = some tgt
  drop := fun _ _ => False

end Docx
