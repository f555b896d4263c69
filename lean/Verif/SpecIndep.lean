import Verif.SpecLegal

/-!
# Specification: work on separate documents (C69)

The documents are divided among threads: `own d` is the thread that document `d` belongs to.
-/

namespace Docx

/-- The documents that the media of a drawing are looked up in. -/
def Drawing.files (d : Drawing) : List (Option DocId) :=
  d.inl.toList.map (·.file) ++ d.anchor.toList.map (·.file)

/-- All documents that a body item refers to: those of its paragraphs and cells, and those of its
drawings. -/
def BItem.refers (x : BItem) : List (Option DocId) := x.owners ++ x.draws.flatMap Drawing.files

/-- The items refer only to documents of the set. -/
def ItemsFor (S : DocId → Prop) (items : List BItem) : Prop :=
  ∀ x ∈ items, ∀ i, some i ∈ x.refers → S i

/-- The documents of the set refer only to documents of the set. -/
def World.SelfContained (S : DocId → Prop) (w : World) : Prop :=
  ∀ d f, S d → w[d]? = some f → ItemsFor S f.items

/-- The call works on documents of the set only and makes no new document; contents that the client
brings in refer to the set only. -/
def Op.Within (S : DocId → Prop) : Op → Prop
  | .new | .load _ _ | .split _ _ => False
  | .addParagraph d | .cellAddParagraph d _ _ _ | .addTable d _ _ _ _ | .addTableTwips d _ _ _ _
  | .withA3Page d | .withA4Page d | .useTemplate d _ _ _ | .increaseID d _ | .addText d _ _
  | .addLink d _ _ _ | .addInlineDrawing d _ _ | .addAnchorDrawing d _ _
  | .addInlineShape d _ _ _ _ _ _ _ | .addAnchorShape d _ _ _ _ _ _ _ => S d
  | .append f af => S f ∧ S af
  | .edit d g => S d ∧ ∀ items, ItemsFor S items → ItemsFor S (g items)

/-- A schedule: which thread makes which call, one after the other. -/
abbrev Schedule := List (Nat × Op)

/-- The calls of one thread, in their order. -/
def Schedule.program (s : Schedule) (t : Nat) : List Op := (s.filter (·.1 == t)).map (·.2)

/-- All calls in the order in which they are made. -/
def Schedule.calls (s : Schedule) : List Op := s.map (·.2)

/-- Every thread works on its own documents only. -/
def Schedule.Separate (own : DocId → Nat) (s : Schedule) : Prop :=
  ∀ c ∈ s, c.2.Within (own · = c.1)

end Docx
