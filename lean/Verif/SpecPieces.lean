import Verif.SpecWords

/-!
# Cutting a list at separators (C91)
-/

namespace Docx

/-- Cut a list before every element that is a separator; the first element never makes a cut. -/
def pieces {α : Type} (sep : α → Bool) : List α → List (List α)
  | [] => []
  | x :: xs =>
    match pieces sep xs with
    | [] => [[x]]
    | [] :: cs => [x] :: cs
    | (y :: c) :: cs => if sep y then [x] :: (y :: c) :: cs else (x :: y :: c) :: cs

/-- A paragraph whose text is accepted -/
def BItem.accepted (re : String → Bool) (w : World) : BItem → Bool
  | .para p => re (p.words w)
  | _ => false

/-- The texts of the body of a document, element by element -/
def World.texts (w : World) (d : DocId) : Option (List (List (List (List String)))) :=
  w[d]?.map fun f => f.items.map (itemWords w)

/-- No drawing in the paragraph, and all links lead somewhere -/
def Para.Plain (w : World) (p : Para) : Prop :=
  p.Linked w ∧ (∀ r, .run r ∈ p.children → ∀ d, .drawing d ∉ r.children) ∧
    ∀ h, .link h ∈ p.children → ∀ d, .drawing d ∉ h.run.children

end Docx
