import Verif.Types
import Verif.Doc

/-!
# A document that another one continues (C89)
-/

namespace Docx

/-- The second element of a body is the first one, or the same paragraph with more children. -/
def ItemUpTo (x y : BItem) : Prop :=
  x = y ∨ ∃ p more, x = .para p ∧ y = .para { p with children := p.children ++ more }

/-- All that is in the first document is also in the second one, at the same place. -/
structure UpTo (f g : Doc) : Prop where
  rels : f.rels <+: g.rels
  media : f.media <+: g.media
  items : ∀ (i : Nat) x, f.items[i]? = some x → ∃ y, g.items[i]? = some y ∧ ItemUpTo x y

end Docx
