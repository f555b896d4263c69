import Verif.Slices

/-!
# Specification: every document has a list of its own
-/

namespace Docx

/-- What a user expects: each document has a list -/
def listStep {α : Type} (ls : List (List α)) : SOp α → List (List α)
  | .fresh xs _ => ls ++ [xs]
  | .load d a b _ => ls ++ [(((ls[d]?).getD []).drop a).take (b - a)]
  | .push d x => ls.modify d (· ++ [x])
  | .keep d p => ls.modify d (List.filter p)

/-- The lists of the documents -/
def SWorld.lists {α : Type} (w : SWorld α) : List (List α) := w.docs.map w.arrs.get

/-- The slice that is handed over has no room (`slices.Clip`, `s[a:b:b]`), and ends within the list of the
document it is taken from -/
def SOp.Clipped {α : Type} (w : SWorld α) : SOp α → Prop
  | .load d _ b c => c = b ∧ ∀ s, w.docs[d]? = some s → b ≤ s.len
  | _ => True

/-- The states of histories in which all slices handed over are clipped -/
inductive SReach {α : Type} [Inhabited α] (grow : Nat → Nat) : SWorld α → Prop where
  | start : SReach grow {}
  | step {w w' : SWorld α} {o : SOp α} (h : SReach grow w) (hc : o.Clipped w) (hs : w.step grow o = some w') : SReach grow w'

/-- The states of all histories -/
inductive SAll {α : Type} [Inhabited α] (grow : Nat → Nat) : SWorld α → Prop where
  | start : SAll grow {}
  | step {w w' : SWorld α} {o : SOp α} (h : SAll grow w) (hs : w.step grow o = some w') : SAll grow w'

end Docx
