import Verif.Spec
import Verif.SpecXml

/-!
# Cleaning a body (C93)
-/

namespace Docx

/-- A call that removes things from a body -/
inductive CleanCall where
  /-- structdoc.go:114-127 `(*Body).KeepElements` -/
  | keep (names : List String)
  /-- structdoc.go:131-154 `(*Body).DropDrawingOf` -/
  | drop (name : String)

/-- What the call does to the items of the body -/
def CleanCall.run (items : List BItem) : CleanCall → List BItem
  | .keep names => keepBody names items
  | .drop name => dropDrawingOf name items

/-- Several calls, one after the other -/
def cleaned (items : List BItem) (calls : List CleanCall) : List BItem := calls.foldl CleanCall.run items

/-- Every `KeepElements` among the calls names the type of the item. -/
def keptByAll (calls : List CleanCall) (x : BItem) : Bool :=
  calls.all fun c => match c with
    | .keep names => names.contains x.typeName
    | .drop _ => true

end Docx
