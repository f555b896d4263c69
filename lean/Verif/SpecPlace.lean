import Verif.SpecBuilt

/-!
# Specification: what is shown at a place
-/

namespace Docx

/-- What is shown at a place, in the body or in a cell -/
def bitsAt (bs : List Block) : Loc → Option (List Bit)
  | .body i => match bs[i]? with
    | some (.para x) => some x
    | _ => none
  | .cell i r c j => match bs[i]? with
    | some (.table t) => do
      let row ← t[r]?
      let cell ← row[c]?
      cell[j]?
    | _ => none

end Docx
