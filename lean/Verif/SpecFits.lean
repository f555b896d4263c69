import Verif.SpecMakes

/-!
# Which calls return (C102)

Whether a program of building calls returns is read off the calls and what they should have built so far.
-/

namespace Docx

/-- There is a paragraph at the place -/
def hasPlace (l : Loc) (bs : List Block) : Bool :=
  match l with
  | .body i =>
    match bs[i]? with
    | some (.para _) => true
    | _ => false
  | .cell i r c j =>
    match bs[i]? with
    | some (.table t) => decide (j < (((t[r]?.getD [])[c]?).getD []).length)
    | _ => false

/-- The call returns: the paragraph it is made on exists, the number of rows (and of columns, if there is a row) is
not negative, and a picture that can be decoded is not 0 wide.  The other calls are modelled as changes of the items
that do nothing at a place that does not exist (a Go program has no paragraph, row or cell to call them on there), so
they always return. -/
def Call.returns [ImgEnv] : Call → List Block → Bool
  | .table rows cols _ _, _ => decide (0 ≤ rows ∧ (rows = 0 ∨ 0 ≤ cols))
  | .text l _, bs => hasPlace l bs
  | .link l _ _, bs => hasPlace l bs
  | .shape _ l _ _ _ _ _ _, bs => hasPlace l bs
  | .picture _ l pic, bs => hasPlace l bs &&
      match ImgEnv.decodeSize pic with
      | some (width, _, _) => decide (width ≠ 0)
      | none => true
  | _, _ => true

/-- All calls of a program return, from a document that shows `bs` on -/
def allReturn [ImgEnv] : List Call → List Block → Bool
  | [], _ => true
  | c :: cs, bs => c.returns bs && allReturn cs (c.does bs)

end Docx
