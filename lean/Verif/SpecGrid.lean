import Verif.SpecMakes

/-!
# The tables of a document, as numbers of cells (C107)
-/

namespace Docx

/-- The number of cells in each row of a table -/
def cellCounts : BItem → Option (List Nat)
  | .table t => some (t.rows.map fun r => r.cells.length)
  | _ => none

/-- The same for every table of the document -/
def Doc.tables (f : Doc) : List (List Nat) := f.items.filterMap cellCounts

/-- What a call does to them: `AddTable` and `AddTableTwips` make a table, `KeepElements` may remove all; nothing else
changes them. -/
def Call.tables : Call → List (List Nat) → List (List Nat)
  | .table rows cols _ _, ts => ts ++ [List.replicate rows.toInt.toNat cols.toInt.toNat]
  | .tableTwips heights widths _ _, ts => ts ++ [List.replicate heights.length widths.length]
  | .keep names, ts => if "*docx.Table" ∈ names then ts else []
  | _, ts => ts

/-- The tables that the calls make -/
def tablesOf (cs : List Call) : List (List Nat) := cs.foldl (fun ts c => c.tables ts) []

/-- All rows of a table have the same number of cells. -/
def Rectangular (t : List Nat) : Prop := ∃ n, ∀ k ∈ t, k = n

end Docx
