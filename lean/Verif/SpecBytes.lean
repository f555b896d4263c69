import Verif.Bytes

/-!
# What strings and byte slices say (C106)
-/

namespace Docx

/-- The bytes of string `i` of the program -/
def Memory.stringAt (m : Memory) (i : Nat) : Option (List UInt8) :=
  m.strings[i]?.map fun s => ((m.arrs[s.arr]?.getD []).drop s.off).take s.len

/-- The bytes of slice `i` of the program -/
def Memory.sliceAt (m : Memory) (i : Nat) : Option (List UInt8) :=
  m.slices[i]?.map fun b => ((m.arrs[b.arr]?.getD []).drop b.off).take b.len

/-- The next call does not write into memory that is there: it is no assignment to an element, and it appends to a
slice without room, such as one from `StringToBytes`. -/
def MemOp.Fresh (m : Memory) : MemOp → Prop
  | .set _ _ _ => False
  | .append i _ => ∀ b, m.slices[i]? = some b → b.len = b.cap
  | _ => True

/-- A program all of whose calls are like that -/
inductive NoOverwrite (grow : Nat → Nat) : Memory → List MemOp → Memory → Prop
  | nil (m) : NoOverwrite grow m [] m
  | cons {m m' m'' o os} : o.Fresh m → m.step grow o = some m' → NoOverwrite grow m' os m'' →
      NoOverwrite grow m (o :: os) m''

end Docx
