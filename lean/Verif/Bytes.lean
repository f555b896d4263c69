import Verif.Slices

/-!
# Strings and byte slices that share memory

`BytesToString` and `StringToBytes` copy the header of a slice or string, not the bytes.  The model has the arrays of
bytes of `Slices`, and headers of slices and strings in them.  Not modelled: strings of the program text, which lie in
memory that cannot be written (a write through `StringToBytes` ends the program there).
-/

namespace Docx

/-- The header of a string: where its bytes are, and how many -/
structure StrHeader where
  arr : Nat
  off : Nat
  len : Nat
deriving DecidableEq, Repr

/-- helper.go:30-32 `BytesToString`: the first two words of the header of a slice are read as the header of a string -/
def bytesToString (b : Slc) : StrHeader := ⟨b.arr, b.off, b.len⟩

/-- helper.go:35-42 `StringToBytes`, with the header of slice.go:31-35: the capacity is the length -/
def stringToBytes (s : StrHeader) : Slc := ⟨s.arr, s.off, s.len, s.len⟩

/-- The memory of a program, and the slices and strings it has -/
structure Memory where
  arrs : Arrays UInt8 := []
  slices : List Slc := []
  strings : List StrHeader := []

/-- What a program does with them -/
inductive MemOp where
  /-- a new slice -/
  | bytes (xs : List UInt8) (cap : Nat)
  /-- a new string with these bytes -/
  | text (xs : List UInt8)
  /-- `BytesToString` of a slice -/
  | toString (i : Nat)
  /-- `StringToBytes` of a string -/
  | toBytes (i : Nat)
  /-- `b[k] = x` -/
  | set (i k : Nat) (x : UInt8)
  /-- `append(b, x)`: one more slice -/
  | append (i : Nat) (x : UInt8)
  /-- `b[a:b:c]`: one more slice -/
  | sub (i a b c : Nat)

/-- One step; `none` is a panic of the program.  Each function of helper.go is called as it is above. -/
def Memory.step (grow : Nat → Nat) (m : Memory) : MemOp → Option Memory
  | .bytes xs cap => some { m with arrs := (m.arrs.alloc xs cap).1, slices := m.slices ++ [(m.arrs.alloc xs cap).2] }
  | .text xs => some { m with arrs := m.arrs ++ [xs], strings := m.strings ++ [⟨m.arrs.length, 0, xs.length⟩] }
  | .toString i => do
    let b ← m.slices[i]?
    some { m with strings := m.strings ++ [bytesToString b] }
  | .toBytes i => do
    let s ← m.strings[i]?
    some { m with slices := m.slices ++ [stringToBytes s] }
  | .set i k x => do
    let b ← m.slices[i]?
    if k < b.len then some { m with arrs := m.arrs.modify b.arr (·.set (b.off + k) x) } else none
  | .append i x => do
    let b ← m.slices[i]?
    some { m with arrs := (m.arrs.append grow b x).1, slices := m.slices ++ [(m.arrs.append grow b x).2] }
  | .sub i a b c => do
    let s ← m.slices[i]?
    let s' ← s.sub a b c
    some { m with slices := m.slices ++ [s'] }

/-- Several steps -/
def Memory.steps (grow : Nat → Nat) (m : Memory) : List MemOp → Option Memory
  | [] => some m
  | o :: os => (m.step grow o).bind fun m' => m'.steps grow os

end Docx
