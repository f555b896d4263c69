import Verif.Api
import Verif.World

/-!
# Slices

The lists of a document are Go slices: a document has the header (array, offset, length, capacity), and
`append` writes into the array while there is room.  `LoadBodyItems` keeps the slices it is given
(docx.go:116 `Body{Items: items}`, docx.go:138 `media: media`), and a client can hand over a slice that is
also used elsewhere.  The model is about one of the two lists, with elements of any type (body items are
pointers; media are values).
-/

namespace Docx

/-- The header of a slice -/
structure Slc where
  arr : Nat
  off : Nat
  len : Nat
  cap : Nat
deriving DecidableEq, Repr

/-- The arrays; each has a fixed length -/
abbrev Arrays (α : Type) := List (List α)

/-- The elements of a slice -/
def Arrays.get {α : Type} (h : Arrays α) (s : Slc) : List α := ((h[s.arr]?.getD []).drop s.off).take s.len

/-- A new array with these elements and room for more -/
def Arrays.alloc {α : Type} [Inhabited α] (h : Arrays α) (xs : List α) (cap : Nat) : Arrays α × Slc :=
  (h ++ [xs ++ List.replicate (cap - xs.length) default], ⟨h.length, 0, xs.length, max cap xs.length⟩)

/-- Go's `append(s, x)`: in place while the length is below the capacity, else in a new array; `grow` is the
capacity the runtime chooses for a length (`growslice`, at least one more than the length) -/
def Arrays.append {α : Type} [Inhabited α] (grow : Nat → Nat) (h : Arrays α) (s : Slc) (x : α) : Arrays α × Slc :=
  if s.len < s.cap then (h.modify s.arr (·.set (s.off + s.len) x), { s with len := s.len + 1 })
  else h.alloc (h.get s ++ [x]) (grow s.len)

/-- `s[a:b:c]`; out of range is a panic -/
def Slc.sub (s : Slc) (a b c : Nat) : Option Slc :=
  if a ≤ b ∧ b ≤ c ∧ c ≤ s.cap then some ⟨s.arr, s.off + a, b - a, c - a⟩ else none

/-- The arrays, and the slice of each document -/
structure SWorld (α : Type) where
  arrs : Arrays α := []
  docs : List Slc := []

/-- What happens to the slices -/
inductive SOp (α : Type) where
  /-- A document with a slice of its own: `New`, `Parse`, the parts of `SplitByParagraph`, and
  `LoadBodyItems` with a slice that was not used before -/
  | fresh (xs : List α) (cap : Nat)
  /-- `LoadBodyItems(s[a:b:c], ...)` where `s` is the slice of document `d` (docx.go:104-149); `s[a:b]` is
  `s[a:b:cap(s)]`, and `s` itself is `s[0:len(s):cap(s)]` -/
  | load (d a b c : Nat)
  /-- A call that appends to the list of a document: apipara.go:29, apitable.go:82, 156, theme.go:48, 60,
  structdoc.go:363, 366, 368 for items; media.go:49 for media -/
  | push (d : Nat) (x : α)
  /-- structdoc.go:114-127 `KeepElements`: the elements that stay are put into a new slice -/
  | keep (d : Nat) (p : α → Bool)

/-- One step; `none` is a panic of the client -/
def SWorld.step {α : Type} [Inhabited α] (grow : Nat → Nat) (w : SWorld α) : SOp α → Option (SWorld α)
  | .fresh xs cap => some ⟨(w.arrs.alloc xs cap).1, w.docs ++ [(w.arrs.alloc xs cap).2]⟩
  | .load d a b c => do
    let s ← w.docs[d]?
    let s' ← s.sub a b c
    some ⟨w.arrs, w.docs ++ [s']⟩
  | .push d x => do
    let s ← w.docs[d]?
    some ⟨(w.arrs.append grow s x).1, w.docs.set d (w.arrs.append grow s x).2⟩
  | .keep d p => do
    let s ← w.docs[d]?
    let n := w.arrs.alloc ((w.arrs.get s).filter p) s.len
    some ⟨n.1, w.docs.set d n.2⟩

/-- Several steps -/
def SWorld.steps {α : Type} [Inhabited α] (grow : Nat → Nat) (w : SWorld α) : List (SOp α) → Option (SWorld α)
  | [] => some w
  | o :: os => (w.step grow o).bind fun w' => w'.steps grow os

end Docx
