import Verif.Slices

/-!
# Pointers that `Media` returns

`Media` returns the address of an element of the array behind `f.media` (media.go:43), and `append` in
`addMedia` moves the list to another array when there is no room (media.go:49).  The memory is that of
`Verif.Slices`.
-/

namespace Docx

/-- The pictures of a document in memory: the arrays, the header of `f.media`, and the map `f.mediaNameIdx` -/
structure MDoc where
  arrs : Arrays Media
  slc : Slc
  idx : String → Option Nat

/-- A `*Media`: the address of an element of an array -/
structure MPtr where
  arr : Nat
  pos : Nat
deriving DecidableEq, Repr

/-- The list that `f.media` stands for: what `WriteTo` saves -/
def MDoc.media (d : MDoc) : List Media := d.arrs.get d.slc

/-- media.go:38-44 `Media`: the address of the picture; `ok none` is nil, a bad index panics -/
def MDoc.get (d : MDoc) (name : String) : Res (Option MPtr) :=
  match d.idx name with
  | none => .ok none
  | some i => if i < d.slc.len then .ok (some ⟨d.slc.arr, d.slc.off + i⟩) else .panic

/-- `*m` -/
def MDoc.load (d : MDoc) (p : MPtr) : Option Media := d.arrs[p.arr]?.bind (·[p.pos]?)

/-- `m.Data = data` -/
def MDoc.store (d : MDoc) (p : MPtr) (data : Bytes) : MDoc :=
  { d with arrs := d.arrs.modify p.arr fun a => a.modify p.pos fun m => { m with data := data } }

/-- media.go:47-50 `addMedia` -/
def MDoc.add (grow : Nat → Nat) (d : MDoc) (m : Media) : MDoc :=
  { arrs := (d.arrs.append grow d.slc m).1, slc := (d.arrs.append grow d.slc m).2,
    idx := upd d.idx m.name (some d.slc.len) }

/-- What happens to the pictures of a document -/
inductive MOp where
  /-- a picture is added (media.go:47-50) -/
  | add (m : Media)
  /-- `f.Media(name).Data = data` -/
  | change (name : String) (data : Bytes)

/-- One step -/
def MDoc.step (grow : Nat → Nat) (d : MDoc) : MOp → Res MDoc
  | .add m => .ok (d.add grow m)
  | .change name data =>
    match d.get name with
    | .ok (some p) => .ok (d.store p data)
    | _ => .panic

/-- Several steps -/
def MDoc.steps (grow : Nat → Nat) (d : MDoc) : List MOp → Res MDoc
  | [] => .ok d
  | o :: os =>
    match d.step grow o with
    | .ok d' => d'.steps grow os
    | .err e => .err e
    | .panic => .panic

end Docx
