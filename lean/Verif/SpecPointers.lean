import Verif.Pointers
import Verif.Doc

/-!
# Pictures without pointers (C84)

The same operations on a document that owns its list of pictures, as in `Verif.Doc`.
-/

namespace Docx

/-- `Media(name).Data = data` on a document: only the bytes of this picture change. -/
def Doc.changeMedia (f : Doc) (name : String) (data : Bytes) : Res Doc :=
  match f.mediaIdx name with
  | none => .panic
  | some i =>
    match f.media[i]? with
    | none => .panic
    | some m => .ok { f with media := f.media.set i { m with data := data } }

/-- One operation -/
def Doc.mediaStep (f : Doc) : MOp → Res Doc
  | .add m => .ok (f.addMedia m)
  | .change name data => f.changeMedia name data

/-- Several operations -/
def Doc.mediaSteps (f : Doc) : List MOp → Res Doc
  | [] => .ok f
  | o :: os =>
    match f.mediaStep o with
    | .ok f' => f'.mediaSteps os
    | .err e => .err e
    | .panic => .panic

/-- The document with the pictures of this memory -/
def MDoc.abs (d : MDoc) (f : Doc) : Doc := { f with media := d.media, mediaIdx := d.idx }

/-- The header lies within its array. -/
structure MDoc.Ok (d : MDoc) : Prop where
  arr : d.slc.arr < d.arrs.length
  len : d.slc.len ≤ d.slc.cap
  cap : ∀ a, d.arrs[d.slc.arr]? = some a → d.slc.off + d.slc.cap ≤ a.length

/-- The number of pictures added -/
def addsOf : List MOp → Nat
  | [] => 0
  | .add _ :: os => addsOf os + 1
  | .change _ _ :: os => addsOf os

/-- The room left in the array -/
def MDoc.room (d : MDoc) : Nat := d.slc.cap - d.slc.len

end Docx
