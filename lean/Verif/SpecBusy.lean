import Verif.Busy

/-!
# Building one document from several goroutines (C83)

What calls made one after the other do, and the numbers, relationships, pictures and paragraphs that calls
have made.
-/

namespace Docx

/-- One call alone: the document after it and what it made -/
def BCall.alone (f : Doc) : BCall → Doc × BMade
  | .item x => ({ f with items := f.items ++ [x] }, .item x)
  | .link url => ((f.addLinkRelation url).1, .link url (f.rID + 1))
  | .picture fmt data =>
    let (f1, d) := f.nextDocID
    let (f2, k) := f1.increaseID picName
    let (f3, _) := f2.addImage fmt data
    (f3, .picture fmt data d k (f.imageID + 1) (f.rID + 1))

/-- Calls one after the other -/
def oneByOne (f : Doc) : List BCall → Doc × List BMade
  | [] => (f, [])
  | c :: cs => ((oneByOne (c.alone f).1 cs).1, (c.alone f).2 :: (oneByOne (c.alone f).1 cs).2)

/-- The relationship that a call added -/
def BMade.rel? : BMade → Option Rel
  | .item _ => none
  | .link url n => some (linkRel url n)
  | .picture fmt data _ _ i n => some (imageRel (imageMedia fmt data i) n)

/-- The picture that a call added -/
def BMade.media? : BMade → Option Media
  | .picture fmt data _ _ i _ => some (imageMedia fmt data i)
  | _ => none

/-- The paragraph or table that a call added -/
def BMade.item? : BMade → Option BItem
  | .item x => some x
  | _ => none

/-- The number of a drawing -/
def BMade.drawing? : BMade → Option UInt64
  | .picture _ _ d _ _ _ => some d
  | _ => none

/-- The number in the name of a picture -/
def BMade.number? : BMade → Option UInt64
  | .picture _ _ _ k _ _ => some k
  | _ => none

/-- What the calls that have returned made, in this order -/
def Busy.made (s : Busy) : List BMade := s.done.map fun e => e.2.2

/-- No call is going on. -/
def Busy.quiet (s : Busy) : Prop := ∀ th ∈ s.threads, th.now = none

/-- The calls a goroutine has not finished -/
def BThread.left (th : BThread) : List BCall :=
  match th.now with
  | none => th.todo
  | some (c, _) => c :: th.todo

/-- Every goroutine makes its calls in its own order: those that have returned, then the one it is in,
then those it will still make. -/
def OwnOrder (calls : List (List BCall)) (s : Busy) : Prop :=
  s.threads.length = calls.length ∧ ∀ t th, s.threads[t]? = some th →
    calls[t]? = some ((s.done.filter fun e => e.1 == t).map (fun e => e.2.1) ++ th.left)

/-- All goroutines have made all their calls. -/
def Busy.finished (s : Busy) : Prop := ∀ th ∈ s.threads, th.todo = [] ∧ th.now = none

end Docx
