import Verif.Doc

/-!
# Several goroutines that build one document

Models the shared-memory steps of `AddParagraph`/`AddTable`, `AddLink` and of the picture calls when
several goroutines work on paragraphs of one document.  A schedule is any list of goroutine numbers; each
entry lets that goroutine do its next step.  Simplifications: memory is sequentially consistent; a slice
header is read and written in one step; `IncreaseID` is one step, which `C08` allows; writes to the map
`mediaNameIdx` do not abort the program (Go's run-time may do so when it notices two at once); each
goroutine works on paragraphs of its own, so that appending to their `Children` is not shared.
-/

namespace Docx

/-- A call made by a goroutine -/
inductive BCall where
  /-- `AddParagraph` or `AddTable`; `x` is the new paragraph or table -/
  | item (x : BItem)
  /-- `AddLink` -/
  | link (url : String)
  /-- `AddInlineDrawing` or `AddAnchorDrawing` with a picture of this format -/
  | picture (format : String) (data : Bytes)

/-- A call that has returned, with the numbers it took: `n` of the relationship, `d` of the drawing, `k` in
the name of the drawing, `i` in the name of the picture -/
inductive BMade where
  | item (x : BItem)
  | link (url : String) (n : UInt64)
  | picture (fmt : String) (data : Bytes) (d k i n : UInt64)

/-- The relationship made by link.go:40-45 -/
def linkRel (url : String) (n : UInt64) : Rel := ⟨ridOf n, relHyperlink, url, relTargetMode⟩

/-- The media made by image.go:30 -/
def imageMedia (fmt : String) (data : Bytes) (i : UInt64) : Media := ⟨imageName i fmt, data⟩

/-- The relationship made by link.go:56-60 -/
def imageRel (m : Media) (n : UInt64) : Rel := ⟨ridOf n, relImage, "media/" ++ m.name, ""⟩

/-- Where a goroutine is inside a call -/
inductive BPc where
  /-- apipara.go:29, apitable.go:82, 156: before the append to `Items` -/
  | item (x : BItem)
  /-- the old slice has been read -/
  | itemRead (x : BItem) (old : List BItem)
  /-- link.go:40, before the number is taken -/
  | link (url : String)
  /-- link.go:47 -/
  | linkNo (url : String) (n : UInt64)
  | linkRead (url : String) (n : UInt64) (old : List Rel)
  /-- apidrawing.go:38 -/
  | pic (fmt : String) (data : Bytes)
  /-- apidrawing.go:39 -/
  | picDoc (fmt : String) (data : Bytes) (d : UInt64)
  /-- image.go:30 -/
  | picNo (fmt : String) (data : Bytes) (d k : UInt64)
  /-- media.go:48, before `len(f.media)` is read -/
  | picImg (fmt : String) (data : Bytes) (d k i : UInt64)
  /-- media.go:48, before the map is written -/
  | picLen (fmt : String) (data : Bytes) (d k i : UInt64) (len : Nat)
  /-- media.go:49 -/
  | picIdx (fmt : String) (data : Bytes) (d k i : UInt64)
  | picMedia (fmt : String) (data : Bytes) (d k i : UInt64) (old : List Media)
  /-- link.go:57 -/
  | picPut (fmt : String) (data : Bytes) (d k i : UInt64)
  /-- link.go:62 -/
  | picRid (fmt : String) (data : Bytes) (d k i n : UInt64)
  | picRels (fmt : String) (data : Bytes) (d k i n : UInt64) (old : List Rel)

/-- The start of a call -/
def BCall.enter : BCall → BPc
  | .item x => .item x
  | .link url => .link url
  | .picture fmt data => .pic fmt data

/-- The next step of a call: the document after it, and where the call is then or what it has made -/
def BPc.next (f : Doc) : BPc → Doc × (BPc ⊕ BMade)
  -- apipara.go:29 `f.Document.Body.Items = append(f.Document.Body.Items, p)`, right-hand side, assignment
  | .item x => (f, .inl (.itemRead x f.items))
  | .itemRead x old => ({ f with items := old ++ [x] }, .inr (.item x))
  -- link.go:41 `atomic.AddUintptr(&f.rID, 1)`
  | .link url => ({ f with rID := f.rID + 1 }, .inl (.linkNo url (f.rID + 1)))
  -- link.go:47, right-hand side, assignment
  | .linkNo url n => (f, .inl (.linkRead url n f.rels))
  | .linkRead url n old => ({ f with rels := old ++ [linkRel url n] }, .inr (.link url n))
  -- apidrawing.go:38 `atomic.AddUintptr(&p.file.docID, 1)`
  | .pic fmt data => ({ f with docID := f.docID + 1 }, .inl (.picDoc fmt data (f.docID + 1)))
  -- apidrawing.go:39 `p.file.IncreaseID("图片")`
  | .picDoc fmt data d =>
    ((f.increaseID picName).1, .inl (.picNo fmt data d (f.increaseID picName).2))
  -- image.go:30 `atomic.AddUintptr(&f.imageID, 1)`
  | .picNo fmt data d k =>
    ({ f with imageID := f.imageID + 1 },
     .inl (.picImg fmt data d k (f.imageID + 1)))
  -- media.go:48 `f.mediaNameIdx[m.Name] = len(f.media)`, right-hand side, assignment
  | .picImg fmt data d k i => (f, .inl (.picLen fmt data d k i f.media.length))
  | .picLen fmt data d k i len => ({ f with mediaIdx := upd f.mediaIdx (imageName i fmt) (some len) }, .inl (.picIdx fmt data d k i))
  -- media.go:49 `f.media = append(f.media, m)`, right-hand side, assignment
  | .picIdx fmt data d k i => (f, .inl (.picMedia fmt data d k i f.media))
  | .picMedia fmt data d k i old => ({ f with media := old ++ [imageMedia fmt data i] }, .inl (.picPut fmt data d k i))
  -- link.go:57 `atomic.AddUintptr(&f.rID, 1)`
  | .picPut fmt data d k i => ({ f with rID := f.rID + 1 }, .inl (.picRid fmt data d k i (f.rID + 1)))
  -- link.go:62, right-hand side, assignment
  | .picRid fmt data d k i n => (f, .inl (.picRels fmt data d k i n f.rels))
  | .picRels fmt data d k i n old =>
    ({ f with rels := old ++ [imageRel (imageMedia fmt data i) n] }, .inr (.picture fmt data d k i n))

/-- A goroutine: the calls it will still make, and the call it is in -/
structure BThread where
  todo : List BCall
  now : Option (BCall × BPc) := none

/-- The shared state.  `done` lists the calls that have returned: goroutine, call, what it made. -/
structure Busy where
  doc : Doc
  threads : List BThread
  done : List (Nat × BCall × BMade) := []

/-- The state after a step of goroutine `t` inside the call `c` -/
def Busy.after (s : Busy) (t : Nat) (th : BThread) (c : BCall) : Doc × (BPc ⊕ BMade) → Busy
  | (f, .inl pc) => { s with doc := f, threads := s.threads.set t { th with now := some (c, pc) } }
  | (f, .inr m) => { doc := f, threads := s.threads.set t { th with now := none }, done := s.done ++ [(t, c, m)] }

/-- One step of goroutine `t`; `none` when it has nothing to do -/
def busyStep (s : Busy) (t : Nat) : Option Busy :=
  match s.threads[t]? with
  | none => none
  | some th =>
    match th.now with
    | none =>
      match th.todo with
      | [] => none
      | c :: rest => some { s with threads := s.threads.set t ⟨rest, some (c, c.enter)⟩ }
    | some (c, pc) => some (s.after t th c (pc.next s.doc))

/-- Run a schedule -/
def busyRun (s : Busy) : List Nat → Busy
  | [] => s
  | t :: ts => busyRun ((busyStep s t).getD s) ts

/-- The start: every goroutine has its list of calls before it. -/
def busyStart (f : Doc) (calls : List (List BCall)) : Busy :=
  { doc := f, threads := calls.map fun c => { todo := c } }

/-! ## The same goroutines, each call guarded by one mutex of the caller -/

/-- `owner` is the goroutine that holds the mutex. -/
structure Guarded where
  s : Busy
  owner : Option Nat := none

/-- A goroutine takes the mutex when it starts a call and gives it back when the call returns. -/
def guardedStep (g : Guarded) (t : Nat) : Option Guarded :=
  match g.s.threads[t]? with
  | none => none
  | some th =>
    match th.now with
    | none =>
      match g.owner with
      | some _ => none
      | none => (busyStep g.s t).map fun s => ⟨s, some t⟩
    | some (c, pc) =>
      match pc.next g.s.doc with
      | (f, .inl pc') => some ⟨g.s.after t th c (f, .inl pc'), g.owner⟩
      | (f, .inr m) => some ⟨g.s.after t th c (f, .inr m), none⟩

/-- Run a schedule; a goroutine that waits for the mutex does nothing. -/
def guardedRun (g : Guarded) : List Nat → Guarded
  | [] => g
  | t :: ts => guardedRun ((guardedStep g t).getD g) ts

end Docx
