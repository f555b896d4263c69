import Verif.Doc

/-!
# Several goroutines

Models the shared-memory steps of `IncreaseID` (id.go) and of `addLinkRelation` (link.go) when many
goroutines call them on one document.  A schedule is any list of goroutine numbers; each entry lets
that goroutine do its next step.  Simplifications: memory is sequentially consistent, and a slice
header is read and written in one step (in Go such a race may even tear the header).
-/

namespace Docx

/-! ## IncreaseID -/

/-- Where a goroutine is inside `IncreaseID` (id.go:24-31). -/
inductive IncPc where
  /-- outside, or before line 25 -/
  | idle
  /-- after line 25: the mutex is held -/
  | locked (name : String)
  /-- after lines 26, 27: `n` is the value to store -/
  | loaded (name : String) (n : UInt64)
  /-- after line 28 -/
  | stored (name : String) (n : UInt64)

/-- A goroutine: the names it will still call `IncreaseID` with, and where it is. -/
structure IncThread where
  todo : List String
  pc : IncPc := .idle

/-- The shared state.  `done` lists the calls that have returned, in the order of their unlocks:
goroutine, name, result. -/
structure IncState where
  doc : Doc
  threads : List IncThread
  owner : Option Nat := none
  done : List (Nat × String × UInt64) := []

/-- id.go:24-31: one step of goroutine `t`; `none` when it is blocked or has nothing to do -/
def incStep (s : IncState) (t : Nat) : Option IncState :=
  match s.threads[t]? with
  | none => none
  | some th =>
    match th.pc with
    | .idle =>
      match th.todo with
      | [] => none
      | name :: rest =>
        -- id.go:25 `f.slowIDsMu.Lock()`
        match s.owner with
        | some _ => none
        | none => some { s with owner := some t, threads := s.threads.set t ⟨rest, .locked name⟩ }
    -- id.go:26, 27 `n = f.slowIDs[name]; n++`
    | .locked name =>
      some { s with threads := s.threads.set t { th with pc := .loaded name (s.doc.slowIDs name + 1) } }
    -- id.go:28 `f.slowIDs[name] = n`
    | .loaded name n =>
      some { s with doc := { s.doc with slowIDs := upd s.doc.slowIDs name n }
                    threads := s.threads.set t { th with pc := .stored name n } }
    -- id.go:29, 30 `f.slowIDsMu.Unlock(); return`
    | .stored name n =>
      some { s with owner := none, threads := s.threads.set t { th with pc := .idle }
                    done := s.done ++ [(t, name, n)] }

/-- Run a schedule; a blocked goroutine waits. -/
def incRun (s : IncState) : List Nat → IncState
  | [] => s
  | t :: ts => incRun ((incStep s t).getD s) ts

/-- The start: every goroutine has its list of calls before it. -/
def incStart (f : Doc) (calls : List (List String)) : IncState :=
  { doc := f, threads := calls.map fun c => { todo := c } }

/-! ## AddLink -/

/-- Where a goroutine is inside `addLinkRelation` (link.go:39-50). -/
inductive LinkPc where
  | idle
  /-- after line 41: the id is made -/
  | numbered (rel : Rel)
  /-- inside line 47: the old slice has been read -/
  | read (rel : Rel) (old : List Rel)

structure LinkThread where
  todo : List String
  pc : LinkPc := .idle

/-- `done` lists the calls that have returned: goroutine, link, returned id. -/
structure LinkState where
  doc : Doc
  threads : List LinkThread
  done : List (Nat × String × String) := []

/-- link.go:39-50: one step of goroutine `t` -/
def linkStep (s : LinkState) (t : Nat) : Option LinkState :=
  match s.threads[t]? with
  | none => none
  | some th =>
    match th.pc with
    | .idle =>
      match th.todo with
      | [] => none
      | link :: rest =>
        -- link.go:40-45 `atomic.AddUintptr(&f.rID, 1)` and the new relationship
        some { s with doc := { s.doc with rID := s.doc.rID + 1 }
                      threads := s.threads.set t
                        ⟨rest, .numbered ⟨ridOf (s.doc.rID + 1), relHyperlink, link, relTargetMode⟩⟩ }
    -- link.go:47, right-hand side
    | .numbered rel => some { s with threads := s.threads.set t { th with pc := .read rel s.doc.rels } }
    -- link.go:47, assignment; link.go:49 return
    | .read rel old =>
      some { s with doc := { s.doc with rels := old ++ [rel] }
                    threads := s.threads.set t { th with pc := .idle }
                    done := s.done ++ [(t, rel.target, rel.id)] }

def linkRun (s : LinkState) : List Nat → LinkState
  | [] => s
  | t :: ts => linkRun ((linkStep s t).getD s) ts

def linkStart (f : Doc) (calls : List (List String)) : LinkState :=
  { doc := f, threads := calls.map fun c => { todo := c } }

end Docx
