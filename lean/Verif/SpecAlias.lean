import Verif.Alias

/-!
# Specification: which documents may share objects

Written for `Props/Alias.lean`.
-/

namespace Docx

/-- Families of documents: after a step on `n` documents that were in the families `fam`.  A document
that is made or parsed is a family of its own; what is copied joins families: the parts of a document are
in its family, and appending one document to another joins their families. -/
def famAfter (n : Nat) (fam : DocId → Nat) : POp → DocId → Nat
  | .call .new => fun e => if e = n then n else fam e
  | .call (.load _ _) => fun e => if e = n then n else fam e
  | .call (.split d _) => fun e => if n ≤ e then fam d else fam e
  | .call (.append f af) => fun e => if fam e = fam f then fam af else fam e
  | _ => fam

/-- A history and the families of its documents -/
inductive PHist [ImgEnv] : PWorld → (DocId → Nat) → Prop where
  | start : PHist {} id
  | step {s s' : PWorld} {fam : DocId → Nat} {o : POp} (h : PHist s fam) (fine : o.Fine) (hs : s.pstep o = .ok s') :
      PHist s' (famAfter s.items.length fam o)

/-- The value of the run that is child `j` of the paragraph at `l`, or of the hyperlink that is -/
def runOf (its : List BItem) (l : Loc) (j : Nat) : Option Run :=
  (getPara its l).bind fun p =>
    match p.children[j]? with
    | some (.run r) => some r
    | some (.link h) => some h.run
    | _ => none

/-- The location of the copy of the paragraph at `l` when `n` items come before the copies -/
def Loc.after (n : Nat) : Loc → Loc
  | .body i => .body (n + i)
  | .cell i r c j => .cell (n + i) r c j

/-- The location in item `k` instead -/
def Loc.inItem (k : Nat) : Loc → Loc
  | .body _ => .body k
  | .cell _ r c j => .cell k r c j

/-- The document a step acts on: the one that calls add to, the one that is split, the one whose objects
are written to; none for `New` and for parsing -/
def POp.doc : POp → Option DocId
  | .call .new => none
  | .call (.load _ _) => none
  | .call (.addParagraph d) => some d
  | .call (.cellAddParagraph d _ _ _) => some d
  | .call (.addTable d _ _ _ _) => some d
  | .call (.addTableTwips d _ _ _ _) => some d
  | .call (.withA3Page d) => some d
  | .call (.withA4Page d) => some d
  | .call (.useTemplate d _ _ _) => some d
  | .call (.increaseID d _) => some d
  | .call (.addText d _ _) => some d
  | .call (.addLink d _ _ _) => some d
  | .call (.addInlineDrawing d _ _) => some d
  | .call (.addAnchorDrawing d _ _) => some d
  | .call (.addInlineShape d _ _ _ _ _ _ _) => some d
  | .call (.addAnchorShape d _ _ _ _ _ _ _) => some d
  | .call (.append f _) => some f
  | .call (.split d _) => some d
  | .call (.edit d _) => some d
  | .run d _ _ _ => some d
  | .para d _ _ => some d
  | .table d _ _ => some d
  | .row d _ _ _ => some d
  | .cell d _ _ _ _ => some d
  | .leaf d _ _ _ _ => some d
  | .size d _ _ _ _ _ => some d
  | .arrange d _ => some d

/-- The setters: steps that write to objects and keep everything of a document but its items -/
def POp.Sets : POp → Prop
  | .call _ => False
  | _ => True

/-- A history of given steps -/
def prun [ImgEnv] (s : PWorld) : List POp → Res PWorld
  | [] => .ok s
  | o :: os =>
    match s.pstep o with
    | .ok s' => prun s' os
    | .err e => .err e
    | .panic => .panic

end Docx
