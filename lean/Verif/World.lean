import Verif.Split

/-!
# Histories of API calls

A world is the list of all documents of a process.  A client program is a list of operations, each
the call of one exported function, or an arbitrary change of exported data (`edit`).
-/

namespace Docx

/-- Where a paragraph sits in a document: a body item, or a paragraph of a table cell. -/
inductive Loc where
  | body (i : Nat)
  | cell (i r c j : Nat)
deriving DecidableEq, Repr

/-- Change the paragraph at a location with a function; `none` when there is no paragraph. -/
def modPara (items : List BItem) (l : Loc) (g : Para → Para) : List BItem :=
  match l with
  | .body i => items.modify i fun
    | .para p => .para (g p)
    | x => x
  | .cell i r c j => items.modify i fun
    | .table t => .table { t with rows := t.rows.modify r fun row =>
        { row with cells := row.cells.modify c fun cell =>
          { cell with paras := cell.paras.modify j g } } }
    | x => x

/-- The paragraph at a location. -/
def getPara (items : List BItem) (l : Loc) : Option Para :=
  match l with
  | .body i => match items[i]? with
    | some (.para p) => some p
    | _ => none
  | .cell i r c j => match items[i]? with
    | some (.table t) => do
      let row ← t.rows[r]?
      let cell ← row.cells[c]?
      cell.paras[j]?
    | _ => none

/-- Call a method of the paragraph at `l` in document `d` that also works on the document the
paragraph points to (`p.file`): a missing paragraph or a nil `file` panics. -/
def World.onPara (w : World) (d : DocId) (l : Loc) (act : Doc → Para → Res (Doc × Para)) : Res World :=
  match w[d]? with
  | none => .panic
  | some doc =>
    match getPara doc.items l with
    | none => .panic
    | some p =>
      match p.file with
      | none => .panic
      | some fid =>
        match w[fid]? with
        | none => .panic
        | some f => do
          let (f', p') ← act f p
          let w1 := w.set fid f'
          match w1[d]? with
          | none => .panic
          | some doc1 => .ok (w1.set d { doc1 with items := modPara doc1.items l (fun _ => p') })

/-- Call a method of the document at address `d`. -/
def World.onDoc (w : World) (d : DocId) (act : Doc → Res Doc) : Res World :=
  match w[d]? with
  | none => .panic
  | some f => do
    let f' ← act f
    .ok (w.set d f')

/-- One call of the exported API, or one change of exported data by the client. -/
inductive Op where
  /-- docx.go:60 `New` -/
  | new
  /-- docx.go:104 `LoadBodyItems` -/
  | load (items : List BItem) (media : List Media)
  /-- apipara.go:23 `AddParagraph` -/
  | addParagraph (d : DocId)
  /-- apipara.go:34 `(*WTableCell).AddParagraph` of the cell at item `i`, row `r`, column `c` -/
  | cellAddParagraph (d : DocId) (i r c : Nat)
  /-- apitable.go:30 `AddTable` -/
  | addTable (d : DocId) (row col width : Int64) (colors : Option BorderColors)
  /-- apitable.go:89 `AddTableTwips` -/
  | addTableTwips (d : DocId) (rows cols : List Int64) (width : Int64) (colors : Option BorderColors)
  /-- theme.go:41 `WithA3Page` -/
  | withA3Page (d : DocId)
  /-- theme.go:53 `WithA4Page` -/
  | withA4Page (d : DocId)
  /-- theme.go:28 `UseTemplate` -/
  | useTemplate (d : DocId) (template : String) (lst : List String) (tfs : Option FS)
  /-- id.go:24 `IncreaseID` -/
  | increaseID (d : DocId) (name : String)
  /-- apitext.go:41 `AddText` -/
  | addText (d : DocId) (l : Loc) (text : String)
  /-- apilink.go:29 `AddLink` -/
  | addLink (d : DocId) (l : Loc) (text link : String)
  /-- apidrawing.go:33 `AddInlineDrawing` -/
  | addInlineDrawing (d : DocId) (l : Loc) (pic : Bytes)
  /-- apidrawing.go:136 `AddAnchorDrawing` -/
  | addAnchorDrawing (d : DocId) (l : Loc) (pic : Bytes)
  /-- apishape.go:29 `AddInlineShape` -/
  | addInlineShape (d : DocId) (l : Loc) (w h : Int64) (name bwMode prst : String) (ln : Option Line)
  /-- apishape.go:86 `AddAnchorShape` -/
  | addAnchorShape (d : DocId) (l : Loc) (w h : Int64) (name bwMode prst : String) (ln : Option Line)
  /-- structdoc.go:358 `f.AppendFile(af)` -/
  | append (f af : DocId)
  /-- structdoc.go:218 `SplitByParagraph` -/
  | split (d : DocId) (sep : World → Para → Res Bool)
  /-- any change of the exported contents of the body: setters, `MergeText`, `KeepElements`,
  `Drop*`, `Size`, assignments to exported fields -/
  | edit (d : DocId) (g : List BItem → List BItem)

/-- Effect of one operation.  A call that returns an error goes on with the state it leaves. -/
def step [ImgEnv] (w : World) : Op → Res World
  | .new => .ok (w ++ [Doc.new])
  | .load items media => .ok (w ++ [Doc.loadBodyItems items media])
  | .addParagraph d => w.onDoc d fun f => .ok (f.addParagraph d)
  | .cellAddParagraph d i r c => w.onDoc d fun f =>
      .ok { f with items := f.items.modify i fun
        | .table t => .table { t with rows := t.rows.modify r fun row =>
            { row with cells := row.cells.modify c Cell.addParagraph } }
        | x => x }
  | .addTable d row col width colors => w.onDoc d fun f =>
      match f.addTable d row col width colors with
      | .ok (f', _, _) => .ok f'
      | .err e => .err e
      | .panic => .panic
  | .addTableTwips d rows cols width colors => w.onDoc d fun f =>
      .ok (f.addTableTwips d rows cols width colors).1
  | .withA3Page d => w.onDoc d fun f => .ok f.withA3Page
  | .withA4Page d => w.onDoc d fun f => .ok f.withA4Page
  | .useTemplate d t l tfs => w.onDoc d fun f => .ok (f.useTemplate t l tfs)
  | .increaseID d name => w.onDoc d fun f => .ok (f.increaseID name).1
  | .addText d l text => w.onPara d l fun f p => .ok (f, (p.addText text).1)
  | .addLink d l text link => w.onPara d l fun f p =>
      .ok ((p.addLink f text link).1, (p.addLink f text link).2.1)
  | .addInlineDrawing d l pic => w.onPara d l fun f p =>
      match p.addInlineDrawing f pic with
      | (f', p', .ok _) => .ok (f', p')
      | (f', p', .err _) => .ok (f', p')
      | (_, _, .panic) => .panic
  | .addAnchorDrawing d l pic => w.onPara d l fun f p =>
      match p.addAnchorDrawing f pic with
      | (f', p', .ok _) => .ok (f', p')
      | (f', p', .err _) => .ok (f', p')
      | (_, _, .panic) => .panic
  | .addInlineShape d l sw sh name bw prst ln => w.onPara d l fun f p =>
      .ok ((p.addInlineShape f sw sh name bw prst ln).1, (p.addInlineShape f sw sh name bw prst ln).2.1)
  | .addAnchorShape d l sw sh name bw prst ln => w.onPara d l fun f p =>
      .ok ((p.addAnchorShape f sw sh name bw prst ln).1, (p.addAnchorShape f sw sh name bw prst ln).2.1)
  | .append f af =>
    match w[f]? with
    | none => .panic
    | some _ => w.appendFile f af
  | .split d sep =>
    match w.splitByParagraph d sep with
    | .ok (w', _) => .ok w'
    | .err e => .err e
    | .panic => .panic
  | .edit d g => w.onDoc d fun f => .ok { f with items := g f.items }

/-- A history: operations one after the other; a panic ends it. -/
def run [ImgEnv] (w : World) : List Op → Res World
  | [] => .ok w
  | o :: os =>
    match step w o with
    | .ok w' => run w' os
    | .err e => .err e
    | .panic => .panic

end Docx
