import Verif.Text

/-!
# Copying between documents

Models `copymedia`, `SplitByParagraph` and `AppendFile` (structdoc.go, structdrawing.go).
Source and target are documents of the same world, so that a document can be appended to itself.
-/

namespace Docx

/-- `tgt[strings.LastIndex(tgt, ".")+1:]` (structdrawing.go:293) on characters -/
def afterLastDot : List Char → List Char
  | [] => []
  | c :: cs => if cs.contains '.' then afterLastDot cs else if c = '.' then cs else c :: cs

/-- structdrawing.go:293 -/
def formatOf (tgt : String) : String := String.ofList (afterLastDot tgt.toList)

/-- Result of copying one picture: `none` is the nil result. -/
structure PicCopy where
  docPr : IdName
  pic : Picture

/-- structdrawing.go:288-330 and 1378-1420: copy the picture of a graphic to document `to`;
`file` is the `file` of the inline or anchor. -/
def copyPic (w : World) (to : DocId) (file : Option DocId) (pic : Picture) :
    Res (World × Option PicCopy) :=
  match pic.blipFill with
  | none => .ok (w, none)
  | some bf =>
    match file.bind (w[·]?) with
    | none => .panic
    | some src =>
      match src.referTarget bf.blip.embed with
      | none => .ok (w, none)
      | some tgt =>
        match w[to]? with
        | none => .panic
        | some t =>
          let (t1, idn) := t.nextDocID
          let (t2, id) := t1.increaseID picName
          let w2 := w.set to t2
          match file.bind (w2[·]?) with
          | none => .panic
          | some src2 =>
            match mediaOfTarget src2 tgt with
            | .panic => .panic
            | .err e => .err e
            | .ok none => .ok (w2, none)
            | .ok (some m) =>
              let (t3, rid) := t2.addImage (formatOf tgt) m.data
              let w3 := w2.set to t3
              match pic.nvPicPr with
              | none => .panic
              | some nv =>
                let nm := "图片 " ++ itoa id.toInt64
                .ok (w3, some
                  { docPr := { id := idn.toInt64, name := nm }
                    pic := { pic with
                      nvPicPr := some { cNvPr := { id := id.toInt64, name := nm }, locks := nv.locks }
                      blipFill := some { blip := { embed := rid, cstate := bf.blip.cstate }
                                         fillRect := bf.fillRect } } })

/-- structdrawing.go:286-342 `(*WPInline).copymedia`; `none` is the nil result -/
def Inline.copymedia (w : World) (to : DocId) (r : Inline) : Res (World × Option Inline) :=
  match r.graphic with
  | none => .panic
  | some g =>
    match g.data with
    | none => .panic
    | some gd =>
      match gd.pic with
      | some pic => do
        let (w', c) ← copyPic w to r.file pic
        match c with
        | none => return (w', none)
        | some c =>
          return (w', some { r with docPr := some c.docPr, file := some to,
                                    graphic := some { g with data := some { gd with pic := some c.pic } } })
      | none =>
        match gd.shape with
        | some _ => .ok (w, some r)
        | none =>
          match gd.canvas with
          | some _ => .ok (w, some r)
          | none => .ok (w, none)

/-- structdrawing.go:1376-1432 `(*WPAnchor).copymedia`; `none` is the nil result -/
def Anchor.copymedia (w : World) (to : DocId) (r : Anchor) : Res (World × Option Anchor) :=
  match r.graphic with
  | none => .panic
  | some g =>
    match g.data with
    | none => .panic
    | some gd =>
      match gd.pic with
      | some pic => do
        let (w', c) ← copyPic w to r.file pic
        match c with
        | none => return (w', none)
        | some c =>
          return (w', some { r with docPr := some c.docPr, file := some to,
                                    graphic := some { g with data := some { gd with pic := some c.pic } } })
      | none =>
        match gd.shape with
        | some _ => .ok (w, some r)
        | none =>
          match gd.canvas with
          | some _ => .ok (w, some r)
          | none => .ok (w, none)

/-- structdrawing.go:93-107 `(*Drawing).copymedia` -/
def Drawing.copymedia (w : World) (to : DocId) (d : Drawing) : Res (World × Drawing) :=
  match d.inl with
  | some i => do
    let (w', i') ← i.copymedia w to
    return (w', { inl := i' })
  | none =>
    match d.anchor with
    | some a => do
      let (w', a') ← a.copymedia w to
      return (w', { anchor := a' })
    | none => .ok (w, {})

/-- structdoc.go:298-304: the children of a run -/
def copyRChildren (w : World) (to : DocId) : List RChild → Res (World × List RChild)
  | [] => .ok (w, [])
  | .drawing d :: cs => do
    let (w1, d') ← d.copymedia w to
    let (w2, cs') ← copyRChildren w1 to cs
    return (w2, .drawing d' :: cs')
  | c :: cs => do
    let (w2, cs') ← copyRChildren w to cs
    return (w2, c :: cs')

/-- structdoc.go:294-306 `(*Run).copymedia` -/
def Run.copymedia (w : World) (to : DocId) (r : Run) : Res (World × Run) := do
  let (w', cs) ← copyRChildren w to r.children
  return (w', { r with children := cs })

/-- structdoc.go:312-330: the children of a paragraph; `file` is `p.file` -/
def copyPChildren (w : World) (to : DocId) (file : Option DocId) :
    List PChild → Res (World × List PChild)
  | [] => .ok (w, [])
  | .run r :: cs => do
    let (w1, r') ← r.copymedia w to
    let (w2, cs') ← copyPChildren w1 to file cs
    return (w2, .run r' :: cs')
  | .link h :: cs =>
    match file.bind (w[·]?) with
    | none => .panic
    | some src =>
      match src.referTarget h.id with
      | none => copyPChildren w to file cs
      | some tgt =>
        match w[to]? with
        | none => .panic
        | some t => do
          let (t', rid) := t.addLinkRelation tgt
          let (w1, r') ← h.run.copymedia (w.set to t') to
          let (w2, cs') ← copyPChildren w1 to file cs
          return (w2, .link { id := rid, run := r' } :: cs')
  | .rpr x :: cs => do
    let (w2, cs') ← copyPChildren w to file cs
    return (w2, .rpr x :: cs')

/-- structdoc.go:308-332 `(*Paragraph).copymedia` -/
def Para.copymedia (w : World) (to : DocId) (p : Para) : Res (World × Para) := do
  let (w', cs) ← copyPChildren w to p.file p.children
  return (w', { p with children := cs, file := some to })

/-- structdoc.go:346-349: the paragraphs of a cell -/
def copyParas (w : World) (to : DocId) : List Para → Res (World × List Para)
  | [] => .ok (w, [])
  | p :: ps => do
    let (w1, p') ← p.copymedia w to
    let (w2, ps') ← copyParas w1 to ps
    return (w2, p' :: ps')

/-- structdoc.go:342-351: the cells of a row -/
def copyCells (w : World) (to : DocId) : List Cell → Res (World × List Cell)
  | [] => .ok (w, [])
  | c :: cs => do
    let (w1, ps) ← copyParas w to c.paras
    let (w2, cs') ← copyCells w1 to cs
    return (w2, { c with paras := ps, file := some to } :: cs')

/-- structdoc.go:338-353: the rows of a table -/
def copyRows (w : World) (to : DocId) : List Row → Res (World × List Row)
  | [] => .ok (w, [])
  | r :: rs => do
    let (w1, cs) ← copyCells w to r.cells
    let (w2, rs') ← copyRows w1 to rs
    return (w2, { r with cells := cs } :: rs')

/-- structdoc.go:334-355 `(*Table).copymedia` -/
def Table.copymedia (w : World) (to : DocId) (t : Table) : Res (World × Table) := do
  let (w', rs) ← copyRows w to t.rows
  return (w', { t with rows := rs })

/-- structdoc.go:272-281, 360-369: copy of one body item -/
def BItem.copymedia (w : World) (to : DocId) : BItem → Res (World × BItem)
  | .para p => do
    let (w', p') ← p.copymedia w to
    return (w', .para p')
  | .table t => do
    let (w', t') ← t.copymedia w to
    return (w', .table t')
  | .sect s => .ok (w, .sect s)

/-- `to.Document.Body.Items = append(to.Document.Body.Items, x)` -/
def World.pushItem (w : World) (to : DocId) (x : BItem) : World :=
  match w[to]? with
  | none => w
  | some t => w.set to { t with items := t.items ++ [x] }

/-- structdoc.go:358-371: the loop of `AppendFile` over the items of `af`, taken before the loop -/
def appendItems (w : World) (to : DocId) : List BItem → Res World
  | [] => .ok w
  | x :: xs => do
    let (w1, x') ← x.copymedia w to
    appendItems (w1.pushItem to x') to xs

/-- structdoc.go:358-371 `f.AppendFile(af)` for the documents at addresses `f` and `af` -/
def World.appendFile (w : World) (f af : DocId) : Res World :=
  match w[af]? with
  | none => .panic
  | some a => appendItems w f a.items

/-- structdoc.go:222-266: the new document of a split, sharing the template of `f` -/
def splitDoc (f : Doc) : Doc :=
  { rels := baseRels, rID := 3, template := f.template, tmplfs := f.tmplfs, tmpfslst := f.tmpfslst }

/-- structdoc.go:208-212 `SplitDocxByPlainTextRegex`: match the text of the paragraph; the regular
expression is any predicate on strings -/
def splitByText [HashEnv] (re : String → Bool) : World → Para → Res Bool := fun w p => do
  let s ← p.str w
  return re s

/-- structdoc.go:268-283: fill the document at address `nd` from the remaining items; the result
tells the items left when a separator starts the next document (`none` when all were taken).
`cnt` is the number of items of the new document. -/
def splitFill (sep : World → Para → Res Bool) (nd : DocId) (w : World) (cnt : Nat) :
    List BItem → Res (World × Option (List BItem))
  | [] => .ok (w, none)
  | .para p :: is => do
    let b ← sep w p
    if b = true ∧ cnt > 0 then .ok (w, some (.para p :: is))
    else
      let (w1, p') ← p.copymedia w nd
      splitFill sep nd (w1.pushItem nd (.para p')) (cnt + 1) is
  | .table t :: is => do
    let (w1, t') ← t.copymedia w nd
    splitFill sep nd (w1.pushItem nd (.table t')) (cnt + 1) is
  | .sect s :: is => splitFill sep nd (w.pushItem nd (.sect s)) (cnt + 1) is

/-- structdoc.go:218-292: the outer loop, with fuel; a new document is allocated at the end of the
world.  `docs` are the addresses of the documents produced so far. -/
def splitLoop (sep : World → Para → Res Bool) (f : Doc) :
    Nat → World → List DocId → List BItem → Res (World × List DocId)
  | 0, _, _, _ => .err .fuel
  | _ + 1, w, docs, [] => .ok (w, docs)
  | n + 1, w, docs, i :: is => do
    let nd := w.length
    let (w', left) ← splitFill sep nd (w ++ [splitDoc f]) 0 (i :: is)
    match left with
    | some rest => splitLoop sep f n w' (docs ++ [nd]) rest
    | none => return (w', docs ++ [nd])

/-- structdoc.go:218-292 `SplitByParagraph` of the document at address `d`.  The separator rule is
any function of the paragraph and of the documents (it usually reads `p.String()`), and may panic. -/
def World.splitByParagraph (w : World) (d : DocId) (sep : World → Para → Res Bool) :
    Res (World × List DocId) :=
  match w[d]? with
  | none => .panic
  | some f => splitLoop sep f (f.items.length + 1) w [] f.items

end Docx
