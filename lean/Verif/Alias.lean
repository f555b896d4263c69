import Verif.World

/-!
# Objects that copies share

In the value model a document owns everything in it.  The Go code holds pointers, and `copymedia`
copies some of the objects and keeps pointers to others: the copy of a run points to the *same* run
properties and to the same texts.  This file models the copying functions with an explicit memory: the
objects that calls of the library or clients change in place are in the memory, and runs, paragraphs,
rows, cells and tables hold their addresses.  (Runs, paragraphs, hyperlinks, rows, cells and tables
are themselves copied by `copymedia`, so no two documents share them; they are kept by value.)

`load` gives the value of an object; `Lemmas/Alias.lean` proves that copying with pointers and copying
values agree.
-/

namespace Docx

/-- A `WPInline` object (structdrawing.go:117-133): `Extent` and the shape properties of its picture are
separate objects; the fields of `val` for them are not used.  The other objects an inline drawing points
to are part of the value: no function of the library changes them in place. -/
structure PInline where
  val : Inline
  ext : Option Nat
  sp : Option Nat

/-- A `WPAnchor` object (structdrawing.go:1174-1199), likewise -/
structure PAnchor where
  val : Anchor
  ext : Option Nat
  sp : Option Nat

/-- Texts, tabs and breaks (structtext.go:63-67, 92-95, 111-117) -/
inductive Leaf where
  | text (t : Text)
  | tab (t : Tab)
  | br (b : Br)

/-- As child of a run -/
def Leaf.child : Leaf → RChild
  | .text t => .text t
  | .tab t => .tab t
  | .br b => .br b

/-- An object in memory: the types whose objects copies share and clients or setters change -/
inductive Obj where
  /-- structrun.go:202-220 `RunProperties` -/
  | rpr (x : RPr)
  /-- structpara.go:31-48 `ParagraphProperties` -/
  | ppr (x : PPr)
  | leaf (x : Leaf)
  /-- structdrawing.go:347-351 `WPExtent` -/
  | ext (x : Ext)
  /-- structdrawing.go:913-917 `PICSpPr` -/
  | sp (x : PicSpPr)
  | inl (x : PInline)
  | anc (x : PAnchor)
  /-- structtable.go:108-116 `WTableProperties` -/
  | tbl (x : TblPr)
  /-- structtable.go:466-470 `WTableRowProperties` -/
  | tr (x : TrPr)
  /-- structtable.go:584-592 `WTableCellProperties` -/
  | tc (x : TcPr)
  /-- structsect.go:28-34 `SectPr` -/
  | sect (x : SectPr)

/-- The memory: objects by address -/
abbrev Mem := List Obj

/-- Child of a run: a pointer to a leaf, or a `Drawing` with its two pointers (structdrawing.go:46-52) -/
inductive PRChild where
  | leaf (k : Nat)
  | drawing (inl anchor : Option Nat)

/-- structrun.go:32-45 `Run` -/
structure PRun where
  space : String := ""
  rpr : Option Nat := none
  instr : String := ""
  children : List PRChild := []

/-- Child of a paragraph; a hyperlink (structlink.go:30-34) is its id and its run -/
inductive PPChild where
  | run (r : PRun)
  | link (id : String) (r : PRun)
  | rpr (k : Nat)

/-- structpara.go:171-183 `Paragraph` -/
structure PPara where
  props : Option Nat := none
  children : List PPChild := []
  file : Option DocId := none

/-- structtable.go:535-541 `WTableCell` -/
structure PCell where
  props : Option Nat := none
  paras : List PPara := []
  file : Option DocId := none

/-- structtable.go:402-411 `WTableRow` -/
structure PRow where
  props : Option Nat := none
  cells : List PCell := []

/-- structtable.go:30-37 `Table` (no function changes the grid in place) -/
structure PTable where
  props : Option Nat := none
  grid : Option (List (Option Int64)) := none
  rows : List PRow := []

/-- Item of a body -/
inductive PItem where
  | para (p : PPara)
  | table (t : PTable)
  | sect (k : Nat)

/-! ## Values

The functions that read an object by its address are total; addresses in use always lead to an object
of the right type (`Lemmas/Alias.lean`, `Typed`). -/

/-- The run properties at an address -/
def Mem.rpr (m : Mem) (k : Nat) : RPr := match m[k]? with | some (.rpr x) => x | _ => {}
/-- The paragraph properties at an address -/
def Mem.ppr (m : Mem) (k : Nat) : PPr := match m[k]? with | some (.ppr x) => x | _ => {}
/-- The text, tab or break at an address -/
def Mem.leaf (m : Mem) (k : Nat) : Leaf := match m[k]? with | some (.leaf x) => x | _ => .tab {}
/-- The extent at an address -/
def Mem.ext (m : Mem) (k : Nat) : Ext := match m[k]? with | some (.ext x) => x | _ => {}
/-- The shape properties of a picture at an address -/
def Mem.sp (m : Mem) (k : Nat) : PicSpPr := match m[k]? with | some (.sp x) => x | _ => default
/-- The inline drawing at an address -/
def Mem.inl (m : Mem) (k : Nat) : PInline := match m[k]? with | some (.inl x) => x | _ => ⟨{}, none, none⟩
/-- The anchored drawing at an address -/
def Mem.anc (m : Mem) (k : Nat) : PAnchor := match m[k]? with | some (.anc x) => x | _ => ⟨{}, none, none⟩
/-- The table properties at an address -/
def Mem.tbl (m : Mem) (k : Nat) : TblPr := match m[k]? with | some (.tbl x) => x | _ => {}
/-- The row properties at an address -/
def Mem.tr (m : Mem) (k : Nat) : TrPr := match m[k]? with | some (.tr x) => x | _ => {}
/-- The cell properties at an address -/
def Mem.tc (m : Mem) (k : Nat) : TcPr := match m[k]? with | some (.tc x) => x | _ => {}
/-- The section properties at an address -/
def Mem.sect (m : Mem) (k : Nat) : SectPr := match m[k]? with | some (.sect x) => x | _ => {}

/-- The graphic with these shape properties of its picture -/
def withSp (g : Option Graphic) (s : Option PicSpPr) : Option Graphic :=
  g.map fun g => { g with data := g.data.map fun gd => { gd with
    pic := gd.pic.map fun p => { p with spPr := s } } }

/-- The value of an inline drawing object -/
def PInline.load (m : Mem) (i : PInline) : Inline :=
  { i.val with extent := i.ext.map m.ext, graphic := withSp i.val.graphic (i.sp.map m.sp) }

/-- The value of an anchored drawing object -/
def PAnchor.load (m : Mem) (i : PAnchor) : Anchor :=
  { i.val with extent := i.ext.map m.ext, graphic := withSp i.val.graphic (i.sp.map m.sp) }

/-- The value of a `Drawing` -/
def loadDrawing (m : Mem) (inl anchor : Option Nat) : Drawing :=
  { inl := inl.map fun k => (m.inl k).load m, anchor := anchor.map fun k => (m.anc k).load m }

/-- The value of a child of a run -/
def PRChild.load (m : Mem) : PRChild → RChild
  | .leaf k => (m.leaf k).child
  | .drawing i a => .drawing (loadDrawing m i a)

/-- The value of a run -/
def PRun.load (m : Mem) (r : PRun) : Run :=
  { space := r.space, rpr := r.rpr.map m.rpr, instr := r.instr, children := r.children.map (·.load m) }

/-- The value of a child of a paragraph -/
def PPChild.load (m : Mem) : PPChild → PChild
  | .run r => .run (r.load m)
  | .link id r => .link { id := id, run := r.load m }
  | .rpr k => .rpr (m.rpr k)

/-- The value of a paragraph -/
def PPara.load (m : Mem) (p : PPara) : Para :=
  { props := p.props.map m.ppr, children := p.children.map (·.load m), file := p.file }

/-- The value of a cell -/
def PCell.load (m : Mem) (c : PCell) : Cell :=
  { props := c.props.map m.tc, paras := c.paras.map (·.load m), file := c.file }

/-- The value of a row -/
def PRow.load (m : Mem) (r : PRow) : Row :=
  { props := r.props.map m.tr, cells := r.cells.map (·.load m) }

/-- The value of a table -/
def PTable.load (m : Mem) (t : PTable) : Table :=
  { props := t.props.map m.tbl, grid := t.grid, rows := t.rows.map (·.load m) }

/-- The value of an item -/
def PItem.load (m : Mem) : PItem → BItem
  | .para p => .para (p.load m)
  | .table t => .table (t.load m)
  | .sect k => .sect (m.sect k)

/-! ## New objects

What the library reads from a file or builds for a call consists of new objects: each `&T{...}` in the
code is evaluated once for each element (structpara.go:185-330, structrun.go:49-181 for parsing;
apipara.go, apitext.go, apilink.go, apitable.go, apidrawing.go, apishape.go, theme.go for calls). -/

/-- A new object -/
def new (m : Mem) (o : Obj) : Mem × Nat := (m ++ [o], m.length)

/-- A new object for each value that is there -/
def newOpt {α : Type} (mk : α → Obj) (m : Mem) : Option α → Mem × Option Nat
  | none => (m, none)
  | some x => ((new m (mk x)).1, some (new m (mk x)).2)

/-- New objects if there is a value, and the pointer to them -/
def newPtr {α : Type} (f : Mem → α → Mem × Nat) (m : Mem) : Option α → Mem × Option Nat
  | none => (m, none)
  | some x => ((f m x).1, some (f m x).2)

/-- New objects for the elements of a list, one after the other -/
def newList {α β : Type} (f : Mem → α → Mem × β) (m : Mem) : List α → Mem × List β
  | [] => (m, [])
  | x :: xs => ((newList f (f m x).1 xs).1, (f m x).2 :: (newList f (f m x).1 xs).2)

/-- New objects for an inline drawing: its extent, the shape properties of its picture, itself -/
def newInl (m : Mem) (i : Inline) : Mem × Nat :=
  let e := newOpt .ext m i.extent
  let s := newOpt .sp e.1 (i.graphic.bind (·.data) |>.bind (·.pic) |>.bind (·.spPr))
  new s.1 (.inl { val := i, ext := e.2, sp := s.2 })

/-- New objects for an anchored drawing -/
def newAnc (m : Mem) (i : Anchor) : Mem × Nat :=
  let e := newOpt .ext m i.extent
  let s := newOpt .sp e.1 (i.graphic.bind (·.data) |>.bind (·.pic) |>.bind (·.spPr))
  new s.1 (.anc { val := i, ext := e.2, sp := s.2 })

/-- New objects for the child of a run -/
def newRChild (m : Mem) : RChild → Mem × PRChild
  | .text t => ((new m (.leaf (.text t))).1, .leaf (new m (.leaf (.text t))).2)
  | .tab t => ((new m (.leaf (.tab t))).1, .leaf (new m (.leaf (.tab t))).2)
  | .br b => ((new m (.leaf (.br b))).1, .leaf (new m (.leaf (.br b))).2)
  | .drawing d =>
    let i := newPtr newInl m d.inl
    let a := newPtr newAnc i.1 d.anchor
    (a.1, .drawing i.2 a.2)

/-- New objects for a run -/
def newRun (m : Mem) (r : Run) : Mem × PRun :=
  let k := newOpt .rpr m r.rpr
  let cs := newList newRChild k.1 r.children
  (cs.1, { space := r.space, rpr := k.2, instr := r.instr, children := cs.2 })

/-- New objects for the child of a paragraph -/
def newPChild (m : Mem) : PChild → Mem × PPChild
  | .run r => ((newRun m r).1, .run (newRun m r).2)
  | .link h => ((newRun m h.run).1, .link h.id (newRun m h.run).2)
  | .rpr x => ((new m (.rpr x)).1, .rpr (new m (.rpr x)).2)

/-- New objects for a paragraph -/
def newPara (m : Mem) (p : Para) : Mem × PPara :=
  let k := newOpt .ppr m p.props
  let cs := newList newPChild k.1 p.children
  (cs.1, { props := k.2, children := cs.2, file := p.file })

/-- New objects for a cell -/
def newCell (m : Mem) (c : Cell) : Mem × PCell :=
  let k := newOpt .tc m c.props
  let ps := newList newPara k.1 c.paras
  (ps.1, { props := k.2, paras := ps.2, file := c.file })

/-- New objects for a row -/
def newRow (m : Mem) (r : Row) : Mem × PRow :=
  let k := newOpt .tr m r.props
  let cs := newList newCell k.1 r.cells
  (cs.1, { props := k.2, cells := cs.2 })

/-- New objects for a table -/
def newTable (m : Mem) (t : Table) : Mem × PTable :=
  let k := newOpt .tbl m t.props
  let rs := newList newRow k.1 t.rows
  (rs.1, { props := k.2, grid := t.grid, rows := rs.2 })

/-- New objects for an item of a body -/
def newItem (m : Mem) : BItem → Mem × PItem
  | .para p => ((newPara m p).1, .para (newPara m p).2)
  | .table t => ((newTable m t).1, .table (newTable m t).2)
  | .sect x => ((new m (.sect x)).1, .sect (new m (.sect x)).2)

/-! ## What a document reaches -/

/-- Types of objects -/
inductive ObjKind where
  | rpr | ppr | leaf | ext | sp | inl | anc | tbl | tr | tc | sect
deriving DecidableEq

/-- The type of an object -/
def Obj.kind : Obj → ObjKind
  | .rpr _ => .rpr
  | .ppr _ => .ppr
  | .leaf _ => .leaf
  | .ext _ => .ext
  | .sp _ => .sp
  | .inl _ => .inl
  | .anc _ => .anc
  | .tbl _ => .tbl
  | .tr _ => .tr
  | .tc _ => .tc
  | .sect _ => .sect

/-- A pointer: the type and the address -/
abbrev Ref := ObjKind × Nat

/-- The pointers reached from a pointer to an inline drawing -/
def inlRefs (m : Mem) (k : Nat) : List Ref :=
  (.inl, k) :: ((m.inl k).ext.toList.map (ObjKind.ext, ·) ++ (m.inl k).sp.toList.map (ObjKind.sp, ·))

/-- The pointers reached from a pointer to an anchored drawing -/
def ancRefs (m : Mem) (k : Nat) : List Ref :=
  (.anc, k) :: ((m.anc k).ext.toList.map (ObjKind.ext, ·) ++ (m.anc k).sp.toList.map (ObjKind.sp, ·))

/-- The pointers reached from the child of a run -/
def PRChild.refs (m : Mem) : PRChild → List Ref
  | .leaf k => [(.leaf, k)]
  | .drawing i a => i.toList.flatMap (inlRefs m) ++ a.toList.flatMap (ancRefs m)

/-- The pointers reached from a run -/
def PRun.refs (m : Mem) (r : PRun) : List Ref :=
  r.rpr.toList.map (ObjKind.rpr, ·) ++ r.children.flatMap (·.refs m)

/-- The pointers reached from the child of a paragraph -/
def PPChild.refs (m : Mem) : PPChild → List Ref
  | .run r => r.refs m
  | .link _ r => r.refs m
  | .rpr k => [(.rpr, k)]

/-- The pointers reached from a paragraph -/
def PPara.refs (m : Mem) (p : PPara) : List Ref :=
  p.props.toList.map (ObjKind.ppr, ·) ++ p.children.flatMap (·.refs m)

/-- The pointers reached from a cell -/
def PCell.refs (m : Mem) (c : PCell) : List Ref :=
  c.props.toList.map (ObjKind.tc, ·) ++ c.paras.flatMap (·.refs m)

/-- The pointers reached from a row -/
def PRow.refs (m : Mem) (r : PRow) : List Ref :=
  r.props.toList.map (ObjKind.tr, ·) ++ r.cells.flatMap (·.refs m)

/-- The pointers reached from a table -/
def PTable.refs (m : Mem) (t : PTable) : List Ref :=
  t.props.toList.map (ObjKind.tbl, ·) ++ t.rows.flatMap (·.refs m)

/-- The pointers reached from an item -/
def PItem.refs (m : Mem) : PItem → List Ref
  | .para p => p.refs m
  | .table t => t.refs m
  | .sect k => [(.sect, k)]

/-! ## Copying -/

/-- structdrawing.go:286-342 `(*WPInline).copymedia` of the object at address `k`.  What the copy of a
picture contains is what the value model says; it is a new object that keeps the pointers `Extent` and
`SpPr` of the source.  An inline drawing with a shape or a canvas is not copied: the same pointer is
returned. -/
def copyInl (m : Mem) (w : World) (to : DocId) (k : Nat) : Res (Mem × World × Option Nat) :=
  let o := m.inl k
  match (o.load m).copymedia w to with
  | .ok (w', none) => .ok (m, w', none)
  | .ok (w', some i) =>
    match i.graphic.bind (·.data) |>.bind (·.pic) with
    | some _ =>
      let (m', k') := new m (.inl { val := i, ext := o.ext, sp := o.sp })
      .ok (m', w', some k')
    | none => .ok (m, w', some k)
  | .err e => .err e
  | .panic => .panic

/-- structdrawing.go:1376-1432 `(*WPAnchor).copymedia`, likewise -/
def copyAnc (m : Mem) (w : World) (to : DocId) (k : Nat) : Res (Mem × World × Option Nat) :=
  let o := m.anc k
  match (o.load m).copymedia w to with
  | .ok (w', none) => .ok (m, w', none)
  | .ok (w', some i) =>
    match i.graphic.bind (·.data) |>.bind (·.pic) with
    | some _ =>
      let (m', k') := new m (.anc { val := i, ext := o.ext, sp := o.sp })
      .ok (m', w', some k')
    | none => .ok (m, w', some k)
  | .err e => .err e
  | .panic => .panic

/-- structdrawing.go:93-107 `(*Drawing).copymedia` -/
def copyDrawing (m : Mem) (w : World) (to : DocId) (inl anchor : Option Nat) :
    Res (Mem × World × PRChild) :=
  match inl with
  | some k => do
    let (m', w', k') ← copyInl m w to k
    return (m', w', .drawing k' none)
  | none =>
    match anchor with
    | some k => do
      let (m', w', k') ← copyAnc m w to k
      return (m', w', .drawing none k')
    | none => .ok (m, w, .drawing none none)

/-- structdoc.go:298-304: the children of a run; other children than drawings are kept as they are:
the same pointers -/
def pcopyRChildren (m : Mem) (w : World) (to : DocId) : List PRChild → Res (Mem × World × List PRChild)
  | [] => .ok (m, w, [])
  | .drawing i a :: cs => do
    let (m1, w1, d') ← copyDrawing m w to i a
    let (m2, w2, cs') ← pcopyRChildren m1 w1 to cs
    return (m2, w2, d' :: cs')
  | .leaf k :: cs => do
    let (m2, w2, cs') ← pcopyRChildren m w to cs
    return (m2, w2, .leaf k :: cs')

/-- structdoc.go:294-306 `(*Run).copymedia`: `nr := *r` keeps the pointer `RunProperties` -/
def PRun.copymedia (m : Mem) (w : World) (to : DocId) (r : PRun) : Res (Mem × World × PRun) := do
  let (m', w', cs) ← pcopyRChildren m w to r.children
  return (m', w', { r with children := cs })

/-- structdoc.go:312-330: the children of a paragraph; `file` is `p.file` -/
def pcopyPChildren (m : Mem) (w : World) (to : DocId) (file : Option DocId) :
    List PPChild → Res (Mem × World × List PPChild)
  | [] => .ok (m, w, [])
  | .run r :: cs => do
    let (m1, w1, r') ← r.copymedia m w to
    let (m2, w2, cs') ← pcopyPChildren m1 w1 to file cs
    return (m2, w2, .run r' :: cs')
  | .link id r :: cs =>
    match file.bind (w[·]?) with
    | none => .panic
    | some src =>
      match src.referTarget id with
      | none => pcopyPChildren m w to file cs
      | some tgt =>
        match w[to]? with
        | none => .panic
        | some t => do
          let (t', rid) := t.addLinkRelation tgt
          let (m1, w1, r') ← r.copymedia m (w.set to t') to
          let (m2, w2, cs') ← pcopyPChildren m1 w1 to file cs
          return (m2, w2, .link rid r' :: cs')
  | .rpr k :: cs => do
    let (m2, w2, cs') ← pcopyPChildren m w to file cs
    return (m2, w2, .rpr k :: cs')

/-- structdoc.go:308-332 `(*Paragraph).copymedia`: `np = *p` keeps the pointer `Properties` -/
def PPara.copymedia (m : Mem) (w : World) (to : DocId) (p : PPara) : Res (Mem × World × PPara) := do
  let (m', w', cs) ← pcopyPChildren m w to p.file p.children
  return (m', w', { p with children := cs, file := some to })

/-- structdoc.go:346-349: the paragraphs of a cell -/
def pcopyParas (m : Mem) (w : World) (to : DocId) : List PPara → Res (Mem × World × List PPara)
  | [] => .ok (m, w, [])
  | p :: ps => do
    let (m1, w1, p') ← p.copymedia m w to
    let (m2, w2, ps') ← pcopyParas m1 w1 to ps
    return (m2, w2, p' :: ps')

/-- structdoc.go:342-351: the cells of a row; `ntc := *tc` keeps the pointer `TableCellProperties` -/
def pcopyCells (m : Mem) (w : World) (to : DocId) : List PCell → Res (Mem × World × List PCell)
  | [] => .ok (m, w, [])
  | c :: cs => do
    let (m1, w1, ps) ← pcopyParas m w to c.paras
    let (m2, w2, cs') ← pcopyCells m1 w1 to cs
    return (m2, w2, { c with paras := ps, file := some to } :: cs')

/-- structdoc.go:338-353: the rows of a table; `ntr := *tr` keeps the pointer `TableRowProperties` -/
def pcopyRows (m : Mem) (w : World) (to : DocId) : List PRow → Res (Mem × World × List PRow)
  | [] => .ok (m, w, [])
  | r :: rs => do
    let (m1, w1, cs) ← pcopyCells m w to r.cells
    let (m2, w2, rs') ← pcopyRows m1 w1 to rs
    return (m2, w2, { r with cells := cs } :: rs')

/-- structdoc.go:334-355 `(*Table).copymedia`: `nt = *t` keeps the pointer `TableProperties` -/
def PTable.copymedia (m : Mem) (w : World) (to : DocId) (t : PTable) : Res (Mem × World × PTable) := do
  let (m', w', rs) ← pcopyRows m w to t.rows
  return (m', w', { t with rows := rs })

/-- structdoc.go:272-281, 360-369: copy of one body item; anything else than a paragraph or a table is
the same pointer in both documents -/
def PItem.copymedia (m : Mem) (w : World) (to : DocId) : PItem → Res (Mem × World × PItem)
  | .para p => do
    let (m', w', p') ← p.copymedia m w to
    return (m', w', .para p')
  | .table t => do
    let (m', w', t') ← t.copymedia m w to
    return (m', w', .table t')
  | .sect k => .ok (m, w, .sect k)

/-! ## Documents -/

/-- The documents of a process: the memory, everything of the documents but their items (the `items` of
`docs` are not used), and their items -/
structure PWorld where
  mem : Mem := {}
  docs : World := []
  items : List (List PItem) := []

/-- Documents with these items -/
def fill (docs : World) (items : List (List BItem)) : World :=
  List.zipWith (fun f xs => { f with items := xs }) docs items

/-- The values of all documents -/
def PWorld.world (s : PWorld) : World := fill s.docs (s.items.map (·.map (·.load s.mem)))

/-- structdoc.go:358-371: the loop of `AppendFile` -/
def pappendItems (s : PWorld) (to : DocId) : List PItem → Res PWorld
  | [] => .ok s
  | x :: xs => do
    let (m, w, x') ← x.copymedia s.mem s.docs to
    pappendItems { mem := m, docs := w, items := s.items.modify to (· ++ [x']) } to xs

/-- structdoc.go:358-371 `f.AppendFile(af)` -/
def PWorld.appendFile (s : PWorld) (f af : DocId) : Res PWorld :=
  match s.items[af]? with
  | none => .panic
  | some xs => pappendItems s f xs

/-- structdoc.go:268-283: fill the document `nd` of a split -/
def psplitFill (sep : World → Para → Res Bool) (nd : DocId) (s : PWorld) (cnt : Nat) :
    List PItem → Res (PWorld × Option (List PItem))
  | [] => .ok (s, none)
  | .para p :: is => do
    let b ← sep s.world (p.load s.mem)
    if b = true ∧ cnt > 0 then .ok (s, some (.para p :: is))
    else
      let (m, w, p') ← p.copymedia s.mem s.docs nd
      psplitFill sep nd { mem := m, docs := w, items := s.items.modify nd (· ++ [.para p']) } (cnt + 1) is
  | .table t :: is => do
    let (m, w, t') ← t.copymedia s.mem s.docs nd
    psplitFill sep nd { mem := m, docs := w, items := s.items.modify nd (· ++ [.table t']) } (cnt + 1) is
  | .sect k :: is => psplitFill sep nd { s with items := s.items.modify nd (· ++ [.sect k]) } (cnt + 1) is

/-- structdoc.go:218-292: the outer loop, with fuel -/
def psplitLoop (sep : World → Para → Res Bool) (f : Doc) :
    Nat → PWorld → List DocId → List PItem → Res (PWorld × List DocId)
  | 0, _, _, _ => .err .fuel
  | _ + 1, s, docs, [] => .ok (s, docs)
  | n + 1, s, docs, i :: is => do
    let nd := s.docs.length
    let (s', left) ←
      psplitFill sep nd { s with docs := s.docs ++ [splitDoc f], items := s.items ++ [[]] } 0 (i :: is)
    match left with
    | some rest => psplitLoop sep f n s' (docs ++ [nd]) rest
    | none => return (s', docs ++ [nd])

/-- structdoc.go:218-292 `SplitByParagraph` -/
def PWorld.splitByParagraph (s : PWorld) (d : DocId) (sep : World → Para → Res Bool) :
    Res (PWorld × List DocId) :=
  match s.docs[d]?, s.items[d]? with
  | some f, some xs => psplitLoop sep f (xs.length + 1) s [] xs
  | _, _ => .panic

/-! ## Calls that add to a document -/

/-- The paragraph at a location, as `getPara` -/
def pgetPara (items : List PItem) (l : Loc) : Option PPara :=
  match l with
  | .body i => match items[i]? with
    | some (.para p) => some p
    | _ => none
  | .cell i r c j => match items[i]? with
    | some (.table t) => do
      let row ← t.rows[r]?
      let cell ← row.cells[c]?
      cell.paras[j]?
    | _ => none

/-- Change the paragraph at a location, as `modPara` -/
def pmodPara (items : List PItem) (l : Loc) (g : PPara → PPara) : List PItem :=
  match l with
  | .body i => items.modify i fun
    | .para p => .para (g p)
    | x => x
  | .cell i r c j => items.modify i fun
    | .table t => .table { t with rows := t.rows.modify r fun row =>
        { row with cells := row.cells.modify c fun cell =>
          { cell with paras := cell.paras.modify j g } } }
    | x => x

/-- A call on document `d` that adds items: `act` says on values what it does; the added items are new
objects and the others stay -/
def PWorld.onDoc (s : PWorld) (d : DocId) (act : Doc → Res Doc) : Res PWorld :=
  match s.world[d]? with
  | none => .panic
  | some f => do
    let f' ← act f
    let (m, xs) := newList newItem s.mem (f'.items.drop f.items.length)
    .ok { mem := m, docs := s.docs.set d f', items := s.items.modify d (· ++ xs) }

/-- A call on the paragraph at `l` in document `d` that adds children, as `World.onPara`: `act` says on
values what it does; the added children are new objects and the others stay -/
def PWorld.onPara (s : PWorld) (d : DocId) (l : Loc) (act : Doc → Para → Res (Doc × Para)) : Res PWorld :=
  match s.items[d]? with
  | none => .panic
  | some its =>
    match pgetPara its l with
    | none => .panic
    | some p =>
      match p.file with
      | none => .panic
      | some fid =>
        match s.world[fid]? with
        | none => .panic
        | some f => do
          let (f', q) ← act f (p.load s.mem)
          let (m, cs) := newList newPChild s.mem (q.children.drop p.children.length)
          .ok { mem := m, docs := s.docs.set fid f'
                items := s.items.modify d (pmodPara · l (fun p => { p with children := p.children ++ cs })) }

/-- Effect of one call; the same calls as `step`.  `edit` stands for a client that replaces the contents of
a document by new objects. -/
def PWorld.step [ImgEnv] (s : PWorld) : Op → Res PWorld
  | .new => .ok { s with docs := s.docs ++ [Doc.new], items := s.items ++ [[]] }
  | .load items media =>
    let (m, xs) := newList newItem s.mem items
    .ok { mem := m, docs := s.docs ++ [Doc.loadBodyItems items media], items := s.items ++ [xs] }
  | .addParagraph d => s.onDoc d fun f => .ok (f.addParagraph d)
  | .cellAddParagraph d i r c =>
    match s.items[d]? with
    | none => .panic
    | some _ => .ok { s with items := s.items.modify d fun its => its.modify i fun
        | .table t => .table { t with rows := t.rows.modify r fun row =>
            { row with cells := row.cells.modify c fun cell =>
              { cell with paras := cell.paras ++ [{ file := cell.file }] } } }
        | x => x }
  | .addTable d row col width colors => s.onDoc d fun f =>
      match f.addTable d row col width colors with
      | .ok (f', _, _) => .ok f'
      | .err e => .err e
      | .panic => .panic
  | .addTableTwips d rows cols width colors => s.onDoc d fun f =>
      .ok (f.addTableTwips d rows cols width colors).1
  | .withA3Page d => s.onDoc d fun f => .ok f.withA3Page
  | .withA4Page d => s.onDoc d fun f => .ok f.withA4Page
  | .useTemplate d t l tfs => s.onDoc d fun f => .ok (f.useTemplate t l tfs)
  | .increaseID d name => s.onDoc d fun f => .ok (f.increaseID name).1
  | .addText d l text => s.onPara d l fun f p => .ok (f, (p.addText text).1)
  | .addLink d l text link => s.onPara d l fun f p =>
      .ok ((p.addLink f text link).1, (p.addLink f text link).2.1)
  | .addInlineDrawing d l pic => s.onPara d l fun f p =>
      match p.addInlineDrawing f pic with
      | (f', p', .ok _) => .ok (f', p')
      | (f', p', .err _) => .ok (f', p')
      | (_, _, .panic) => .panic
  | .addAnchorDrawing d l pic => s.onPara d l fun f p =>
      match p.addAnchorDrawing f pic with
      | (f', p', .ok _) => .ok (f', p')
      | (f', p', .err _) => .ok (f', p')
      | (_, _, .panic) => .panic
  | .addInlineShape d l sw sh name bw prst ln => s.onPara d l fun f p =>
      .ok ((p.addInlineShape f sw sh name bw prst ln).1, (p.addInlineShape f sw sh name bw prst ln).2.1)
  | .addAnchorShape d l sw sh name bw prst ln => s.onPara d l fun f p =>
      .ok ((p.addAnchorShape f sw sh name bw prst ln).1, (p.addAnchorShape f sw sh name bw prst ln).2.1)
  | .append f af =>
    match s.docs[f]? with
    | none => .panic
    | some _ => s.appendFile f af
  | .split d sep =>
    match s.splitByParagraph d sep with
    | .ok (s', _) => .ok s'
    | .err e => .err e
    | .panic => .panic
  | .edit d g =>
    match s.world[d]? with
    | none => .panic
    | some f =>
      let (m, xs) := newList newItem s.mem (g f.items)
      .ok { s with mem := m, items := s.items.modify d fun _ => xs }

/-! ## Setters: calls that write to an object in place -/

/-- Change an object of this type -/
def Obj.onRpr (g : RPr → RPr) : Obj → Obj
  | .rpr x => .rpr (g x)
  | o => o
/-- Change an object of this type -/
def Obj.onPpr (g : PPr → PPr) : Obj → Obj
  | .ppr x => .ppr (g x)
  | o => o
/-- Change an object of this type -/
def Obj.onLeaf (g : Leaf → Leaf) : Obj → Obj
  | .leaf x => .leaf (g x)
  | o => o
/-- Change an object of this type -/
def Obj.onTbl (g : TblPr → TblPr) : Obj → Obj
  | .tbl x => .tbl (g x)
  | o => o
/-- Change an object of this type -/
def Obj.onTr (g : TrPr → TrPr) : Obj → Obj
  | .tr x => .tr (g x)
  | o => o
/-- Change an object of this type -/
def Obj.onTc (g : TcPr → TcPr) : Obj → Obj
  | .tc x => .tc (g x)
  | o => o
/-- Change an object of this type -/
def Obj.onExt (g : Ext → Ext) : Obj → Obj
  | .ext x => .ext (g x)
  | o => o
/-- Change an object of this type -/
def Obj.onSp (g : PicSpPr → PicSpPr) : Obj → Obj
  | .sp x => .sp (g x)
  | o => o

/-- Write to the object at an address -/
def Mem.write (m : Mem) (k : Nat) (g : Obj → Obj) : Mem := m.modify k g

/-- apirun.go:24-127: all setters of a run write to `*r.RunProperties`; a nil pointer panics -/
def PRun.set (m : Mem) (r : PRun) (g : RPr → RPr) : Res Mem :=
  match r.rpr with
  | none => .panic
  | some k => .ok (m.write k (Obj.onRpr g))

/-- apipara.go:51-57, 74-129: all setters of a paragraph write to `*p.Properties`; for a nil pointer a new
object is made first.  The paragraph is returned because its pointer may change. -/
def PPara.set (m : Mem) (p : PPara) (g : PPr → PPr) : Mem × PPara :=
  match p.props with
  | none => ((new m (.ppr (g {}))).1, { p with props := some (new m (.ppr (g {}))).2 })
  | some k => (m.write k (Obj.onPpr g), p)

/-- apitable.go:168-175 `(*Table).Justification` writes to `*t.TableProperties` -/
def PTable.set (m : Mem) (t : PTable) (g : TblPr → TblPr) : Res Mem :=
  match t.props with
  | none => .panic
  | some k => .ok (m.write k (Obj.onTbl g))

/-- apitable.go:185-192 `(*WTableRow).Justification` writes to `*w.TableRowProperties` -/
def PRow.set (m : Mem) (r : PRow) (g : TrPr → TrPr) : Res Mem :=
  match r.props with
  | none => .panic
  | some k => .ok (m.write k (Obj.onTr g))

/-- apitable.go:195-202 `(*WTableCell).Shade` writes to `*c.TableCellProperties` -/
def PCell.set (m : Mem) (c : PCell) (g : TcPr → TcPr) : Res Mem :=
  match c.props with
  | none => .panic
  | some k => .ok (m.write k (Obj.onTc g))

/-- apidrawing.go:124-133, 236-245 `Size`: the writes to `*r.Extent` and to `*r.Graphic.GraphicData.Pic.SpPr`
(`pic` says whether there is a picture) -/
def sizeAt (m : Mem) (ext sp : Option Nat) (pic : Bool) (w h : Int64) : Mem :=
  let m1 := match ext with
    | none => m
    | some e => m.write e (Obj.onExt fun x => { x with cx := w, cy := h })
  match pic, sp with
  | true, some s => m1.write s (Obj.onSp fun x => { x with xfrm := { x.xfrm with ext := { x.xfrm.ext with cx := w, cy := h } } })
  | _, _ => m1

/-- apidrawing.go:124-133 `(*WPInline).Size` of the object at address `k` -/
def inlSize (m : Mem) (k : Nat) (w h : Int64) : Mem :=
  let o := m.inl k
  sizeAt m o.ext o.sp (o.val.graphic.bind (·.data) |>.bind (·.pic)).isSome w h

/-- apidrawing.go:236-245 `(*WPAnchor).Size` of the object at address `k` -/
def ancSize (m : Mem) (k : Nat) (w h : Int64) : Mem :=
  let o := m.anc k
  sizeAt m o.ext o.sp (o.val.graphic.bind (·.data) |>.bind (·.pic)).isSome w h

/-! ## Histories with setters -/

/-- What a client may do with the objects of a document: a call, or a write to one of its objects.  A
client gets at the objects through the exported fields `Document.Body.Items`, `Paragraph.Children`,
`Run.Children`, `Table.TableRows` and so on, or keeps the pointer that a call returned. -/
inductive POp where
  /-- A call that adds to a document or makes one -/
  | call (o : Op)
  /-- A setter of the run that is child `j` of a paragraph (apirun.go:24-127), or of the run of the
  hyperlink that is child `j` -/
  | run (d : DocId) (l : Loc) (j : Nat) (g : RPr → RPr)
  /-- A setter of a paragraph (apipara.go:51-57, 74-129) -/
  | para (d : DocId) (l : Loc) (g : PPr → PPr)
  /-- apitable.go:168-175 -/
  | table (d : DocId) (i : Nat) (g : TblPr → TblPr)
  /-- apitable.go:185-192 -/
  | row (d : DocId) (i r : Nat) (g : TrPr → TrPr)
  /-- apitable.go:195-202 -/
  | cell (d : DocId) (i r c : Nat) (g : TcPr → TcPr)
  /-- A write to child `n` of that run, a text, a tab or a break (structtext.go:63-67) -/
  | leaf (d : DocId) (l : Loc) (j n : Nat) (g : Leaf → Leaf)
  /-- `Size` of the drawing that is child `n` of that run (apidrawing.go:124-133, 236-245) -/
  | size (d : DocId) (l : Loc) (j n : Nat) (w h : Int64)
  /-- The client rearranges or drops items, children, rows, cells of a document (the slices are exported;
  also the calls that drop elements, structdoc.go:114-155, structpara.go:312-480, structrun.go:186-199);
  `g` does not make objects -/
  | arrange (d : DocId) (g : List PItem → List PItem)

/-- The run that is child `j` of a paragraph, or the run of the hyperlink that is -/
def PPara.runAt (p : PPara) (j : Nat) : Option PRun :=
  match p.children[j]? with
  | some (.run r) => some r
  | some (.link _ r) => some r
  | _ => none

/-- The run at child `j` of the paragraph at `l` in document `d` -/
def PWorld.runAt (s : PWorld) (d : DocId) (l : Loc) (j : Nat) : Option PRun :=
  (s.items[d]?).bind fun its => (pgetPara its l).bind fun p => p.runAt j

/-- A table of a body -/
def ptable (its : List PItem) (i : Nat) : Option PTable :=
  match its[i]? with
  | some (.table t) => some t
  | _ => none

/-- A step of a client.  A selector that leads nowhere is a panic (an index out of range or a failed type
assertion in the client). -/
def PWorld.pstep [ImgEnv] (s : PWorld) : POp → Res PWorld
  | .call o => s.step o
  | .run d l j g =>
    match s.runAt d l j with
    | none => .panic
    | some r =>
      match r.set s.mem g with
      | .ok m => .ok { s with mem := m }
      | .err e => .err e
      | .panic => .panic
  | .para d l g =>
    match (s.items[d]?).bind (pgetPara · l) with
    | none => .panic
    | some p =>
      .ok { s with mem := (p.set s.mem g).1, items := s.items.modify d (pmodPara · l fun q => { q with props := (p.set s.mem g).2.props }) }
  | .table d i g =>
    match (s.items[d]?).bind (ptable · i) with
    | none => .panic
    | some t =>
      match t.set s.mem g with
      | .ok m => .ok { s with mem := m }
      | .err e => .err e
      | .panic => .panic
  | .row d i r g =>
    match (s.items[d]?).bind (ptable · i) |>.bind (·.rows[r]?) with
    | none => .panic
    | some t =>
      match t.set s.mem g with
      | .ok m => .ok { s with mem := m }
      | .err e => .err e
      | .panic => .panic
  | .cell d i r c g =>
    match (s.items[d]?).bind (ptable · i) |>.bind (·.rows[r]?) |>.bind (·.cells[c]?) with
    | none => .panic
    | some t =>
      match t.set s.mem g with
      | .ok m => .ok { s with mem := m }
      | .err e => .err e
      | .panic => .panic
  | .leaf d l j n g =>
    match (s.runAt d l j).bind (·.children[n]?) with
    | some (.leaf k) => .ok { s with mem := s.mem.write k (Obj.onLeaf g) }
    | _ => .panic
  | .size d l j n w h =>
    match (s.runAt d l j).bind (·.children[n]?) with
    | some (.drawing (some k) _) => .ok { s with mem := inlSize s.mem k w h }
    | some (.drawing none (some k)) => .ok { s with mem := ancSize s.mem k w h }
    | _ => .panic
  | .arrange d g =>
    match s.items[d]? with
    | none => .panic
    | some _ => .ok { s with items := s.items.modify d g }

/-- `g` makes no pointers of its own -/
def Arranges (g : List PItem → List PItem) : Prop :=
  ∀ m its, ∀ r ∈ (g its).flatMap (·.refs m), r ∈ its.flatMap (·.refs m)

/-- The steps the theorems are about: clients rearrange without making objects, and `edit`, which gives a
document new contents, is a client of its own -/
def POp.Fine : POp → Prop
  | .arrange _ g => Arranges g
  | _ => True

/-- A history from no documents at all -/
inductive PReach [ImgEnv] : PWorld → Prop where
  | start : PReach {}
  | step {s s' : PWorld} {o : POp} (h : PReach s) (fine : o.Fine) (hs : s.pstep o = .ok s') : PReach s'

end Docx
