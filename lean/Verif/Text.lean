import Verif.Api

/-!
# Reading and editing text

Models `String` (structpara.go, structdrawing.go, structtable.go), `KeepElements`, the `Drop*`
methods and `MergeText` with its rules (structtext.go).
-/

namespace Docx

/-- All documents of the process; a `*Docx` is an index into this list. -/
abbrev World := List Doc

/-- `crypto/md5` and hex encoding (external). -/
class HashEnv where
  md5hex : Bytes → String

/-! ## String -/

/-- `s[n:]` on the bytes of a string: `none` is the out-of-range panic, `some none` a cut inside a
character (a string no media name can equal). -/
def dropBytes : Nat → List Char → Option (Option (List Char))
  | 0, cs => some (some cs)
  | _ + 1, [] => none
  | n + 1, c :: cs =>
    if c.utf8Size ≤ n + 1 then dropBytes (n + 1 - c.utf8Size) cs else some none
termination_by structural _ cs => cs

/-- `r.file.Media(tgt[6:])`: nil receiver, short target and missing index all panic;
`ok none` is a nil `*Media` -/
def mediaOfTarget (f : Doc) (tgt : String) : Res (Option Media) :=
  match dropBytes 6 tgt.toList with
  | none => .panic
  | some none => .ok none
  | some (some name) => f.getMedia (String.ofList name)

/-- structdrawing.go:243-252 and 1332-1341: the text between the parentheses of a picture -/
def picTarget [HashEnv] (w : World) (file : Option DocId) (pic : Picture) : Res String :=
  match pic.blipFill with
  | none => .ok ""
  | some bf =>
    match file.bind (w[·]?) with
    | none => .panic
    | some f =>
      match f.referTarget bf.blip.embed with
      | none => .ok "ref id not found"
      | some tgt =>
        match mediaOfTarget f tgt with
        | .ok (some m) => .ok (HashEnv.md5hex m.data)
        | .ok none => .panic
        | .err e => .err e
        | .panic => .panic

/-- structdrawing.go:234-241 and 1323-1330: the name of a picture -/
def picLabel (docPr : Option IdName) (pic : Picture) : Res String :=
  match docPr with
  | some d => .ok d.name
  | none =>
    match pic.nvPicPr with
    | some nv => .ok nv.cNvPr.name
    | none =>
      match pic.blipFill with
      | some bf => .ok bf.blip.embed
      | none => .panic

/-- structdrawing.go:258-267 and 1347-1356: the name of a shape -/
def shapeLabel (docPr : Option IdName) (s : Shape) : String :=
  match docPr with
  | some d => d.name
  | none =>
    match s.cNvPr with
    | some c => c.name
    | none =>
      match s.spPr with
      | some sp => sp.prstGeom.prst
      | none => "nil"

/-- structdrawing.go:229-284 / 1317-1374: the text of a graphic, `tag` is `inln` or `anch` -/
def GraphicData.str [HashEnv] (w : World) (tag : String) (file : Option DocId)
    (docPr : Option IdName) (gd : GraphicData) : Res String :=
  match gd.pic with
  | some pic => do
    let l ← picLabel docPr pic
    let t ← picTarget w file pic
    return "![" ++ tag ++ "im " ++ l ++ "](" ++ t ++ ")"
  | none =>
    match gd.shape with
    | some s =>
      .ok ("![" ++ tag ++ "sp " ++ shapeLabel docPr s ++ "](" ++
        (match s.spPr with | some sp => sp.prstGeom.prst | none => "") ++ ")")
    | none =>
      match gd.canvas with
      | some _ =>
        .ok ("![" ++ tag ++ "cv " ++ (match docPr with | some d => d.name | none => "nil") ++ "]()")
      | none => .ok ("![" ++ tag ++ "?](unknown)")

/-- structdrawing.go:229-284 `(*WPInline).String`: nil graphic or graphic data panics -/
def Inline.str [HashEnv] (w : World) (r : Inline) : Res String :=
  match r.graphic with
  | none => .panic
  | some g =>
    match g.data with
    | none => .panic
    | some gd => gd.str w "inln" r.file r.docPr

/-- structdrawing.go:1317-1374 `(*WPAnchor).String` -/
def Anchor.str [HashEnv] (w : World) (r : Anchor) : Res String :=
  match r.graphic with
  | none => .ok "![anch?](unknown)"
  | some g =>
    match g.data with
    | none => .ok "![anch?](unknown)"
    | some gd => gd.str w "anch" r.file r.docPr

/-- structpara.go:206-222: one child of a run -/
def RChild.str [HashEnv] (w : World) : RChild → Res String
  | .text t => .ok t.text
  | .tab _ => .ok "\t"
  | .br _ => .ok "\n"
  | .drawing d =>
    match d.inl with
    | some i => i.str w
    | none =>
      match d.anchor with
      | some a => a.str w
      | none => .ok ""

/-- structpara.go:205-222: the children of a run -/
def rchildrenStr [HashEnv] (w : World) : List RChild → Res String
  | [] => .ok ""
  | c :: cs => do
    let a ← c.str w
    let b ← rchildrenStr w cs
    return a ++ b

/-- structpara.go:189-225: one child of a paragraph whose document is `file` -/
def PChild.str [HashEnv] (w : World) (file : Option DocId) : PChild → Res String
  | .link h =>
    match file.bind (w[·]?) with
    | none => .panic
    | some f =>
      .ok ("[" ++ h.run.instr ++ "](" ++
        (match f.referTarget h.id with | some tgt => tgt | none => h.id) ++ ")")
  | .run r => rchildrenStr w r.children
  | .rpr _ => .ok ""

/-- structpara.go:185-227: all children -/
def pchildrenStr [HashEnv] (w : World) (file : Option DocId) : List PChild → Res String
  | [] => .ok ""
  | c :: cs => do
    let a ← c.str w file
    let b ← pchildrenStr w file cs
    return a ++ b

/-- structpara.go:185-227 `(*Paragraph).String` -/
def Para.str [HashEnv] (w : World) (p : Para) : Res String := pchildrenStr w p.file p.children

/-- structtable.go:49-57: one cell of a line -/
def Cell.str [HashEnv] (w : World) (c : Cell) : Res String :=
  match c.paras with
  | [] => .ok "        |"
  | p :: _ =>
    if p.children = [] then .ok "        |"
    else do
      let s ← p.str w
      return " " ++ s ++ " |"

/-- structtable.go:48-58: the cells of a row -/
def cellsStr [HashEnv] (w : World) : List Cell → Res String
  | [] => .ok ""
  | c :: cs => do
    let a ← c.str w
    let b ← cellsStr w cs
    return a ++ b

/-- structtable.go:46-59: the rows -/
def rowsStr [HashEnv] (w : World) : List Row → Res String
  | [] => .ok ""
  | r :: rs => do
    let a ← cellsStr w r.cells
    let b ← rowsStr w rs
    return "\n|" ++ a ++ b

/-- structtable.go:43-45: the header cells -/
def headerCells : Nat → String
  | 0 => ""
  | n + 1 => " :----: |" ++ headerCells n

/-- structtable.go:39-61 `(*Table).String` -/
def Table.str [HashEnv] (w : World) (t : Table) : Res String :=
  match t.rows with
  | [] => .ok ""
  | r :: _ =>
    if r.cells.length = 0 then .ok ""
    else do
      let body ← rowsStr w t.rows
      return "| " ++ headerCells r.cells.length ++ body

/-! ## KeepElements -/

/-- `reflect.ValueOf(item).Type().String()` for body items -/
def BItem.typeName : BItem → String
  | .para _ => "*docx.Paragraph"
  | .table _ => "*docx.Table"
  | .sect _ => "*docx.SectPr"

/-- ... for paragraph children -/
def PChild.typeName : PChild → String
  | .run _ => "*docx.Run"
  | .link _ => "*docx.Hyperlink"
  | .rpr _ => "*docx.RunProperties"

/-- ... for run children -/
def RChild.typeName : RChild → String
  | .text _ => "*docx.Text"
  | .tab _ => "*docx.Tab"
  | .br _ => "*docx.BarterRabbet"
  | .drawing _ => "*docx.Drawing"

/-- The loop shared by the three `KeepElements` (structdoc.go:120-125, structpara.go:318-323,
structrun.go:192-197) -/
def keepLoop {α : Type} (ty : α → String) (names : List String) : List α → List α
  | [] => []
  | x :: xs => if names.contains (ty x) then x :: keepLoop ty names xs else keepLoop ty names xs

/-- structdoc.go:114-127 `(*Body).KeepElements` -/
def keepBody (names : List String) (items : List BItem) : List BItem :=
  keepLoop BItem.typeName names items

/-- structpara.go:312-325 `(*Paragraph).KeepElements` -/
def Para.keepElements (p : Para) (names : List String) : Para :=
  { p with children := keepLoop PChild.typeName names p.children }

/-- structrun.go:186-199 `(*Run).KeepElements` -/
def Run.keepElements (r : Run) (names : List String) : Run :=
  { r with children := keepLoop RChild.typeName names r.children }

/-! ## Drop* -/

/-- `d.Inline.Graphic.GraphicData` if none of the pointers is nil -/
def Drawing.inlineData (d : Drawing) : Option GraphicData :=
  d.inl.bind fun i => i.graphic.bind (·.data)

/-- `d.Anchor.Graphic.GraphicData` if none of the pointers is nil -/
def Drawing.anchorData (d : Drawing) : Option GraphicData :=
  d.anchor.bind fun a => a.graphic.bind (·.data)

/-- The test of the five `Drop*` loops that look for a kind of graphic (structpara.go:334-343 etc.):
first the inline, then the anchored graphic -/
def dropTest (has : GraphicData → Bool) (d : Drawing) : Bool :=
  match d.inlineData with
  | some gd => if has gd then true else
      match d.anchorData with
      | some gd => has gd
      | none => false
  | none =>
      match d.anchorData with
      | some gd => has gd
      | none => false

/-- The loop over the children of one run shared by all `Drop*` (structpara.go:331-347 etc.) -/
def dropRChildren (drop : Drawing → Bool) : List RChild → List RChild
  | [] => []
  | .drawing d :: cs =>
    if drop d then dropRChildren drop cs else .drawing d :: dropRChildren drop cs
  | c :: cs => c :: dropRChildren drop cs

/-- The outer loop shared by all `Drop*`: only the runs of the paragraph are changed -/
def dropPChildren (drop : Drawing → Bool) : List PChild → List PChild
  | [] => []
  | .run r :: cs => .run { r with children := dropRChildren drop r.children } :: dropPChildren drop cs
  | c :: cs => c :: dropPChildren drop cs

/-- structpara.go:328-350 `DropCanvas` -/
def Para.dropCanvas (p : Para) : Para :=
  { p with children := dropPChildren (dropTest (·.canvas.isSome)) p.children }
/-- structpara.go:353-375 `DropShape` -/
def Para.dropShape (p : Para) : Para :=
  { p with children := dropPChildren (dropTest (·.shape.isSome)) p.children }
/-- structpara.go:378-400 `DropGroup` -/
def Para.dropGroup (p : Para) : Para :=
  { p with children := dropPChildren (dropTest (·.group.isSome)) p.children }
/-- structpara.go:403-425 `DropShapeAndCanvas` -/
def Para.dropShapeAndCanvas (p : Para) : Para :=
  { p with children := dropPChildren (dropTest fun g => g.shape.isSome || g.canvas.isSome) p.children }
/-- structpara.go:428-450 `DropShapeAndCanvasAndGroup` -/
def Para.dropShapeAndCanvasAndGroup (p : Para) : Para :=
  { p with children :=
      dropPChildren (dropTest fun g => g.shape.isSome || g.canvas.isSome || g.group.isSome) p.children }

/-- structpara.go:460-479: the tests of `DropNilPicture`, in order -/
def nilPicTest (d : Drawing) : Bool :=
  if d.inl.isNone && d.anchor.isNone then true
  else if (match d.inl with | some i => i.graphic.isNone | none => false) ||
          (match d.anchor with | some a => a.graphic.isNone | none => false) then true
  else if (match d.inl with
      | some i => (match i.graphic with | some g => g.data.isNone | none => false)
      | none => false) then true
  else if (match d.anchor with
      | some a => (match a.graphic with | some g => g.data.isNone | none => false)
      | none => false) then true
  else if (match d.inlineData with | some gd => gd.pic.isNone | none => false) then true
  else (match d.anchorData with | some gd => gd.pic.isNone | none => false)

/-- structpara.go:453-487 `DropNilPicture` -/
def Para.dropNilPicture (p : Para) : Para :=
  { p with children := dropPChildren nilPicTest p.children }

/-- `reflect.ValueOf(p).MethodByName("Drop" + name)` (structdoc.go:135, 145) -/
def dropMethod (name : String) : Option (Para → Para) :=
  if name = "Canvas" then some Para.dropCanvas
  else if name = "Shape" then some Para.dropShape
  else if name = "Group" then some Para.dropGroup
  else if name = "ShapeAndCanvas" then some Para.dropShapeAndCanvas
  else if name = "ShapeAndCanvasAndGroup" then some Para.dropShapeAndCanvasAndGroup
  else if name = "NilPicture" then some Para.dropNilPicture
  else none

/-- structdoc.go:131-154: one paragraph -/
def dropPara (name : String) (p : Para) : Para :=
  match dropMethod name with
  | some f => f p
  | none => p

/-- structdoc.go:142-150: one cell -/
def dropCell (name : String) (c : Cell) : Cell := { c with paras := c.paras.map (dropPara name) }
/-- structdoc.go:141-151: one row -/
def dropRow (name : String) (r : Row) : Row := { r with cells := r.cells.map (dropCell name) }

/-- structdoc.go:131-154 `(*Body).DropDrawingOf` -/
def dropDrawingOf (name : String) : List BItem → List BItem
  | [] => []
  | .para p :: is => .para (dropPara name p) :: dropDrawingOf name is
  | .table t :: is => .table { t with rows := t.rows.map (dropRow name) } :: dropDrawingOf name is
  | .sect s :: is => .sect s :: dropDrawingOf name is

/-! ## Merge rules -/

/-- structtext.go:147 `RunMergeRule` on the values of two (non-nil) runs -/
abbrev MergeRule := Run → Run → Bool

/-- structtext.go:150-152 `MergeAllRuns` -/
def mergeAllRuns : MergeRule := fun _ _ => true

/-- structtext.go:173-191, 216-235: compare two optional property structs field by field: both nil,
or both set with equal fields after `XMLName` (a struct without further fields has none to compare) -/
def sameOpt {α : Type} [DecidableEq α] (a b : Option α) : Bool :=
  match a, b with
  | none, none => true
  | none, some _ => false
  | some _, none => false
  | some x, some y => decide (x = y)

/-- The same for pointers to structs without fields to compare. -/
def sameBool (a b : Bool) : Bool :=
  match a, b with
  | false, false => true
  | false, true => false
  | true, false => false
  | true, true => true

/-- structtext.go:171-192: the loop over the fields of `RunProperties`, in struct order -/
def sameRPr (a b : RPr) : Bool :=
  sameOpt a.fonts b.fonts && sameBool a.bold b.bold && sameBool a.iCs b.iCs &&
  sameBool a.italic b.italic && sameOpt a.highlight b.highlight && sameOpt a.color b.color &&
  sameOpt a.size b.size && sameOpt a.sizeCs b.sizeCs && sameOpt a.spacing b.spacing &&
  sameOpt a.runStyle b.runStyle && sameOpt a.style b.style && sameOpt a.shade b.shade &&
  sameOpt a.kern b.kern && sameOpt a.underline b.underline && sameOpt a.vertAlign b.vertAlign &&
  sameOpt a.strike b.strike

/-- structtext.go:155-194 `MergeSamePropRuns` (equal pointers have equal contents, so the pointer
test of line 159 agrees with the comparison by value) -/
def mergeSamePropRuns : MergeRule := fun r1 r2 =>
  match r1.rpr, r2.rpr with
  | none, none => true
  | none, some _ => false
  | some _, none => false
  | some a, some b => sameRPr a b

/-- structtext.go:214-216: `FieldByName` and comparison for one name; `none` is the panic of
`IsZero` on the invalid value of an unknown name.  (`XMLName` is never set by the library.) -/
def sameField (n : String) (a b : RPr) : Option Bool :=
  if n = "XMLName" then some true
  else if n = "Fonts" then some (sameOpt a.fonts b.fonts)
  else if n = "Bold" then some (sameBool a.bold b.bold)
  else if n = "ICs" then some (sameBool a.iCs b.iCs)
  else if n = "Italic" then some (sameBool a.italic b.italic)
  else if n = "Highlight" then some (sameOpt a.highlight b.highlight)
  else if n = "Color" then some (sameOpt a.color b.color)
  else if n = "Size" then some (sameOpt a.size b.size)
  else if n = "SizeCs" then some (sameOpt a.sizeCs b.sizeCs)
  else if n = "Spacing" then some (sameOpt a.spacing b.spacing)
  else if n = "RunStyle" then some (sameOpt a.runStyle b.runStyle)
  else if n = "Style" then some (sameOpt a.style b.style)
  else if n = "Shade" then some (sameOpt a.shade b.shade)
  else if n = "Kern" then some (sameOpt a.kern b.kern)
  else if n = "Underline" then some (sameOpt a.underline b.underline)
  else if n = "VertAlign" then some (sameOpt a.vertAlign b.vertAlign)
  else if n = "Strike" then some (sameOpt a.strike b.strike)
  else none

/-- structtext.go:213-235: the loop over the names -/
def sameFields (a b : RPr) : List String → Res Bool
  | [] => .ok true
  | n :: ns =>
    match sameField n a b with
    | none => .panic
    | some false => .ok false
    | some true => sameFields a b ns

/-- structtext.go:197-238 `MergeSamePropRunsOf`; `samePtr` says whether the two non-nil
`RunProperties` pointers are equal (then the contents are equal too) -/
def mergeSamePropRunsOf (names : List String) (samePtr : Bool) (r1 r2 : Run) : Res Bool :=
  match r1.rpr, r2.rpr with
  | none, none => .ok true
  | none, some _ => .ok false
  | some _, none => .ok false
  | some a, some b => if samePtr then .ok true else sameFields a b names

/-! ## MergeText

The heap holds the `Text` and `Run` objects; a child of a run is a pointer to a text or another
child, a child of a paragraph a pointer to a run or another child. -/

/-- child of a run: pointer to a `Text` object, or any other child -/
inductive HRC where
  | txt (ref : Nat)
  | other (c : RChild)

/-- a `Run` object -/
structure HRun where
  space : String
  rpr : Option RPr
  instr : String
  children : List HRC

/-- child of a paragraph: pointer to a `Run` object, or any other child -/
inductive HPC where
  | run (ref : Nat)
  | other (c : PChild)

structure Heap where
  texts : List Text
  runs : List HRun

namespace Heap
/-- `x.Text` of the text object `i` (`i` is always allocated) -/
def text (h : Heap) (i : Nat) : String := match h.texts[i]? with | some t => t.text | none => ""
/-- `&Text{}` -/
def newText (h : Heap) : Heap × Nat := ({ h with texts := h.texts ++ [{}] }, h.texts.length)
/-- `x.Text += s` -/
def addText (h : Heap) (i : Nat) (s : String) : Heap :=
  { h with texts := h.texts.modify i fun t => { t with text := t.text ++ s } }
/-- allocate a run -/
def newRun (h : Heap) (r : HRun) : Heap × Nat := ({ h with runs := h.runs ++ [r] }, h.runs.length)
/-- `r.Children` of the run object `i` -/
def kids (h : Heap) (i : Nat) : List HRC := match h.runs[i]? with | some r => r.children | none => []
/-- `r.Children = append(r.Children, c)` -/
def pushKid (h : Heap) (i : Nat) (c : HRC) : Heap :=
  { h with runs := h.runs.modify i fun r => { r with children := r.children ++ [c] } }
end Heap

/-- the value of a run child -/
def HRC.load (h : Heap) : HRC → RChild
  | .txt i => .text (match h.texts[i]? with | some t => t | none => {})
  | .other c => c

/-- the value of a run object -/
def HRun.load (h : Heap) (r : HRun) : Run :=
  { space := r.space, rpr := r.rpr, instr := r.instr, children := r.children.map (·.load h) }

/-- the value of the run at an address -/
def Heap.loadRun (h : Heap) (i : Nat) : Run :=
  match h.runs[i]? with
  | some r => r.load h
  | none => {}

/-- the value of a paragraph child -/
def HPC.load (h : Heap) : HPC → PChild
  | .run i => .run (h.loadRun i)
  | .other c => c

/-- put the children of a run on the heap -/
def allocRChildren (h : Heap) : List RChild → Heap × List HRC
  | [] => (h, [])
  | .text t :: cs =>
    let (h', l) := allocRChildren { h with texts := h.texts ++ [t] } cs
    (h', .txt h.texts.length :: l)
  | c :: cs =>
    let (h', l) := allocRChildren h cs
    (h', .other c :: l)

/-- put the children of a paragraph on the heap -/
def allocPChildren (h : Heap) : List PChild → Heap × List HPC
  | [] => (h, [])
  | .run r :: cs =>
    let (h1, kids) := allocRChildren h r.children
    let (h2, i) := h1.newRun ⟨r.space, r.rpr, r.instr, kids⟩
    let (h3, l) := allocPChildren h2 cs
    (h3, .run i :: l)
  | c :: cs =>
    let (h', l) := allocPChildren h cs
    (h', .other c :: l)

/-- structtext.go:253-272: collect the children of the run being read; `t` is the current text,
`acc` is `r.Children` -/
def gather (h : Heap) (t : Nat) (acc : List HRC) : List HRC → Heap × Nat × List HRC
  | [] => if h.text t ≠ "" then (h, t, acc ++ [.txt t]) else (h, t, acc)
  | .txt x :: cs =>
    if h.text x ≠ "" then gather (h.addText t (h.text x)) t acc cs else gather h t acc cs
  | .other c :: cs =>
    if h.text t ≠ "" then
      let (h', t') := h.newText
      gather h' t' (acc ++ [.txt t] ++ [.other c]) cs
    else gather h t (acc ++ [.other c]) cs

/-- structtext.go:287-304: append the children of the read run to the previous run `prev`;
`pt` is `prevtext`, `na` is `noappend`, `t` is the (outer) text variable -/
def mergeKids (h : Heap) (prev t pt : Nat) (na : Bool) : List HRC → Heap
  | [] => if h.text pt ≠ "" ∧ na = false then h.pushKid prev (.txt t) else h
  | .txt x :: cs =>
    if h.text x ≠ "" then mergeKids (h.addText pt (h.text x)) prev t pt na cs
    else mergeKids h prev t pt na cs
  | .other c :: cs =>
    if h.text pt ≠ "" then
      let h1 := if na then h else h.pushKid prev (.txt t)
      let (h2, pt') := h1.newText
      mergeKids (h2.pushKid prev (.other c)) prev t pt' false cs
    else mergeKids (h.pushKid prev (.other c)) prev t pt na cs

/-- structtext.go:274-304: merge the read run (children `kids`) into `prev` -/
def mergeInto (h : Heap) (prev t : Nat) (kids : List HRC) : Heap :=
  match (h.kids prev).getLast? with
  | some (.txt i) => mergeKids h prev t i true kids
  | _ =>
    let (h', pt) := h.newText
    mergeKids h' prev t pt false kids

/-- structtext.go:247-312: the loop over the children of the paragraph; `prev` is `prevrun`,
`acc` is `np.Children` -/
def mergeLoop (rule : MergeRule) (h : Heap) (prev : Option Nat) (acc : List HPC) :
    List HPC → Heap × List HPC
  | [] => (h, acc)
  | .other c :: cs => mergeLoop rule h prev (acc ++ [.other c]) cs
  | .run o :: cs =>
    match h.runs[o]? with
    | none => (h, acc)  -- a dangling pointer: never happens
    | some ro =>
      let (h1, t0) := h.newText
      let (h2, t, kids) := gather h1 t0 [] ro.children
      let r : HRun := { ro with children := kids }
      match prev with
      | some pr =>
        if rule (h2.loadRun pr) (r.load h2) then
          mergeLoop rule (mergeInto h2 pr t kids) prev acc cs
        else
          let (h3, i) := h2.newRun r
          mergeLoop rule h3 (some i) (acc ++ [.run i]) cs
      | none =>
        let (h3, i) := h2.newRun r
        mergeLoop rule h3 (some i) (acc ++ [.run i]) cs

/-- structtext.go:243-314 `MergeText` on the value of a paragraph: put it on the heap, run the
loop, read the result -/
def Para.mergeText (p : Para) (rule : MergeRule) : Para :=
  let (h, cs) := allocPChildren ⟨[], []⟩ p.children
  let (h', out) := mergeLoop rule h none [] cs
  { p with children := out.map (·.load h') }

end Docx
