import Verif.World

/-!
# Small specifications

Definitions used in the statements of the property theorems.  They are written directly from the
English properties and share no helper with the model of the operations.
-/

namespace Docx

/-! ## Relationships and media (C01-C07, C56) -/

/-- The ids a client sees when it walks over the relationships with `RangeRelationships`. -/
def seenIds (f : Doc) : List String :=
  (f.rangeRelationships (fun acc r => (acc ++ [r.id], r, none)) []).1

/-- The number in the next generated id is above every generated-looking id of the table:
no relationship has an id `rId<n>` with `n` above the counter. -/
def CounterAhead (f : Doc) : Prop := ∀ n : UInt64, f.rID < n → ridOf n ∉ seenIds f

/-- `Media(name)` finds exactly the last media stored under that name. -/
def MediaFound (f : Doc) : Prop := ∀ name,
  f.getMedia name = .ok (f.media.reverse.find? fun m => m.name == name)

/-- The embed id of a picture. -/
def picEmbed (pic : Picture) : List String :=
  match pic.blipFill with
  | some bf => [bf.blip.embed]
  | none => []

/-- The embed id of the picture of a graphic. -/
def graphicEmbed (g : Option Graphic) : List String :=
  match g with
  | some { data := some { pic := some pic, .. }, .. } => picEmbed pic
  | _ => []

/-- All embed ids of a run child. -/
def RChild.embeds : RChild → List String
  | .drawing d =>
    (match d.inl with | some i => graphicEmbed i.graphic | none => []) ++
    (match d.anchor with | some a => graphicEmbed a.graphic | none => [])
  | _ => []

/-- All relationship ids a paragraph child shows in its text. -/
def PChild.refs : PChild → List String
  | .run r => r.children.flatMap (·.embeds)
  | .link h => [h.id]
  | .rpr _ => []

/-- All relationship ids a paragraph shows in its text. -/
def Para.refs (p : Para) : List String := p.children.flatMap (·.refs)

/-- The embed ids of the pictures drawn in a run. -/
def pictureEmbeds (r : Run) : List String := r.children.flatMap (·.embeds)

/-- Document `f` serves the picture bytes `data` under relationship id `id`: the id resolves to
`media/<name>` and `Media(<name>)` has these bytes. -/
def ServesPicture (f : Doc) (id : String) (data : Bytes) : Prop :=
  ∃ name m, f.referTarget id = some ("media/" ++ name) ∧ f.getMedia name = .ok (some m) ∧ m.data = data

/-- No media of `f` has a name `image<n>.<format>` with `n` above the picture counter. -/
def NamesAhead (f : Doc) : Prop :=
  ∀ m ∈ f.media, ∀ (n : UInt64) (format : String), f.imageID < n → m.name ≠ imageName n format

/-- No two media of `f` have the same name. -/
def MediaNamesUnique (f : Doc) : Prop := (f.media.map (·.name)).Nodup

end Docx

/-! ## Properties as named fields (C14, C15, C27, C28) -/

namespace Docx

/-- The names of the run properties. -/
inductive RField where
  | fonts | bold | iCs | italic | highlight | color | size | sizeCs | spacing | runStyle | style
  | shade | kern | underline | vertAlign | strike
deriving DecidableEq, Repr

/-- The value of a property: absent, a bare flag, or a value. -/
inductive FVal where
  | absent
  | flag
  | str (s : String)
  | int (n : Int64)
  | fonts (f : RunFonts)
  | spacing (s : Spacing)
  | shade (s : Shade)
  | tabs (l : List Tab)
  | ind (i : Ind)
  | num (n : NumPr)
deriving DecidableEq, Repr

/-- An optional value. -/
def FVal.ofOpt {α : Type} (f : α → FVal) : Option α → FVal
  | none => .absent
  | some a => f a

/-- An optional flag. -/
def FVal.ofBool : Bool → FVal
  | false => .absent
  | true => .flag

/-- The value of a run property. -/
def RPr.get (p : RPr) : RField → FVal
  | .fonts => .ofOpt .fonts p.fonts
  | .bold => .ofBool p.bold
  | .iCs => .ofBool p.iCs
  | .italic => .ofBool p.italic
  | .highlight => .ofOpt .str p.highlight
  | .color => .ofOpt .str p.color
  | .size => .ofOpt .str p.size
  | .sizeCs => .ofOpt .str p.sizeCs
  | .spacing => .ofOpt .spacing p.spacing
  | .runStyle => .ofOpt .str p.runStyle
  | .style => .ofOpt .str p.style
  | .shade => .ofOpt .shade p.shade
  | .kern => .ofOpt .int p.kern
  | .underline => .ofOpt .str p.underline
  | .vertAlign => .ofOpt .str p.vertAlign
  | .strike => .ofOpt .str p.strike

/-- One call of a run setter. -/
inductive RSetter where
  | color (v : String)
  | size (v : String)
  | sizeCs (v : String)
  | shade (val color fill : String)
  | spacing (line : Int64)
  | bold
  | italic
  | underline (v : String)
  | highlight (v : String)
  | strike (v : Bool)
  | font (ascii eastAsia hansi hint : String)

/-- The call made. -/
def RSetter.apply (s : RSetter) (r : Run) : Res Run :=
  match s with
  | .color v => r.setColor v
  | .size v => r.setSize v
  | .sizeCs v => r.setSizeCs v
  | .shade a b c => r.setShade a b c
  | .spacing n => r.setSpacing n
  | .bold => r.setBold
  | .italic => r.setItalic
  | .underline v => r.setUnderline v
  | .highlight v => r.setHighlight v
  | .strike v => r.setStrike v
  | .font a b c d => r.setFont a b c d

/-- The property a setter is named after. -/
def RSetter.field : RSetter → RField
  | .color _ => .color
  | .size _ => .size
  | .sizeCs _ => .sizeCs
  | .shade _ _ _ => .shade
  | .spacing _ => .spacing
  | .bold => .bold
  | .italic => .italic
  | .underline _ => .underline
  | .highlight _ => .highlight
  | .strike _ => .strike
  | .font _ _ _ _ => .fonts

/-- The value a setter is called with. -/
def RSetter.value : RSetter → FVal
  | .color v | .size v | .sizeCs v | .underline v | .highlight v => .str v
  | .shade v c f => .shade { val := v, color := c, fill := f }
  | .spacing n => .spacing { line := n }
  | .bold | .italic => .flag
  | .strike v => .str (if v then "true" else "false")
  | .font a b c d => .fonts { ascii := a, eastAsia := b, hAnsi := c, hint := d }

/-- A chain of setter calls, `r.Color(..).Size(..)…` -/
def RSetter.chain (ss : List RSetter) (r : Run) : Res Run :=
  match ss with
  | [] => .ok r
  | s :: ss =>
    match s.apply r with
    | .ok r' => chain ss r'
    | .err e => .err e
    | .panic => .panic

/-- The value the last setter for a property was called with. -/
def RSetter.last (φ : RField) (ss : List RSetter) : Option FVal :=
  (ss.reverse.find? fun s => s.field = φ).map (·.value)

/-- The names of the paragraph properties; `rp φ` is a property of the paragraph mark. -/
inductive PField where
  | tabs | spacing | numPr | ind | jc | shade | kern | style | textAlignment | adjustRightInd
  | snapToGrid | kinsoku | overflowPunct
  | rp (φ : RField)
deriving DecidableEq, Repr

/-- The value of a paragraph property. -/
def PPr.get (p : PPr) : PField → FVal
  | .tabs => .ofOpt .tabs p.tabs
  | .spacing => .ofOpt .spacing p.spacing
  | .numPr => .ofOpt .num p.numPr
  | .ind => .ofOpt .ind p.ind
  | .jc => .ofOpt .str p.jc
  | .shade => .ofOpt .shade p.shade
  | .kern => .ofOpt .int p.kern
  | .style => .ofOpt .str p.style
  | .textAlignment => .ofOpt .str p.textAlignment
  | .adjustRightInd => .ofOpt .int p.adjustRightInd
  | .snapToGrid => .ofOpt .int p.snapToGrid
  | .kinsoku => .ofOpt .int p.kinsoku
  | .overflowPunct => .ofOpt .int p.overflowPunct
  | .rp φ => match p.rpr with
    | none => .absent
    | some r => r.get φ

/-- The value of a property of a paragraph; without properties everything is absent. -/
def Para.get (p : Para) (φ : PField) : FVal :=
  match p.props with
  | none => .absent
  | some pp => pp.get φ

/-- One call of a paragraph setter. -/
inductive PSetter where
  | justification (v : String)
  | style (v : String)
  | numPr (id lvl : String)
  | numFont (ascii eastAsia hansi hint : String)
  | numSize (v : String)

/-- The call made. -/
def PSetter.apply (s : PSetter) (p : Para) : Para :=
  match s with
  | .justification v => p.justification v
  | .style v => p.setStyle v
  | .numPr a b => p.setNumPr a b
  | .numFont a b c d => p.numFont a b c d
  | .numSize v => p.numSize v

/-- The property a paragraph setter is named after. -/
def PSetter.field : PSetter → PField
  | .justification _ => .jc
  | .style _ => .style
  | .numPr _ _ => .numPr
  | .numFont _ _ _ _ => .rp .fonts
  | .numSize _ => .rp .size

/-- The value a paragraph setter is called with. -/
def PSetter.value : PSetter → FVal
  | .justification v => .str v
  | .style v => .str v
  | .numPr a b => .num { numId := some a, ilvl := some b }
  | .numFont a b c d => .fonts { ascii := a, eastAsia := b, hAnsi := c, hint := d }
  | .numSize v => .str v

end Docx

/-! ## Drawings (C22, C23, C24) -/

namespace Docx

/-- The graphics a drawing carries: the inline one and the anchored one, where present. -/
def Drawing.graphics (d : Drawing) : List GraphicData :=
  (match d.inl with | some { graphic := some { data := some gd, .. }, .. } => [gd] | _ => []) ++
  (match d.anchor with | some { graphic := some { data := some gd, .. }, .. } => [gd] | _ => [])

/-- The kinds of graphics the `Drop*` calls distinguish. -/
inductive Kind where
  | canvas | shape | group
deriving DecidableEq, Repr

/-- A graphic is of a kind. -/
def GraphicData.isKind (g : GraphicData) : Kind → Bool
  | .canvas => g.canvas.isSome
  | .shape => g.shape.isSome
  | .group => g.group.isSome

/-- Some graphic of the drawing is of one of the kinds. -/
def Drawing.ofKinds (ks : List Kind) (d : Drawing) : Bool :=
  d.graphics.any fun g => ks.any fun k => g.isKind k

/-- A run child that is a drawing for which `bad` holds. -/
def RChild.isBad (bad : Drawing → Bool) : RChild → Bool
  | .drawing d => bad d
  | _ => false

@[simp] theorem RChild.isBad_drawing (bad : Drawing → Bool) (d : Drawing) :
    (RChild.drawing d).isBad bad = bad d := rfl
@[simp] theorem RChild.isBad_text (bad : Drawing → Bool) (t : Text) : (RChild.text t).isBad bad = false := rfl
@[simp] theorem RChild.isBad_tab (bad : Drawing → Bool) (t : Tab) : (RChild.tab t).isBad bad = false := rfl
@[simp] theorem RChild.isBad_br (bad : Drawing → Bool) (t : Br) : (RChild.br t).isBad bad = false := rfl

/-- A paragraph child without the bad drawings, if it is a run. -/
def PChild.without (bad : Drawing → Bool) : PChild → PChild
  | .run r => .run { r with children := r.children.filter fun c => !c.isBad bad }
  | c => c

/-- The paragraph without the drawings, in its runs, for which `bad` holds; everything else, in the
runs and beside them, stays where it is. -/
def Para.without (bad : Drawing → Bool) (p : Para) : Para :=
  { p with children := p.children.map (PChild.without bad) }

/-- Every container of the drawing holds a picture, and there is one. -/
def Drawing.allPictures (d : Drawing) : Prop :=
  (d.inl ≠ none ∨ d.anchor ≠ none) ∧
  (∀ i, d.inl = some i → ∃ g gd, i.graphic = some g ∧ g.data = some gd ∧ gd.pic ≠ none) ∧
  (∀ a, d.anchor = some a → ∃ g gd, a.graphic = some g ∧ g.data = some gd ∧ gd.pic ≠ none)

/-- A run child as a drawing. -/
def RChild.drawing? : RChild → Option Drawing
  | .drawing d => some d
  | _ => none

/-- The drawings in the runs of a paragraph. -/
def Para.drawings (p : Para) : List Drawing :=
  p.children.flatMap fun
    | .run r => r.children.filterMap RChild.drawing?
    | _ => []

/-- Apply a function to every paragraph of a body: body paragraphs and paragraphs of table cells. -/
def mapParas (g : Para → Para) (items : List BItem) : List BItem :=
  items.map fun
    | .para p => .para (g p)
    | .table t => .table { t with rows := t.rows.map fun r =>
        { r with cells := r.cells.map fun c => { c with paras := c.paras.map g } } }
    | .sect s => .sect s

/-! ## Merging text -/

/-- The text `s`, or nothing when it is empty. -/
def flushText (s : String) : List RChild := if s = "" then [] else [.text { text := s }]

/-- Join every maximal stretch of texts into one text and drop it if it is empty; `s` is the text
read so far. -/
def joinFrom (s : String) : List RChild → List RChild
  | [] => flushText s
  | .text x :: cs => joinFrom (s ++ x.text) cs
  | .tab x :: cs => flushText s ++ .tab x :: joinFrom "" cs
  | .br x :: cs => flushText s ++ .br x :: joinFrom "" cs
  | .drawing x :: cs => flushText s ++ .drawing x :: joinFrom "" cs

/-- Join every maximal stretch of texts into one text and drop it if it is empty. -/
def joinTexts (cs : List RChild) : List RChild := joinFrom "" cs

/-- A run with its texts joined. -/
def Run.joined (r : Run) : Run := { r with children := joinTexts r.children }

/-- What merging the run `r` into the run before it is meant to give. -/
def Run.absorb (pr r : Run) : Run := { pr with children := joinTexts (pr.children ++ r.children) }

/-- No tab, break or drawing comes after a non-empty text: the children are some that are not
non-empty texts, then only texts. -/
def TextLast (cs : List RChild) : Prop :=
  ∃ os ts, cs = os ++ ts ∧ (∀ t, RChild.text t ∈ os → t.text = "") ∧ ∀ c ∈ ts, ∃ t, c = .text t

/-- The children of `r` can be appended to those of `pr`: its text comes last, or `pr` ends in a
text and `r` starts with texts, after which its text comes last. -/
def Appendable (pr r : Run) : Prop :=
  TextLast r.children ∨ ((∃ t, pr.children.getLast? = some (.text t)) ∧
    ∃ ts rest, r.children = ts ++ rest ∧ (∀ c ∈ ts, ∃ t, c = .text t) ∧ TextLast rest)

/-- Every run that the rule merges into an earlier one directly follows it and is `Appendable`.
`prev` is the run merged into so far, `adj` says that it is the last child so far. -/
def SafeFrom (rule : Run → Run → Bool) : Option Run → Bool → List PChild → Prop
  | _, _, [] => True
  | none, _, .run r :: cs => SafeFrom rule (some r.joined) true cs
  | some pr, adj, .run r :: cs =>
    if rule pr r.joined then adj = true ∧ Appendable pr r ∧ SafeFrom rule (some (pr.absorb r)) true cs
    else SafeFrom rule (some r.joined) true cs
  | prev, _, .link _ :: cs => SafeFrom rule prev false cs
  | prev, _, .rpr _ :: cs => SafeFrom rule prev false cs

/-- Every run of the paragraph that the rule merges into an earlier one directly follows it and is
`Appendable`. -/
def Para.MergeSafe (p : Para) (rule : Run → Run → Bool) : Prop := SafeFrom rule none false p.children

/-- `[r]` if there is a run `r` still to be put out, else nothing -/
def emitRun : Option Run → Bool → List PChild
  | some r, true => [.run r]
  | _, _ => []

/-- What `MergeText` is meant to compute: join the texts of every run, and let a run absorb the
next one when the rule allows it. Everything else is kept in its place. -/
def mergeFrom (rule : Run → Run → Bool) : Option Run → Bool → List PChild → List PChild
  | prev, adj, [] => emitRun prev adj
  | none, _, .run r :: cs => mergeFrom rule (some r.joined) true cs
  | some pr, adj, .run r :: cs =>
    if rule pr r.joined then mergeFrom rule (some (pr.absorb r)) true cs
    else emitRun (some pr) adj ++ mergeFrom rule (some r.joined) true cs
  | prev, adj, .link l :: cs => emitRun prev adj ++ .link l :: mergeFrom rule prev false cs
  | prev, adj, .rpr l :: cs => emitRun prev adj ++ .rpr l :: mergeFrom rule prev false cs

end Docx

/-! ## Printing (C31) -/

namespace Docx

/-- In the document at `file`, relationship id `id` names a stored picture with these bytes: it
resolves to a target that, after its first six bytes (`media/`), is the name of a media entry. -/
def HasPicture (w : World) (file : Option DocId) (id : String) (data : Bytes) : Prop :=
  ∃ i f pre name m, file = some i ∧ w[i]? = some f ∧ f.referTarget id = some (pre ++ name) ∧
    pre.utf8ByteSize = 6 ∧ f.getMedia name = .ok (some m) ∧ m.data = data

/-- What relationship id `id` refers to for an object that belongs to the document at `file`. -/
def World.resolve (w : World) (file : Option DocId) (id : String) : Option String :=
  match file with
  | none => none
  | some i =>
    match w[i]? with
    | none => none
    | some f => f.referTarget id

/-- The object belongs to one of the documents of the process (its hidden `file` is set). -/
def Owned (w : World) (file : Option DocId) : Prop := ∃ i f, file = some i ∧ w[i]? = some f

/-- A picture that can be printed: it has a name to show, and its bytes, if it refers to any, can be
looked up in the document it belongs to (or its id is unknown there). -/
def PicturePrintable (w : World) (file : Option DocId) (docPr : Option IdName) (pic : Picture) : Prop :=
  (docPr ≠ none ∨ pic.nvPicPr ≠ none ∨ pic.blipFill ≠ none) ∧
  ∀ bf, pic.blipFill = some bf → Owned w file ∧
    (w.resolve file bf.blip.embed = none ∨ ∃ data, HasPicture w file bf.blip.embed data)

/-- A drawing that can be printed.  Only the inline form is looked at when there is one; the inline
form must have a graphic. -/
def Drawing.Printable (w : World) (d : Drawing) : Prop :=
  match d.inl with
  | some i => ∃ g gd, i.graphic = some g ∧ g.data = some gd ∧
      ∀ pic, gd.pic = some pic → PicturePrintable w i.file i.docPr pic
  | none => ∀ a g gd pic, d.anchor = some a → a.graphic = some g → g.data = some gd →
      gd.pic = some pic → PicturePrintable w a.file a.docPr pic

/-- A paragraph that can be printed: its drawings (outside links) can, and if it has a link it
belongs to a document. -/
def Para.Printable (w : World) (p : Para) : Prop :=
  (∀ d ∈ p.drawings, d.Printable w) ∧
  ((∃ h, .link h ∈ p.children) → Owned w p.file)

/-- A table that can be printed.  Printed are the first paragraphs of all cells, unless the table
has no row or its first row no cell. -/
def Table.Printable (w : World) (t : Table) : Prop :=
  (∃ r, t.rows.head? = some r ∧ r.cells ≠ []) →
  ∀ r ∈ t.rows, ∀ c ∈ r.cells, ∀ p, c.paras.head? = some p → p.Printable w

end Docx

/-! ## Copies (C32-C39) -/

namespace Docx

/-- Two lists of the same length whose elements correspond one by one. -/
inductive Each {α β : Type} (R : α → β → Prop) : List α → List β → Prop where
  | nil : Each R [] []
  | cons {a b as bs} : R a b → Each R as bs → Each R (a :: as) (b :: bs)

/-- What is asked of the parts of a copied paragraph that hold relationship ids: how a drawing and
its copy are related, the link id and the id in its copy, and which links may be left out.
The first argument of `link` and `drop` is the document the copied paragraph belonged to. -/
structure CopyRules where
  draw : Drawing → Drawing → Prop
  link : Option DocId → String → String → Prop
  drop : Option DocId → String → Prop

/-- A run child and its copy: equal, unless it is a drawing. -/
def RChildCopied (R : CopyRules) : RChild → RChild → Prop
  | .drawing d, c => ∃ d', c = .drawing d' ∧ R.draw d d'
  | .text t, c => c = .text t
  | .tab t, c => c = .tab t
  | .br b, c => c = .br b

/-- A run and its copy: everything equal except the drawings. -/
def RunCopied (R : CopyRules) (r r' : Run) : Prop :=
  r'.space = r.space ∧ r'.rpr = r.rpr ∧ r'.instr = r.instr ∧
  Each (RChildCopied R) r.children r'.children

/-- The children of a paragraph and of its copy: the same runs, links and markers in the same order,
except for links that may be dropped. -/
inductive ChildrenCopied (R : CopyRules) (file : Option DocId) : List PChild → List PChild → Prop where
  | nil : ChildrenCopied R file [] []
  | run {r r' cs cs'} : RunCopied R r r' → ChildrenCopied R file cs cs' →
      ChildrenCopied R file (.run r :: cs) (.run r' :: cs')
  | link {h h' cs cs'} : R.link file h.id h'.id → RunCopied R h.run h'.run →
      ChildrenCopied R file cs cs' → ChildrenCopied R file (.link h :: cs) (.link h' :: cs')
  | dropped {h cs cs'} : R.drop file h.id → ChildrenCopied R file cs cs' →
      ChildrenCopied R file (.link h :: cs) cs'
  | rpr {x cs cs'} : ChildrenCopied R file cs cs' →
      ChildrenCopied R file (.rpr x :: cs) (.rpr x :: cs')

/-- A paragraph and its copy in document `to`. -/
def ParaCopied (R : CopyRules) (to : DocId) (p p' : Para) : Prop :=
  p'.props = p.props ∧ p'.file = some to ∧ ChildrenCopied R p.file p.children p'.children

def CellCopied (R : CopyRules) (to : DocId) (c c' : Cell) : Prop :=
  c'.props = c.props ∧ c'.file = some to ∧ Each (ParaCopied R to) c.paras c'.paras

def RowCopied (R : CopyRules) (to : DocId) (r r' : Row) : Prop :=
  r'.props = r.props ∧ Each (CellCopied R to) r.cells r'.cells

def TableCopied (R : CopyRules) (to : DocId) (t t' : Table) : Prop :=
  t'.props = t.props ∧ t'.grid = t.grid ∧ Each (RowCopied R to) t.rows t'.rows

/-- A body item and its copy in document `to`. -/
def ItemCopied (R : CopyRules) (to : DocId) : BItem → BItem → Prop
  | .para p, x => ∃ p', x = .para p' ∧ ParaCopied R to p p'
  | .table t, x => ∃ t', x = .table t' ∧ TableCopied R to t t'
  | .sect s, x => x = .sect s

/-- A picture and its copy: all but the relationship id, the name and the effects on the blip are
kept.  The transparency is lost. -/
def SamePicture (pic pic' : Picture) : Prop :=
  pic'.spPr = pic.spPr ∧ pic'.xmlPic = pic.xmlPic ∧
  ∃ bf bf', pic.blipFill = some bf ∧ pic'.blipFill = some bf' ∧
    bf'.fillRect = bf.fillRect ∧ bf'.blip.cstate = bf.blip.cstate ∧ bf'.blip.alphaModFix = none ∧
    ∃ nv nv', pic.nvPicPr = some nv ∧ pic'.nvPicPr = some nv' ∧ nv'.locks = nv.locks

/-- Only the shape of the copy is described: links may only be dropped when they do not resolve. -/
def shapeRules (w : World) : CopyRules where
  draw := fun _ _ => True
  link := fun _ _ _ => True
  drop := fun file id => w.resolve file id = none

/-- Links of the copy, in the document `t'` it belongs to, resolve to what they resolved to before
the copy (in `w`), and only links that did not resolve are dropped. -/
def linkRules (w : World) (t' : Doc) : CopyRules where
  draw := fun _ _ => True
  link := fun file id id' => ∃ tgt, t'.referTarget id' = some tgt ∧
    ∀ tgt0, w.resolve file id = some tgt0 → tgt = tgt0
  drop := fun file id => w.resolve file id = none

/-- The graphic of a drawing that belongs to the document at `file` shows a picture with these
bytes. -/
def ShowsPicture (w : World) (file : Option DocId) (g : Graphic) (data : Bytes) : Prop :=
  ∃ gd pic bf, g.data = some gd ∧ gd.pic = some pic ∧ pic.blipFill = some bf ∧
    HasPicture w file bf.blip.embed data

/-- `g'` shows the picture `g` showed, with the bytes `data` served by document `t'`. -/
def PictureKept (t' : Doc) (g g' : Graphic) (data : Bytes) : Prop :=
  ∃ gd pic pic' bf', g.data = some gd ∧ gd.pic = some pic ∧
    g' = { g with data := some { gd with pic := some pic' } } ∧ SamePicture pic pic' ∧
    pic'.blipFill = some bf' ∧ ServesPicture t' bf'.blip.embed data

/-- A graphic that is a shape or a canvas, not a picture. -/
def ShowsShape (g : Graphic) : Prop :=
  ∃ gd, g.data = some gd ∧ gd.pic = none ∧ (gd.shape ≠ none ∨ gd.canvas ≠ none)

/-- Pictures of the copy show, in the document `t'` at `to` that they belong to, the bytes they showed
before (in `w`).  A picture of the document `to` itself (`t` before the copy) is promised this only
when new pictures get new names there.  Shapes and canvases are taken over as they are. -/
def pictureRules (w : World) (to : DocId) (t t' : Doc) : CopyRules where
  draw := fun d d' =>
    (∀ i g data, d.inl = some i → i.graphic = some g → ShowsPicture w i.file g data →
      (i.file = some to → NamesAhead t ∧ MediaFound t) →
      ∃ dp g', d' = { inl := some { i with docPr := some dp, file := some to, graphic := some g' } } ∧
        PictureKept t' g g' data) ∧
    (∀ a g data, d.inl = none → d.anchor = some a → a.graphic = some g → ShowsPicture w a.file g data →
      (a.file = some to → NamesAhead t ∧ MediaFound t) →
      ∃ dp g', d' = { anchor := some { a with docPr := some dp, file := some to, graphic := some g' } } ∧
        PictureKept t' g g' data) ∧
    (∀ i g, d.inl = some i → i.graphic = some g → ShowsShape g → d' = { inl := some i }) ∧
    (∀ a g, d.inl = none → d.anchor = some a → a.graphic = some g → ShowsShape g →
      d' = { anchor := some a }) ∧
    (d.inl = none → d.anchor = none → d' = {})
  link := fun _ _ _ => True
  drop := fun file id => w.resolve file id = none

end Docx

namespace Docx

/-- All documents of `w` are still there, unchanged, in `w'`. -/
def Keeps (w w' : World) : Prop := ∀ (d : DocId) (f : Doc), w[d]? = some f → w'[d]? = some f

/-- The relationship and picture counters of `t0` do not wrap around while as many relationships and
media are added as `t'` has more than `t0`. -/
structure Room (t0 t' : Doc) : Prop where
  rels : t0.rID.toNat + (t'.rels.length - t0.rels.length) < 2 ^ 64
  media : t0.imageID.toNat + (t'.media.length - t0.media.length) < 2 ^ 64

/-- Both rules for links and rules for pictures. -/
def fullRules (w : World) (to : DocId) (t t' : Doc) : CopyRules where
  draw := (pictureRules w to t t').draw
  link := (linkRules w t').link
  drop := fun file id => w.resolve file id = none

/-- The paragraphs of a body item: itself, or those of the cells of a table. -/
def BItem.paras : BItem → List Para
  | .para p => [p]
  | .table t => t.rows.flatMap fun r => r.cells.flatMap fun c => c.paras
  | .sect _ => []

/-- The printed text of a body item. -/
def itemText [HashEnv] (w : World) : BItem → Res String
  | .para p => p.str w
  | .table t => t.str w
  | .sect _ => .ok ""

/-- A drawing that is a shape, a canvas or empty. -/
def Drawing.NoPicture (d : Drawing) : Prop :=
  (∃ i g, d.inl = some i ∧ i.graphic = some g ∧ ShowsShape g) ∨
  (∃ a g, d.inl = none ∧ d.anchor = some a ∧ a.graphic = some g ∧ ShowsShape g) ∨
  (d.inl = none ∧ d.anchor = none)

/-- A paragraph whose links all resolve and whose drawings are shapes or canvases. -/
def Para.Simple (w : World) (p : Para) : Prop :=
  (∀ h, .link h ∈ p.children → w.resolve p.file h.id ≠ none) ∧ ∀ d ∈ p.drawings, d.NoPicture

/-- The graphic of a drawing belonging to `file` can be copied into the document at `to`: it is there,
and a picture in it with an embed id belongs to a document, has its non-visual properties, and its id
resolves to a target of at least six bytes (or does not resolve, in a document other than `to`). -/
def GraphicCopyable (w : World) (to : DocId) (file : Option DocId) (g : Option Graphic) : Prop :=
  ∃ gr gd, g = some gr ∧ gr.data = some gd ∧
    ∀ pic bf, gd.pic = some pic → pic.blipFill = some bf → Owned w file ∧ pic.nvPicPr ≠ none ∧
      ((∃ tgt, w.resolve file bf.blip.embed = some tgt ∧ 6 ≤ tgt.utf8ByteSize) ∨
       (w.resolve file bf.blip.embed = none ∧ file ≠ some to))

/-- A drawing that can be copied; only the inline form is looked at when there is one. -/
def Drawing.Copyable (w : World) (to : DocId) (d : Drawing) : Prop :=
  match d.inl with
  | some i => GraphicCopyable w to i.file i.graphic
  | none => ∀ a, d.anchor = some a → GraphicCopyable w to a.file a.graphic

/-- A run all whose drawings can be copied. -/
def Run.Copyable (w : World) (to : DocId) (r : Run) : Prop :=
  ∀ d, .drawing d ∈ r.children → d.Copyable w to

/-- A paragraph that can be copied: its drawings can, also those in links, and if it has links it
belongs to a document. -/
def Para.Copyable (w : World) (to : DocId) (p : Para) : Prop :=
  (∀ r, .run r ∈ p.children → r.Copyable w to) ∧
  (∀ h, .link h ∈ p.children → Owned w p.file ∧ h.run.Copyable w to)

/-- `Media(name)` never panics in any document. -/
def MediaSafe (w : World) : Prop := ∀ (d : DocId) (f : Doc), w[d]? = some f →
  ∀ name, f.getMedia name ≠ .panic

end Docx

/-! ## Drawing ids (C10) and builder histories -/

namespace Docx

/-- The `id` attributes of the `docPr` elements of a drawing. -/
def Drawing.docPrIds (d : Drawing) : List Int64 :=
  (match d.inl with
   | some i => (match i.docPr with | some p => [p.id] | none => [])
   | none => []) ++
  (match d.anchor with
   | some a => (match a.docPr with | some p => [p.id] | none => [])
   | none => [])

/-- The drawings of a run. -/
def Run.draws (r : Run) : List Drawing := r.children.filterMap RChild.drawing?

/-- The drawings of a child of a paragraph, a link included. -/
def PChild.draws : PChild → List Drawing
  | .run r => r.draws
  | .link h => h.run.draws
  | .rpr _ => []

def Para.draws (p : Para) : List Drawing := p.children.flatMap PChild.draws
def Cell.draws (c : Cell) : List Drawing := c.paras.flatMap Para.draws
def Row.draws (r : Row) : List Drawing := r.cells.flatMap Cell.draws

def BItem.draws : BItem → List Drawing
  | .para p => p.draws
  | .table t => t.rows.flatMap Row.draws
  | .sect _ => []

/-- All drawings in the body of a document, in order: in paragraphs, links and tables. -/
def Doc.draws (f : Doc) : List Drawing := f.items.flatMap BItem.draws

/-- The ids of all drawings of a document. -/
def Doc.docPrIds (f : Doc) : List Int64 := f.draws.flatMap Drawing.docPrIds

/-- The graphic of a drawing, if there is one, is neither a shape nor a canvas. -/
def Drawing.NoShape (d : Drawing) : Prop :=
  (∀ i g gd, d.inl = some i → i.graphic = some g → g.data = some gd → gd.shape = none ∧ gd.canvas = none) ∧
  (∀ a g gd, d.anchor = some a → a.graphic = some g → g.data = some gd → gd.shape = none ∧ gd.canvas = none)

/-- Calls that build documents from nothing: all but `LoadBodyItems`, `AppendFile`,
`SplitByParagraph` and arbitrary changes of exported data. -/
def Op.Builds : Op → Prop
  | .load _ _ => False
  | .append _ _ => False
  | .split _ _ => False
  | .edit _ _ => False
  | _ => True

end Docx
