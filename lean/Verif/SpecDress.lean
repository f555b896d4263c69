import Verif.SpecMakes
import Verif.SpecXml

/-!
# The formatting of a document, and what the calls say it should be (C101)

`Dress` describes the formatting of a document: the properties of every paragraph, run, link, table, row and cell.
There are no texts, ids or pictures in it.  `Call.dresses` says what a call does to it, `Dressed` follows a program
with several documents.
-/

namespace Docx

/-- The formatting of a paragraph: its own, and the Go type and the formatting of every child -/
structure ParaDress where
  props : Option PPr := none
  runs : List (String × Option RPr) := []
deriving DecidableEq

/-- The formatting of a piece of a document -/
inductive Dress where
  | para (p : ParaDress)
  /-- the widths of the columns; rows with their cells with their paragraphs -/
  | table (props : Option TblPr) (grid : Option (List (Option Int64)))
      (rows : List (Option TrPr × List (Option TcPr × List ParaDress)))
  | page
deriving DecidableEq

/-! ## Reading a document -/

/-- A child of a paragraph -/
def childDress : PChild → String × Option RPr
  | .run r => ("*docx.Run", r.rpr)
  | .link h => ("*docx.Hyperlink", h.run.rpr)
  | .rpr _ => ("*docx.RunProperties", none)

/-- A paragraph -/
def paraDress (p : Para) : ParaDress := ⟨p.props, p.children.map childDress⟩

/-- A piece of a body -/
def itemDress : BItem → Dress
  | .para p => .para (paraDress p)
  | .table t => .table t.props t.grid (t.rows.map fun r => (r.props, r.cells.map fun c => (c.props, c.paras.map paraDress)))
  | .sect _ => .page

/-- A document -/
def Doc.dress (f : Doc) : List Dress := f.items.map itemDress

/-! ## What calls do -/

/-- Change the formatting of the paragraph at a place -/
def dressAt (l : Loc) (k : ParaDress → ParaDress) (ds : List Dress) : List Dress :=
  match l with
  | .body i => ds.modify i fun
    | .para p => .para (k p)
    | d => d
  | .cell i r c j => ds.modify i fun
    | .table ps gr rows => .table ps gr (rows.modify r fun row => (row.1, row.2.modify c fun cell => (cell.1, cell.2.modify j k)))
    | d => d

/-- One more child of the paragraph at a place -/
def wearAt (l : Loc) (kind : String) (style : RPr) : List Dress → List Dress :=
  dressAt l fun p => { p with runs := p.runs ++ [(kind, some style)] }

/-- The properties of a new table -/
def freshTable (width : Int64) (colors : Option BorderColors) : TblPr :=
  let side (s : String) : Option Border :=
    some { val := "single", size := 4, space := 0, color := if s = "" then "#000000" else s }
  let b := colors.getD {}
  { width := some (if width > 0 then { w := width } else { type := "auto" })
    borders := some { top := side b.top, left := side b.left, bottom := side b.bottom, right := side b.right,
                      insideH := side b.insideH, insideV := side b.insideV }
    look := some { val := "0000" } }

/-- The Go type of a piece -/
def Dress.kind : Dress → String
  | .para _ => "*docx.Paragraph"
  | .table _ _ _ => "*docx.Table"
  | .page => "*docx.SectPr"

/-- What a call does to the formatting of the document -/
def Call.dresses [ImgEnv] : Call → List Dress → List Dress
  | .paragraph, ds => ds ++ [.para {}]
  | .cellParagraph i r c, ds => ds.modify i fun
      | .table ps gr rows => .table ps gr (rows.modify r fun row => (row.1, row.2.modify c fun cell => (cell.1, cell.2 ++ [{}])))
      | d => d
  | .table rows cols width colors, ds =>
      ds ++ [.table (some (freshTable width colors)) (some []) (List.replicate rows.toInt.toNat
        (some {}, List.replicate cols.toInt.toNat (some { width := some { type := "auto" } }, [])))]
  | .tableTwips heights widths width colors, ds =>
      ds ++ [.table (some (freshTable width colors)) (some (widths.map fun w => if w > 0 then some w else none)) (heights.map fun h =>
        (some { height := if h > 0 then some { val := h } else none },
          widths.map fun w => (some { width := some { w := w, type := "dxa" } }, [])))]
  | .a3, ds => ds ++ [.page]
  | .a4, ds => ds ++ [.page]
  | .text l _, ds => wearAt l "*docx.Run" {} ds
  | .tab l, ds => wearAt l "*docx.Run" {} ds
  | .pageBreak l, ds => wearAt l "*docx.Run" {} ds
  | .link l _ _, ds => wearAt l "*docx.Hyperlink" { runStyle := some "a3" } ds
  | .picture _ l pic, ds =>
      match ImgEnv.decodeSize pic with
      | none => ds
      | some _ => wearAt l "*docx.Run" {} ds
  | .shape _ l _ _ _ _ _ _, ds => wearAt l "*docx.Run" {} ds
  | .formatRun l k φ, ds => dressAt l (fun p => { p with runs := p.runs.modify k fun x => (x.1, x.2.map φ) }) ds
  | .formatPara l φ, ds => dressAt l (fun p => { p with props := φ p.props }) ds
  | .formatTable i φ, ds => ds.modify i fun
      | .table ps gr rows => .table (φ ps) gr rows
      | d => d
  | .formatRow i r φ, ds => ds.modify i fun
      | .table ps gr rows => .table ps gr (rows.modify r fun row => (φ row.1, row.2))
      | d => d
  | .formatCell i r c φ, ds => ds.modify i fun
      | .table ps gr rows => .table ps gr (rows.modify r fun row => (row.1, row.2.modify c fun cell => (φ cell.1, cell.2)))
      | d => d
  | .resize _ _ _ _, ds => ds
  | .textTab l _, ds => wearAt l "*docx.Run" {} ds
  | .place _ _ _ _ _, ds => ds
  | .keep names, ds => ds.filter fun d => names.contains d.kind
  | .drop _, ds => ds
  | .keepIn l names, ds => dressAt l (fun p => { p with runs := p.runs.filter fun x => names.contains x.1 }) ds
  | .dropIn _ _, ds => ds

/-- The formatting that a program of calls sets -/
def dressOf [ImgEnv] (cs : List Call) : List Dress := cs.foldl (fun ds c => c.dresses ds) []

/-! ## Programs with several documents -/

/-- The documents of a program, what they should show (as in `Makes`), and how they should be formatted -/
inductive Dressed [GoEnv] [ImgEnv] : World → List (List Block) → List (List Dress) → Prop
  | start : Dressed [] [] []
  | new {w s t} : Dressed w s t → Dressed (w ++ [Doc.new]) (s ++ [[]]) (t ++ [[]])
  | opening {w s t} (a : Archive) (g : Doc) : Dressed w s t → unpack w.length a = (g, none) →
      (∀ r ∈ g.rels, ∀ n, IdNumber r.id n → n < 2 ^ 62) → g.rels.length < 2 ^ 62 → NamesAhead g →
      (∀ b ∈ g.shows, KnownBlock b) → Dressed (w ++ [g]) (s ++ [g.shows]) (t ++ [g.dress])
  | call {w s t w'} (d : DocId) (c : Call) : Dressed w s t → step w (c.op d) = .ok w' →
      (∀ f ∈ w', f.rels.length < 2 ^ 62) → Dressed w' (s.modify d c.does) (t.modify d c.dresses)
  | append {w s t w'} (to src : DocId) : Dressed w s t → step w (.append to src) = .ok w' →
      (∀ f ∈ w', f.rels.length < 2 ^ 62) →
      Dressed w' (s.modify to (· ++ (s[src]?).getD [])) (t.modify to (· ++ (t[src]?).getD []))
  | split {w s t w'} (d : DocId) (sep : World → Para → Res Bool) (q : List Bit → Bool) : Dressed w s t →
      step w (.split d sep) = .ok w' →
      (∀ f p v, w[d]? = some f → .para p ∈ f.items → (∀ (e : DocId) g, w[e]? = some g → v[e]? = some g) →
        sep v p = .ok (q (viewPara f.referTarget f.pictureData p))) →
      (∀ f ∈ w', f.rels.length < 2 ^ 62) →
      Dressed w' (s ++ pieces (Block.accepted q) ((s[d]?).getD []))
        (t ++ (pieces (fun x => Block.accepted q x.1) (((s[d]?).getD []).zip ((t[d]?).getD []))).map (·.map (·.2)))
  | template {w s t w'} (d : DocId) (p : String) (l : List String) (tf : Option FS) : Dressed w s t →
      step w (.useTemplate d p l tf) = .ok w' → Dressed w' s t

/-! ## Saving -/

/-- The formatting of a paragraph after saving and opening: without its numbering -/
def dressedPara (p : ParaDress) : ParaDress :=
  { props := p.props.map fun x => { clPPr x with numPr := none }
    runs := p.runs.map fun x => (x.1, x.2.map clRPr) }

/-- The formatting of a piece after saving and opening: characters that XML cannot carry are replaced, the numbering
of paragraphs is lost, the numbers in the look of a table are reduced to their first digit -/
def savedDress : Dress → Dress
  | .para p => .para (dressedPara p)
  | .table ps gr rows => .table (ps.map fun x => { clTblPr x with look := (clTblPr x).look.map normLook })
      (gr.map (·.filter Option.isSome))
      (rows.map fun r => (r.1.map clTrPr, r.2.map fun c => (c.1.map clTcPr, c.2.map dressedPara)))
  | .page => .page

end Docx
