import Verif.SpecBuilt
import Verif.SpecClean
import Verif.SpecPieces

/-!
# Programs with several documents, and what they should show (C99)

`Makes w s`: a program has made calls that left the documents `w`, and by the meaning of the calls they should
show the blocks `s`.  The second list is computed from the calls alone: `Call.does` for the building calls,
concatenation for `AppendFile`, cutting for `SplitByParagraph`.  Only a file that is opened brings in what it shows.
-/

namespace Docx

/-- A paragraph whose pieces are accepted -/
def Block.accepted (q : List Bit → Bool) : Block → Bool
  | .para bits => q bits
  | _ => false

/-- The text of a piece as it is printed; drawings have none here -/
def Bit.words : Bit → String
  | .text s => s
  | .tab => "\t"
  | .newline => "\n"
  | .pageBreak => "\n"
  | .link label target => "[" ++ label ++ "](" ++ target ++ ")"
  | _ => ""

/-- The text of a paragraph -/
def bitsWords (bits : List Bit) : String := String.join (bits.map Bit.words)

/-- Pictures and shapes -/
def Bit.drawn : Bit → Bool
  | .picture _ _ => true
  | .shape _ _ _ _ => true
  | _ => false

/-- The documents of a program, and what they should show -/
inductive Makes [GoEnv] [ImgEnv] : World → List (List Block) → Prop
  | start : Makes [] []
  /-- `New` -/
  | new {w s} : Makes w s → Makes (w ++ [Doc.new]) (s ++ [[]])
  /-- `Parse` of a file without anything unknown in it, whose media are not named like the next pictures -/
  | opening {w s} (a : Archive) (g : Doc) : Makes w s → unpack w.length a = (g, none) →
      (∀ r ∈ g.rels, ∀ n, IdNumber r.id n → n < 2 ^ 62) → g.rels.length < 2 ^ 62 → NamesAhead g →
      (∀ b ∈ g.shows, KnownBlock b) → Makes (w ++ [g]) (s ++ [g.shows])
  /-- a building call on the document `d` -/
  | call {w s w'} (d : DocId) (c : Call) : Makes w s → step w (c.op d) = .ok w' →
      (∀ f ∈ w', f.rels.length < 2 ^ 62) → Makes w' (s.modify d c.does)
  /-- `to.AppendFile(src)` -/
  | append {w s w'} (to src : DocId) : Makes w s → step w (.append to src) = .ok w' →
      (∀ f ∈ w', f.rels.length < 2 ^ 62) → Makes w' (s.modify to (· ++ (s[src]?).getD []))
  /-- `SplitByParagraph` on the document `d`, with a rule that looks at what a paragraph shows -/
  | split {w s w'} (d : DocId) (sep : World → Para → Res Bool) (q : List Bit → Bool) : Makes w s →
      step w (.split d sep) = .ok w' →
      (∀ f p v, w[d]? = some f → .para p ∈ f.items → (∀ (e : DocId) g, w[e]? = some g → v[e]? = some g) →
        sep v p = .ok (q (viewPara f.referTarget f.pictureData p))) →
      (∀ f ∈ w', f.rels.length < 2 ^ 62) → Makes w' (s ++ pieces (Block.accepted q) ((s[d]?).getD []))
  /-- `UseTemplate` -/
  | template {w s w'} (d : DocId) (t : String) (l : List String) (tf : Option FS) : Makes w s →
      step w (.useTemplate d t l tf) = .ok w' → Makes w' s

end Docx
