import Verif.SpecOoxml

/-!
# White space at the ends of texts (C66)

XML 1.0, 2.10 and ECMA-376, 17.3.3.31: the white space at the ends of the content of a `w:t` belongs to
the text only if the element has `xml:space="preserve"`.
-/

namespace Docx

/-- The characters XML calls white space -/
def xmlWhite (c : Char) : Bool := c == ' ' || c == '\t' || c == '\n' || c == '\r'

/-- The first or the last character is white space -/
def outerSpace (cs : List Char) : Bool := cs.head?.any xmlWhite || cs.getLast?.any xmlWhite

/-- The attribute that keeps white space -/
def preserveA : Attr := ⟨⟨"xml", "space"⟩, "preserve"⟩

/-- Some character data directly in an element has white space at an end -/
def Node.outer : Node → Bool
  | .elem _ _ kids => kids.any fun
    | .text s => outerSpace s.toList
    | _ => false
  | _ => false

/-- No `w:t` in the tree loses white space: those with white space at an end have the attribute -/
def SpaceKept (n : Node) : Prop := ∀ t ∈ n.find "w" "t", t.outer = true → preserveA ∈ t.attrsOf

/-- No `w:t` in the tree has an attribute -/
def Unmarked (n : Node) : Prop := ∀ t ∈ n.find "w" "t", t.attrsOf = []

/-- The pieces of a text between tabs and line breaks; `acc` is the piece read so far, in reverse -/
def textPieces (acc : List Char) : List Char → List (List Char)
  | [] => [acc.reverse]
  | c :: cs => if c = '\t' ∨ c = '\n' then acc.reverse :: textPieces [] cs else textPieces (c :: acc) cs

end Docx
