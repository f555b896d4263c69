import Verif.XmlText

/-!
# Specification vocabulary for XML text
-/

namespace Docx

/-- XML has no way to write some characters; they become U+FFFD. -/
def cleanChar (c : Char) : Char := if xmlChar c then c else '�'

/-- The string with the characters XML cannot write replaced -/
def clean (s : String) : String := String.ofList (s.toList.map cleanChar)

mutual
/-- All texts and attribute values cleaned -/
def Node.clean : Node → Node
  | .elem q as kids => .elem q (as.map fun a => ⟨a.name, Docx.clean a.val⟩) (cleanL kids)
  | .text s => .text (Docx.clean s)
  | .other => .other
/-- All texts and attribute values cleaned -/
def cleanL : List Node → List Node
  | [] => []
  | n :: ns => n.clean :: cleanL ns
end

/-- An ASCII name without colon, such as all names in Office files -/
def plainName (s : String) : Bool :=
  match s.toList with
  | [] => false
  | c :: cs => c.isAlpha && cs.all fun c => c.isAlphanum || c == '_' || c == '-' || c == '.'

/-- Prefix and local part are such names; the prefix may be missing -/
def nameOk (q : QName) : Bool := (q.pre == "" || plainName q.pre) && plainName q.loc

/-- Is it a text? -/
def Node.isText : Node → Bool
  | .text _ => true
  | _ => false

mutual
/-- A tree that can be told from its printed form: ordinary names, no comments, no empty text, and no
two texts side by side -/
def Node.printable : Node → Bool
  | .elem q as kids => nameOk q && as.all (fun a => nameOk a.name) && printableL kids
  | .text s => s != ""
  | .other => false
/-- The same for several pieces in a row -/
def printableL : List Node → Bool
  | [] => true
  | n :: ns => n.printable && !(n.isText && (ns.head?.map Node.isText).getD false) && printableL ns
end

mutual
/-- All texts and attribute values -/
def Node.strings : Node → List String
  | .elem _ as kids => as.map Attr.val ++ stringsL kids
  | .text s => [s]
  | .other => []
/-- All texts and attribute values -/
def stringsL : List Node → List String
  | [] => []
  | n :: ns => n.strings ++ stringsL ns
end

/-- Only characters that XML can write -/
def xmlText (s : String) : Prop := ∀ c ∈ s.toList, xmlChar c = true

end Docx
