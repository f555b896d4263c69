import Verif.SpecText
import Verif.Pack

/-!
# The ways to write a piece of XML

XML leaves much open to the program that writes it: which quotes it uses, how it spaces its tags, which
characters it writes as references, whether it writes `<a/>` or `<a></a>`, and so on.  `Form n w` says
that the characters `w` are one of the ways to write the tree `n`.  It follows the XML standard for
element names in ASCII.
-/

namespace Docx

/-- The characters that the XML standard allows -/
def Allowed (c : Char) : Prop :=
  c = '\t' ∨ c = '\n' ∨ c = '\r' ∨ (0x20 ≤ c.toNat ∧ c.toNat ≤ 0xD7FF) ∨
    (0xE000 ≤ c.toNat ∧ c.toNat ≤ 0xFFFD) ∨ 0x10000 ≤ c.toNat

/-- White space -/
def Blank (cs : List Char) : Prop := ∀ c ∈ cs, c = ' ' ∨ c = '\t' ∨ c = '\n' ∨ c = '\r'

/-- The characters `part` do not stand side by side anywhere in `w`. -/
def Without (part : String) (w : List Char) : Prop := ∀ a b, w ≠ a ++ part.toList ++ b

/-- Digits -/
def Digit (base : Nat) (c : Char) (d : Nat) : Prop :=
  d < base ∧ ("0123456789abcdef".toList[d]? = some c ∨ "0123456789ABCDEF".toList[d]? = some c)

/-- Numbers, perhaps with leading zeros -/
inductive Numeral (base : Nat) : List Char → Nat → Prop
  | one {c d} : Digit base c d → Numeral base [c] d
  | more {cs n c d} : Numeral base cs n → Digit base c d → Numeral base (cs ++ [c]) (n * base + d)

/-- The references that stand for a character -/
inductive Reference : Char → List Char → Prop
  | lt : Reference '<' "&lt;".toList
  | gt : Reference '>' "&gt;".toList
  | amp : Reference '&' "&amp;".toList
  | apos : Reference '\'' "&apos;".toList
  | quot : Reference '"' "&quot;".toList
  | dec {c ds} : Numeral 10 ds c.toNat → Reference c ("&#".toList ++ ds ++ [';'])
  | hex {c ds} : Numeral 16 ds c.toNat → Reference c ("&#x".toList ++ ds ++ [';'])

/-- Where a text is written: between tags, in an attribute value with these quotes, in a CDATA section -/
inductive Spot where
  | between
  | value (quote : Char)
  | cdata

/-- May the character stand for itself? -/
def Spot.takes : Spot → Char → Prop
  | .between, c => c ≠ '<' ∧ c ≠ '&'
  | .value q, c => c ≠ '<' ∧ c ≠ '&' ∧ c ≠ q
  | .cdata, _ => True

/-- The ways to write a text: characters stand for themselves or are references; a line break is LF, CR LF
or CR. -/
inductive Spelled (p : Spot) : List Char → List Char → Prop
  | nil : Spelled p [] []
  | self {c s w} : Allowed c → c ≠ '\r' → p.takes c → Spelled p s w → Spelled p (c :: s) (c :: w)
  | reference {c r s w} : p ≠ .cdata → Allowed c → Reference c r → Spelled p s w → Spelled p (c :: s) (r ++ w)
  | crlf {s w} : Spelled p s w → Spelled p ('\n' :: s) ('\r' :: '\n' :: w)
  | cr {s w} : w.head? ≠ some '\n' → Spelled p s w → Spelled p ('\n' :: s) ('\r' :: w)

/-- The ways to write attributes, with the space before each of them -/
inductive AttrForms : List Attr → List Char → Prop
  | nil : AttrForms [] []
  | cons {a : Attr} {as : List Attr} {b b1 b2 v w : List Char} {quote : Char} : nameOk a.name = true →
      b ≠ [] → Blank b → Blank b1 → Blank b2 → quote = '"' ∨ quote = '\'' →
      Spelled (.value quote) a.val.toList v → AttrForms as w →
      AttrForms (a :: as) (b ++ a.name.chars ++ b1 ++ ['='] ++ b2 ++ [quote] ++ v ++ [quote] ++ w)

/-- An optional attribute of an XML declaration -/
inductive DeclPart (name : String) (ok : List Char → Prop) : List Char → Prop
  | none : DeclPart name ok []
  | some {b v quote} : b ≠ [] → Blank b → ok v → quote = '"' ∨ quote = '\'' →
      DeclPart name ok (b ++ name.toList ++ ['=', quote] ++ v ++ [quote])

/-- The name `utf-8` in upper or lower case -/
def Utf8Name (v : List Char) : Prop := v.map Char.toLower = "utf-8".toList

/-- `yes` or `no` -/
def YesNo (v : List Char) : Prop := v = "yes".toList ∨ v = "no".toList

/-- The target of a processing instruction: `xml` has a meaning of its own. -/
def Target (t : String) : Prop := plainName t = true ∧ t.toList.map Char.toLower ≠ "xml".toList

/-- The inside of a document type declaration: quoted texts, declarations, comments and other characters -/
inductive TypeDecl : List Char → Prop
  | nil : TypeDecl []
  | char {c w} : c ≠ '<' → c ≠ '>' → c ≠ '"' → c ≠ '\'' → TypeDecl w → TypeDecl (c :: w)
  | quoted {quote v w} : quote = '"' ∨ quote = '\'' → quote ∉ v → TypeDecl w →
      TypeDecl (quote :: (v ++ [quote] ++ w))
  | declaration {v w} : (∀ r, v ≠ "!--".toList ++ r) → TypeDecl v → TypeDecl w →
      TypeDecl ('<' :: (v ++ ['>'] ++ w))
  | comment {v w} : Without "-->" v → TypeDecl w → TypeDecl ("<!--".toList ++ v ++ "-->".toList ++ w)

/-- The pieces of a file that are neither elements nor text -/
inductive Misc : List Char → Prop
  /-- A comment -/
  | comment {v} : Without "--" (v ++ ['-']) → Misc ("<!--".toList ++ v ++ "-->".toList)
  /-- A processing instruction -/
  | instruction {target : String} {b v} : Target target → b ≠ [] → Blank b →
      Without "?>" v → Misc ("<?".toList ++ target.toList ++ b ++ v ++ "?>".toList)
  /-- A processing instruction without data -/
  | bare {target : String} : Target target → Misc ("<?".toList ++ target.toList ++ "?>".toList)
  /-- The XML declaration -/
  | declaration {b b' w w' quote} : b ≠ [] → Blank b → quote = '"' ∨ quote = '\'' →
      DeclPart "encoding" Utf8Name w → DeclPart "standalone" YesNo w' → Blank b' →
      Misc ("<?xml".toList ++ b ++ "version=".toList ++ [quote] ++ "1.0".toList ++ [quote] ++ w ++ w' ++ b' ++
        "?>".toList)
  /-- The document type declaration -/
  | documentType {w} : TypeDecl w → Misc ("<!DOCTYPE".toList ++ w ++ ['>'])

mutual
/-- The ways to write a piece that begins with a tag or a mark -/
inductive Form : Node → List Char → Prop
  | elem {q as kids wa wk b b'} : nameOk q = true → AttrForms as wa → Blank b → Forms kids wk → Blank b' →
      Form (.elem q as kids) (['<'] ++ q.chars ++ wa ++ b ++ ['>'] ++ wk ++ ['<', '/'] ++ q.chars ++ b' ++ ['>'])
  | empty {q as wa b} : nameOk q = true → AttrForms as wa → Blank b →
      Form (.elem q as []) (['<'] ++ q.chars ++ wa ++ b ++ ['/', '>'])
  | cdata {s : String} {w} : Spelled .cdata s.toList w → Without "]]>" w →
      Form (.text s) ("<![CDATA[".toList ++ w ++ "]]>".toList)
  | misc {w} : Misc w → Form .other w
/-- The ways to write pieces in a row; a text ends where the next tag or mark begins. -/
inductive Forms : List Node → List Char → Prop
  | nil : Forms [] []
  | cons {n ns w ws} : Form n w → Forms ns ws → Forms (n :: ns) (w ++ ws)
  | text {s : String} {ns w ws} : Spelled .between s.toList w → w ≠ [] → Without "]]>" w →
      ws = [] ∨ ws.head? = some '<' → Forms ns ws → Forms (.text s :: ns) (w ++ ws)
end

/-- Two archives with the same parts in the same order, where the document and the table of relationships
may be written in different ways -/
inductive Rewritten : Archive → Archive → Prop
  | nil : Rewritten [] []
  | same {e : Entry} {a a' : Archive} : Rewritten a a' → Rewritten (e :: a) (e :: a')
  | xml {name : String} {ns : List Node} {w w' : List Char} {a a' : Archive} :
      name = "word/document.xml" ∨ name = "word/_rels/document.xml.rels" → Forms ns w → Forms ns w' →
      Rewritten a a' → Rewritten (⟨name, .ok ⟨utf8 w, none⟩⟩ :: a) (⟨name, .ok ⟨utf8 w', none⟩⟩ :: a')

end Docx
