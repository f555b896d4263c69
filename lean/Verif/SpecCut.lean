import Verif.SpecForms

/-!
# Damaged and foreign parts

What it means that a part of a package is cut short, cannot be read, or is declared as something that the library
does not read.
-/

namespace Docx

/-- The two parts of a package that are read as XML -/
def ReadPart (name : String) : Prop := name = "word/document.xml" ∨ name = "word/_rels/document.xml.rels"

/-- The second archive has the same parts in the same order; of some of the parts that are read as XML, the first
holds only the beginning (perhaps nothing), after which its reader may also report an error. -/
inductive CutShort : Archive → Archive → Prop
  | nil : CutShort [] []
  | same {e : Entry} {a a' : Archive} : CutShort a a' → CutShort (e :: a) (e :: a')
  | cut {name : String} {bs more : Bytes} {err : Option Err} {a a' : Archive} : ReadPart name → CutShort a a' →
      CutShort (⟨name, .ok ⟨bs, err⟩⟩ :: a) (⟨name, .ok ⟨bs ++ more, none⟩⟩ :: a')

/-- An XML declaration with another version than 1.0 or with another encoding than UTF-8 -/
inductive ForeignDecl : List Char → Prop
  | version {b v tail : List Char} {quote : Char} : b ≠ [] → Blank b → quote = '"' ∨ quote = '\'' →
      v ≠ [] → v ≠ "1.0".toList → quote ∉ v →
      Without "?>" ("version=".toList ++ [quote] ++ v ++ [quote] ++ tail) →
      ForeignDecl ("<?xml".toList ++ b ++ ("version=".toList ++ [quote] ++ v ++ [quote] ++ tail) ++ "?>".toList)
  | encoding {b b' v tail : List Char} {quote quote' : Char} : b ≠ [] → Blank b → quote = '"' ∨ quote = '\'' →
      b' ≠ [] → Blank b' → quote' = '"' ∨ quote' = '\'' → v ≠ [] → ¬ Utf8Name v → quote' ∉ v →
      Without "?>" ("version=".toList ++ [quote] ++ "1.0".toList ++ [quote] ++ b' ++ "encoding=".toList ++ [quote'] ++
        v ++ [quote'] ++ tail) →
      ForeignDecl ("<?xml".toList ++ b ++ ("version=".toList ++ [quote] ++ "1.0".toList ++ [quote] ++ b' ++
        "encoding=".toList ++ [quote'] ++ v ++ [quote'] ++ tail) ++ "?>".toList)

end Docx
