import Verif.Pack
import Verif.SpecXml
import Verif.Spec
import Verif.SpecText

/-!
# Specification vocabulary for packages
-/

namespace Docx

/-- The id is `rId` followed by the decimal number `n`, perhaps with leading zeros. -/
def IdNumber (id : String) (n : Nat) : Prop :=
  ∃ ds : List Char, ds ≠ [] ∧ (∀ c ∈ ds, '0' ≤ c ∧ c ≤ '9') ∧ id.toList = 'r' :: 'I' :: 'd' :: ds ∧
    n = ds.foldl (fun a c => a * 10 + (c.toNat - 48)) 0

/-- The ids that Parse accepts -/
def GoodId (id : String) : Prop := ∃ n, IdNumber id n ∧ n < 2 ^ 64

/-- The value of the last attribute with this local name, "" if there is none -/
def lastAttr (n : String) (as : List Attr) : String :=
  (((as.filter fun a => a.name.loc == n).map Attr.val).getLast?).getD ""

/-- The relationships among the children of the root element, in order: the elements called
`Relationship` (in any name space), with the attributes `Id`, `Type`, `Target` and `TargetMode`.
Everything else between them, and everything inside them, plays no part. -/
def relsOf : List Node → List Rel
  | [] => []
  | .elem q as _ :: ns =>
    if q.loc = "Relationship" then
      ⟨lastAttr "Id" as, lastAttr "Type" as, lastAttr "Target" as, lastAttr "TargetMode" as⟩ :: relsOf ns
    else relsOf ns
  | _ :: ns => relsOf ns

/-- Is the file under `word/media/`? -/
def isMediaName (s : String) : Bool := "word/media/".toList.isPrefixOf s.toList

/-- Neither the document nor its relationships nor a media file -/
def isOtherName (s : String) : Bool :=
  s != "word/document.xml" && s != "word/_rels/document.xml.rels" && !isMediaName s

/-- The content of the entry: what `Open` and reading to the end give; `none` if one of them fails -/
def Entry.content (e : Entry) : Option Bytes :=
  match e.file with
  | .ok ⟨b, none⟩ => some b
  | _ => none

/-- The media among the entries of an archive, in order: the name is what follows `word/media/` -/
def mediaIn (es : List Entry) : List Media :=
  (es.filter fun e => isMediaName e.name).map fun e =>
    ⟨String.ofList (e.name.toList.drop "word/media/".toList.length), e.content.getD []⟩

/-- A relative path without empty, `.` or `..` elements and without backslashes -/
def plainPath (s : String) : Bool := validPath s && s != "." && !s.toList.contains '\\'

/-- The last media stored under this name -/
def lastMedia (name : String) (ms : List Media) : Option Media := ms.reverse.find? fun m => m.name == name

/-- The bytes stored under a name in a saved archive -/
def Stored (out : Saved) (name : String) (b : Bytes) : Prop := (name, b) ∈ out

end Docx
