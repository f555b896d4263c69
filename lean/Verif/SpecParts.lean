import Verif.SpecForms
import Verif.SpecPack

/-!
# The parts of a package, as readers look for them (C78, C79)

ECMA-376 part 2: every part of a package has a content type, which the file `[Content_Types].xml` gives
either for the name of the part (`Override`) or for its extension (`Default`).  A package with a part
without a type is damaged; Word refuses to open it.  The root relationships in `_rels/.rels` say which
part is the document.
-/

namespace Docx

/-- The value of the attribute without prefix -/
def attrOf (name : String) (as : List Attr) : Option String := (as.find? (·.name = ⟨"", name⟩)).map Attr.val

/-- The text in lower case; names of parts and extensions are compared without regard to case -/
def lowered (s : String) : List Char := s.toList.map Char.toLower

/-- What follows the last dot of the name, `none` if there is no dot in the last segment -/
def extensionOf (name : String) : Option String :=
  let tail := name.toList.reverse.takeWhile (· ≠ '.')
  if tail.length = name.toList.length ∨ '/' ∈ tail then none else some (String.ofList tail.reverse)

/-- Is this the type of the part with this name? -/
def overrides (part : String) : Node → Bool
  | .elem q as _ => q.loc = "Override" && (attrOf "PartName" as).any (fun p => lowered p = lowered ("/" ++ part))
  | _ => false

/-- Is this the type of parts with this extension? -/
def covers (ext : String) : Node → Bool
  | .elem q as _ => q.loc = "Default" && (attrOf "Extension" as).any (fun e => lowered e = lowered ext)
  | _ => false

/-- The attribute `ContentType` -/
def contentType : Node → Option String
  | .elem _ as _ => attrOf "ContentType" as
  | _ => none

/-- The type of a part, from the children of the root of `[Content_Types].xml` -/
def typeOf (types : List Node) (part : String) : Option String :=
  match types.find? (overrides part) with
  | some n => contentType n
  | none =>
    match extensionOf part with
    | none => none
    | some ext => (types.find? (covers ext)).bind contentType

/-- The archive has a file of this name that can be read as XML whose root has these children. -/
def HasXml (out : Saved) (name root : String) (kids : List Node) : Prop :=
  ∃ (cs : List Char) (before after : List Node) (q : QName) (as : List Attr), Stored out name (utf8 cs) ∧
    Forms (before ++ .elem q as kids :: after) cs ∧ (∀ n ∈ before ++ after, n.isElem = false) ∧ q.loc = root

/-- The types that ECMA-376 part 1 gives to the parts of a document -/
def standardParts : List (String × String) :=
  [("word/document.xml", "application/vnd.openxmlformats-officedocument.wordprocessingml.document.main+xml"),
   ("word/styles.xml", "application/vnd.openxmlformats-officedocument.wordprocessingml.styles+xml"),
   ("word/fontTable.xml", "application/vnd.openxmlformats-officedocument.wordprocessingml.fontTable+xml"),
   ("word/theme/theme1.xml", "application/vnd.openxmlformats-officedocument.theme+xml"),
   ("docProps/core.xml", "application/vnd.openxmlformats-package.core-properties+xml"),
   ("docProps/app.xml", "application/vnd.openxmlformats-officedocument.extended-properties+xml"),
   ("_rels/.rels", "application/vnd.openxmlformats-package.relationships+xml"),
   ("word/_rels/document.xml.rels", "application/vnd.openxmlformats-package.relationships+xml")]

/-- The types of the root relationships -/
def documentRelation : String := "http://schemas.openxmlformats.org/officeDocument/2006/relationships/officeDocument"

end Docx
