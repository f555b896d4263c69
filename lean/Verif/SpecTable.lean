import Verif.SpecPack
import Verif.Xml
import Verif.Doc

/-!
# The table of relationships, as readers of packages look for it (C77)

The standard (ECMA-376 part 2) puts the table of relationships of a part into a name space of its own, and
fixes the type of the relationship to each kind of part (ECMA-376 part 1).  A reader that goes by the
standard finds nothing in a table of another name space.
-/

namespace Docx

/-- The name space of tables of relationships, ECMA-376 part 2 -/
def tableSpace : String := "http://schemas.openxmlformats.org/package/2006/relationships"

/-- The name space of the attributes `r:id` and `r:embed` in documents, ECMA-376 part 1 -/
def referenceSpace : String := "http://schemas.openxmlformats.org/officeDocument/2006/relationships"

/-- The name space of elements without a prefix, from the attributes of an element and from outside -/
def defaultSpace (outer : String) (as : List Attr) : String :=
  match as.find? (·.name = ⟨"", "xmlns"⟩) with
  | some a => a.val
  | none => outer

mutual
/-- All elements of the tree are without prefix and in the name space `ns` -/
def allIn (ns outer : String) : Node → Prop
  | .elem q as kids => q.pre = "" ∧ defaultSpace outer as = ns ∧ allInL ns (defaultSpace outer as) kids
  | .text _ => True
  | .other => True
/-- The same for a sequence of trees -/
def allInL (ns outer : String) : List Node → Prop
  | [] => True
  | n :: ns' => allIn ns outer n ∧ allInL ns outer ns'
end

/-- The local name of an element -/
def Node.local? : Node → Option String
  | .elem q _ _ => some q.loc
  | _ => none

/-- The archive has a table of relationships for the document, all of whose elements are in the name
space `ns`: a root `Relationships` with one `Relationship` for each in the table of the document. -/
def TableIn (f : Doc) (out : Saved) (ns : String) : Prop :=
  ∃ q as kids, Stored out "word/_rels/document.xml.rels" (xmlBytes (.elem q as kids)) ∧
    q.loc = "Relationships" ∧ kids.map Node.local? = f.rels.map (fun _ => some "Relationship") ∧
    allIn ns "" (.elem q as kids)

/-- The types that ECMA-376 part 1 gives the relationships of a document -/
def standardType (kind : String) : String :=
  "http://schemas.openxmlformats.org/officeDocument/2006/relationships/" ++ kind

/-- The relationships that a document has which no other program made: to the styles, the theme, the
fonts, a file in the media folder, or somewhere outside the package. -/
inductive Standard : Rel → Prop
  | styles (id : String) : Standard ⟨id, standardType "styles", "styles.xml", ""⟩
  | theme (id : String) : Standard ⟨id, standardType "theme", "theme/theme1.xml", ""⟩
  | fonts (id : String) : Standard ⟨id, standardType "fontTable", "fontTable.xml", ""⟩
  | image (id name : String) : Standard ⟨id, standardType "image", "media/" ++ name, ""⟩
  | link (id target : String) : Standard ⟨id, standardType "hyperlink", target, "External"⟩

end Docx
