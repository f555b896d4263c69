import Verif.SpecParts

/-!
# Where the relationships of the document lead (C85)

ECMA-376 part 2: a relationship has a target.  The target of an external relationship is any address; the
target of every other relationship is the name of a part, relative to the folder of the part that has the
relationships, which is `word` for the document.  Word refuses to open a package in which the part is missing.
-/

namespace Docx

/-- The name of the part for the target of a relationship of `word/document.xml`: from the root of the package if
it begins with a slash, from the folder above if it begins with `../`, and otherwise from the folder `word` -/
def targetPart (target : String) : String :=
  match target.toList with
  | '/' :: cs => String.ofList cs
  | '.' :: '.' :: '/' :: cs => String.ofList cs
  | _ => "word/" ++ target

/-- The relationship is external or its part is among these. -/
def Leads (parts : List String) (r : Rel) : Prop := r.targetMode = "External" ∨ targetPart r.target ∈ parts

/-- The archive has a table of the relationships of the document that can be read as XML and holds these. -/
def HasTable (out : Saved) (rels : List Rel) : Prop :=
  ∃ kids, HasXml out "word/_rels/document.xml.rels" "Relationships" kids ∧ relsOf kids = rels

/-- The parts that a new document refers to, whether or not they exist -/
def newParts : List String := ["word/styles.xml", "word/theme/theme1.xml", "word/fontTable.xml"]

end Docx
