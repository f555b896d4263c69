import Verif.SpecCli
import Verif.SpecJoinFiles
import Verif.Pack

/-!
# What the files hold that the command-line tool writes (C97)
-/

namespace Docx

/-- The links of a document in their order: label, and where the table of the document says they lead -/
def Doc.linkTargets (f : Doc) : List (String × Option String) :=
  (f.items.flatMap BItem.paras).flatMap fun p => p.children.filterMap fun
    | .link h => some (h.run.instr, f.referTarget h.id)
    | _ => none

/-- Whenever the document is saved successfully, what was saved can be opened; it has these texts and links. -/
def Doc.FileHolds [GoEnv] (T : Doc) (texts : List (List (List (List (List String)))))
    (links : List (String × Option String)) : Prop :=
  ∀ out, Saves T out none → ∀ n, ∃ g, unpack n (reread out) = (g, none) ∧
    bodyTexts g.items = texts ∧ g.linkTargets = links

/-- The file can be opened, its relationship ids are below 2^62, and its links have their relationships. -/
structure Readable [GoEnv] (a : Archive) (d : Doc) : Prop where
  opens : unpack 0 a = (d, none)
  ids : ∀ r ∈ d.rels, ∀ n, IdNumber r.id n → n < 2 ^ 62
  few : d.rels.length < 2 ^ 62
  links : ∀ l ∈ d.linkTargets, l.2 ≠ none

end Docx
