import Verif.Xml
import Verif.Doc

/-!
# References of the main part to the relationships part (C60)

The main part refers to links and pictures by relationship ids, in attributes whose prefix is `r`
(`r:id` of a hyperlink, `r:embed` of a picture).  Word refuses to open a file in which such an id has
no entry in the relationships part.
-/

namespace Docx

mutual
/-- The values of the attributes with prefix `r` in a tree, in document order -/
def refsOf : Node → List String
  | .elem _ as kids => (as.filter fun a => a.name.pre == "r").map (·.val) ++ refsOfL kids
  | .text _ => []
  | .other => []
/-- The same for a sequence of trees -/
def refsOfL : List Node → List String
  | [] => []
  | n :: ns => refsOf n ++ refsOfL ns
end

/-- The relationship list has an entry with this id -/
def HasRel (rels : List Rel) (id : String) : Prop := ∃ r ∈ rels, r.id = id

instance (rels : List Rel) (id : String) : Decidable (HasRel rels id) := by
  unfold HasRel; exact inferInstance

/-- Every reference of the tree has an entry -/
def RefsResolve (rels : List Rel) (n : Node) : Prop := ∀ id ∈ refsOf n, HasRel rels id

instance (rels : List Rel) (n : Node) : Decidable (RefsResolve rels n) := by
  unfold RefsResolve; exact inferInstance

/-! ## Files whose references resolve -/

/-- A rule for all start tags of a file; it looks at the local name, the attributes and the tokens
after the tag -/
def startsAll (T : String → List Attr → List Tok → Prop) : List Tok → Prop
  | [] => True
  | .start q as :: r => T q.loc as r ∧ startsAll T r
  | _ :: r => startsAll T r

/-- The attribute `l` is there and its value is one of the ids -/
def attrIn (ids : List String) (as : List Attr) (l : String) : Prop :=
  (∃ a ∈ as, a.name.loc = l) ∧ ∀ a ∈ as, a.name.loc = l → a.val ∈ ids

/-- The next token is the start tag of an element `l` -/
def startsWith (l : String) : List Tok → Prop
  | .start q _ :: _ => q.loc = l
  | _ => False

/-- Every link has an `r:id` among `ids` and no anchor; every picture an `r:embed` among `ids`; the
fill of a picture begins with the picture -/
def refStart (ids : List String) (l : String) (as : List Attr) (rest : List Tok) : Prop :=
  (l = "hyperlink" → attrIn ids as "id" ∧ ∀ a ∈ as, a.name.loc ≠ "anchor") ∧
    (l = "blip" → attrIn ids as "embed") ∧ (l = "blipFill" → startsWith "blip" rest)

/-- The references of the file are among `ids` -/
def refToks (ids : List String) (toks : List Tok) : Prop := startsAll (refStart ids) toks

instance (ids : List String) (as : List Attr) (l : String) : Decidable (attrIn ids as l) := by
  unfold attrIn; exact inferInstance

instance (l : String) (r : List Tok) : Decidable (startsWith l r) := by
  unfold startsWith; split <;> exact inferInstance

instance (ids : List String) (l : String) (as : List Attr) (r : List Tok) :
    Decidable (refStart ids l as r) := by
  unfold refStart; exact inferInstance

/-- `startsAll` can be decided -/
def decStartsAll (T : String → List Attr → List Tok → Prop) [∀ l as r, Decidable (T l as r)] :
    (ts : List Tok) → Decidable (startsAll T ts)
  | [] => .isTrue trivial
  | .start q as :: r =>
    have := decStartsAll T r
    inferInstanceAs (Decidable (T q.loc as r ∧ startsAll T r))
  | .stop _ :: r => decStartsAll T r
  | .chars _ :: r => decStartsAll T r
  | .other :: r => decStartsAll T r
  | .bad :: r => decStartsAll T r

instance (ids : List String) (ts : List Tok) : Decidable (refToks ids ts) :=
  decStartsAll (refStart ids) ts

end Docx
