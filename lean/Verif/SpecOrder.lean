import Verif.SpecNames
import Verif.SpecXml

/-!
# The order of attributes (C81)

In XML the attributes of an element have no order.  `sameAttrs` compares the attributes of two start tags
without looking at prefixes, at unknown attributes and at the order.  It asks that no two attributes have
the same name apart from the prefix and that numbers are well-formed, since the library depends on the
order otherwise.
-/

namespace Docx

/-- The attributes of an element that have to be numbers: those of a section, and `numeric` -/
def numbersOf (l : String) : List String :=
  match l with
  | "pgSz" => ["w", "h"]
  | "pgMar" => ["top", "left", "bottom", "right", "header", "footer", "gutter"]
  | "cols" => ["space"]
  | "docGrid" => ["linePitch"]
  | _ => numeric l

/-- The elements that tell the size and the margins of pages; their numbers have no fraction. -/
def pageElements : List String := ["pgSz", "pgMar", "cols", "docGrid"]

/-- A number as the library reads it in this element -/
def goodNumber [GoEnv] (l v : String) : Prop :=
  if l ∈ pageElements then (atoi? v).isSome = true else (getInt v).2 = none

/-- The attributes of two elements with this name, in any order -/
def sameAttrs [GoEnv] (l : String) (as as' : List Attr) : Prop :=
  readable as = readable as' ∨
    (readable as).Perm (readable as') ∧ ((readable as).map (·.1)).Nodup ∧
      ∀ x ∈ readable as, x.1 ∈ numbersOf l → goodNumber l x.2

mutual
/-- Two trees that differ in prefixes, in attributes the library does not know and in the order of
attributes, only -/
def likeNode [GoEnv] : Node → Node → Prop
  | .elem q as ks, .elem q' as' ks' => q.loc = q'.loc ∧ sameAttrs q.loc as as' ∧ likeNodes ks ks'
  | .text s, .text s' => s = s'
  | .other, .other => True
  | _, _ => False
/-- The same for sequences of trees -/
def likeNodes [GoEnv] : List Node → List Node → Prop
  | [], [] => True
  | n :: ns, n' :: ns' => likeNode n n' ∧ likeNodes ns ns'
  | _, _ => False
end

/-- Two files like that; the root elements may have any attributes. -/
def likeFile [GoEnv] : List Node → List Node → Prop
  | [], [] => True
  | .elem q _ ks :: r, .elem q' _ ks' :: r' => q.loc = q'.loc ∧ likeNodes ks ks' ∧ likeNodes r r'
  | .text s :: r, .text s' :: r' => s = s' ∧ likeFile r r'
  | .other :: r, .other :: r' => likeFile r r'
  | _, _ => False

/-- The attributes of a relationship: their names without prefixes, and values -/
def columns (as : List Attr) : List (String × String) :=
  (as.filter fun a => ["Id", "Type", "Target", "TargetMode"].contains a.name.loc).map fun a => (a.name.loc, a.val)

/-- The relationships in two tables are the same, with attributes in any order; what else is in the tables
plays no part. -/
def sameTable : List Node → List Node → Prop
  | [], [] => True
  | .elem q as _ :: r, .elem q' as' _ :: r' => q.loc = q'.loc ∧
      (q.loc = "Relationship" → columns as = columns as' ∨
        (columns as).Perm (columns as') ∧ ((columns as).map (·.1)).Nodup) ∧ sameTable r r'
  | .elem _ _ _ :: _, _ => False
  | _, .elem _ _ _ :: _ => False
  | _ :: r, _ :: r' => sameTable r r'
  | _, _ => False

/-- The name spaces declared for names without a prefix -/
def rootNames (as : List Attr) : List String := (as.filter fun a => a.name.loc == "xmlns").map Attr.val

/-- Two archives with the same parts in the same order, where the document may differ in its prefixes, in
unknown attributes, in the order of attributes, and in the way it is written, and the table of
relationships as well -/
inductive Reordered [GoEnv] : Archive → Archive → Prop
  | nil : Reordered [] []
  | same {e : Entry} {a a' : Archive} : Reordered a a' → Reordered (e :: a) (e :: a')
  | document {ns ns' : List Node} {w w' : List Char} {a a' : Archive} :
      likeFile ns ns' → Forms ns w → Forms ns' w' → Reordered a a' →
      Reordered (⟨"word/document.xml", .ok ⟨utf8 w, none⟩⟩ :: a) (⟨"word/document.xml", .ok ⟨utf8 w', none⟩⟩ :: a')
  | table {pre post pre' post' : List Node} {q q' : QName} {as as' : List Attr} {ks ks' : List Node}
      {w w' : List Char} {a a' : Archive} :
      pre.all (fun n => !n.isElem) = true → pre'.all (fun n => !n.isElem) = true →
      rootNames as = rootNames as' → sameTable ks ks' →
      Forms (pre ++ .elem q as ks :: post) w → Forms (pre' ++ .elem q' as' ks' :: post') w' → Reordered a a' →
      Reordered (⟨"word/_rels/document.xml.rels", .ok ⟨utf8 w, none⟩⟩ :: a)
        (⟨"word/_rels/document.xml.rels", .ok ⟨utf8 w', none⟩⟩ :: a')

end Docx
