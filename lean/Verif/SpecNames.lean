import Verif.SpecForms

/-!
# Names in XML files (C80)

In XML a prefix is only an abbreviation: a file means the same with other prefixes, as long as they are
declared accordingly (`xmlns:p="..."`).  `sameNode` compares two trees without looking at prefixes and
at attributes the library does not know; `Node.rename` renames the prefixes of a file, with their
declarations.
-/

namespace Docx

/-- The names of the attributes the library reads, in any element -/
def attributeNames : List String :=
  ["val", "color", "fill", "themeFill", "themeFillTint", "beforeLines", "before", "line", "lineRule",
   "leftChars", "left", "firstLineChars", "firstLine", "hangingChars", "hanging", "pos", "ascii",
   "eastAsia", "hAnsi", "hint", "type", "space", "cx", "cy", "l", "t", "r", "b", "id", "name", "a",
   "noChangeAspect", "embed", "cstate", "amt", "rot", "flipH", "flipV", "x", "y", "prst",
   "relativeFrom", "tx", "ty", "sx", "sy", "flip", "algn", "dpi", "rotWithShape", "w", "len", "cap",
   "cmpd", "lim", "bwMode", "noChangeArrowheads", "txBox", "vert", "wrap", "lIns", "tIns", "rIns",
   "bIns", "anchor", "anchorCtr", "upright", "leftFromText", "rightFromText", "vertAnchor",
   "horzAnchor", "tblpXSpec", "tblpYSpec", "tblpX", "tblpY", "firstRow", "lastRow", "firstColumn",
   "lastColumn", "noHBand", "noVBand", "sz", "hRule", "h", "top", "bottom", "right", "header",
   "footer", "gutter", "linePitch", "pic", "uri", "distT", "distB", "distL", "distR", "simplePos",
   "relativeHeight", "behindDoc", "locked", "layoutInCell", "allowOverlap", "wrapText", "Requires"]

/-- The attributes among these that the library may read: their names without prefixes, and values -/
def readable (as : List Attr) : List (String × String) :=
  (as.filter fun a => attributeNames.contains a.name.loc).map fun a => (a.name.loc, a.val)

mutual
/-- Two trees that differ in prefixes and in attributes the library does not know, only -/
def sameNode : Node → Node → Prop
  | .elem q as ks, .elem q' as' ks' => q.loc = q'.loc ∧ readable as = readable as' ∧ sameNodes ks ks'
  | .text s, .text s' => s = s'
  | .other, .other => True
  | _, _ => False
/-- The same for sequences of trees -/
def sameNodes : List Node → List Node → Prop
  | [], [] => True
  | n :: ns, n' :: ns' => sameNode n n' ∧ sameNodes ns ns'
  | _, _ => False
end

/-- Two files like that; the root elements may have any attributes. -/
def sameFile : List Node → List Node → Prop
  | [], [] => True
  | .elem q _ ks :: r, .elem q' _ ks' :: r' => q.loc = q'.loc ∧ sameNodes ks ks' ∧ sameNodes r r'
  | .text s :: r, .text s' :: r' => s = s' ∧ sameFile r r'
  | .other :: r, .other :: r' => sameFile r r'
  | _, _ => False

/-- Is this attribute the declaration of a prefix? -/
def declaration (a : Attr) : Bool := a.name.pre == "xmlns"

/-- An attribute when the prefixes are renamed: its own prefix is replaced, and a declaration declares the
new prefix.  An attribute without a prefix stays. -/
def Attr.rename (f : String → String) (a : Attr) : Attr :=
  if declaration a then { a with name := ⟨"xmlns", f a.name.loc⟩ }
  else if a.name.pre = "" then a
  else { a with name := ⟨f a.name.pre, a.name.loc⟩ }

mutual
/-- A tree with other prefixes.  An element without a prefix may get one (`f ""`). -/
def Node.rename (f : String → String) : Node → Node
  | .elem q as ks => .elem ⟨f q.pre, q.loc⟩ (as.map (Attr.rename f)) (renameL f ks)
  | .text s => .text s
  | .other => .other
/-- The same for a sequence of trees -/
def renameL (f : String → String) : List Node → List Node
  | [] => []
  | n :: ns => n.rename f :: renameL f ns
end

/-- What is declared here keeps its name, or the name is none of an attribute the library reads, neither
before nor after. -/
def Attr.clear (f : String → String) (a : Attr) : Prop :=
  declaration a → f a.name.loc = a.name.loc ∨
    a.name.loc ∉ attributeNames ∧ f a.name.loc ∉ attributeNames

mutual
/-- This holds for all declarations in the tree. -/
def Node.clear (f : String → String) : Node → Prop
  | .elem _ as ks => (∀ a ∈ as, a.clear f) ∧ clearL f ks
  | .text _ => True
  | .other => True
/-- The same for a sequence of trees -/
def clearL (f : String → String) : List Node → Prop
  | [] => True
  | n :: ns => n.clear f ∧ clearL f ns
end

/-- Two archives with the same parts in the same order, where the document may differ in its prefixes, in
unknown attributes, and in the way it is written -/
inductive Prefixed : Archive → Archive → Prop
  | nil : Prefixed [] []
  | same {e : Entry} {a a' : Archive} : Prefixed a a' → Prefixed (e :: a) (e :: a')
  | document {ns ns' : List Node} {w w' : List Char} {a a' : Archive} :
      sameFile ns ns' → Forms ns w → Forms ns' w' → Prefixed a a' →
      Prefixed (⟨"word/document.xml", .ok ⟨utf8 w, none⟩⟩ :: a) (⟨"word/document.xml", .ok ⟨utf8 w', none⟩⟩ :: a')

end Docx
