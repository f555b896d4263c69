import Verif.Cli
import Verif.Spec

/-! # Specification for the command-line tool -/

namespace Docx

/-- The files created (and so emptied), in order -/
def created : List Ev → List String
  | [] => []
  | .create n :: es => n :: created es
  | _ :: es => created es

/-- The documents written, in order -/
def writtenDocs : List Ev → List (String × Doc)
  | [] => []
  | .wrote n d :: es => (n, d) :: writtenDocs es
  | _ :: es => writtenDocs es

/-- The texts printed, in order -/
def printed : List Ev → List String
  | [] => []
  | .print s :: es => s :: printed es
  | _ :: es => printed es

/-- The lines for the items of a document: the text of each paragraph and table, and nothing for
sections -/
inductive Lines [HashEnv] (w : World) : List BItem → List String → Prop
  | nil : Lines w [] []
  | para {p is s ls} (h : p.str w = .ok s) : Lines w is ls → Lines w (.para p :: is) ((s ++ "\n") :: ls)
  | table {t is s ls} (h : t.str w = .ok s) : Lines w is ls → Lines w (.table t :: is) ((s ++ "\n") :: ls)
  | sect {x is ls} : Lines w is ls → Lines w (.sect x :: is) ls

/-- `i` pieces of the file `dir/stem.ext`, numbered from `n` on, as they should be called -/
def pieceNames (dir stem ext : String) (n : Nat) : Nat → List String
  | 0 => []
  | i + 1 => (dir ++ "unmarshal_" ++ stem ++ "_split" ++ String.ofList (natRep n) ++ "." ++ ext) ::
      pieceNames dir stem ext (n + 1) i

/-- The characters of the string do not include `c` -/
def Lacks (c : Char) (s : String) : Prop := c ∉ s.toList

/-- `dir` is empty or ends with a slash -/
def IsDir (dir : String) : Prop := dir = "" ∨ ∃ d : String, dir = d ++ "/"

end Docx
