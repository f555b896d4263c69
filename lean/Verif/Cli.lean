import Verif.Theme
import Verif.World

/-!
# The command-line tool

Models cmd/main/main.go from the reading of the flags on: which files are created, what is written to
them and what is printed.  The demonstration document (main.go:49-154) is a parameter here and built in `Demo`.
Not modelled: the operating system, of which only the success of `os.Create` and of writing
is a parameter.
-/

namespace Docx

/-- cmd/main/main.go:37-43: the flags.  `file` is `-f`, `analyze` `-a`, `clean` `-c`, `unm` `-u`,
`splitre` `-s`, `dropProps` `-p`, `dup` `-d`. -/
structure Flags where
  file : String := "new-file.docx"
  analyze : Bool := false
  clean : Bool := false
  unm : Bool := false
  splitre : String := ""
  dropProps : Bool := false
  dup : UInt64 := 0

/-- What can be seen of a run: text printed by one call, a file that was created (and so
emptied), and a document written completely to it -/
inductive Ev where
  | print (s : String)
  | create (name : String)
  | wrote (name : String) (doc : Doc)

/-- The surroundings of the tool -/
class CliEnv where
  /-- does `os.Create` succeed? -/
  creates : String → Bool
  /-- do `WriteTo` and `Close` succeed? -/
  writes : String → Doc → Bool
  /-- `regexp.MustCompile` and `MatchString`; `none` is the panic for a bad expression -/
  compile : String → Option (String → Bool)
  /-- fs.go:25-29 `TemplateXMLFS` -/
  theme : FS

/-- A part of the run: what was seen, and the result; `none` is a panic, which ends the program -/
abbrev Cli (α : Type) := List Ev × Option α

/-- One part after the other -/
def Cli.bind {α β : Type} (x : Cli α) (f : α → Cli β) : Cli β :=
  match x with
  | (es, none) => (es, none)
  | (es, some a) => (es ++ (f a).1, (f a).2)

instance : Monad Cli where
  pure a := ([], some a)
  bind := Cli.bind

/-- `panic` -/
def Cli.panic {α : Type} : Cli α := ([], none)
/-- Something seen -/
def Cli.emit (e : Ev) : Cli Unit := ([e], some ())
/-- A call of the library; an error cannot come from the functions used here -/
def Cli.call {α : Type} : Res α → Cli α
  | .ok a => ([], some a)
  | .err _ => .panic
  | .panic => .panic

/-- `os.Create` followed by `panic(err)` (main.go:156-159, 207-210 and others) -/
def Cli.create [CliEnv] (name : String) : Cli Unit :=
  if CliEnv.creates name then .emit (.create name) else .panic

/-- `WriteTo` and `Close` followed by `panic(err)` (main.go:160-167, 211-218 and others) -/
def Cli.write [CliEnv] (name : String) (d : Doc) : Cli Unit :=
  if CliEnv.writes name d then .emit (.wrote name d) else .panic

/-! ## Names -/

/-- `strings.LastIndex(s, c)`; `none` is -1 -/
def lastIndex (c : Char) : List Char → Option Nat
  | [] => none
  | x :: xs =>
    match lastIndex c xs with
    | some i => some (i + 1)
    | none => if x = c then some 0 else none

/-- `i + 1` for an index that may be -1 -/
def after : Option Nat → Nat
  | none => 0
  | some i => i + 1

/-- main.go:205-206: the name for `-u` -/
def unmName (file : String) : String :=
  let cs := file.toList
  let i := after (lastIndex '/' cs)
  String.ofList (cs.take i ++ "unmarshal_".toList ++ cs.drop i)

/-- main.go:230-233: the name of piece `n`; `none` is a slice out of range -/
def pieceName (file : String) (n : Nat) : Option String :=
  let cs := file.toList
  let a := after (lastIndex '/' cs)
  match lastIndex '.' cs with
  | none => none
  | some b =>
    if a ≤ b then
      some (String.ofList (cs.take a ++ "unmarshal_".toList ++ (cs.take b).drop a ++
        "_split".toList ++ natRep n ++ cs.drop b))
    else none

/-- main.go:249-253: the name for `-d` -/
def dupName (file : String) : String :=
  let cs := file.toList
  match lastIndex '/' cs with
  | some (a + 1) => String.ofList (cs.take (a + 2) ++ "dup_".toList ++ cs.drop (a + 1))
  | _ => "dup_" ++ file

/-! ## The parts of `main` -/

/-- main.go:192, 197: `p.Properties = nil` -/
def Para.noProps (p : Para) : Para := { p with props := none }

/-- main.go:188-203: the loop for `-p` -/
def dropParaProps (items : List BItem) : List BItem :=
  items.map fun
    | .para p => .para p.noProps
    | .table t => .table { t with rows := t.rows.map fun r =>
        { r with cells := r.cells.map fun c => { c with paras := c.paras.map Para.noProps } } }
    | .sect s => .sect s

/-- main.go:185-203: `-c` and `-p` -/
def Flags.tidy (fl : Flags) (d : Doc) : Doc :=
  let d := if fl.clean then { d with items := dropDrawingOf "NilPicture" d.items } else d
  if fl.dropProps then { d with items := dropParaProps d.items } else d

/-- main.go:221-228: the text -/
def printItems [HashEnv] (w : World) : List BItem → Cli Unit
  | [] => pure ()
  | .para p :: is => do
    let s ← Cli.call (p.str w)
    Cli.emit (.print (s ++ "\n"))
    printItems w is
  | .table t :: is => do
    let s ← Cli.call (t.str w)
    Cli.emit (.print (s ++ "\n"))
    printItems w is
  | .sect _ :: is => printItems w is

/-- main.go:232-246: the pieces, from number `n` on -/
def writePieces [CliEnv] (file : String) (w : World) (n : Nat) : List DocId → Cli Unit
  | [] => pure ()
  | i :: is =>
    match pieceName file n, w[i]? with
    | some name, some d => do
      Cli.create name
      Cli.write name d
      writePieces file w (n + 1) is
    | _, _ => .panic

/-- main.go:259-261: append `n` times -/
def appendTimes (to src : DocId) : Nat → World → Res World
  | 0, w => .ok w
  | n + 1, w => do
    let w' ← w.appendFile to src
    appendTimes to src n w'

/-- main.go:258 `New().WithDefaultTheme().WithA4Page()` -/
def themedDoc [CliEnv] : Doc := (Doc.new.withDefaultTheme CliEnv.theme).withA4Page

/-- main.go:204-219: `-u` -/
def unmPart [CliEnv] (fl : Flags) (doc : Doc) : Cli Unit :=
  if fl.unm then do
    Cli.create (unmName fl.file)
    Cli.write (unmName fl.file) doc
  else pure ()

/-- main.go:229-247: `-s`; the result is the documents there are afterwards -/
def splitPart [CliEnv] [HashEnv] (fl : Flags) (doc : Doc) : Cli World :=
  if fl.splitre = "" then pure [doc]
  else match CliEnv.compile fl.splitre with
    | none => Cli.panic
    | some re => do
      let (w, ids) ← Cli.call (World.splitByParagraph [doc] 0 (splitByText re))
      writePieces fl.file w 0 ids
      pure w

/-- main.go:248-266: `-d`; the document is the one at address 0 -/
def dupPart [CliEnv] (fl : Flags) (w : World) : Cli Unit :=
  if 1 < fl.dup then do
    Cli.create (dupName fl.file)
    let w' ← Cli.call (appendTimes w.length 0 fl.dup.toInt64.toInt.toNat (w ++ [themedDoc]))
    match w'[w.length]? with
    | some d => Cli.write (dupName fl.file) d
    | none => Cli.panic
  else pure ()

/-- main.go:185-267: everything after `Parse`, for the parsed document -/
def mainRead [CliEnv] [HashEnv] (fl : Flags) (parsed : Doc) : Cli Unit := do
  unmPart fl (fl.tidy parsed)
  Cli.emit (.print "Plain text:\n")
  printItems [fl.tidy parsed] (fl.tidy parsed).items
  let w ← splitPart fl (fl.tidy parsed)
  dupPart fl w
  Cli.emit (.print "End of main\n")

/-- main.go:46-169: without `-a`, the demonstration document is written first -/
def demoPart [CliEnv] (fl : Flags) (demo : Option Doc) : Cli Unit :=
  if fl.analyze then pure ()
  else do
    Cli.emit (.print ("Preparing new document to write at " ++ fl.file ++ "\n"))
    match demo with
    | none => Cli.panic
    | some d => do
      Cli.create fl.file
      Cli.write fl.file d
      Cli.emit (.print "Document writen. \nNow trying to read it\n")

/-- cmd/main/main.go:36-268 `main`.  `demo` is the demonstration document (`none` when building it
panics) and `parsed` what opening and parsing the file gives (`none` is an error, so a panic). -/
def cliMain [CliEnv] [HashEnv] (fl : Flags) (demo parsed : Option Doc) : Cli Unit := do
  demoPart fl demo
  match parsed with
  | none => Cli.panic
  | some d => mainRead fl d

end Docx
