import Verif.Pack

/-!
# Files that are opened and closed

The functions of `Verif.Pack` again, with a record of the files they open and close (unpack.go, pack.go).
`Lemmas/Handles.lean` proves that the results are those of `Verif.Pack`.
-/

namespace Docx

variable [GoEnv]

/-- What happens to a file: an `Open` that succeeds, and a `Close` of a file that is open -/
inductive FileEv where
  | opened (name : String)
  | closed (name : String)
deriving DecidableEq, Repr

/-- unpack.go:105-130 `parseDocRelation`: `defer zf.Close()` behind a successful `Open` (106-110) -/
def Doc.parseRelsT (f : Doc) (e : Entry) : (Doc × Option Err) × List FileEv :=
  match e.file with
  | .error x => ((f, some x), [])
  | .ok _ => (f.parseRels e, [.opened e.name, .closed e.name])

/-- unpack.go:77-102 `parseDocument`: `defer zf.Close()` behind a successful `Open` (78-82) -/
def Doc.parseDocumentT (f : Doc) (me : DocId) (e : Entry) : (Doc × Option Err) × List FileEv :=
  match e.file with
  | .error x => ((f, some x), [])
  | .ok _ => (f.parseDocument me e, [.opened e.name, .closed e.name])

/-- unpack.go:133-146 `parseMedia`: `Close` is the last statement (145); it is not reached when reading
fails (139-142) -/
def Doc.parseMediaT (f : Doc) (name : String) (e : Entry) : (Doc × Option Err) × List FileEv :=
  match e.file with
  | .error x => ((f, some x), [])
  | .ok s =>
    match s.err with
    | some x => ((f, some x), [.opened e.name])
    | none => ((f.addMedia ⟨name, s.data⟩, none), [.opened e.name, .closed e.name])

/-- unpack.go:46-71: one entry of the archive -/
def Doc.unpackEntryT (f : Doc) (me : DocId) (e : Entry) : (Doc × Option Err) × List FileEv :=
  if e.name = relsName then f.parseRelsT e
  else if e.name = documentName then f.parseDocumentT me e
  else match afterMedia e.name with
    | some n => f.parseMediaT n e
    | none => (({ f with tmpfslst := f.tmpfslst ++ [e.name] }, none), [])

/-- unpack.go:46-71: the loop over the entries -/
def Doc.unpackAllT (f : Doc) (me : DocId) : List Entry → (Doc × Option Err) × List FileEv
  | [] => ((f, none), [])
  | e :: es =>
    match f.unpackEntryT me e with
    | ((f', none), t) => let (r, t') := f'.unpackAllT me es; (r, t ++ t')
    | ((f', some x), t) => ((f', some x), t)

/-- unpack.go:40-74 `unpack`, docx.go:93-100 `Parse` on a readable archive -/
def unpackT (me : DocId) (a : Archive) : (Doc × Option Err) × List FileEv :=
  match ({ relXmlns := "", tmplfs := some (zipFS a) } : Doc).unpackAllT me a with
  | ((f, none), t) => (({ f with imageID := 100000 }, none), t)
  | ((f, some x), t) => ((f, some x), t)

/-- pack.go:37-51: the template files.  The names in the record are those the files are opened with. -/
def Doc.openTmplT (f : Doc) (m : List (String × Stream)) :
    List String → Res (List (String × Stream)) × List FileEv
  | [] => (.ok m, [])
  | n :: ns =>
    match f.tmplfs with
    | none => (.panic, [])
    | some fs => match fs (f.tmplPath n) with
      | .error e => (.err e, [])
      | .ok s => let (r, t) := f.openTmplT (putFile m n s) ns; (r, .opened (f.tmplPath n) :: t)

/-- pack.go:35-58: the map of files to be written -/
def Doc.filesT (f : Doc) : Res (List (String × Stream)) × List FileEv :=
  match f.openTmplT [] f.tmpfslst with
  | (.ok m, t) =>
    let m := putFile m relsName ⟨xmlBytes (mRels f.relXmlns f.rels), none⟩
    let m := putFile m documentName ⟨xmlBytes (mDocument f.items), none⟩
    (.ok (putMedia m f.media), t)
  | (.err e, t) => (.err e, t)
  | (.panic, t) => (.panic, t)

/-- pack.go:34-73 `pack`, docx.go:152-157 `WriteTo`: the loop over the map (60-70) reads the files and closes
none of them -/
inductive SavesT (f : Doc) : Saved → Option Err → List FileEv → Prop
  | noFile {e t} (h : f.filesT = (.err e, t)) : SavesT f [] (some e) t
  | order {m l t} (h : f.filesT = (.ok m, t)) (hl : IterOrder m l) : SavesT f (packAll l).1 (packAll l).2 t

end Docx
