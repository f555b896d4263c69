import Verif.Pack

/-!
# Saving to a writer that may fail

Models docx.go:152-157 (`WriteTo`) and pack.go:60-72 together with the order in which `archive/zip`
(Go 1.20) and its `bufio.Writer` call the writer underneath.  The zip format itself is a parameter
(`ZipFmt`): which bytes make up headers, compressed contents and the directory plays no part.
-/

namespace Docx

variable [GoEnv]

/-- An `io.Writer`: given the calls it has accepted so far and the bytes of the next call, it accepts all
of them (`none`) or takes the first `n` of them and returns an error.  (`bufio.Writer` does not call it
again after an error.) -/
abbrev Wr := List Bytes → Bytes → Option (Nat × Err)

/-- `bufio.Writer`, and what has come out of it: the calls accepted by the writer, what it took of the
call that failed, the buffered bytes and the error, which is kept -/
structure Buf where
  calls : List Bytes := []
  part : Bytes := []
  buf : Bytes := []
  err : Option Err := none

/-- What the writer has received -/
def Buf.got (b : Buf) : Bytes := b.calls.flatten ++ b.part

/-- One call of the writer underneath -/
def Buf.send (w : Wr) (b : Buf) (p : Bytes) : Buf :=
  match w b.calls p with
  | none => { b with calls := b.calls ++ [p] }
  | some (n, e) => { b with part := p.take n, err := some e }

/-- `(*bufio.Writer).Flush` (after an error the buffer is of no importance any more) -/
def Buf.flush (w : Wr) (b : Buf) : Buf :=
  if b.err ≠ none ∨ b.buf = [] then b
  else { b.send w b.buf with buf := [] }

/-- `(*bufio.Writer).Write` with the buffer of 4096 bytes.  The loop of the original runs at most twice:
the buffer is filled and flushed, then the rest is buffered or, if it is too long, sent directly. -/
def Buf.write (w : Wr) (b : Buf) (p : Bytes) : Buf :=
  if b.err ≠ none then b
  else if b.buf.length + p.length ≤ 4096 then { b with buf := b.buf ++ p }
  else if b.buf = [] then b.send w p
  else
    let k := 4096 - b.buf.length
    let b' := Buf.flush w { b with buf := b.buf ++ p.take k }
    if b'.err ≠ none then b'
    else if (p.drop k).length ≤ 4096 then { b' with buf := p.drop k }
    else b'.send w (p.drop k)

/-- Some calls of `Write` one after the other -/
def Buf.writes (w : Wr) (b : Buf) (ps : List Bytes) : Buf := ps.foldl (Buf.write w) b

/-- What `archive/zip` writes, call by call: the header of an entry, the output while its contents are
copied, the rest of the output and the data descriptor, and the directory of the archive -/
structure ZipFmt where
  header : String → List Bytes
  body : String → Bytes → List Bytes
  tail : String → Bytes → List Bytes
  dir : Saved → List Bytes

/-- `zip.Writer`: the output, the entry that is still open and the entries -/
structure ZipW where
  buf : Buf := {}
  last : Option (String × Bytes) := none
  dir : Saved := []

/-- The output for the open entry -/
def ZipFmt.tailOf (z : ZipFmt) : Option (String × Bytes) → List Bytes
  | none => []
  | some p => z.tail p.1 p.2

/-- pack.go:61-69 for one file: `Create` closes the open entry and writes the header, then `io.Copy`
copies the contents.  Too long names and contents for a directory are refused as in `packOne`
(simplified: a refused or failed entry is not listed in the directory). -/
def ZipW.add (z : ZipFmt) (w : Wr) (s : ZipW) (p : String × Stream) : ZipW × Option Err :=
  let b := s.buf.writes w (z.tailOf s.last)
  match b.err with
  | some e => ({ s with buf := b, last := none }, some e)
  | none =>
    if 65535 < p.1.utf8ByteSize then ({ s with buf := b, last := none }, some .zip)
    else
      let b := b.writes w (z.header p.1)
      match b.err with
      | some e => ({ s with buf := b, last := none }, some e)
      | none =>
        if isDirName p.1 ∧ p.2.data ≠ [] then
          (⟨b, some (p.1, []), s.dir ++ [(p.1, [])]⟩, some .zip)
        else
          let b := b.writes w (z.body p.1 p.2.data)
          match b.err with
          | some e => (⟨b, some (p.1, p.2.data), s.dir ++ [(p.1, p.2.data)]⟩, some e)
          | none => (⟨b, some (p.1, p.2.data), s.dir ++ [(p.1, p.2.data)]⟩, p.2.err)

/-- pack.go:60-70: the loop, left at the first error -/
def ZipW.addAll (z : ZipFmt) (w : Wr) : ZipW → List (String × Stream) → ZipW × Option Err
  | s, [] => (s, none)
  | s, p :: ps =>
    match s.add z w p with
    | (s', none) => s'.addAll z w ps
    | (s', some e) => (s', some e)

/-- `(*zip.Writer).Close`: the open entry, the directory, `Flush` -/
def ZipW.close (z : ZipFmt) (w : Wr) (s : ZipW) : Buf :=
  ((s.buf.writes w (z.tailOf s.last)).writes w (z.dir s.dir)).flush w

/-- docx.go:152-157 `WriteTo`, with the files in the order `l`: the deferred `Close` always runs, and its
error is not returned. -/
def writeFiles (z : ZipFmt) (w : Wr) (l : List (String × Stream)) : Buf × Option Err :=
  let (s, e) := ({} : ZipW).addAll z w l
  (s.close z w, e)

/-- docx.go:152-157 `WriteTo`: `WritesTo z w f b e` says that writing `f` to `w` may end with `b` and
return the error `e`. -/
inductive WritesTo (z : ZipFmt) (w : Wr) (f : Doc) : Buf → Option Err → Prop
  | noFile {e} (h : f.files = .err e) : WritesTo z w f (({} : ZipW).close z w) (some e)
  | order {m l} (h : f.files = .ok m) (hl : IterOrder m l) :
    WritesTo z w f (writeFiles z w l).1 (writeFiles z w l).2

/-- Specification: the bytes of one entry -/
def ZipFmt.entryBytes (z : ZipFmt) (p : String × Bytes) : Bytes :=
  (z.header p.1).flatten ++ (z.body p.1 p.2).flatten ++ (z.tail p.1 p.2).flatten

/-- Specification: the bytes of a complete archive with these entries -/
def ZipFmt.bytes (z : ZipFmt) (out : Saved) : Bytes := out.flatMap z.entryBytes ++ (z.dir out).flatten

end Docx
