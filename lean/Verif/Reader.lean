import Verif.Writer

/-!
# Documents as readers

Models docx.go:160-162 (`Read`), docx.go:152-157 (`WriteTo`) as `io.Copy` calls it, and the parts of Go 1.20 through which
a program may hand on a document: `io.Copy`, `io.ReadAll`, `io.NopCloser`, `io.LimitReader`, `io.TeeReader`, `bufio.Reader`.
-/

namespace Docx

/-- The errors of readers: `io.EOF`, `os.ErrInvalid` and those of `WriteTo` -/
inductive RdErr where
  | eof
  | invalid
  | of (e : Err)
deriving DecidableEq, Repr

/-- A document, or a reader around one -/
inductive Wrap where
  /-- the document itself -/
  | doc (f : Doc)
  /-- `io.NopCloser(r)` -/
  | nop (r : Wrap)
  /-- `io.LimitReader(r, n)`, with `n` bytes left -/
  | limit (n : Nat) (r : Wrap)
  /-- `io.TeeReader(r, w)`, with a `w` that does not fail -/
  | tee (r : Wrap)
  /-- `bufio.NewReader(r)`, with what is buffered and the error that came with it -/
  | bufio (buf : Bytes) (err : Option RdErr) (r : Wrap)

/-- `Read` into a slice of length `k`: the bytes, the error, and the reader afterwards.  docx.go:160-162 for the document.
Simplified: `bufio.Reader` also fills its buffer when `k` is larger than that. -/
def Wrap.read : Wrap → Nat → Bytes × Option RdErr × Wrap
  | .doc f, _ => ([], some .invalid, .doc f)
  | .nop r, k => let (b, e, r') := r.read k; (b, e, .nop r')
  | .limit n r, k =>
    if n = 0 then ([], some .eof, .limit n r)
    else let (b, e, r') := r.read (min k n); (b, e, .limit (n - b.length) r')
  | .tee r, k => let (b, e, r') := r.read k; (b, e, .tee r')
  | .bufio buf err r, k =>
    if buf ≠ [] then (buf.take k, none, .bufio (buf.drop k) err r)
    else match err with
      | some e => ([], some e, .bufio [] none r)
      | none =>
        let (b, e, r') := r.read 4096
        if b = [] then ([], e, .bufio [] none r') else (b.take k, none, .bufio (b.drop k) e r')

/-- The error a reading loop returns: `io.EOF` is the end, and no error. -/
def RdErr.result : RdErr → Option RdErr
  | .eof => none
  | e => some e

/-- The loops of `io.ReadAll` and `io.Copy`, with slices of any lengths: read until there is an error. -/
inductive Drains : Wrap → Bytes → Option RdErr → Prop
  | stop {r b e r'} (k : Nat) : 0 < k → r.read k = (b, some e, r') → Drains r b e.result
  | more {r b r' out e} (k : Nat) : 0 < k → r.read k = (b, none, r') → Drains r' out e → Drains r (b ++ out) e

/-- `r.(io.WriterTo)` succeeds (the `marshaller` of pack.go:75-95 has the same two methods, and `io.Copy` in pack.go:66
calls its `WriteTo`, never its `Read` in pack.go:82-84): documents and `bufio.Reader`s have `WriteTo`, and `io.NopCloser` hands it on. -/
def Wrap.writerTo : Wrap → Bool
  | .doc _ => true
  | .nop r => r.writerTo
  | .limit _ _ => false
  | .tee _ => false
  | .bufio _ _ _ => true

/-- `io.Copy(w, r)`: what `w` has received, the number and the error that are returned.  `io.Copy` calls `WriteTo` if there
is one (docx.go:152-157 returns the number 0), and reads otherwise.  `(*bufio.Reader).WriteTo` writes its buffer, also an
empty one, and goes on with `WriteTo` of the reader underneath or with reading.  Simplified: what is read is written to a
`w` that does not fail. -/
inductive Copies (z : ZipFmt) : Wr → Wrap → Bytes → Nat → Option RdErr → Prop
  | doc {w f b e} : WritesTo z w f b e → Copies z w (.doc f) b.got 0 (e.map .of)
  | nop {w r got n e} : Copies z w r got n e → Copies z w (.nop r) got n e
  | bufio {w buf err r got n e} : w [] buf = none → Copies z (fun cs p => w (buf :: cs) p) r got n e →
      Copies z w (.bufio buf err r) (buf ++ got) (buf.length + n) e
  | bufioFails {w buf err r k e} : w [] buf = some (k, e) → Copies z w (.bufio buf err r) (buf.take k) k (some (.of e))
  | reads {w r out e} : r.writerTo = false → Drains r out e → Copies z w r out out.length e

end Docx
