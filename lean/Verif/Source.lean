import Verif.Pack

/-!
# The file behind an opened document

Parse keeps the reader of the package and reads the remaining files when the document is saved
(unpack.go:44 `docx.tmplfs = zipReader`, pack.go:39, 46).  By then the file on disk may have changed.  The
reader has read the directory of the archive, so names and positions stay; what is found there is what the
file holds now.
-/

namespace Docx

/-- unpack.go:44: the document, when the entries of its package are now those of `a`.  `a` has the names
that were in the directory when the package was opened. -/
def Doc.withSource (f : Doc) (a : Archive) : Doc := { f with tmplfs := some (zipFS a) }

/-- The entries of a package after its file was cut to length 0, which `os.Create` does: `(*zip.File).Open`
fails when it reads the header of the entry (`io.EOF`). -/
def emptied (a : Archive) : Archive := a.map fun e => ⟨e.name, .error .eof⟩

/-- docx.go:152-157 `WriteTo` into the file from which the document was opened, after it was opened for
writing with `os.Create`: `out` and `e` as for `Saves`.  pack.go:37-51 opens all files before the first byte
is written, so the file is empty at that time. -/
def SavesOver (a : Archive) (f : Doc) (out : Saved) (e : Option Err) : Prop := Saves (f.withSource (emptied a)) out e

end Docx
