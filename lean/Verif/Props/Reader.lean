import Verif.SpecReader
import Verif.Props.Writer
import Verif.Props.Table

/-!
# C108: documents given to functions that read
-/

namespace Docx

theorem read_unread : ∀ (r : Wrap) (k : Nat), r.Unread →
    (r.AsksNothing ∧ r.read k = ([], some .eof, r)) ∨ (¬ r.AsksNothing ∧ r.read k = ([], some .invalid, r))
  | .doc f, k, _ => .inr ⟨id, rfl⟩
  | .nop r, k, h => by
    rcases read_unread r k h with ⟨a, b⟩ | ⟨a, b⟩
    · exact .inl ⟨a, by simp only [Wrap.read, b]⟩
    · exact .inr ⟨a, by simp only [Wrap.read, b]⟩
  | .tee r, k, h => by
    rcases read_unread r k h with ⟨a, b⟩ | ⟨a, b⟩
    · exact .inl ⟨a, by simp only [Wrap.read, b]⟩
    · exact .inr ⟨a, by simp only [Wrap.read, b]⟩
  | .limit n r, k, h => by
    by_cases hn : n = 0
    · exact .inl ⟨.inl hn, by simp only [Wrap.read, hn, if_true]⟩
    · rcases read_unread r (min k n) h with ⟨a, b⟩ | ⟨a, b⟩
      · exact .inl ⟨.inr a, by simp [Wrap.read, b, hn]⟩
      · exact .inr ⟨fun h => h.elim hn a, by simp [Wrap.read, b, hn]⟩
  | .bufio buf err r, k, ⟨h1, h2, h3⟩ => by
    subst h1; subst h2
    rcases read_unread r 4096 h3 with ⟨a, b⟩ | ⟨a, b⟩
    · exact .inl ⟨a, by simp [Wrap.read, b]⟩
    · exact .inr ⟨a, by simp [Wrap.read, b]⟩

/-- **C108, reading.** Whoever reads a document, through any readers and in pieces of any lengths, gets no byte, and gets
`os.ErrInvalid` unless they ask for 0 bytes.  The reading ends. -/
theorem C108_read (r : Wrap) (h : r.Unread) : (∃ out e, Drains r out e) ∧ ∀ out e, Drains r out e →
    out = [] ∧ (e = some .invalid ∨ e = none) ∧ (e = none ↔ r.AsksNothing) := by
  constructor
  · rcases read_unread r 1 h with ⟨_, b⟩ | ⟨_, b⟩
    · exact ⟨_, _, .stop 1 (by decide) b⟩
    · exact ⟨_, _, .stop 1 (by decide) b⟩
  · intro out e hd
    cases hd with
    | stop k hk hr =>
      rcases read_unread r k h with ⟨a, b⟩ | ⟨a, b⟩
      · rw [hr] at b; cases b
        exact ⟨rfl, .inr rfl, by simp [RdErr.result, a]⟩
      · rw [hr] at b; cases b
        exact ⟨rfl, .inl rfl, by simp [RdErr.result, a]⟩
    | more k hk hr _ => rcases read_unread r k h with ⟨_, b⟩ | ⟨_, b⟩ <;> (rw [hr] at b; cases b)

theorem direct_writerTo : ∀ {r : Wrap}, r.Direct → r.writerTo = true
  | .doc _, _ => rfl
  | .nop r, h => direct_writerTo (r := r) h
  | .bufio _ _ _, _ => rfl

section
variable [GoEnv]

theorem add_good {z : ZipFmt} {s : ZipW} {p : String × Stream} (h : s.buf.err = none) :
    (s.add z Wr.good p).1.buf.err = none := by
  have h1 := Buf.good_writes_err (z.tailOf s.last) h
  have h2 := Buf.good_writes_err (z.header p.1) h1
  have h3 := Buf.good_writes_err (z.body p.1 p.2.data) h2
  unfold ZipW.add
  simp only [h1, h2, h3]
  repeat' split
  all_goals simp [h1, h2, h3]

theorem addAll_good {z : ZipFmt} : ∀ {ps : List (String × Stream)} {s : ZipW}, s.buf.err = none →
    (s.addAll z Wr.good ps).1.buf.err = none
  | [], _, h => h
  | p :: ps, s, h => by
    have h1 := add_good (z := z) (p := p) h
    unfold ZipW.addAll
    split
    · rename_i s' hs
      rw [hs] at h1
      exact addAll_good h1
    · rename_i s' e hs
      rw [hs] at h1
      exact h1

theorem writesTo_good {z : ZipFmt} {f : Doc} {b : Buf} {e : Option Err} (h : WritesTo z Wr.good f b e) : b.err = none := by
  have close : ∀ s : ZipW, s.buf.err = none → (s.close z Wr.good).err = none := fun s hs =>
    Buf.good_flush_err (Buf.good_writes_err _ (Buf.good_writes_err _ hs))
  cases h with
  | noFile _ => exact close _ rfl
  | order _ _ => exact close _ (addAll_good rfl)

omit [GoEnv] in
theorem eq_good {w : Wr} (hw : ∀ calls p, w calls p = none) : w = Wr.good := by funext calls p; exact hw calls p

omit [GoEnv] in
/-- **C108, copying.** `io.Copy` of a document, itself or in an `io.NopCloser`, writes what `WriteTo` writes to every
writer, failing ones included, and returns its error. -/
theorem C108_same_partial (z : ZipFmt) (w : Wr) (f : Doc) (r : Wrap) (hr : r = .doc f ∨ r = .nop (.doc f)) (got : Bytes)
    (e : Option RdErr) :
    (∃ n, Copies z w r got n e) ↔ ∃ b x, WritesTo z w f b x ∧ got = b.got ∧ e = x.map .of := by
  have key : (∃ n, Copies z w (.doc f) got n e) ↔ ∃ b x, WritesTo z w f b x ∧ got = b.got ∧ e = x.map .of := by
    constructor
    · rintro ⟨n, h⟩
      cases h with
      | doc h => exact ⟨_, _, h, rfl, rfl⟩
      | reads h _ => cases h
    · rintro ⟨b, x, h, rfl, rfl⟩
      exact ⟨0, .doc h⟩
  rcases hr with rfl | rfl
  · exact key
  · rw [← key]
    constructor
    · rintro ⟨n, h⟩
      cases h with
      | nop h => exact ⟨n, h⟩
      | reads h _ => cases h
    · rintro ⟨n, h⟩
      exact ⟨n, .nop h⟩

omit [GoEnv] in
/-- What `io.Copy` does with a writer that does not fail -/
theorem copies_good {z : ZipFmt} {w : Wr} {r : Wrap} {got : Bytes} {n : Nat} {e : Option RdErr}
    (h : Copies z w r got n e) (hw : ∀ calls p, w calls p = none) (hu : r.Unread) :
    n = 0 ∧ ((∃ w' b x, (∀ calls p, w' calls p = none) ∧ WritesTo z w' r.inside b x ∧ got = b.got ∧ e = x.map .of) ∨
      (¬ r.Direct ∧ got = [] ∧ (e = some .invalid ∨ e = none) ∧ (e = none ↔ r.AsksNothing))) := by
  induction h with
  | doc h => exact ⟨rfl, .inl ⟨_, _, _, hw, h, rfl, rfl⟩⟩
  | nop h ih => exact ih hw hu
  | bufio hb _ ih =>
    obtain ⟨rfl, rfl, hu⟩ := hu
    obtain ⟨rfl, h⟩ := ih (fun _ _ => hw _ _) hu
    exact ⟨rfl, h⟩
  | bufioFails hb => rw [hw] at hb; cases hb
  | @reads w r out e hf hd =>
    obtain ⟨rfl, h1, h2⟩ := (C108_read r hu).2 _ _ hd
    refine ⟨rfl, .inr ⟨fun h => ?_, rfl, h1, h2⟩⟩
    rw [direct_writerTo h] at hf
    cases hf

/-- **C108, copying through readers.** Without an error, a writer that does not fail has the complete archive, or the program
asked for 0 bytes and the writer has nothing: never a part of a file.  With nothing but `io.NopCloser` and `bufio.Reader`
in between it is the complete archive, and the errors are those of saving. -/
theorem C108_copy_partial (z : ZipFmt) (w : Wr) (hw : ∀ calls p, w calls p = none) (r : Wrap) (hu : r.Unread) (got : Bytes)
    (n : Nat) (e : Option RdErr) (h : Copies z w r got n e) :
    (e = none → (∃ out, Saves r.inside out none ∧ got = z.bytes out) ∨ (got = [] ∧ r.AsksNothing)) ∧
    (r.Direct → (e = none → ∃ out, Saves r.inside out none ∧ got = z.bytes out) ∧
      ∀ x, e = some x → ∃ y out, x = .of y ∧ (Saves r.inside out (some y))) := by
  obtain ⟨_, ⟨w', b, x, hw', h1, rfl, rfl⟩ | ⟨h1, rfl, h2, h3⟩⟩ := copies_good h hw hu
  · have ok : x.map RdErr.of = none → ∃ out, Saves r.inside out none ∧ b.got = z.bytes out := by
      intro hx
      cases x with
      | some y => cases hx
      | none => exact C52_good_writer z w' hw' _ b h1
    refine ⟨fun hx => .inl (ok hx), fun _ => ⟨ok, fun y hy => ?_⟩⟩
    cases x with
    | none => cases hy
    | some x =>
      cases hy
      rcases C52_error z w' _ b x h1 with he | ⟨out, ho⟩
      · rw [eq_good hw'] at h1
        rw [writesTo_good h1] at he
        cases he
      · exact ⟨x, out, rfl, ho⟩
  · exact ⟨fun he => .inr ⟨rfl, h3.1 he⟩, fun hd => absurd hd h1⟩

/-- C108 is false of the code: `io.Copy` of a document, and through any readers, returns the number 0, although the writer
has received the complete archive. -/
theorem C108_count_wrong (z : ZipFmt) (hz : ∀ out, (z.dir out).flatten ≠ []) (w : Wr) (hw : ∀ calls p, w calls p = none)
    (f : Doc) (out : Saved) (hs : Saves f out none) :
    (∃ got, Copies z w (.doc f) got 0 none ∧ 0 < got.length) ∧
      ∀ (r : Wrap) got n e, r.Unread → Copies z w r got n e → n = 0 := by
  refine ⟨?_, fun r got n e hu h => (copies_good h hw hu).1⟩
  rw [eq_good hw]
  obtain ⟨m, l, h1, h2, _, _, _, h3⟩ := saves_writeFiles (z := z) hs
  have h4 := h3 Wr.good (Buf.good_writes_err _ rfl)
  have h5 := WritesTo.order (z := z) (w := Wr.good) h1 h2
  rw [h4] at h5
  obtain ⟨out', _, h6⟩ := C52_good_writer z _ (fun _ _ => rfl) f _ h5
  refine ⟨_, .doc h5, ?_⟩
  rw [h6, ZipFmt.bytes, List.length_append]
  have := List.length_pos_iff.2 (hz out')
  omega

end

/-! ## Cases -/

local instance readerEnv : GoEnv := ⟨fun _ => none, fun _ => false, fun _ => false⟩

/-- A new document in a `bufio.Reader` in an `io.NopCloser` is copied completely. -/
example : ∃ (z : ZipFmt) (got : Bytes), (∀ out, (z.dir out).flatten ≠ []) ∧
    (Wrap.nop (.bufio [] none (.doc Doc.new))).Unread ∧ (Wrap.nop (.bufio [] none (.doc Doc.new))).Direct ∧
    Copies z Wr.good (.nop (.bufio [] none (.doc Doc.new))) got 0 none ∧ 0 < got.length := by
  obtain ⟨out, ho, _⟩ := saves_bare Doc.new rfl rfl
  let z : ZipFmt := ⟨fun _ => [[1]], fun _ b => [b], fun _ _ => [], fun _ => [[9]]⟩
  have hz : ∀ out, (z.dir out).flatten ≠ [] := by intro out; simp [z]
  obtain ⟨⟨got, h1, h2⟩, _⟩ := C108_count_wrong z hz Wr.good (fun _ _ => rfl) Doc.new out ho
  exact ⟨z, got, hz, ⟨rfl, rfl, trivial⟩, trivial, .nop (.bufio (buf := []) (got := got) (n := 0) rfl h1), h2⟩

/-- Through a limit nothing is copied, and the limit 0 is not noticed. -/
example : Drains (.limit 100 (.doc Doc.new)) [] (some .invalid) ∧ Drains (.tee (.limit 0 (.doc Doc.new))) [] none ∧
    (Wrap.limit 100 (.doc Doc.new)).Unread ∧ ¬ (Wrap.limit 100 (.doc Doc.new)).AsksNothing ∧
    (Wrap.tee (.limit 0 (.doc Doc.new))).AsksNothing :=
  ⟨.stop (e := .invalid) 512 (by decide) rfl, .stop (e := .eof) 512 (by decide) rfl, trivial, by simp [Wrap.AsksNothing],
    .inl rfl⟩

end Docx
