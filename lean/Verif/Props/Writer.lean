import Verif.Writer
import Verif.Props.Pack

/-!
# C52: what a nil error of WriteTo means

`ZipFmt.bytes` in `Verif.Writer` is the complete archive, `Buf.got` what the writer received.
-/

set_option linter.unusedSectionVars false

namespace Docx

variable [GoEnv]

/-! ## The buffered writer -/

/-- What has happened after the bytes `t` were handed to the buffered writer -/
def Buf.Inv (b : Buf) (t : Bytes) : Prop :=
  match b.err with
  | none => b.part = [] ∧ b.calls.flatten ++ b.buf = t ∧ b.buf.length ≤ 4096
  | some _ => b.got <+: t

theorem Buf.inv_none {b : Buf} {t : Bytes} (h : b.err = none) :
    b.Inv t ↔ b.part = [] ∧ b.calls.flatten ++ b.buf = t ∧ b.buf.length ≤ 4096 := by
  unfold Buf.Inv; rw [h]

theorem Buf.inv_some {b : Buf} {t : Bytes} (h : b.err ≠ none) : b.Inv t ↔ b.got <+: t := by
  unfold Buf.Inv
  cases hb : b.err with
  | none => exact absurd hb h
  | some e => rfl

/-- Sending the buffered bytes and some more -/
theorem Buf.inv_send {w : Wr} {b : Buf} {t p : Bytes} (he : b.err = none) (hp : b.part = [])
    (hc : b.calls.flatten ++ p = t) : Buf.Inv { b.send w p with buf := [] } t := by
  unfold Buf.send
  cases h : w b.calls p with
  | none =>
    rw [Buf.inv_none (by simpa using he)]
    simp [hp, hc]
  | some ne =>
    rw [Buf.inv_some (by simp)]
    simp only [Buf.got]
    rw [← hc]
    exact (List.prefix_append_right_inj _).2 (List.take_prefix _ _)

theorem Buf.send_buf (w : Wr) (b : Buf) (p : Bytes) : (b.send w p).buf = b.buf := by
  unfold Buf.send; split <;> rfl

theorem Buf.inv_flush {w : Wr} {b : Buf} {t : Bytes} (h : b.Inv t) : (b.flush w).Inv t := by
  unfold Buf.flush
  split
  · exact h
  · rename_i hc
    simp only [not_or, Classical.not_not] at hc
    obtain ⟨h1, h2, h3⟩ := (Buf.inv_none (by simpa using hc.1)).1 h
    exact Buf.inv_send (by simpa using hc.1) h1 h2

theorem Buf.inv_write {w : Wr} {b : Buf} {t : Bytes} (p : Bytes) (h : b.Inv t) :
    (b.write w p).Inv (t ++ p) := by
  unfold Buf.write
  split
  · rename_i he
    rw [Buf.inv_some he] at h ⊢
    exact h.trans (List.prefix_append _ _)
  · rename_i he
    simp only [ne_eq, Classical.not_not] at he
    obtain ⟨h1, h2, h3⟩ := (Buf.inv_none he).1 h
    split
    · rename_i hl
      refine (Buf.inv_none (b := { b with buf := b.buf ++ p }) he).2 ⟨h1, ?_, by simpa using hl⟩
      rw [← h2]; simp
    · rename_i hl
      split
      · rename_i hb
        have := Buf.inv_send (w := w) (t := t ++ p) (p := p) he h1 (by rw [← h2, hb]; simp)
        have e : { b.send w p with buf := [] } = b.send w p := by
          have := Buf.send_buf w b p
          rw [hb] at this
          rw [← this]
        rwa [e] at this
      · rename_i hb
        simp only
        have hk : (b.buf ++ p.take (4096 - b.buf.length)).length = 4096 := by
          simp only [List.length_append, List.length_take]; omega
        have hi : (Buf.flush w { b with buf := b.buf ++ p.take (4096 - b.buf.length) }).Inv
            (t ++ p.take (4096 - b.buf.length)) := by
          refine Buf.inv_flush ((Buf.inv_none
            (b := { b with buf := b.buf ++ p.take (4096 - b.buf.length) }) he).2 ⟨h1, ?_, Nat.le_of_eq hk⟩)
          rw [← h2]; simp
        have hbuf : ∀ b' : Buf, (Buf.flush w { b with buf := b.buf ++ p.take (4096 - b.buf.length) }) = b' →
            b'.buf = [] := by
          intro b' e
          rw [← e]
          unfold Buf.flush
          rw [if_neg]
          simp [he, hb]
        generalize Buf.flush w { b with buf := b.buf ++ p.take (4096 - b.buf.length) } = b' at *
        have hbuf := hbuf b' rfl
        have hs : t ++ p = t ++ p.take (4096 - b.buf.length) ++ p.drop (4096 - b.buf.length) := by simp
        split
        · rename_i he'
          rw [Buf.inv_some he'] at hi ⊢
          rw [hs]
          exact hi.trans (List.prefix_append _ _)
        · rename_i he'
          simp only [ne_eq, Classical.not_not] at he'
          obtain ⟨i1, i2, i3⟩ := (Buf.inv_none he').1 hi
          rw [hbuf, List.append_nil] at i2
          split
          · rename_i hd
            exact (Buf.inv_none (b := { b' with buf := p.drop (4096 - b.buf.length) }) he').2
              ⟨i1, by rw [i2, hs], hd⟩
          · have := Buf.inv_send (w := w) (t := t ++ p) (p := p.drop (4096 - b.buf.length)) he' i1
              (by rw [i2, hs])
            have e : { b'.send w (p.drop (4096 - b.buf.length)) with buf := [] } =
                b'.send w (p.drop (4096 - b.buf.length)) := by
              have := Buf.send_buf w b' (p.drop (4096 - b.buf.length))
              rw [hbuf] at this
              rw [← this]
            rwa [e] at this

theorem Buf.inv_writes {w : Wr} : ∀ (ps : List Bytes) {b : Buf} {t : Bytes}, b.Inv t →
    (b.writes w ps).Inv (t ++ ps.flatten)
  | [], b, t, h => by simpa [Buf.writes] using h
  | p :: ps, b, t, h => by
    have := Buf.inv_writes (w := w) ps (Buf.inv_write (w := w) p h)
    simpa [Buf.writes, List.append_assoc] using this

theorem Buf.inv_init : Buf.Inv {} [] := ⟨rfl, rfl, by simp⟩

theorem Buf.writes_append (w : Wr) (b : Buf) (ps qs : List Bytes) :
    b.writes w (ps ++ qs) = (b.writes w ps).writes w qs := by
  simp [Buf.writes, List.foldl_append]

theorem Buf.write_err {w : Wr} {b : Buf} {p : Bytes} (h : b.err ≠ none) : b.write w p = b := by
  unfold Buf.write; rw [if_pos h]

theorem Buf.writes_err {w : Wr} {b : Buf} (h : b.err ≠ none) : ∀ ps : List Bytes, b.writes w ps = b
  | [] => rfl
  | p :: ps => by
    show (b.write w p).writes w ps = b
    rw [Buf.write_err h]
    exact Buf.writes_err h ps

/-- Nothing is received beyond what was received before -/
theorem Buf.send_got {w : Wr} {b : Buf} {p : Bytes} (hp : b.part = []) : b.got <+: (b.send w p).got := by
  unfold Buf.send Buf.got
  rw [hp]
  cases w b.calls p with
  | none => simp
  | some ne => simp

/-- What a writer received stays received, if nothing failed before -/
theorem Buf.flush_got {w : Wr} {b : Buf} (hp : b.err = none → b.part = []) : b.got <+: (b.flush w).got := by
  unfold Buf.flush
  split
  · exact List.prefix_refl _
  · rename_i hc
    simp only [not_or, ne_eq, Classical.not_not] at hc
    exact Buf.send_got (hp hc.1)

/-- `part` is empty as long as nothing failed -/
def Buf.Clean (b : Buf) : Prop := b.err = none → b.part = []

theorem Buf.Clean.of_inv {b : Buf} {t : Bytes} (h : b.Inv t) : b.Clean :=
  fun he => ((Buf.inv_none he).1 h).1

theorem Buf.write_got {w : Wr} {b : Buf} {t p : Bytes} (h : b.Inv t) : b.got <+: (b.write w p).got := by
  unfold Buf.write
  split
  · exact List.prefix_refl _
  · rename_i he
    simp only [ne_eq, Classical.not_not] at he
    obtain ⟨h1, h2, h3⟩ := (Buf.inv_none he).1 h
    split
    · exact List.prefix_refl _
    · split
      · exact Buf.send_got h1
      · simp only
        have hf := Buf.flush_got (w := w) (b := { b with buf := b.buf ++ p.take (4096 - b.buf.length) })
          (fun _ => h1)
        have hpart : (Buf.flush w { b with buf := b.buf ++ p.take (4096 - b.buf.length) }).err = none →
            (Buf.flush w { b with buf := b.buf ++ p.take (4096 - b.buf.length) }).part = [] := by
          unfold Buf.flush Buf.send
          split
          · intro _; exact h1
          · split
            · intro _; exact h1
            · intro h; simp at h
        generalize Buf.flush w { b with buf := b.buf ++ p.take (4096 - b.buf.length) } = b' at *
        have hg : b.got <+: b'.got := hf
        split
        · exact hg
        · rename_i he'
          simp only [ne_eq, Classical.not_not] at he'
          split
          · exact hg
          · exact hg.trans (Buf.send_got (hpart he'))

theorem Buf.writes_got {w : Wr} : ∀ (ps : List Bytes) {b : Buf} {t : Bytes}, b.Inv t →
    b.got <+: (b.writes w ps).got
  | [], _, _, _ => List.prefix_refl _
  | p :: ps, b, t, h =>
    (Buf.write_got (w := w) (p := p) h).trans (Buf.writes_got ps (Buf.inv_write p h))

theorem Buf.flush_ok {w : Wr} {b : Buf} {t : Bytes} (h : b.Inv t) (he : (b.flush w).err = none) :
    (b.flush w).got = t := by
  have hi := Buf.inv_flush (w := w) h
  obtain ⟨h1, h2, h3⟩ := (Buf.inv_none he).1 hi
  have hb : (b.flush w).buf = [] := by
    unfold Buf.flush
    split
    · rename_i hc
      rcases hc with hc | hc
      · exfalso
        unfold Buf.flush at he
        rw [if_pos (.inl hc)] at he
        exact hc he
      · exact hc
    · rfl
  rw [hb, List.append_nil] at h2
  rw [Buf.got, h1, List.append_nil, h2]

/-! ## The archive -/

/-- The calls of `pack`, everything but the end of the last entry and the directory -/
def packCalls (z : ZipFmt) : Option (String × Bytes) → Saved → List Bytes
  | _, [] => []
  | last, p :: ps => z.tailOf last ++ (z.header p.1 ++ (z.body p.1 p.2 ++ packCalls z (some p) ps))

def lastOf : Option (String × Bytes) → Saved → Option (String × Bytes)
  | last, [] => last
  | _, p :: ps => lastOf (some p) ps

theorem packCalls_bytes (z : ZipFmt) : ∀ (out : Saved) (last : Option (String × Bytes)),
    (packCalls z last out).flatten ++ (z.tailOf (lastOf last out)).flatten =
      (z.tailOf last).flatten ++ out.flatMap z.entryBytes
  | [], last => by simp [packCalls, lastOf]
  | p :: ps, last => by
    have ih := packCalls_bytes z ps (some p)
    simp only [packCalls, lastOf, List.flatten_append, List.flatMap_cons, ZipFmt.entryBytes,
      List.append_assoc]
    rw [ih]
    simp [ZipFmt.tailOf]

theorem lastOf_eq : ∀ (out : Saved) (last : Option (String × Bytes)),
    lastOf last out = (out.getLast?).or last
  | [], last => by simp [lastOf]
  | p :: ps, last => by
    rw [lastOf, lastOf_eq ps, List.getLast?_cons]
    cases ps.getLast? <;> simp

/-- The calls made by `pack` when no error is returned -/
theorem addAll_none {z : ZipFmt} {w : Wr} : ∀ {l : List (String × Stream)} {s s' : ZipW},
    s.addAll z w l = (s', none) → s.buf.err = none →
    (∀ p ∈ l, Writable p) ∧ s'.buf = s.buf.writes w (packCalls z s.last (l.map fun p => (p.1, p.2.data))) ∧
      s'.last = lastOf s.last (l.map fun p => (p.1, p.2.data)) ∧
      s'.dir = s.dir ++ l.map (fun p => (p.1, p.2.data)) ∧ s'.buf.err = none := by
  intro l
  induction l with
  | nil =>
    intro s s' h he
    simp only [ZipW.addAll, Prod.mk.injEq, and_true] at h
    subst h
    simp [packCalls, lastOf, Buf.writes, he]
  | cons p l ih =>
    intro s s' h he
    rw [ZipW.addAll] at h
    rcases ha : s.add z w p with ⟨s1, _ | e⟩
    · rw [ha] at h
      simp only at h
      have key : Writable p ∧ s1 = ⟨((s.buf.writes w (z.tailOf s.last)).writes w (z.header p.1)).writes w
          (z.body p.1 p.2.data), some (p.1, p.2.data), s.dir ++ [(p.1, p.2.data)]⟩ ∧ s1.buf.err = none := by
        unfold ZipW.add at ha
        simp only at ha
        split at ha
        · simp at ha
        · split at ha
          · simp at ha
          · rename_i hlen
            split at ha
            · simp at ha
            · split at ha
              · simp at ha
              · rename_i hdir
                split at ha
                · simp at ha
                · rename_i hb
                  simp only [Prod.mk.injEq] at ha
                  obtain ⟨rfl, ha2⟩ := ha
                  refine ⟨⟨by omega, ?_, ha2⟩, rfl, hb⟩
                  intro hd
                  simp only [not_and, ne_eq, Classical.not_not] at hdir
                  exact hdir hd
      obtain ⟨k1, k2, k3⟩ := key
      obtain ⟨i1, i2, i3, i4, i5⟩ := ih h k3
      refine ⟨List.forall_mem_cons.2 ⟨k1, i1⟩, ?_, ?_, ?_, i5⟩
      · rw [i2, k2]
        simp only [List.map_cons, packCalls, Buf.writes_append]
      · rw [i3, k2]; rfl
      · rw [i4, k2]; simp
    · rw [ha] at h
      simp at h

/-- A nil error: what was handed to the buffered writer before and by `Close` -/
theorem writeFiles_none {z : ZipFmt} {w : Wr} {l : List (String × Stream)} {b : Buf}
    (h : writeFiles z w l = (b, none)) :
    (∀ p ∈ l, Writable p) ∧ ∃ b1 : Buf, b1.err = none ∧ b1.Inv (packCalls z none (packAll l).1).flatten ∧
      b1 = Buf.writes w {} (packCalls z none (packAll l).1) ∧
      b = ((b1.writes w (z.tailOf (packAll l).1.getLast?)).writes w (z.dir (packAll l).1)).flush w := by
  unfold writeFiles at h
  rcases hs : ({} : ZipW).addAll z w l with ⟨s, _ | e⟩
  · rw [hs] at h
    simp only [Prod.mk.injEq, and_true] at h
    obtain ⟨h1, h2, h3, h4, h5⟩ := addAll_none hs rfl
    have hout : l.map (fun p => (p.1, p.2.data)) = (packAll l).1 := (packAll_fst l h1).symm
    rw [hout] at h2 h3 h4
    refine ⟨h1, s.buf, h5, ?_, h2, ?_⟩
    · rw [h2]
      exact Buf.inv_writes (w := w) _ Buf.inv_init
    · rw [← h, ZipW.close, h3, h4, lastOf_eq]
      simp
  · rw [hs] at h
    simp at h

theorem packCalls_total (z : ZipFmt) (out : Saved) :
    (packCalls z none out).flatten ++ (z.tailOf out.getLast?).flatten ++ (z.dir out).flatten = z.bytes out := by
  have := packCalls_bytes z out none
  rw [lastOf_eq] at this
  simp only [Option.or_none] at this
  rw [this]
  simp [ZipFmt.bytes, ZipFmt.tailOf]

/-- C52, what holds: after a nil error, the writer has received a beginning of the complete archive, and
no more is missing than the buffer (4096 bytes), the end of the last entry and the directory.  If no
call of the writer failed, it has received the complete archive. -/
theorem C52_received_partial (z : ZipFmt) (w : Wr) (f : Doc) (b : Buf) (h : WritesTo z w f b none) :
    ∃ out, Saves f out none ∧ b.got <+: z.bytes out ∧ (b.err = none → b.got = z.bytes out) ∧
      (z.bytes out).length ≤ b.got.length + 4096 +
        ((out.getLast?.map fun p => (z.tail p.1 p.2).flatten.length).getD 0) + (z.dir out).flatten.length := by
  generalize he : (none : Option Err) = e at h
  cases h with
  | noFile h => cases he
  | @order m l h hl =>
    have hw : writeFiles z w l = ((writeFiles z w l).1, none) := by rw [he]
    obtain ⟨h1, b1, h2, h3, h4, h5⟩ := writeFiles_none hw
    have hs : Saves f (packAll l).1 none := by
      have := Saves.order h hl
      rwa [(packAll_none l).2 h1] at this
    refine ⟨(packAll l).1, he ▸ hs, ?_⟩
    have hi := Buf.inv_writes (w := w) (z.dir (packAll l).1)
      (Buf.inv_writes (w := w) (z.tailOf (packAll l).1.getLast?) h3)
    rw [packCalls_total] at hi
    have hgot : b1.got <+: (writeFiles z w l).1.got := by
      rw [h5]
      have i1 := Buf.inv_writes (w := w) (z.tailOf (packAll l).1.getLast?) h3
      exact ((Buf.writes_got _ h3).trans (Buf.writes_got _ i1)).trans
        (Buf.flush_got (Buf.Clean.of_inv hi))
    have hif := Buf.inv_flush (w := w) hi
    rw [← h5] at hif
    refine ⟨?_, fun hn => ?_, ?_⟩
    · by_cases hb : (writeFiles z w l).1.err = none
      · rw [h5] at hb ⊢
        rw [Buf.flush_ok hi hb]
        exact List.prefix_refl _
      · exact (Buf.inv_some hb).1 hif
    · rw [← he, h5] at hn
      rw [h5]
      exact Buf.flush_ok hi hn
    · have hlen := hgot.length_le
      obtain ⟨g1, g2, g3⟩ := (Buf.inv_none h2).1 h3
      have e1 : (packCalls z none (packAll l).1).flatten.length ≤ b1.got.length + 4096 := by
        rw [← g2, Buf.got, g1]
        simp only [List.length_append, List.length_nil]
        omega
      rw [← packCalls_total]
      simp only [List.length_append]
      have e2 : (z.tailOf (packAll l).1.getLast?).flatten.length =
          (((packAll l).1.getLast?).map fun p => (z.tail p.1 p.2).flatten.length).getD 0 := by
        cases (packAll l).1.getLast? <;> rfl
      rw [e2]
      omega

/-! ## What is not guaranteed -/

theorem Buf.writes_none {w : Wr} {b : Buf} {ps : List Bytes} (h : (b.writes w ps).err = none) :
    b.err = none := by
  by_cases he : b.err = none
  · exact he
  · rw [Buf.writes_err he] at h
    exact absurd h he

/-- If nothing fails before `Close`, no error is returned -/
theorem addAll_ok {z : ZipFmt} {w : Wr} : ∀ {l : List (String × Stream)} {s : ZipW},
    (∀ p ∈ l, Writable p) →
    (s.buf.writes w (packCalls z s.last (l.map fun p => (p.1, p.2.data)))).err = none →
    (s.addAll z w l).2 = none := by
  intro l
  induction l with
  | nil => intro s _ _; rfl
  | cons p l ih =>
    intro s hw he
    obtain ⟨⟨hp1, hp2, hp3⟩, hw⟩ := List.forall_mem_cons.1 hw
    simp only [List.map_cons, packCalls, Buf.writes_append] at he
    have e3 := Buf.writes_none he
    have e2 := Buf.writes_none e3
    have e1 := Buf.writes_none e2
    have ha : s.add z w p = (⟨((s.buf.writes w (z.tailOf s.last)).writes w (z.header p.1)).writes w
          (z.body p.1 p.2.data), some (p.1, p.2.data), s.dir ++ [(p.1, p.2.data)]⟩, none) := by
      unfold ZipW.add
      simp only [e1, e2, e3]
      rw [if_neg (by omega), if_neg (by intro h; exact h.2 (hp2 h.1)), hp3]
    rw [ZipW.addAll, ha]
    exact ih hw he

/-- A writer that accepts everything -/
def Wr.good : Wr := fun _ _ => none

/-- A writer that accepts `k` calls and then nothing more, like a disk that is full -/
def Wr.upTo (k : Nat) : Wr := fun calls _ => if calls.length < k then none else some (0, .io)

theorem Buf.good_send (b : Buf) (p : Bytes) : b.send Wr.good p = { b with calls := b.calls ++ [p] } := rfl

theorem Buf.good_flush_err {b : Buf} (h : b.err = none) : (b.flush Wr.good).err = none := by
  unfold Buf.flush
  split
  · exact h
  · exact h

theorem Buf.good_write_err {b : Buf} {p : Bytes} (h : b.err = none) : (b.write Wr.good p).err = none := by
  unfold Buf.write
  split
  · exact h
  · split
    · exact h
    · split
      · exact h
      · simp only
        have := Buf.good_flush_err (b := { b with buf := b.buf ++ p.take (4096 - b.buf.length) }) h
        split
        · exact this
        · split
          · exact this
          · exact this

theorem Buf.good_writes_err : ∀ (ps : List Bytes) {b : Buf}, b.err = none → (b.writes Wr.good ps).err = none
  | [], _, h => h
  | p :: ps, b, h => by
    show ((b.write Wr.good p).writes Wr.good ps).err = none
    exact Buf.good_writes_err ps (Buf.good_write_err h)

theorem Buf.good_flush_calls (b : Buf) : b.calls.length ≤ (b.flush Wr.good).calls.length := by
  unfold Buf.flush
  split
  · exact Nat.le_refl _
  · simp [Buf.good_send]

theorem Buf.good_write_calls (b : Buf) (p : Bytes) : b.calls.length ≤ (b.write Wr.good p).calls.length := by
  unfold Buf.write
  split
  · exact Nat.le_refl _
  · split
    · exact Nat.le_refl _
    · split
      · simp [Buf.good_send]
      · simp only
        have := Buf.good_flush_calls { b with buf := b.buf ++ p.take (4096 - b.buf.length) }
        generalize Buf.flush Wr.good { b with buf := b.buf ++ p.take (4096 - b.buf.length) } = b' at *
        have this : b.calls.length ≤ b'.calls.length := this
        split
        · exact this
        · split
          · exact this
          · simp only [Buf.good_send, List.length_append]; omega

theorem Buf.good_writes_calls : ∀ (ps : List Bytes) (b : Buf),
    b.calls.length ≤ (b.writes Wr.good ps).calls.length
  | [], _ => Nat.le_refl _
  | p :: ps, b => Nat.le_trans (Buf.good_write_calls b p) (Buf.good_writes_calls ps _)

theorem Buf.upTo_send {k : Nat} {b : Buf} {p : Bytes} (h : (b.send Wr.good p).calls.length ≤ k) :
    b.send (Wr.upTo k) p = b.send Wr.good p := by
  rw [Buf.good_send] at *
  simp only [List.length_append, List.length_singleton] at h
  unfold Buf.send Wr.upTo
  rw [if_pos (by omega)]

theorem Buf.upTo_flush {k : Nat} {b : Buf} (h : (b.flush Wr.good).calls.length ≤ k) :
    b.flush (Wr.upTo k) = b.flush Wr.good := by
  unfold Buf.flush at *
  split at h
  · rename_i hc; rw [if_pos hc, if_pos hc]
  · rename_i hc
    rw [if_neg hc, if_neg hc, Buf.upTo_send h]

theorem Buf.upTo_write {k : Nat} {b : Buf} {p : Bytes} (h : (b.write Wr.good p).calls.length ≤ k) :
    b.write (Wr.upTo k) p = b.write Wr.good p := by
  have hh := h
  unfold Buf.write at *
  split at h
  · rename_i hc; simp only [if_pos hc]
  · rename_i hc
    simp only [if_neg hc] at hh ⊢
    split at h
    · rename_i hc; simp only [if_pos hc]
    · rename_i hc
      simp only [if_neg hc] at hh ⊢
      split at h
      · rename_i hc; simp only [if_pos hc]; exact Buf.upTo_send h
      · rename_i hc
        simp only [if_neg hc] at hh ⊢
        have hf : (Buf.flush Wr.good { b with buf := b.buf ++ p.take (4096 - b.buf.length) }).calls.length ≤ k := by
          refine Nat.le_trans ?_ hh
          split
          · exact Nat.le_refl _
          · split
            · exact Nat.le_refl _
            · simp [Buf.good_send]
        rw [Buf.upTo_flush hf]
        split
        · rfl
        · rename_i hc1
          rw [if_neg hc1] at hh
          split
          · rfl
          · rename_i hc2
            rw [if_neg hc2] at hh
            exact Buf.upTo_send hh

theorem Buf.upTo_writes {k : Nat} : ∀ (ps : List Bytes) {b : Buf},
    (b.writes Wr.good ps).calls.length ≤ k → b.writes (Wr.upTo k) ps = b.writes Wr.good ps
  | [], _, _ => rfl
  | p :: ps, b, h => by
    show (b.write (Wr.upTo k) p).writes (Wr.upTo k) ps = (b.write Wr.good p).writes Wr.good ps
    have h' : ((b.write Wr.good p).writes Wr.good ps).calls.length ≤ k := h
    rw [Buf.upTo_write (Nat.le_trans (Buf.good_writes_calls ps _) h')]
    exact Buf.upTo_writes ps h'

/-- The writer takes nothing more -/
def Buf.Full (k : Nat) (cs : List Bytes) (b : Buf) : Prop := b.calls = cs ∧ b.part = [] ∧ cs.length = k

theorem Buf.full_send {k : Nat} {cs : List Bytes} {b : Buf} (p : Bytes) (h : b.Full k cs) :
    (b.send (Wr.upTo k) p).Full k cs ∧ (b.send (Wr.upTo k) p).err ≠ none := by
  obtain ⟨h1, h2, h3⟩ := h
  unfold Buf.send Wr.upTo
  rw [h1, if_neg (by omega)]
  exact ⟨⟨rfl, rfl, h3⟩, by simp⟩

theorem Buf.full_flush {k : Nat} {cs : List Bytes} {b : Buf} (h : b.Full k cs) :
    (b.flush (Wr.upTo k)).Full k cs := by
  unfold Buf.flush
  split
  · exact h
  · exact (Buf.full_send _ h).1

theorem Buf.full_write {k : Nat} {cs : List Bytes} {b : Buf} (p : Bytes) (h : b.Full k cs) :
    (b.write (Wr.upTo k) p).Full k cs := by
  unfold Buf.write
  split
  · exact h
  · split
    · exact h
    · split
      · exact (Buf.full_send _ h).1
      · simp only
        have := Buf.full_flush (b := { b with buf := b.buf ++ p.take (4096 - b.buf.length) }) h
        split
        · exact this
        · split
          · exact this
          · exact (Buf.full_send _ this).1

theorem Buf.full_writes {k : Nat} {cs : List Bytes} : ∀ (ps : List Bytes) {b : Buf}, b.Full k cs →
    (b.writes (Wr.upTo k) ps).Full k cs
  | [], _, h => h
  | p :: ps, _, h => Buf.full_writes ps (Buf.full_write p h)

/-- `Saves` again: the calls for one order -/
theorem saves_writeFiles {z : ZipFmt} {f : Doc} {out : Saved} (h : Saves f out none) :
    ∃ (m l : List (String × Stream)), f.files = .ok m ∧ IterOrder m l ∧ (∀ p ∈ l, Writable p) ∧
      out = l.map (fun p => (p.1, p.2.data)) ∧ (packAll l).1 = out ∧
      ∀ w : Wr, (Buf.writes w {} (packCalls z none out)).err = none → (writeFiles z w l).2 = none := by
  obtain ⟨m, l, h1, h2, h3, h4⟩ := saves_none h
  refine ⟨m, l, h1, h2, h4, h3, by rw [packAll_fst l h4, h3], fun w hw => ?_⟩
  have := addAll_ok (z := z) (w := w) (s := {}) h4 (by rw [← h3]; exact hw)
  unfold writeFiles
  rcases hs : ({} : ZipW).addAll z w l with ⟨s, e⟩
  rw [hs] at this
  exact this

/-- C52 is false of the code: for every document that can be saved (and every archive format whose
directory is not empty) there is a writer, one that fails after some calls, for which WriteTo returns nil
although the writer did fail and did not receive the complete archive. -/
theorem C52_incomplete (z : ZipFmt) (f : Doc) (out : Saved) (h : Saves f out none)
    (hz : (z.dir out).flatten ≠ []) :
    ∃ k b, WritesTo z (Wr.upTo k) f b none ∧ b.err ≠ none ∧ b.got <+: z.bytes out ∧ b.got ≠ z.bytes out := by
  obtain ⟨m, l, h1, h2, h3, h4, h5, h6⟩ := saves_writeFiles (z := z) h
  have herr := Buf.good_writes_err (packCalls z none out) (b := {}) rfl
  have hinv := Buf.inv_writes (w := Wr.good) (packCalls z none out) Buf.inv_init
  have hup := Buf.upTo_writes (k := (Buf.writes Wr.good {} (packCalls z none out)).calls.length)
    (packCalls z none out) (b := {}) (Nat.le_refl _)
  generalize hb1 : Buf.writes Wr.good {} (packCalls z none out) = b1 at *
  refine ⟨b1.calls.length, (writeFiles z (Wr.upTo b1.calls.length) l).1, ?_⟩
  have he := h6 (Wr.upTo b1.calls.length) (by rw [hup]; exact herr)
  have hw : writeFiles z (Wr.upTo b1.calls.length) l = ((writeFiles z (Wr.upTo b1.calls.length) l).1, none) := by
    rw [← he]
  have hwt : WritesTo z (Wr.upTo b1.calls.length) f (writeFiles z (Wr.upTo b1.calls.length) l).1 none := by
    have := WritesTo.order (z := z) (w := Wr.upTo b1.calls.length) h1 h2
    rwa [he] at this
  obtain ⟨_, b2, g2, g3, g4, g5⟩ := writeFiles_none hw
  rw [h5] at g3 g4 g5
  rw [hup] at g4
  subst g4
  obtain ⟨p1, p2, p3⟩ := (Buf.inv_none herr).1 hinv
  have hfull : (writeFiles z (Wr.upTo b2.calls.length) l).1.Full b2.calls.length b2.calls := by
    rw [g5]
    exact Buf.full_flush (Buf.full_writes _ (Buf.full_writes _ ⟨rfl, p1, rfl⟩))
  have hi := Buf.inv_writes (w := Wr.upTo b2.calls.length) (z.dir out)
      (Buf.inv_writes (w := Wr.upTo b2.calls.length) (z.tailOf out.getLast?) g3)
  rw [packCalls_total] at hi
  have hgot : (writeFiles z (Wr.upTo b2.calls.length) l).1.got = b2.calls.flatten := by
    rw [Buf.got, hfull.1, hfull.2.1, List.append_nil]
  have hne : (writeFiles z (Wr.upTo b2.calls.length) l).1.got ≠ z.bytes out := by
    rw [hgot, ← packCalls_total]
    intro e
    have e := congrArg List.length e
    simp only [List.nil_append] at p2
    rw [← p2] at e
    simp only [List.length_append] at e
    have : (z.dir out).flatten.length ≠ 0 := fun h0 => hz (List.eq_nil_of_length_eq_zero h0)
    omega
  refine ⟨hwt, ?_, ?_, hne⟩
  · intro hn
    apply hne
    rw [g5] at hn ⊢
    exact Buf.flush_ok hi hn
  · rw [hgot, ← packCalls_total]
    simp only [List.nil_append] at p2
    rw [← p2]
    simp only [List.append_assoc]
    exact List.prefix_append _ _

/-- C52 is false of the code: if the entries take up at most 4096 bytes, WriteTo returns nil even for a
writer that accepts nothing at all. -/
theorem C52_nothing_written (z : ZipFmt) (f : Doc) (out : Saved) (h : Saves f out none)
    (hs : (out.flatMap z.entryBytes).length ≤ 4096) :
    ∃ b, WritesTo z (Wr.upTo 0) f b none ∧ b.got = [] := by
  obtain ⟨m, l, h1, h2, h3, h4, h5, h6⟩ := saves_writeFiles (z := z) h
  have hlen : (packCalls z none out).flatten.length ≤ 4096 := by
    have := congrArg List.length (packCalls_bytes z out none)
    simp only [List.length_append, ZipFmt.tailOf, List.flatten_nil, List.length_nil, Nat.zero_add] at this
    omega
  have key : ∀ (ps : List Bytes) (b : Buf), b.err = none → b.buf.length + ps.flatten.length ≤ 4096 →
      (b.writes (Wr.upTo 0) ps).err = none := by
    intro ps
    induction ps with
    | nil => intro b hb _; exact hb
    | cons p ps ih =>
      intro b hb hl
      simp only [List.flatten_cons, List.length_append] at hl
      show ((b.write (Wr.upTo 0) p).writes (Wr.upTo 0) ps).err = none
      have : b.write (Wr.upTo 0) p = { b with buf := b.buf ++ p } := by
        unfold Buf.write
        rw [if_neg (by simp [hb]), if_pos (by omega)]
      rw [this]
      exact ih _ hb (by simp only [List.length_append]; omega)
  have he := h6 (Wr.upTo 0) (key _ _ rfl (by simpa using hlen))
  have hw : writeFiles z (Wr.upTo 0) l = ((writeFiles z (Wr.upTo 0) l).1, none) := by
    rw [← he]
  refine ⟨(writeFiles z (Wr.upTo 0) l).1, ?_, ?_⟩
  · have := WritesTo.order (z := z) (w := Wr.upTo 0) h1 h2
    rwa [he] at this
  · obtain ⟨_, b2, g2, g3, g4, g5⟩ := writeFiles_none hw
    have hf : (writeFiles z (Wr.upTo 0) l).1.Full 0 [] := by
      rw [g5, g4]
      exact Buf.full_flush (Buf.full_writes _ (Buf.full_writes _ (Buf.full_writes _ ⟨rfl, rfl, rfl⟩)))
    rw [Buf.got, hf.1, hf.2.1]
    rfl

/-- C52 for a writer that never fails: WriteTo returns the same error as saving (`Saves`), and without an
error the writer has the complete archive. -/
theorem C52_good_writer (z : ZipFmt) (w : Wr) (hw : ∀ calls p, w calls p = none) (f : Doc) (b : Buf)
    (h : WritesTo z w f b none) : ∃ out, Saves f out none ∧ b.got = z.bytes out := by
  have hg : w = Wr.good := by funext calls p; exact hw calls p
  subst hg
  obtain ⟨out, h1, h2, h3, _⟩ := C52_received_partial z _ f b h
  refine ⟨out, h1, h3 ?_⟩
  generalize he : (none : Option Err) = e at h
  cases h with
  | noFile h => cases he
  | @order m l h hl =>
    have hw : writeFiles z Wr.good l = ((writeFiles z Wr.good l).1, none) := by rw [he]
    obtain ⟨g1, b1, g2, g3, g4, g5⟩ := writeFiles_none hw
    rw [g5, ← he]
    exact Buf.good_flush_err (Buf.good_writes_err _ (Buf.good_writes_err _ g2))

theorem add_error {z : ZipFmt} {w : Wr} {s s' : ZipW} {p : String × Stream} {e : Err}
    (h : s.add z w p = (s', some e)) : s'.buf.err = some e ∨ (packOne p).2 = some e := by
  unfold ZipW.add at h
  simp only at h
  split at h
  · rename_i x hx
    simp only [Prod.mk.injEq, Option.some.injEq] at h
    rw [← h.1, ← h.2]; exact .inl hx
  · split at h
    · rename_i hl
      simp only [Prod.mk.injEq, Option.some.injEq] at h
      rw [← h.2]; unfold packOne; rw [if_pos hl]; exact .inr rfl
    · rename_i hl
      split at h
      · rename_i x hx
        simp only [Prod.mk.injEq, Option.some.injEq] at h
        rw [← h.1, ← h.2]; exact .inl hx
      · split at h
        · rename_i hd
          simp only [Prod.mk.injEq, Option.some.injEq] at h
          rw [← h.2]; unfold packOne; rw [if_neg hl, if_pos hd]; exact .inr rfl
        · rename_i hd
          split at h
          · rename_i x hx
            simp only [Prod.mk.injEq, Option.some.injEq] at h
            rw [← h.1, ← h.2]; exact .inl hx
          · simp only [Prod.mk.injEq] at h
            unfold packOne; rw [if_neg hl, if_neg hd]; exact .inr h.2

theorem add_fine {z : ZipFmt} {w : Wr} {s s' : ZipW} {p : String × Stream}
    (h : s.add z w p = (s', none)) : (packOne p).2 = none := by
  unfold ZipW.add at h
  simp only at h
  split at h
  · simp at h
  · split at h
    · simp at h
    · rename_i hl
      split at h
      · simp at h
      · split at h
        · simp at h
        · rename_i hd
          split at h
          · simp at h
          · simp only [Prod.mk.injEq] at h
            unfold packOne; rw [if_neg hl, if_neg hd]; exact h.2

theorem addAll_error {z : ZipFmt} {w : Wr} {e : Err} : ∀ {l : List (String × Stream)} {s s' : ZipW},
    s.addAll z w l = (s', some e) → s'.buf.err = some e ∨ (packAll l).2 = some e := by
  intro l
  induction l with
  | nil => intro s s' h; simp [ZipW.addAll] at h
  | cons p l ih =>
    intro s s' h
    rw [ZipW.addAll] at h
    rcases ha : s.add z w p with ⟨s1, _ | x⟩
    · rw [ha] at h
      rcases ih h with h1 | h1
      · exact .inl h1
      · refine .inr ?_
        have := add_fine ha
        rw [packAll]
        rcases hp : packOne p with ⟨a, _ | y⟩
        · exact h1
        · rw [hp] at this; cases this
    · rw [ha] at h
      simp only [Prod.mk.injEq, Option.some.injEq] at h
      rw [← h.1, ← h.2]
      rcases add_error ha with h1 | h1
      · exact .inl h1
      · refine .inr ?_
        rw [packAll]
        rcases hp : packOne p with ⟨a, _ | y⟩
        · rw [hp] at h1; cases h1
        · rw [hp] at h1; exact h1

/-- **C52, errors.** An error that WriteTo returns is the error of the writer, or the error with which
saving the document fails on a writer that takes everything. -/
theorem C52_error (z : ZipFmt) (w : Wr) (f : Doc) (b : Buf) (e : Err) (h : WritesTo z w f b (some e)) :
    b.err = some e ∨ ∃ out, Saves f out (some e) := by
  generalize he : some e = x at h
  cases h with
  | @noFile y h => exact .inr ⟨[], .noFile h⟩
  | @order m l h hl =>
    unfold writeFiles at he ⊢
    rcases ha : ({} : ZipW).addAll z w l with ⟨s, _ | y⟩
    · rw [ha] at he; cases he
    · rw [ha] at he
      simp only [Option.some.injEq] at he
      subst he
      rcases addAll_error ha with h1 | h1
      · refine .inl ?_
        have hn : s.buf.err ≠ none := by rw [h1]; simp
        show (((s.buf.writes w (z.tailOf s.last)).writes w (z.dir s.dir)).flush w).err = some e
        rw [Buf.writes_err hn, Buf.writes_err hn]
        unfold Buf.flush
        rw [if_pos (.inl hn)]
        exact h1
      · refine .inr ⟨(packAll l).1, ?_⟩
        have := Saves.order h hl
        rwa [h1] at this

theorem good_add {z : ZipFmt} {s : ZipW} (p : String × Stream) (h : s.buf.err = none) :
    (s.add z Wr.good p).1.buf.err = none := by
  have h1 := Buf.good_writes_err (z.tailOf s.last) h
  have h2 := Buf.good_writes_err (z.header p.1) h1
  have h3 := Buf.good_writes_err (z.body p.1 p.2.data) h2
  unfold ZipW.add
  simp only [h1, h2, h3]
  split
  · exact h1
  · split
    · exact h2
    · exact h3

theorem good_addAll {z : ZipFmt} : ∀ (l : List (String × Stream)) {s : ZipW}, s.buf.err = none →
    (s.addAll z Wr.good l).1.buf.err = none
  | [], _, h => h
  | p :: l, s, h => by
    have h1 := good_add (z := z) p h
    rw [ZipW.addAll]
    rcases ha : s.add z Wr.good p with ⟨s1, _ | x⟩
    · rw [ha] at h1
      exact good_addAll l h1
    · rw [ha] at h1
      exact h1

/-- **C52, errors.** On a writer that takes everything WriteTo returns an error only if the package cannot
be made, and then this error. -/
theorem C52_good_error (z : ZipFmt) (w : Wr) (hw : ∀ calls p, w calls p = none) (f : Doc) (b : Buf) (e : Err)
    (h : WritesTo z w f b (some e)) : ∃ out, Saves f out (some e) := by
  have hg : w = Wr.good := by funext calls p; exact hw calls p
  subst hg
  rcases C52_error z _ f b e h with h1 | h1
  · have key : ∀ {b : Buf} {x : Option Err}, WritesTo z Wr.good f b x → b.err = none := by
      intro b x h
      cases h with
      | noFile h => exact Buf.good_flush_err (Buf.good_writes_err _ (Buf.good_writes_err _ rfl))
      | @order m l h hl =>
        exact Buf.good_flush_err (Buf.good_writes_err _ (Buf.good_writes_err _ (good_addAll (z := z) l (s := {}) rfl)))
    rw [key h] at h1; cases h1
  · exact h1

/-- A toy archive format, and a document that it stores in less than 4096 bytes; so both refutations
apply to something. -/
example : ∃ (z : ZipFmt) (f : Doc) (out : Saved), Saves f out none ∧ (z.dir out).flatten ≠ [] ∧
    (out.flatMap z.entryBytes).length ≤ 4096 ∧ out.length = 3 := by
  refine ⟨⟨fun n => [[80, 75], n.toUTF8.toList], fun _ b => [b], fun _ _ => [[0]], fun _ => [[80, 75, 5, 6]]⟩,
    { rels := [], tmpfslst := ["a"], media := [], tmplfs := some (fun _ => .ok ⟨[9], none⟩) }, _,
    saves_of rfl (List.Perm.refl _) rfl, by simp, ?_, rfl⟩
  decide +kernel

end Docx
