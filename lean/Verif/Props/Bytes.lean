import Verif.SpecBytes

/-!
# C106: strings and byte slices that share memory
-/

namespace Docx

section
variable {grow : Nat → Nat}

/-- The headers fit the arrays. -/
structure Memory.Fits (m : Memory) : Prop where
  slices : ∀ b ∈ m.slices, b.len ≤ b.cap ∧ ∃ a, m.arrs[b.arr]? = some a ∧ b.off + b.cap ≤ a.length
  strings : ∀ s ∈ m.strings, ∃ a, m.arrs[s.arr]? = some a ∧ s.off + s.len ≤ a.length

theorem mem_push {α : Type} {p : α → Prop} {l : List α} {x : α} (h : ∀ y ∈ l, p y) (hx : p x) : ∀ y ∈ l ++ [x], p y := by
  intro y hy
  rcases List.mem_append.1 hy with hy | hy
  · exact h y hy
  · rw [List.mem_singleton] at hy; subst hy; exact hx

theorem fits_step {m m' : Memory} {o : MemOp} (h : m.Fits) (hs : m.step grow o = some m') : m'.Fits := by
  have more : ∀ (x : List UInt8) (k : Nat) (n : Nat), (∃ a, m.arrs[k]? = some a ∧ n ≤ a.length) →
      ∃ a, (m.arrs ++ [x])[k]? = some a ∧ n ≤ a.length := by
    rintro x k n ⟨a, ha, hn⟩
    exact ⟨a, by rw [List.getElem?_append_left (List.getElem?_eq_some_iff.1 ha).1]; exact ha, hn⟩
  have put : ∀ (j p : Nat) (y : UInt8) (k n : Nat), (∃ a, m.arrs[k]? = some a ∧ n ≤ a.length) →
      ∃ a, (m.arrs.modify j (·.set p y))[k]? = some a ∧ n ≤ a.length := by
    rintro j p y k n ⟨a, ha, hn⟩
    rw [List.getElem?_modify, ha]
    exact ⟨_, rfl, by dsimp only; split <;> simpa using hn⟩
  have new : ∀ (xs : List UInt8) (cap : Nat), ∃ a, (m.arrs.alloc xs cap).1[(m.arrs.alloc xs cap).2.arr]? = some a ∧
      (m.arrs.alloc xs cap).2.off + (m.arrs.alloc xs cap).2.cap ≤ a.length := by
    intro xs cap
    refine ⟨xs ++ List.replicate (cap - xs.length) default, by simp [Arrays.alloc], ?_⟩
    simp [Arrays.alloc]
    omega
  cases o with
  | bytes xs cap =>
    simp only [Memory.step, Option.some.injEq] at hs
    subst hs
    refine ⟨mem_push (fun b hb => ⟨(h.slices b hb).1, more _ _ _ (h.slices b hb).2⟩) ⟨?_, new xs cap⟩,
      fun s hs => more _ _ _ (h.strings s hs)⟩
    simp only [Arrays.alloc]
    omega
  | text xs =>
    simp only [Memory.step, Option.some.injEq] at hs
    subst hs
    exact ⟨fun b hb => ⟨(h.slices b hb).1, more _ _ _ (h.slices b hb).2⟩,
      mem_push (fun s hs => more _ _ _ (h.strings s hs)) ⟨xs, by simp, by simp⟩⟩
  | toString i =>
    simp only [Memory.step, Option.bind_eq_bind, Option.bind_eq_some_iff, Option.some.injEq] at hs
    obtain ⟨b, hb, rfl⟩ := hs
    obtain ⟨h1, a, h2, h3⟩ := h.slices b (List.mem_of_getElem? hb)
    exact ⟨h.slices, mem_push h.strings ⟨a, h2, by simp only [bytesToString]; omega⟩⟩
  | toBytes i =>
    simp only [Memory.step, Option.bind_eq_bind, Option.bind_eq_some_iff, Option.some.injEq] at hs
    obtain ⟨s, hs, rfl⟩ := hs
    exact ⟨mem_push h.slices ⟨Nat.le_refl _, h.strings s (List.mem_of_getElem? hs)⟩, h.strings⟩
  | set i k x =>
    simp only [Memory.step, Option.bind_eq_bind, Option.bind_eq_some_iff] at hs
    obtain ⟨b, hb, hs⟩ := hs
    split at hs
    · simp only [Option.some.injEq] at hs
      subst hs
      exact ⟨fun b hb => ⟨(h.slices b hb).1, put _ _ _ _ _ (h.slices b hb).2⟩, fun s hs => put _ _ _ _ _ (h.strings s hs)⟩
    · cases hs
  | append i x =>
    simp only [Memory.step, Option.bind_eq_bind, Option.bind_eq_some_iff, Option.some.injEq] at hs
    obtain ⟨b, hb, rfl⟩ := hs
    have hb' := h.slices b (List.mem_of_getElem? hb)
    unfold Arrays.append
    split
    · rename_i hlt
      exact ⟨mem_push (fun b hb => ⟨(h.slices b hb).1, put _ _ _ _ _ (h.slices b hb).2⟩)
        ⟨hlt, put _ _ _ _ _ hb'.2⟩, fun s hs => put _ _ _ _ _ (h.strings s hs)⟩
    · refine ⟨mem_push (fun b hb => ⟨(h.slices b hb).1, more _ _ _ (h.slices b hb).2⟩) ⟨?_, new _ _⟩,
        fun s hs => more _ _ _ (h.strings s hs)⟩
      simp only [Arrays.alloc]
      omega
  | sub i a b c =>
    simp only [Memory.step, Option.bind_eq_bind, Option.bind_eq_some_iff, Option.some.injEq] at hs
    obtain ⟨s, hi, s', hs', rfl⟩ := hs
    obtain ⟨h1, ar, h2, h3⟩ := h.slices s (List.mem_of_getElem? hi)
    unfold Slc.sub at hs'
    split at hs'
    · simp only [Option.some.injEq] at hs'
      subst hs'
      refine ⟨mem_push h.slices ⟨?_, ar, h2, ?_⟩, h.strings⟩
      · dsimp only; omega
      · dsimp only; omega
    · cases hs'

theorem fits_steps : ∀ {os : List MemOp} {m m' : Memory}, m.Fits → m.steps grow os = some m' → m'.Fits
  | [], m, m', h, hs => by
    simp only [Memory.steps, Option.some.injEq] at hs
    exact hs ▸ h
  | o :: os, m, m', h, hs => by
    simp only [Memory.steps, Option.bind_eq_some_iff] at hs
    obtain ⟨m1, h1, h2⟩ := hs
    exact fits_steps (fits_step h h1) h2

theorem fits_program {os : List MemOp} {m : Memory} (hs : Memory.steps grow {} os = some m) : m.Fits :=
  fits_steps ⟨by simp, by simp⟩ hs

/-- **C106.** `BytesToString` gives a string with the bytes that the slice has now, `StringToBytes` a slice with the
bytes of the string; neither changes any other string or slice. -/
theorem C106_conversions (m m' : Memory) (i : Nat) :
    (m.step grow (.toString i) = some m' → m'.stringAt m.strings.length = m.sliceAt i ∧
      (∀ j < m.strings.length, m'.stringAt j = m.stringAt j) ∧ ∀ j, m'.sliceAt j = m.sliceAt j) ∧
    (m.step grow (.toBytes i) = some m' → m'.sliceAt m.slices.length = m.stringAt i ∧
      (∀ j < m.slices.length, m'.sliceAt j = m.sliceAt j) ∧ ∀ j, m'.stringAt j = m.stringAt j) := by
  constructor
  · intro hs
    simp only [Memory.step, Option.bind_eq_bind, Option.bind_eq_some_iff, Option.some.injEq] at hs
    obtain ⟨b, hb, rfl⟩ := hs
    refine ⟨by simp [Memory.stringAt, Memory.sliceAt, hb, bytesToString], fun j hj => ?_, fun j => rfl⟩
    simp [Memory.stringAt, List.getElem?_append_left hj]
  · intro hs
    simp only [Memory.step, Option.bind_eq_bind, Option.bind_eq_some_iff, Option.some.injEq] at hs
    obtain ⟨s, hs, rfl⟩ := hs
    refine ⟨by simp [Memory.stringAt, Memory.sliceAt, hs, stringToBytes], fun j hj => ?_, fun j => rfl⟩
    simp [Memory.sliceAt, List.getElem?_append_left hj]

/-- Arrays, slices and strings are only added. -/
structure Memory.Grows (m m' : Memory) : Prop where
  arrs : m.arrs <+: m'.arrs
  slices : m.slices <+: m'.slices
  strings : m.strings <+: m'.strings

theorem prefix_get {α : Type} {l l' : List α} (h : l <+: l') {i : Nat} (hi : i < l.length) : l'[i]? = l[i]? := by
  obtain ⟨t, rfl⟩ := h
  rw [List.getElem?_append_left hi]

theorem grows_fresh {m m' : Memory} {o : MemOp} (hf : o.Fresh m) (hs : m.step grow o = some m') : m.Grows m' := by
  cases o with
  | bytes xs cap =>
    simp only [Memory.step, Option.some.injEq] at hs
    subst hs
    exact ⟨List.prefix_append _ _, List.prefix_append _ _, List.prefix_refl _⟩
  | text xs =>
    simp only [Memory.step, Option.some.injEq] at hs
    subst hs
    exact ⟨List.prefix_append _ _, List.prefix_refl _, List.prefix_append _ _⟩
  | toString i =>
    simp only [Memory.step, Option.bind_eq_bind, Option.bind_eq_some_iff, Option.some.injEq] at hs
    obtain ⟨b, hb, rfl⟩ := hs
    exact ⟨List.prefix_refl _, List.prefix_refl _, List.prefix_append _ _⟩
  | toBytes i =>
    simp only [Memory.step, Option.bind_eq_bind, Option.bind_eq_some_iff, Option.some.injEq] at hs
    obtain ⟨b, hb, rfl⟩ := hs
    exact ⟨List.prefix_refl _, List.prefix_append _ _, List.prefix_refl _⟩
  | set i k x => exact hf.elim
  | append i x =>
    simp only [Memory.step, Option.bind_eq_bind, Option.bind_eq_some_iff, Option.some.injEq] at hs
    obtain ⟨b, hb, rfl⟩ := hs
    have e := hf b hb
    unfold Arrays.append
    rw [if_neg (by omega)]
    exact ⟨List.prefix_append _ _, List.prefix_append _ _, List.prefix_refl _⟩
  | sub i a b c =>
    simp only [Memory.step, Option.bind_eq_bind, Option.bind_eq_some_iff, Option.some.injEq] at hs
    obtain ⟨s, hi, s', hs', rfl⟩ := hs
    exact ⟨List.prefix_refl _, List.prefix_append _ _, List.prefix_refl _⟩

theorem grows_string {m m' : Memory} (hm : m.Fits) (h : m.Grows m') (j : Nat) (hj : j < m.strings.length) :
    m'.stringAt j = m.stringAt j := by
  unfold Memory.stringAt
  rw [prefix_get h.strings hj]
  cases e : m.strings[j]? with
  | none => rfl
  | some s =>
    obtain ⟨a, ha, _⟩ := hm.strings s (List.mem_of_getElem? e)
    simp only [Option.map_some]
    rw [prefix_get h.arrs (List.getElem?_eq_some_iff.1 ha).1]

theorem grows_slice {m m' : Memory} (hm : m.Fits) (h : m.Grows m') (j : Nat) (hj : j < m.slices.length) :
    m'.sliceAt j = m.sliceAt j := by
  unfold Memory.sliceAt
  rw [prefix_get h.slices hj]
  cases e : m.slices[j]? with
  | none => rfl
  | some s =>
    obtain ⟨_, a, ha, _⟩ := hm.slices s (List.mem_of_getElem? e)
    simp only [Option.map_some]
    rw [prefix_get h.arrs (List.getElem?_eq_some_iff.1 ha).1]

/-- **C106, strings that stay.** A program, with any calls so far, goes on without assigning to elements of slices and
without appending to slices that have room.  Then no string changes. -/
theorem C106_kept (os : List MemOp) (m : Memory) (h : Memory.steps grow {} os = some m) (os' : List MemOp) (m' : Memory)
    (hr : NoOverwrite grow m os' m') (j : Nat) (hj : j < m.strings.length) : m'.stringAt j = m.stringAt j := by
  have hm := fits_program h
  clear h
  induction hr with
  | nil => rfl
  | cons hf hs _ ih =>
    have hg := grows_fresh hf hs
    have hl : j < _ := Nat.lt_of_lt_of_le hj hg.strings.length_le
    rw [ih hl (fits_step hm hs), grows_string hm hg j hj]

/-- **C106, appending.** What `StringToBytes` gives can be appended to: the result is the bytes of the string and the
new one, and no string and no slice changes. -/
theorem C106_append (os : List MemOp) (m m1 m2 : Memory) (h : Memory.steps grow {} os = some m) (i : Nat) (x : UInt8)
    (h1 : m.step grow (.toBytes i) = some m1) (h2 : m1.step grow (.append m.slices.length x) = some m2) :
    m2.sliceAt m1.slices.length = (m.stringAt i).map (· ++ [x]) ∧
    (∀ j < m.strings.length, m2.stringAt j = m.stringAt j) ∧ ∀ j < m.slices.length, m2.sliceAt j = m.sliceAt j := by
  have hm := fits_program h
  have hm1 := fits_step hm h1
  have f1 : (MemOp.toBytes i).Fresh m := trivial
  have g1 := grows_fresh f1 h1
  have f2 : (MemOp.append m.slices.length x).Fresh m1 := by
    intro b hb
    simp only [Memory.step, Option.bind_eq_bind, Option.bind_eq_some_iff, Option.some.injEq] at h1
    obtain ⟨s, _, rfl⟩ := h1
    simp at hb
    subst hb
    rfl
  have g2 := grows_fresh f2 h2
  refine ⟨?_, fun j hj => ?_, fun j hj => ?_⟩
  · simp only [Memory.step, Option.bind_eq_bind, Option.bind_eq_some_iff, Option.some.injEq] at h1 h2
    obtain ⟨s, hs, rfl⟩ := h1
    obtain ⟨b, hb, rfl⟩ := h2
    simp at hb
    subst hb
    obtain ⟨a, ha, hlen⟩ := hm.strings s (List.mem_of_getElem? hs)
    simp only [Memory.sliceAt, Memory.stringAt, hs, List.getElem?_concat_length, Option.map_some, Arrays.append, stringToBytes]
    simp only [Nat.lt_irrefl, ↓reduceIte, Arrays.alloc, Arrays.get, ha, List.getElem?_concat_length, Option.getD_some,
      List.drop_zero]
    rw [List.take_append_of_le_length (Nat.le_refl _), List.take_length]
  · rw [grows_string hm1 g2 j (Nat.lt_of_lt_of_le hj g1.strings.length_le), grows_string hm g1 j hj]
  · rw [grows_slice hm1 g2 j (Nat.lt_of_lt_of_le hj g1.slices.length_le), grows_slice hm g1 j hj]

/-- The byte at a place of a string after a write -/
theorem write_byte (m : Memory) (b : Slc) (s : StrHeader) (k n : Nat) (x : UInt8) (a : List UInt8)
    (ha : m.arrs[b.arr]? = some a) (hk : b.off + k < a.length) :
    ((((m.arrs.modify b.arr (·.set (b.off + k) x))[s.arr]?.getD []).drop s.off).take s.len)[n]? =
      if s.arr = b.arr ∧ s.off + n = b.off + k ∧ n < s.len then some x
      else (((m.arrs[s.arr]?.getD []).drop s.off).take s.len)[n]? := by
  rw [List.getElem?_modify]
  by_cases e : s.arr = b.arr
  · rw [e, ha]
    simp only [↓reduceIte, Option.getD_some, List.getElem?_take, List.getElem?_drop,
      true_and]
    by_cases hn : n < s.len
    · by_cases hq : b.off + k = s.off + n
      · simp [hn, hq, hq ▸ hk]
      · have : ¬s.off + n = b.off + k := fun e => hq e.symm
        simp [hn, hq, this]
    · simp [hn]
  · have : ¬b.arr = s.arr := fun h => e h.symm
    simp [e, this]

/-- **C106, writing.** Exactly what an assignment `b[k] = x` does to a string: it changes the byte that lies at the same
place of memory, if there is one. -/
theorem C106_write (os : List MemOp) (m m' : Memory) (h : Memory.steps grow {} os = some m) (i k : Nat) (x : UInt8)
    (hs : m.step grow (.set i k x) = some m') (b : Slc) (hb : m.slices[i]? = some b) (j : Nat) (s : StrHeader)
    (hj : m.strings[j]? = some s) (n : Nat) :
    (m'.stringAt j).bind (·[n]?) =
      if s.arr = b.arr ∧ s.off + n = b.off + k ∧ n < s.len then some x else (m.stringAt j).bind (·[n]?) := by
  have hm := fits_program h
  obtain ⟨hl, a, ha, hc⟩ := hm.slices b (List.mem_of_getElem? hb)
  simp only [Memory.step, hb, Option.bind_eq_bind, Option.bind_some] at hs
  split at hs
  · rename_i hk
    simp only [Option.some.injEq] at hs
    subst hs
    simp only [Memory.stringAt, hj, Option.map_some, Option.bind_some]
    exact write_byte m b s k n x a ha (by omega)
  · cases hs

/-- **C106, strings change.** A string from `BytesToString(b)` follows every later assignment to `b`: strings are not
constant.  For every program, slice, place and byte. -/
theorem C106_shared (os : List MemOp) (m m1 m2 : Memory) (h : Memory.steps grow {} os = some m) (i k : Nat) (x : UInt8)
    (h1 : m.step grow (.toString i) = some m1) (h2 : m1.step grow (.set i k x) = some m2) :
    m2.stringAt m.strings.length = (m.sliceAt i).map (·.set k x) := by
  have hm1 := fits_step (fits_program h) h1
  have c := ((C106_conversions (grow := grow) m m1 i).1 h1).1
  simp only [Memory.step, Option.bind_eq_bind, Option.bind_eq_some_iff, Option.some.injEq] at h1
  obtain ⟨b, hb, rfl⟩ := h1
  have hb1 := hb
  obtain ⟨hl, a, ha, hc⟩ := hm1.slices b (List.mem_of_getElem? hb)
  simp only [Memory.step, hb, Option.bind_eq_bind, Option.bind_some] at h2
  split at h2
  · rename_i hk
    simp only [Option.some.injEq] at h2
    subst h2
    simp only [Memory.stringAt, Memory.sliceAt, hb, List.getElem?_concat_length, Option.map_some, Option.some.injEq]
    apply List.ext_getElem?
    intro n
    have := write_byte m b (bytesToString b) k n x a ha (by omega)
    rw [show (bytesToString b).arr = b.arr from rfl, show (bytesToString b).off = b.off from rfl,
      show (bytesToString b).len = b.len from rfl] at this
    show ((((m.arrs.modify b.arr (·.set (b.off + k) x))[b.arr]?.getD []).drop b.off).take b.len)[n]? = _
    rw [this, List.getElem?_set]
    by_cases e : k = n
    · subst e
      have ha' : m.arrs[b.arr]? = some a := ha
      simp only [hk, true_and, and_true, ↓reduceIte, ha', Option.getD_some, List.length_take, List.length_drop]
      rw [if_pos (by omega)]
    · rw [if_neg e, if_neg (by omega)]
  · cases h2

end

/-! ## Cases -/

/-- A string of three bytes, as a slice; the slice is appended to -/
example : ∃ m1 m2 : Memory, (Memory.steps (· + 1) {} [.text [1, 2, 3], .toBytes 0]) = some m1 ∧
    m1.step (· + 1) (.append 0 4) = some m2 ∧ m2.sliceAt 1 = some [1, 2, 3, 4] ∧ m2.stringAt 0 = some [1, 2, 3] :=
  ⟨_, _, rfl, rfl, rfl, rfl⟩

example : ∃ m m' : Memory, Memory.steps (· + 1) {} [.bytes [1, 2] 5, .toString 0] = some m ∧
    NoOverwrite (· + 1) m [.sub 0 0 1 1, .append 1 9, .toBytes 0, .append 3 7] m' ∧ m'.stringAt 0 = some [1, 2] ∧
    m'.sliceAt 2 = some [1, 9] := by
  refine ⟨_, _, rfl, .cons trivial rfl (.cons ?_ rfl (.cons trivial rfl (.cons ?_ rfl (.nil _)))), rfl, rfl⟩
  · intro b hb; obtain rfl := Option.some.inj hb; rfl
  · intro b hb; obtain rfl := Option.some.inj hb; rfl

/-- A string is changed by an assignment to the slice it was made from. -/
example : ∃ m m' : Memory, Memory.steps (· + 1) {} [.bytes [1, 2] 2, .toString 0] = some m ∧
    m.step (· + 1) (.set 0 1 7) = some m' ∧ m.stringAt 0 = some [1, 2] ∧ m'.stringAt 0 = some [1, 7] :=
  ⟨_, _, rfl, rfl, rfl, rfl⟩

/-- **C106, appending to a part.** A string is changed by appending to the beginning of what `StringToBytes` gives:
that has room. -/
theorem C106_part_overwrites : ∃ m m' : Memory,
    Memory.steps (· + 1) {} [.text [1, 2, 3], .toBytes 0, .sub 0 0 1 3] = some m ∧
    m.step (· + 1) (.append 1 9) = some m' ∧ m.stringAt 0 = some [1, 2, 3] ∧ m'.stringAt 0 = some [1, 9, 3] :=
  ⟨_, _, rfl, rfl, rfl, rfl⟩

end Docx
