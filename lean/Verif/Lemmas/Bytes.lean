import Verif.Spec

/-!
# Cutting strings at byte positions, and looking up pictures
-/

namespace Docx

theorem utf8ByteSize_ofList (cs : List Char) :
    (String.ofList cs).utf8ByteSize = (cs.map Char.utf8Size).sum := by
  induction cs with
  | nil => rfl
  | cons c cs ih =>
    have : String.ofList (c :: cs) = String.singleton c ++ String.ofList cs := by
      apply String.ext; simp
    rw [this, String.utf8ByteSize_append, ih, String.utf8ByteSize_singleton]
    simp

theorem dropBytes_some : ∀ (cs : List Char) (n : Nat) (r : List Char),
    dropBytes n cs = some (some r) ↔ ∃ pre, cs = pre ++ r ∧ (pre.map Char.utf8Size).sum = n := by
  intro cs
  induction cs with
  | nil =>
    intro n r
    cases n with
    | zero =>
      rw [dropBytes]
      constructor
      · intro h; simp at h; subst h; exact ⟨[], rfl, rfl⟩
      · rintro ⟨pre, h, _⟩; simp at h; simp [h]
    | succ n =>
      rw [dropBytes]
      constructor
      · intro h; simp at h
      · rintro ⟨pre, h, h2⟩
        have : pre = [] := by simp at h; exact h.1
        subst this; simp at h2
  | cons c cs ih =>
    intro n r
    cases n with
    | zero =>
      rw [dropBytes]
      constructor
      · intro h; simp at h; subst h; exact ⟨[], rfl, rfl⟩
      · rintro ⟨pre, h, h2⟩
        cases pre with
        | nil => simpa using h
        | cons x xs =>
          have := Char.utf8Size_pos x
          simp at h2; omega
    | succ n =>
      rw [dropBytes]
      have hpos := Char.utf8Size_pos c
      split
      · rename_i hle
        rw [ih]
        constructor
        · rintro ⟨pre, h, h2⟩
          refine ⟨c :: pre, by simp [h], ?_⟩
          simp only [List.map_cons, List.sum_cons]; omega
        · rintro ⟨pre, h, h2⟩
          cases pre with
          | nil => simp at h2
          | cons x xs =>
            simp only [List.cons_append, List.cons.injEq] at h
            obtain ⟨rfl, rfl⟩ := h
            simp only [List.map_cons, List.sum_cons] at h2
            exact ⟨xs, rfl, by omega⟩
      · rename_i hgt
        constructor
        · intro h; simp at h
        · rintro ⟨pre, h, h2⟩
          cases pre with
          | nil => simp at h2
          | cons x xs =>
            simp only [List.cons_append, List.cons.injEq] at h
            obtain ⟨rfl, rfl⟩ := h
            simp only [List.map_cons, List.sum_cons] at h2
            omega

/-- A cut within the string does not panic. -/
theorem dropBytes_none : ∀ (cs : List Char) (n : Nat),
    dropBytes n cs = none → (cs.map Char.utf8Size).sum < n := by
  intro cs
  induction cs with
  | nil => intro n h; cases n with
    | zero => rw [dropBytes] at h; simp at h
    | succ n => simp
  | cons c cs ih =>
    intro n h
    cases n with
    | zero => rw [dropBytes] at h; simp at h
    | succ n =>
      rw [dropBytes] at h
      split at h
      · have := ih _ h
        simp only [List.map_cons, List.sum_cons]; omega
      · simp at h

/-- `Media(tgt[6:])` finds an entry exactly when the target is six bytes and then its name. -/
theorem mediaOfTarget_some {f : Doc} {tgt : String} {m : Media} :
    mediaOfTarget f tgt = .ok (some m) ↔
      ∃ pre name, tgt = pre ++ name ∧ pre.utf8ByteSize = 6 ∧ f.getMedia name = .ok (some m) := by
  unfold mediaOfTarget
  constructor
  · intro h
    split at h
    · simp at h
    · simp at h
    · rename_i name hd
      obtain ⟨pre, h1, h2⟩ := (dropBytes_some _ _ _).1 hd
      refine ⟨String.ofList pre, String.ofList name, ?_, ?_, h⟩
      · apply String.ext; simp [h1]
      · rw [utf8ByteSize_ofList]; exact h2
  · rintro ⟨pre, name, rfl, h2, h3⟩
    have : dropBytes 6 (pre ++ name).toList = some (some name.toList) := by
      rw [dropBytes_some]
      refine ⟨pre.toList, by simp, ?_⟩
      rw [← utf8ByteSize_ofList]; simpa using h2
    rw [this]; simpa using h3

theorem mediaOfTarget_ok {f : Doc} {tgt : String} (h1 : 6 ≤ tgt.utf8ByteSize)
    (h2 : ∀ name, f.getMedia name ≠ .panic) : ∃ m, mediaOfTarget f tgt = .ok m := by
  unfold mediaOfTarget
  split
  · rename_i hd
    have := dropBytes_none _ _ hd
    rw [← utf8ByteSize_ofList] at this
    simp at this; omega
  · exact ⟨_, rfl⟩
  · rename_i name _
    have := h2 (String.ofList name)
    unfold Doc.getMedia at this ⊢
    split
    · exact ⟨_, rfl⟩
    · split
      · exact ⟨_, rfl⟩
      · rename_i h3 _ h4; simp [h3, h4] at this

theorem hasPicture_iff {w : World} {i : DocId} {f : Doc} {id : String} {data : Bytes}
    (hf : w[i]? = some f) : HasPicture w (some i) id data ↔
      ∃ tgt m, f.referTarget id = some tgt ∧ mediaOfTarget f tgt = .ok (some m) ∧ m.data = data := by
  constructor
  · rintro ⟨j, g, pre, name, m, h0, h1, h2, h3, h4, h5⟩
    obtain rfl := Option.some.inj h0
    rw [hf] at h1; obtain rfl := Option.some.inj h1
    exact ⟨_, m, h2, mediaOfTarget_some.2 ⟨pre, name, rfl, h3, h4⟩, h5⟩
  · rintro ⟨tgt, m, h1, h2, h3⟩
    obtain ⟨pre, name, rfl, h4, h5⟩ := mediaOfTarget_some.1 h2
    exact ⟨i, f, pre, name, m, rfl, hf, h1, h4, h5, h3⟩

@[simp] theorem resolve_some {w : World} {i : DocId} {f : Doc} (hf : w[i]? = some f) (id : String) :
    w.resolve (some i) id = f.referTarget id := by
  simp [World.resolve, hf]

end Docx
