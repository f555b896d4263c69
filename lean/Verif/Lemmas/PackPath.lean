import Verif.Lemmas.Pack

/-! # Paths in archives, and reading back what was written -/

namespace Docx

set_option linter.unusedSectionVars false

variable [GoEnv]

theorem splitSlash_ne_nil : ∀ cs, splitSlash cs ≠ [] := by
  intro cs
  cases cs with
  | nil => simp [splitSlash]
  | cons c cs =>
    rw [splitSlash]
    split
    · simp
    · split <;> simp

theorem joinSlash_cons (x : List Char) {xs : List (List Char)} (h : xs ≠ []) :
    joinSlash (x :: xs) = x ++ '/' :: joinSlash xs := by
  cases xs with
  | nil => exact absurd rfl h
  | cons y ys => rfl

theorem join_split : ∀ cs, joinSlash (splitSlash cs) = cs := by
  intro cs
  induction cs with
  | nil => rfl
  | cons c cs ih =>
    rw [splitSlash]
    split
    · rename_i h
      rw [joinSlash_cons _ (splitSlash_ne_nil cs), ih, h]
      rfl
    · have hne := splitSlash_ne_nil cs
      cases hs : splitSlash cs with
      | nil => exact absurd hs hne
      | cons x xs =>
        rw [hs] at ih
        cases xs with
        | nil => simp only [joinSlash] at ih ⊢; rw [ih]
        | cons y ys => simp only [joinSlash] at ih ⊢; rw [List.cons_append, ih]

/-- None of the elements that `path.Clean` removes -/
def OkElem (x : List Char) : Prop := x ≠ [] ∧ x ≠ ['.'] ∧ x ≠ ['.', '.']

theorem cleanPath_ok (rooted : Bool) : ∀ (xs acc : List (List Char)), (∀ x ∈ xs, OkElem x) →
    cleanPath rooted acc xs = acc.reverse ++ xs := by
  intro xs
  induction xs with
  | nil => intro acc _; simp [cleanPath]
  | cons x xs ih =>
    intro acc h
    simp only [List.mem_cons, forall_eq_or_imp] at h
    obtain ⟨⟨h1, h2, h3⟩, h⟩ := h
    unfold cleanPath
    rw [if_neg (by simp [h1, h2]), if_neg h3, ih _ h]
    simp

theorem dropUp_ok {x : List Char} {xs : List (List Char)} (h : x ≠ ['.', '.']) : dropUp (x :: xs) = x :: xs := by
  cases xs with
  | nil => rfl
  | cons y ys => rw [dropUp, if_neg h]

theorem plainPath_elems {s : String} (h : plainPath s = true) : ∀ x ∈ splitSlash s.toList, OkElem x := by
  simp only [plainPath, validPath, Bool.and_eq_true, Bool.or_eq_true, bne_iff_ne, ne_eq, beq_iff_eq] at h
  obtain ⟨⟨h | h, h2⟩, _⟩ := h
  · exact absurd h h2
  · intro x hx
    rw [List.all_eq_true] at h
    have := h x hx
    simp only [Bool.and_eq_true, bne_iff_ne, ne_eq] at this
    exact ⟨this.1.1, this.1.2, this.2⟩

theorem splitSlash_head {c : Char} {cs : List Char} (h : ∀ x ∈ splitSlash (c :: cs), OkElem x) : c ≠ '/' := by
  intro e
  subst e
  have := h [] (by rw [splitSlash]; simp)
  exact this.1 rfl

/-- A plain path is its own valid name -/
theorem toValidName_plain {s : String} (h : plainPath s = true) : toValidName s = s := by
  have he := plainPath_elems h
  have hb : ∀ c ∈ s.toList, c ≠ '\\' := by
    simp only [plainPath, Bool.and_eq_true, Bool.not_eq_true', List.contains_eq_mem, decide_eq_false_iff_not] at h
    intro c hc e
    exact h.2 (e ▸ hc)
  have hm : (s.toList.map fun c => if c = '\\' then '/' else c) = s.toList := by
    conv => rhs; rw [← List.map_id s.toList]
    apply List.map_congr_left
    intro c hc
    rw [if_neg (hb c hc)]
    rfl
  unfold toValidName
  simp only [hm]
  have hc : ∀ b, dropUp (cleanPath b [] (splitSlash s.toList)) = splitSlash s.toList := by
    intro b
    rw [cleanPath_ok _ _ _ he]
    simp only [List.reverse_nil, List.nil_append]
    cases hs : splitSlash s.toList with
    | nil => rfl
    | cons x xs => exact dropUp_ok (he x (by rw [hs]; simp)).2.2
  rw [hc, if_neg (splitSlash_ne_nil _), join_split, String.ofList_toList]

theorem splitSlash_snoc : ∀ cs : List Char, splitSlash (cs ++ ['/']) = splitSlash cs ++ [[]] := by
  intro cs
  induction cs with
  | nil => rfl
  | cons c cs ih =>
    rw [List.cons_append, splitSlash, splitSlash, ih]
    split
    · rfl
    · cases hs : splitSlash cs with
      | nil => exact absurd hs (splitSlash_ne_nil _)
      | cons x xs => rfl

theorem isDirName_plain {s : String} (h : plainPath s = true) : isDirName s = false := by
  rw [Bool.eq_false_iff]
  intro e
  simp only [isDirName, beq_iff_eq] at e
  obtain ⟨cs, hcs⟩ := List.getLast?_eq_some_iff.1 e
  have := plainPath_elems h []
  rw [hcs, splitSlash_snoc] at this
  exact (this (by simp)).1 rfl

theorem validPath_plain {s : String} (h : plainPath s = true) : validPath s = true ∧ s ≠ "." := by
  simp only [plainPath, Bool.and_eq_true, bne_iff_ne, ne_eq] at h
  exact ⟨h.1.1, h.1.2⟩

/-- Opening a plain path in an archive with plain paths gives that entry -/
theorem zipFS_reread {out : Saved} (hn : (out.map (·.1)).Nodup)
    (hp : ∀ p ∈ out, plainPath p.1 = true) {n : String} {b : Bytes} (h : (n, b) ∈ out) :
    zipFS (reread out) n = .ok ⟨b, none⟩ := by
  have hpn := hp _ h
  obtain ⟨h1, h2⟩ := validPath_plain hpn
  unfold zipFS
  rw [if_neg (by simp [h1]), if_neg h2]
  have : (reread out).find? (fun e => toValidName e.name == n) = some ⟨n, .ok ⟨b, none⟩⟩ := by
    unfold reread
    rw [List.find?_map]
    have : out.find? ((fun e : Entry => toValidName e.name == n) ∘
        fun p : String × Bytes => ⟨p.1, .ok ⟨p.2, none⟩⟩) = some (n, b) := by
      clear hpn h1 h2
      induction out with
      | nil => simp at h
      | cons p out ih =>
        simp only [List.map_cons, List.nodup_cons] at hn
        have hpp := toValidName_plain (hp p (by simp))
        rcases List.mem_cons.1 h with rfl | h
        · simp [hpp]
        · have : p.1 ≠ n := fun e => hn.1 (e ▸ List.mem_map.2 ⟨_, h, rfl⟩)
          rw [List.find?_cons_of_neg]
          · exact ih hn.2 (fun q hq => hp q (by simp [hq])) h
          · simp [hpp, this]
    rw [this]
    rfl
  rw [this]
  simp only
  rw [isDirName_plain hpn]
  rfl

end Docx
