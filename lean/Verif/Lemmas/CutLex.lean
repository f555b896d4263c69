import Verif.Lemmas.XmlText

/-!
# What the lexer makes of a file that is cut short

A construct that the lexer accepts ends in the bytes it has read, except for a text at the end of the file.
-/

namespace Docx

set_option linter.unusedSectionVars false

variable [GoEnv]

/-- Nothing but bytes that belong to no character -/
def Junk (N : List Rune) : Prop := ∀ r ∈ N, r = none

theorem Junk.cases {N : List Rune} (h : Junk N) : N = [] ∨ ∃ N', N = none :: N' ∧ Junk N' := by
  cases N with
  | nil => exact .inl rfl
  | cons r N =>
    have := h r (by simp)
    subst this
    exact .inr ⟨N, rfl, fun x hx => h x (by simp [hx])⟩

/-- What `f` accepts ends in `R` -/
def Goes {α : Type} (f : List Rune → Option (α × List Rune)) (N : List Rune) : Prop :=
  ∀ R a rest, f (R ++ N) = some (a, rest) → ∃ R', rest = R' ++ N ∧ ∀ X, f (R ++ X) = some (a, R' ++ X)

theorem dropWhile_junk {N : List Rune} (hN : Junk N) : N.dropWhile isXmlSpace = N := by
  rcases hN.cases with rfl | ⟨N', rfl, _⟩
  · rfl
  · rfl

theorem dropWhile_inName_junk {N : List Rune} (hN : Junk N) : N.dropWhile inName = [] := by
  induction N with
  | nil => rfl
  | cons r N ih =>
    have := hN r (by simp)
    subst this
    rw [List.dropWhile_cons_of_pos rfl]
    exact ih (fun x hx => hN x (by simp [hx]))

theorem dropWhile_cut (p : Rune → Bool) (R : List Rune) :
    (R.dropWhile p = [] ∧ ∀ X, (R ++ X).dropWhile p = X.dropWhile p) ∨
    ∃ r R', R.dropWhile p = r :: R' ∧ ∀ X, (R ++ X).dropWhile p = r :: (R' ++ X) := by
  cases h : R.dropWhile p with
  | nil =>
    refine .inl ⟨rfl, fun X => ?_⟩
    rw [List.dropWhile_append, h]; rfl
  | cons r R' =>
    refine .inr ⟨r, R', rfl, fun X => ?_⟩
    rw [List.dropWhile_append, h]; rfl

theorem takeWhile_cut (p : Rune → Bool) (R X : List Rune) (h : R.dropWhile p ≠ []) :
    (R ++ X).takeWhile p = R.takeWhile p := by
  induction R with
  | nil => exact absurd rfl h
  | cons r R ih =>
    by_cases hp : p r = true
    · rw [List.cons_append, List.takeWhile_cons_of_pos hp, List.takeWhile_cons_of_pos hp, ih]
      rwa [List.dropWhile_cons_of_pos hp] at h
    · rw [List.cons_append, List.takeWhile_cons_of_neg hp, List.takeWhile_cons_of_neg hp]

theorem lexName_goes {N : List Rune} (hN : Junk N) : Goes lexName N := by
  intro R cs rest h
  rcases dropWhile_cut inName R with ⟨h1, h2⟩ | ⟨r, R', h1, h2⟩
  · unfold lexName at h
    rw [h2 N, dropWhile_inName_junk hN] at h
    cases h
  · have hne : R.dropWhile inName ≠ [] := by rw [h1]; exact List.cons_ne_nil _ _
    have key : ∀ X, lexName (R ++ X) = match allChars (R.takeWhile inName) with
        | none => none
        | some cs => if isName cs then some (cs, r :: (R' ++ X)) else none := by
      intro X
      unfold lexName
      rw [h2 X, takeWhile_cut _ _ _ hne]
      rfl
    rw [key] at h
    cases ha : allChars (R.takeWhile inName) with
    | none => rw [ha] at h; cases h
    | some ds =>
      rw [ha] at h
      by_cases hn : isName ds = true
      · simp only [hn, if_true] at h
        cases h
        refine ⟨r :: R', rfl, fun X => ?_⟩
        rw [key, ha]
        simp only [hn, if_true, List.cons_append]
      · simp only [hn] at h
        cases h

theorem lexQName_goes {N : List Rune} (hN : Junk N) : Goes lexQName N := by
  intro R q rest h
  unfold lexQName at h
  split at h
  · cases h
  · rename_i cs rest' hn
    obtain ⟨R', e, hx⟩ := lexName_goes hN R cs rest' hn
    split at h
    · cases h
    · rename_i q' hq
      cases h
      refine ⟨R', e, fun X => ?_⟩
      unfold lexQName
      rw [hx X]
      simp only [hq]

theorem lexQName_junk {N : List Rune} (hN : Junk N) : lexQName N = none := by
  unfold lexQName lexName
  rw [dropWhile_inName_junk hN]

/-! ## Texts -/

theorem allChars_none : ∀ (l : List Rune), none ∈ l → allChars l = none := by
  intro l
  induction l with
  | nil => intro h; simp at h
  | cons r l ih =>
    intro h
    cases r with
    | none => rfl
    | some c =>
      have : none ∈ l := by simpa using h
      rw [allChars, ih this]

/-- A text that has read a byte belonging to no character is refused later -/
theorem textGo_junk (q : Option Char) (cd : Bool) : ∀ (N : List Rune), Junk N → ∀ (e : Option (List Rune)) (b0 b1 : Rune)
    (acc t rest : List Rune), textGo q cd e b0 b1 acc N = some (t, rest) →
    e = none ∧ cd = false ∧ rest = [] ∧ (none ∈ acc ∨ N ≠ [] → none ∈ t) := by
  intro N
  induction N with
  | nil =>
    intro _ e b0 b1 acc t rest h
    cases e with
    | some e => cases h
    | none =>
      rw [textGo] at h
      cases cd with
      | true => cases h
      | false =>
        cases h
        exact ⟨rfl, rfl, rfl, fun hh => by
          rcases hh with hh | hh
          · simpa using hh
          · exact absurd rfl hh⟩
  | cons r N ih =>
    intro hN e b0 b1 acc t rest h
    have hr := hN r (by simp)
    subst hr
    have hN' : Junk N := fun x hx => hN x (by simp [hx])
    cases e with
    | some e =>
      rw [textGo] at h
      simp only [reduceCtorEq, if_false] at h
      have := ih hN' _ _ _ _ _ _ h
      cases this.1
    | none =>
      rw [textGo] at h
      have hq : ¬ (q.isSome ∧ (none : Rune) = q) := by
        rintro ⟨h1, h2⟩
        rw [← h2] at h1
        cases h1
      simp only [reduceCtorEq, and_false, false_and, if_false, hq] at h
      obtain ⟨h1, h2, h3, h4⟩ := ih hN' _ _ _ _ _ _ h
      exact ⟨rfl, h2, h3, fun _ => h4 (.inl (by simp))⟩

theorem textGo_goes (q : Option Char) (cd : Bool) {N : List Rune} (hN : Junk N) : ∀ (R : List Rune)
    (e : Option (List Rune)) (b0 b1 : Rune) (acc t rest : List Rune),
    textGo q cd e b0 b1 acc (R ++ N) = some (t, rest) →
    (∃ R', rest = R' ++ N ∧ ∀ X, textGo q cd e b0 b1 acc (R ++ X) = some (t, R' ++ X)) ∨
    (rest = [] ∧ cd = false ∧ (N ≠ [] → none ∈ t)) := by
  intro R
  induction R with
  | nil =>
    intro e b0 b1 acc t rest h
    obtain ⟨_, h2, h3, h4⟩ := textGo_junk q cd N hN e b0 b1 acc t rest h
    exact .inr ⟨h3, h2, fun hn => h4 (.inr hn)⟩
  | cons r R ih =>
    intro e b0 b1 acc t rest h
    cases e with
    | some e =>
      rw [List.cons_append, textGo] at h
      by_cases hr : r = some ';'
      · rw [if_pos hr] at h
        cases ha : allChars e.reverse with
        | none => rw [ha] at h; cases h
        | some cs =>
          rw [ha] at h
          cases he : entity cs with
          | none => simp only [he] at h; cases h
          | some c =>
            simp only [he] at h
            rcases ih _ _ _ _ _ _ h with ⟨R', e1, e2⟩ | e1
            · refine .inl ⟨R', e1, fun X => ?_⟩
              rw [List.cons_append, textGo, if_pos hr, ha]
              simp only [he]
              exact e2 X
            · exact .inr e1
      · rw [if_neg hr] at h
        rcases ih _ _ _ _ _ _ h with ⟨R', e1, e2⟩ | e1
        · refine .inl ⟨R', e1, fun X => ?_⟩
          rw [List.cons_append, textGo, if_neg hr]
          exact e2 X
        · exact .inr e1
    | none =>
      rw [List.cons_append, textGo] at h
      have step : ∀ X, textGo q cd none b0 b1 acc (r :: R ++ X) = _ := fun X => by
        rw [List.cons_append, textGo]
      by_cases c1 : q = none ∧ b0 = some ']' ∧ b1 = some ']' ∧ r = some '>'
      · rw [if_pos c1] at h
        cases cd with
        | false => cases h
        | true =>
          cases h
          refine .inl ⟨R, rfl, fun X => ?_⟩
          rw [List.cons_append, textGo, if_pos c1]
          rfl
      · rw [if_neg c1] at h
        by_cases c2 : r = some '<' ∧ ¬ cd
        · rw [if_pos c2] at h
          by_cases c3 : q = none
          · rw [if_pos c3] at h
            cases h
            refine .inl ⟨r :: R, rfl, fun X => ?_⟩
            rw [List.cons_append, textGo, if_neg c1, if_pos c2, if_pos c3]
          · rw [if_neg c3] at h; cases h
        · rw [if_neg c2] at h
          by_cases c3 : q.isSome ∧ r = q
          · rw [if_pos c3] at h
            cases h
            refine .inl ⟨R, rfl, fun X => ?_⟩
            rw [List.cons_append, textGo, if_neg c1, if_neg c2, if_pos c3]
          · rw [if_neg c3] at h
            by_cases c4 : r = some '&' ∧ ¬ cd
            · rw [if_pos c4] at h
              rcases ih _ _ _ _ _ _ h with ⟨R', e1, e2⟩ | e1
              · refine .inl ⟨R', e1, fun X => ?_⟩
                rw [List.cons_append, textGo, if_neg c1, if_neg c2, if_neg c3, if_pos c4]
                exact e2 X
              · exact .inr e1
            · rw [if_neg c4] at h
              by_cases c5 : r = some '\r'
              · rw [if_pos c5] at h
                rcases ih _ _ _ _ _ _ h with ⟨R', e1, e2⟩ | e1
                · refine .inl ⟨R', e1, fun X => ?_⟩
                  rw [List.cons_append, textGo, if_neg c1, if_neg c2, if_neg c3, if_neg c4, if_pos c5]
                  exact e2 X
                · exact .inr e1
              · rw [if_neg c5] at h
                by_cases c6 : b1 = some '\r' ∧ r = some '\n'
                · rw [if_pos c6] at h
                  rcases ih _ _ _ _ _ _ h with ⟨R', e1, e2⟩ | e1
                  · refine .inl ⟨R', e1, fun X => ?_⟩
                    rw [List.cons_append, textGo, if_neg c1, if_neg c2, if_neg c3, if_neg c4, if_neg c5, if_pos c6]
                    exact e2 X
                  · exact .inr e1
                · rw [if_neg c6] at h
                  rcases ih _ _ _ _ _ _ h with ⟨R', e1, e2⟩ | e1
                  · refine .inl ⟨R', e1, fun X => ?_⟩
                    rw [List.cons_append, textGo, if_neg c1, if_neg c2, if_neg c3, if_neg c4, if_neg c5, if_neg c6]
                    exact e2 X
                  · exact .inr e1

theorem lexText_goes (q : Option Char) (cd : Bool) {N : List Rune} (hN : Junk N) (R : List Rune) (s : String)
    (rest : List Rune) (h : lexText q cd (R ++ N) = some (s, rest)) :
    (∃ R', rest = R' ++ N ∧ ∀ X, lexText q cd (R ++ X) = some (s, R' ++ X)) ∨ (rest = [] ∧ cd = false ∧ N = []) := by
  unfold lexText at h
  split at h
  · cases h
  · rename_i t rest' ht
    cases ha : allChars t with
    | none => rw [ha] at h; cases h
    | some cs =>
      rw [ha] at h
      by_cases hc : cs.all xmlChar = true
      · simp only [hc, if_true] at h
        cases h
        rcases textGo_goes q cd hN R _ _ _ _ _ _ ht with ⟨R', e1, e2⟩ | ⟨e1, e2, e3⟩
        · refine .inl ⟨R', e1, fun X => ?_⟩
          unfold lexText
          rw [e2 X]
          simp only [ha, hc, if_true]
        · refine .inr ⟨e1, e2, ?_⟩
          rcases hN.cases with h0 | ⟨N', h0, _⟩
          · exact h0
          · have := allChars_none t (e3 (by rw [h0]; exact List.cons_ne_nil _ _))
            rw [this] at ha
            cases ha
      · simp only [hc] at h
        cases h

/-! ## Tags -/

theorem lexAttr_goes {N : List Rune} (hN : Junk N) (R : List Rune) (a : Attr) (rest : List Rune)
    (h : lexAttr (R ++ N) = some (a, rest)) :
    (∃ R', rest = R' ++ N ∧ ∀ X, lexAttr (R ++ X) = some (a, R' ++ X)) ∨ rest = [] := by
  unfold lexAttr at h
  split at h
  · cases h
  · rename_i q rest1 hq
    obtain ⟨R1, e1, x1⟩ := lexQName_goes hN R q rest1 hq
    subst e1
    rcases dropWhile_cut isXmlSpace R1 with ⟨_, h2⟩ | ⟨r, R2, _, h2⟩
    · rw [h2 N, dropWhile_junk hN] at h
      rcases hN.cases with rfl | ⟨N', rfl, _⟩ <;> cases h
    · rw [h2 N] at h
      split at h
      · rename_i rest2 he
        cases he
        rcases dropWhile_cut isXmlSpace R2 with ⟨_, h3⟩ | ⟨r, R3, _, h3⟩
        · rw [h3 N, dropWhile_junk hN] at h
          rcases hN.cases with rfl | ⟨N', rfl, _⟩ <;> cases h
        · rw [h3 N] at h
          split at h
          · rename_i rest3 he
            cases he
            split at h
            · rename_i v rest4 ht
              cases h
              rcases lexText_goes _ _ hN R3 v rest ht with ⟨R', e, hx⟩ | ⟨e, _⟩
              · refine .inl ⟨R', e, fun X => ?_⟩
                unfold lexAttr
                rw [x1 X]
                simp only [h2 X, h3 X, hx X]
              · exact .inr e
            · cases h
          · rename_i rest3 he
            cases he
            split at h
            · rename_i v rest4 ht
              cases h
              rcases lexText_goes _ _ hN R3 v rest ht with ⟨R', e, hx⟩ | ⟨e, _⟩
              · refine .inl ⟨R', e, fun X => ?_⟩
                unfold lexAttr
                rw [x1 X]
                simp only [h2 X, h3 X, hx X]
              · exact .inr e
            · cases h
          · cases h
      · cases h

theorem lexAttr_lt {rs rest : List Rune} {a : Attr} (h : lexAttr rs = some (a, rest)) :
    rest.length < rs.length := by
  unfold lexAttr at h
  split at h
  · cases h
  · rename_i q l hq
    have h1 := lexQName_lt hq
    split at h
    · rename_i l2 h2
      have h2' := dropWhile_le isXmlSpace l
      rw [h2] at h2'
      have h3' := dropWhile_le isXmlSpace l2
      split at h
      · rename_i l3 h3
        rw [h3] at h3'
        split at h
        · rename_i v l4 h4
          have := lexText_le h4
          cases h
          simp only [List.length_cons] at *
          omega
        · cases h
      · rename_i l3 h3
        rw [h3] at h3'
        split at h
        · rename_i v l4 h4
          have := lexText_le h4
          cases h
          simp only [List.length_cons] at *
          omega
        · cases h
      · cases h
    · cases h


theorem lexAttrs_nil (n : Nat) (as : List Attr) : lexAttrs n as [] = none := by
  cases n <;> rfl

theorem lexAttrs_goes {N : List Rune} (hN : Junk N) : ∀ (n : Nat) (R : List Rune) (as bs : List Attr) (b : Bool)
    (rest : List Rune), lexAttrs n as (R ++ N) = some (bs, b, rest) →
    ∃ R', rest = R' ++ N ∧ ∀ X m, (R ++ X).length < m → lexAttrs m as (R ++ X) = some (bs, b, R' ++ X) := by
  intro n
  induction n with
  | zero => intro R as bs b rest h; cases h
  | succ n ih =>
    intro R as bs b rest h
    rw [lexAttrs] at h
    rcases dropWhile_cut isXmlSpace R with ⟨_, h2⟩ | ⟨r, R1, h1, h2⟩
    · rw [h2 N, dropWhile_junk hN] at h
      have hq := lexQName_junk hN
      rcases hN.cases with rfl | ⟨N', rfl, _⟩
      · cases h
      · simp only [lexAttr, hq] at h
        cases h
    · rw [h2 N] at h
      have hl : R1.length < R.length := by
        have := dropWhile_le isXmlSpace R
        rw [h1] at this
        simp only [List.length_cons] at this
        omega
      split at h
      · rename_i he; cases he
      · rename_i rest1 he
        cases h
        injection he with he1 he2
        subst he1
        cases R1 with
        | nil =>
          rw [List.nil_append] at he2
          rcases hN.cases with rfl | ⟨N', rfl, _⟩ <;> cases he2
        | cons r2 R2 =>
          cases he2
          refine ⟨R2, rfl, fun X m hm => ?_⟩
          cases m with
          | zero => omega
          | succ m =>
            rw [lexAttrs, h2 X]
            rfl
      · cases h
      · rename_i rest1 he
        cases h
        injection he with he1 he2
        subst he1
        subst he2
        refine ⟨R1, rfl, fun X m hm => ?_⟩
        cases m with
        | zero => omega
        | succ m =>
          rw [lexAttrs, h2 X]
          rfl
      · rename_i l n1 n2 n3 n4
        split at h
        · rename_i a rest1 ha
          rcases lexAttr_goes hN (r :: R1) a rest1 ha with ⟨R2, e, hx⟩ | e
          · subst e
            obtain ⟨R', e', hx'⟩ := ih R2 _ _ _ _ h
            refine ⟨R', e', fun X m hm => ?_⟩
            cases m with
            | zero => omega
            | succ m =>
              have hlt := lexAttr_lt (hx X)
              have hd : (r :: R1 ++ X).length ≤ (R ++ X).length := by
                have := dropWhile_le isXmlSpace R
                rw [h1] at this
                simp only [List.length_append] at this ⊢
                omega
              rw [lexAttrs, h2 X]
              have m1 : r = some '/' → False := fun hr => by
                subst hr
                exact n3 _ rfl
              have m2 : r = some '>' → False := fun hr => by
                subst hr
                exact n4 _ rfl
              split
              · rename_i he; cases he
              · rename_i he; injection he with he _; exact (m1 he).elim
              · rename_i he; injection he with he _; exact (m1 he).elim
              · rename_i he; injection he with he _; exact (m2 he).elim
              · rw [show r :: (R1 ++ X) = r :: R1 ++ X from rfl, hx X]
                simp only
                exact hx' X m (by omega)
          · subst e
            rw [lexAttrs_nil] at h
            cases h
        · cases h

theorem lexStart_goes {N : List Rune} (hN : Junk N) : Goes lexStart N := by
  intro R ts rest h
  unfold lexStart at h
  split at h
  · cases h
  · rename_i q rest1 hq
    obtain ⟨R1, e1, x1⟩ := lexQName_goes hN R q rest1 hq
    subst e1
    split at h
    · rename_i as rest2 ha
      cases h
      obtain ⟨R', e, hx⟩ := lexAttrs_goes hN _ R1 _ _ _ _ ha
      refine ⟨R', e, fun X => ?_⟩
      unfold lexStart
      rw [x1 X]
      simp only
      rw [hx X _ (Nat.lt_succ_self _)]
    · rename_i as rest2 ha
      cases h
      obtain ⟨R', e, hx⟩ := lexAttrs_goes hN _ R1 _ _ _ _ ha
      refine ⟨R', e, fun X => ?_⟩
      unfold lexStart
      rw [x1 X]
      simp only
      rw [hx X _ (Nat.lt_succ_self _)]
    · cases h

theorem lexEnd_goes {N : List Rune} (hN : Junk N) : Goes lexEnd N := by
  intro R ts rest h
  unfold lexEnd at h
  split at h
  · cases h
  · rename_i q rest1 hq
    obtain ⟨R1, e1, x1⟩ := lexQName_goes hN R q rest1 hq
    subst e1
    rcases dropWhile_cut isXmlSpace R1 with ⟨_, h2⟩ | ⟨r, R2, _, h2⟩
    · rw [h2 N, dropWhile_junk hN] at h
      rcases hN.cases with rfl | ⟨N', rfl, _⟩ <;> cases h
    · rw [h2 N] at h
      split at h
      · rename_i rest2 he
        cases he
        cases h
        refine ⟨R2, rfl, fun X => ?_⟩
        unfold lexEnd
        rw [x1 X]
        simp only [h2 X]
      · cases h

/-! ## The rest -/

theorem lexComment_goes {N : List Rune} (hN : Junk N) : ∀ (R : List Rune) (b0 b1 : Rune) (rest : List Rune),
    lexComment b0 b1 (R ++ N) = some rest →
    ∃ R', rest = R' ++ N ∧ ∀ X, lexComment b0 b1 (R ++ X) = some (R' ++ X) := by
  have hj : ∀ (N : List Rune), Junk N → ∀ b0 b1, lexComment b0 b1 N = none := by
    intro N
    induction N with
    | nil => intro _ b0 b1; rfl
    | cons r N ih =>
      intro h b0 b1
      have hr := h r (by simp)
      subst hr
      rw [lexComment, ih (fun x hx => h x (by simp [hx]))]
      simp
  intro R
  induction R with
  | nil => intro b0 b1 rest h; rw [List.nil_append, hj N hN] at h; cases h
  | cons r R ih =>
    intro b0 b1 rest h
    rw [List.cons_append, lexComment] at h
    by_cases c : b0 = some '-' ∧ b1 = some '-'
    · rw [if_pos c] at h
      by_cases c2 : r = some '>'
      · rw [if_pos c2] at h
        cases h
        exact ⟨R, rfl, fun X => by rw [List.cons_append, lexComment, if_pos c, if_pos c2]⟩
      · rw [if_neg c2] at h; cases h
    · rw [if_neg c] at h
      obtain ⟨R', e, hx⟩ := ih _ _ _ h
      exact ⟨R', e, fun X => by rw [List.cons_append, lexComment, if_neg c]; exact hx X⟩

theorem lexInstr_goes {N : List Rune} (hN : Junk N) : ∀ (R : List Rune) (b0 : Rune) (acc d rest : List Rune),
    lexInstr b0 acc (R ++ N) = some (d, rest) →
    ∃ R', rest = R' ++ N ∧ ∀ X, lexInstr b0 acc (R ++ X) = some (d, R' ++ X) := by
  have hj : ∀ (N : List Rune), Junk N → ∀ b0 acc, lexInstr b0 acc N = none := by
    intro N
    induction N with
    | nil => intro _ b0 acc; rfl
    | cons r N ih =>
      intro h b0 acc
      have hr := h r (by simp)
      subst hr
      rw [lexInstr, ih (fun x hx => h x (by simp [hx]))]
      simp
  intro R
  induction R with
  | nil => intro b0 acc d rest h; rw [List.nil_append, hj N hN] at h; cases h
  | cons r R ih =>
    intro b0 acc d rest h
    rw [List.cons_append, lexInstr] at h
    by_cases c : b0 = some '?' ∧ r = some '>'
    · rw [if_pos c] at h
      cases h
      exact ⟨R, rfl, fun X => by rw [List.cons_append, lexInstr, if_pos c]⟩
    · rw [if_neg c] at h
      obtain ⟨R', e, hx⟩ := ih _ _ _ _ h
      exact ⟨R', e, fun X => by rw [List.cons_append, lexInstr, if_neg c]; exact hx X⟩

theorem lexDir_junk : ∀ (N : List Rune), Junk N → ∀ s, lexDir s N = none := by
  intro N
  induction N with
  | nil => intro _ s; cases s <;> rfl
  | cons r N ih =>
    intro h s
    have hr := h r (by simp)
    subst hr
    have ih' := ih (fun x hx => h x (by simp [hx]))
    cases s with
    | plain q d => rw [lexDir, ih']; simp
    | lt n d => rw [lexDir, ih', ih', ih']; simp
    | comment b0 b1 d => rw [lexDir, ih', ih']; simp

theorem lexDir_goes {N : List Rune} (hN : Junk N) : ∀ (R : List Rune) (s : DirSt) (rest : List Rune),
    lexDir s (R ++ N) = some rest → ∃ R', rest = R' ++ N ∧ ∀ X, lexDir s (R ++ X) = some (R' ++ X) := by
  intro R
  induction R with
  | nil => intro s rest h; rw [List.nil_append, lexDir_junk N hN] at h; cases h
  | cons r R ih =>
    intro s rest h
    rw [List.cons_append] at h
    cases s with
    | plain q d =>
      rw [lexDir] at h
      by_cases c : q = none ∧ r = some '>' ∧ d = 0
      · rw [if_pos c] at h
        cases h
        exact ⟨R, rfl, fun X => by rw [List.cons_append, lexDir, if_pos c]⟩
      · rw [if_neg c] at h
        obtain ⟨R', e, hx⟩ := ih _ _ h
        exact ⟨R', e, fun X => by rw [List.cons_append, lexDir, if_neg c]; exact hx X⟩
    | lt n d =>
      rw [lexDir] at h
      by_cases c : r = (if n = 0 then some '!' else some '-')
      · rw [if_pos c] at h
        by_cases c2 : n = 2
        · rw [if_pos c2] at h
          obtain ⟨R', e, hx⟩ := ih _ _ h
          exact ⟨R', e, fun X => by rw [List.cons_append, lexDir, if_pos c, if_pos c2]; exact hx X⟩
        · rw [if_neg c2] at h
          obtain ⟨R', e, hx⟩ := ih _ _ h
          exact ⟨R', e, fun X => by rw [List.cons_append, lexDir, if_pos c, if_neg c2]; exact hx X⟩
      · rw [if_neg c] at h
        obtain ⟨R', e, hx⟩ := ih _ _ h
        exact ⟨R', e, fun X => by rw [List.cons_append, lexDir, if_neg c]; exact hx X⟩
    | comment b0 b1 d =>
      rw [lexDir] at h
      by_cases c : b0 = some '-' ∧ b1 = some '-' ∧ r = some '>'
      · rw [if_pos c] at h
        obtain ⟨R', e, hx⟩ := ih _ _ h
        exact ⟨R', e, fun X => by rw [List.cons_append, lexDir, if_pos c]; exact hx X⟩
      · rw [if_neg c] at h
        obtain ⟨R', e, hx⟩ := ih _ _ h
        exact ⟨R', e, fun X => by rw [List.cons_append, lexDir, if_neg c]; exact hx X⟩

theorem lexPI_goes {N : List Rune} (hN : Junk N) : Goes lexPI N := by
  intro R ts rest h
  unfold lexPI at h
  split at h
  · cases h
  · rename_i t rest1 hq
    obtain ⟨R1, e1, x1⟩ := lexName_goes hN R t rest1 hq
    subst e1
    have hd : ∃ R2, ∀ X, (X = N ∨ R1.dropWhile isXmlSpace ≠ []) → (R1 ++ X).dropWhile isXmlSpace = R2 ++ X := by
      rcases dropWhile_cut isXmlSpace R1 with ⟨h1, h2⟩ | ⟨r, R2, h1, h2⟩
      · exact ⟨[], fun X hX => by
          rcases hX with rfl | hX
          · rw [h2, dropWhile_junk hN]; rfl
          · exact absurd h1 hX⟩
      · exact ⟨r :: R2, fun X _ => h2 X⟩
    obtain ⟨R2, h2⟩ := hd
    rw [h2 N (.inl rfl)] at h
    split at h
    · cases h
    · rename_i d rest2 hi
      obtain ⟨R3, e3, x3⟩ := lexInstr_goes hN R2 _ _ _ _ hi
      by_cases c : t = "xml".toList ∧ ¬ xmlDeclOk d
      · rw [if_pos c] at h; cases h
      · rw [if_neg c] at h
        cases h
        by_cases hne : R1.dropWhile isXmlSpace = []
        · rcases dropWhile_cut isXmlSpace R1 with ⟨_, h5⟩ | ⟨r, R5, h4, _⟩
          · have : R2 = [] := by
              have := h2 N (.inl rfl)
              rw [h5, dropWhile_junk hN] at this
              exact List.self_eq_append_left.mp this
            subst this
            have := x3 []
            cases this
          · rw [hne] at h4; cases h4
        · refine ⟨R3, e3, fun X => ?_⟩
          unfold lexPI
          rw [x1 X]
          simp only
          rw [h2 X (.inr hne), x3 X]
          simp only
          rw [if_neg c]

theorem afterPrefix_goes {N : List Rune} (hN : Junk N) : ∀ (cs : List Char) (R rest : List Rune), cs ≠ [] →
    afterPrefix cs (R ++ N) = some rest → ∃ R', rest = R' ++ N ∧ ∀ X, afterPrefix cs (R ++ X) = some (R' ++ X) := by
  intro cs
  induction cs with
  | nil => intro R rest h; exact absurd rfl h
  | cons c cs ih =>
    intro R rest _ h
    cases R with
    | nil =>
      rcases hN.cases with rfl | ⟨N', rfl, _⟩ <;> cases h
    | cons r R =>
      cases r with
      | none => cases h
      | some d =>
        rw [List.cons_append, afterPrefix] at h
        by_cases hc : c = d
        · rw [if_pos hc] at h
          cases cs with
          | nil =>
            rw [afterPrefix] at h
            cases h
            exact ⟨R, rfl, fun X => by rw [List.cons_append, afterPrefix, if_pos hc, afterPrefix]⟩
          | cons c' cs =>
            obtain ⟨R', e, hx⟩ := ih R rest (List.cons_ne_nil _ _) h
            exact ⟨R', e, fun X => by rw [List.cons_append, afterPrefix, if_pos hc]; exact hx X⟩
        · rw [if_neg hc] at h; cases h

/-- One construct: it ends in what was read, or it is a text at the end of the file -/
theorem lexTok_goes {N : List Rune} (hN : Junk N) (R : List Rune) (ts : List Tok) (rest : List Rune)
    (hne : R ++ N ≠ []) (h : lexTok (R ++ N) = some (ts, rest)) :
    (∃ R', rest = R' ++ N ∧ R ≠ [] ∧ ∀ X, lexTok (R ++ X) = some (ts, R' ++ X)) ∨
    (rest = [] ∧ N = [] ∧ ∃ s, ts = [.chars s]) := by
  cases R with
  | nil =>
    rcases hN.cases with rfl | ⟨N', rfl, hN'⟩
    · exact absurd rfl hne
    · rw [List.nil_append] at h
      have e : lexTok (none :: N') = match lexText none false (none :: N') with
        | some (s, rest) => some ([.chars s], rest)
        | none => none := rfl
      rw [e] at h
      split at h
      · rename_i s rest' ht
        cases h
        rcases lexText_goes none false hN [] s rest (by rw [List.nil_append]; exact ht) with ⟨R', e, hx⟩ | ⟨_, _, e⟩
        · unfold lexText at ht
          split at ht
          · cases ht
          · rename_i t rest' ht'
            have := (textGo_junk none false _ hN _ _ _ _ _ _ ht').2.2.2 (.inr (List.cons_ne_nil _ _))
            rw [allChars_none _ this] at ht
            cases ht
        · cases e
      · cases h
  | cons r R =>
    by_cases hr : r = some '<'
    · subst hr
      left
      cases R with
      | nil =>
        have e : lexTok (some '<' :: N) = lexStart N := by
          rcases hN.cases with rfl | ⟨N', rfl, hN'⟩ <;> rfl
        rw [List.cons_append, List.nil_append, e] at h
        unfold lexStart at h
        rw [lexQName_junk hN] at h
        cases h
      | cons r2 R =>
        by_cases h2 : r2 = some '/'
        · subst h2
          obtain ⟨R', e, hx⟩ := lexEnd_goes hN R ts rest h
          exact ⟨R', e, List.cons_ne_nil _ _, hx⟩
        by_cases h3 : r2 = some '?'
        · subst h3
          obtain ⟨R', e, hx⟩ := lexPI_goes hN R ts rest h
          exact ⟨R', e, List.cons_ne_nil _ _, hx⟩
        by_cases h4 : r2 = some '!'
        · subst h4
          cases R with
          | nil =>
            rcases hN.cases with rfl | ⟨N', rfl, hN'⟩
            · have e : lexTok [some '<', some '!'] = lexStart [some '!'] := rfl
              rw [List.append_nil, e] at h
              cases h
            · have e : lexTok (some '<' :: some '!' :: none :: N') = match lexDir (.plain none 0) N' with
                | some rest => some ([.other], rest)
                | none => none := rfl
              rw [show [some '<', some '!'] ++ (none :: N') = some '<' :: some '!' :: none :: N' from rfl, e,
                lexDir_junk N' hN'] at h
              cases h
          | cons r3 R =>
            by_cases h5 : r3 = some '-'
            · subst h5
              cases R with
              | nil =>
                rcases hN.cases with rfl | ⟨N', rfl, hN'⟩ <;> cases h
              | cons r4 R =>
                by_cases h6 : r4 = some '-'
                · subst h6
                  have e : ∀ X, lexTok (some '<' :: some '!' :: some '-' :: some '-' :: R ++ X) =
                      match lexComment none none (R ++ X) with
                      | some rest => some ([.other], rest)
                      | none => none := fun X => rfl
                  rw [e] at h
                  split at h
                  · rename_i rest' hc
                    cases h
                    obtain ⟨R', e', hx⟩ := lexComment_goes hN R _ _ _ hc
                    exact ⟨R', e', List.cons_ne_nil _ _, fun X => by rw [e, hx X]⟩
                  · cases h
                · exfalso
                  have e : lexTok (some '<' :: some '!' :: some '-' :: r4 :: R ++ N) = none := by
                    rw [List.cons_append, List.cons_append, List.cons_append, List.cons_append, lexTok]
                    intro l hl
                    injection hl with hl _
                    exact h6 hl
                  rw [e] at h
                  cases h
            · by_cases h6 : r3 = some '['
              · subst h6
                have e : ∀ X, lexTok (some '<' :: some '!' :: some '[' :: R ++ X) =
                    match afterPrefix "CDATA[".toList (R ++ X) with
                    | none => none
                    | some rs => match lexText none true rs with
                      | some (s, rest) => some ([.chars s], rest)
                      | none => none := fun X => rfl
                rw [e] at h
                split at h
                · cases h
                · rename_i rs hp
                  obtain ⟨R1, e1, x1⟩ := afterPrefix_goes hN _ R rs (by decide) hp
                  subst e1
                  split at h
                  · rename_i s rest' ht
                    cases h
                    rcases lexText_goes none true hN R1 s rest ht with ⟨R', e', hx⟩ | ⟨_, e', _⟩
                    · exact ⟨R', e', List.cons_ne_nil _ _, fun X => by
                        rw [e, x1 X]
                        simp only [hx X]⟩
                    · cases e'
                  · cases h
              · have e : ∀ X, lexTok (some '<' :: some '!' :: r3 :: R ++ X) =
                    match lexDir (.plain none 0) (R ++ X) with
                    | some rest => some ([.other], rest)
                    | none => none := fun X => by
                  rw [List.cons_append, List.cons_append, List.cons_append, lexTok]
                  · rfl
                  · intro l hl _; exact h5 hl
                  · exact h5
                  · exact h6
                rw [e] at h
                split at h
                · rename_i rest' hc
                  cases h
                  obtain ⟨R', e', hx⟩ := lexDir_goes hN R _ _ hc
                  exact ⟨R', e', List.cons_ne_nil _ _, fun X => by rw [e, hx X]⟩
                · cases h
        · have e : ∀ X, lexTok (some '<' :: r2 :: R ++ X) = lexStart (r2 :: R ++ X) := fun X => by
            rw [List.cons_append, List.cons_append, lexTok]
            all_goals (intros; simp_all)
          rw [e] at h
          obtain ⟨R', e', hx⟩ := lexStart_goes hN _ _ _ h
          exact ⟨R', e', List.cons_ne_nil _ _, fun X => by rw [e, hx X]⟩
    · have e : ∀ X, lexTok (r :: R ++ X) = match lexText none false (r :: R ++ X) with
          | some (s, rest) => some ([.chars s], rest)
          | none => none := fun X => by
        rw [List.cons_append, lexTok]
        · rfl
        all_goals (intros; simp_all)
      rw [e] at h
      split at h
      · rename_i s rest' ht
        cases h
        rcases lexText_goes none false hN _ s rest ht with ⟨R', e', hx⟩ | ⟨e1, _, e2⟩
        · exact .inl ⟨R', e', List.cons_ne_nil _ _, fun X => by rw [e, hx X]⟩
        · exact .inr ⟨e1, e2, s, rfl⟩
      · cases h

/-- The tokens of a file that is cut short: some tokens of the whole file, then nothing, the beginning of a text,
or an error -/
theorem lexR_cut {N : List Rune} (hN : Junk N) : ∀ (n : Nat) (R : List Rune), R.length ≤ n →
    ∃ P R' T, lexR (R ++ N) = P ++ T ∧ (T = [] ∨ T = [.bad] ∨ ∃ s, T = [.chars s]) ∧
      ∀ X, lexR (R ++ X) = P ++ lexR (R' ++ X) := by
  intro n
  induction n with
  | zero =>
    intro R hR
    have : R = [] := List.length_eq_zero_iff.mp (by omega)
    subst this
    refine ⟨[], [], lexR N, rfl, ?_, fun X => rfl⟩
    rcases hN.cases with rfl | ⟨N', rfl, hN'⟩
    · exact .inl rfl
    · rw [lexR_cons]
      cases ht : lexTok (none :: N') with
      | none => exact .inr (.inl rfl)
      | some p =>
        obtain ⟨ts, rest⟩ := p
        rcases lexTok_goes hN [] ts rest (List.cons_ne_nil _ _) ht with ⟨_, _, e, _⟩ | ⟨_, e, _⟩
        · exact absurd rfl e
        · cases e
  | succ n ih =>
    intro R hR
    cases R with
    | nil => exact ih [] (Nat.zero_le _)
    | cons r R =>
      rw [List.cons_append, lexR_cons]
      cases ht : lexTok (r :: (R ++ N)) with
      | none => exact ⟨[], r :: R, [.bad], rfl, .inr (.inl rfl), fun X => rfl⟩
      | some p =>
        obtain ⟨ts, rest⟩ := p
        have hl := lexTok_lt (by simp) ht
        rcases lexTok_goes hN (r :: R) ts rest (List.cons_ne_nil _ _) ht with ⟨R1, e, _, hx⟩ | ⟨e, e2, s, e3⟩
        · subst e
          obtain ⟨P, R', T, h1, h2, h3⟩ := ih R1 (by
            simp only [List.length_cons, List.length_append] at hl hR
            omega)
          refine ⟨ts ++ P, R', T, ?_, h2, fun X => ?_⟩
          · simp only [h1, List.append_assoc]
          · have := hx X
            rw [List.cons_append] at this ⊢
            rw [lexR_cons, this]
            simp only [h3 X, List.append_assoc]
        · subst e
          subst e3
          exact ⟨[], r :: R, [.chars s], rfl, .inr (.inr ⟨s, rfl⟩), fun X => rfl⟩

theorem lexR_ne_nil (r : Rune) (rs : List Rune) (h : lexR (r :: rs) = []) : False := by
  rw [lexR_cons] at h
  cases ht : lexTok (r :: rs) with
  | none => rw [ht] at h; cases h
  | some p =>
    obtain ⟨ts, rest⟩ := p
    rw [ht] at h
    have hts : ts = [] := (List.append_eq_nil_iff.mp h).1
    subst hts
    have hs : ∀ l rest, lexStart l ≠ some ([], rest) := by
      intro l rest h
      unfold lexStart at h
      split at h
      · cases h
      · split at h <;> cases h
    have he : ∀ l rest, lexEnd l ≠ some ([], rest) := by
      intro l rest h
      unfold lexEnd at h
      split at h
      · cases h
      · split at h <;> cases h
    have hp : ∀ l rest, lexPI l ≠ some ([], rest) := by
      intro l rest h
      unfold lexPI at h
      split at h
      · cases h
      · split at h
        · cases h
        · split at h <;> cases h
    unfold lexTok at ht
    split at ht
    · exact he _ _ ht
    · exact hp _ _ ht
    · split at ht <;> cases ht
    · cases ht
    · split at ht
      · cases ht
      · split at ht <;> cases ht
    · split at ht <;> cases ht
    · exact hs _ _ ht
    · split at ht <;> cases ht

/-! ## Bytes -/

theorem decode_more (b : UInt8) (bs cs : Bytes) (c : Char)
    (h : (ByteArray.mk (b :: bs).toArray).utf8DecodeChar? 0 = some c) :
    (ByteArray.mk (b :: (bs ++ cs)).toArray).utf8DecodeChar? 0 = some c := by
  have := ByteArray.utf8DecodeChar?_append_eq_some h (ByteArray.mk cs.toArray)
  rw [← this]
  congr 1

theorem decode_bytes (bs : Bytes) (c : Char) (h : (ByteArray.mk bs.toArray).utf8DecodeChar? 0 = some c) :
    ∃ l, bs = String.utf8EncodeChar c ++ l := by
  obtain ⟨l, hl⟩ := ByteArray.exists_of_utf8DecodeChar?_eq_some h
  refine ⟨l.data.toList, ?_⟩
  have := congrArg (fun b : ByteArray => b.data.toList) hl
  simpa [ByteArray.data_append, List.data_toByteArray] using this

/-- Bytes none of which can begin a character are junk -/
theorem runes_cont : ∀ (bs : Bytes), (∀ b ∈ bs, ¬ b.IsUTF8FirstByte) → Junk (runesGo 0 bs) := by
  intro bs
  induction bs with
  | nil => intro _ r hr; simp [runesGo] at hr
  | cons b bs ih =>
    intro h
    have hd : (ByteArray.mk (b :: bs).toArray).utf8DecodeChar? 0 = none := by
      cases hd : (ByteArray.mk (b :: bs).toArray).utf8DecodeChar? 0 with
      | none => rfl
      | some c =>
        have := ByteArray.isUTF8FirstByte_of_isSome_utf8DecodeChar? (by rw [hd]; rfl)
        exact absurd this (h b (by simp))
    rw [runesGo, hd]
    intro r hr
    simp only [List.mem_cons] at hr
    rcases hr with rfl | hr
    · rfl
    · exact ih (fun x hx => h x (by simp [hx])) r hr

theorem runesGo_skip : ∀ (n : Nat) (bs : Bytes), runesGo n bs = runesGo 0 (bs.drop n) := by
  intro n
  induction n with
  | zero => intro bs; rfl
  | succ n ih =>
    intro bs
    cases bs with
    | nil => rfl
    | cons b bs => rw [runesGo, ih]; rfl

/-- The characters of the beginning of a file: they are the first characters of the file, and at the end there may
be some bytes that would have been a character -/
theorem runes_cut : ∀ (n : Nat) (bs cs : Bytes), bs.length ≤ n →
    ∃ R N X, runes bs = R ++ N ∧ Junk N ∧ runes (bs ++ cs) = R ++ X ∧ (cs ≠ [] → X ≠ []) := by
  have hne : ∀ l : Bytes, l ≠ [] → runes l ≠ [] := by
    intro l hl
    cases l with
    | nil => exact absurd rfl hl
    | cons b l =>
      unfold runes
      rw [runesGo]
      split <;> exact List.cons_ne_nil _ _
  intro n
  induction n with
  | zero =>
    intro bs cs h
    have : bs = [] := List.length_eq_zero_iff.mp (by omega)
    subst this
    exact ⟨[], [], runes cs, rfl, by intro r hr; simp at hr, rfl, hne cs⟩
  | succ n ih =>
    intro bs cs h
    cases bs with
    | nil => exact ⟨[], [], runes cs, rfl, by intro r hr; simp at hr, rfl, hne cs⟩
    | cons b bs =>
      simp only [List.length_cons] at h
      cases hd : (ByteArray.mk (b :: bs).toArray).utf8DecodeChar? 0 with
      | some c =>
        have hd' := decode_more b bs cs c hd
        obtain ⟨l, hl⟩ := decode_bytes _ _ hd
        have hlen : c.utf8Size - 1 ≤ bs.length := by
          have := congrArg List.length hl
          have hs := String.length_utf8EncodeChar c
          simp only [List.length_cons, List.length_append] at this
          omega
        obtain ⟨R, N, X, h1, h2, h3, h4⟩ := ih (bs.drop (c.utf8Size - 1)) cs (by
          simp only [List.length_drop]; omega)
        refine ⟨some c :: R, N, X, ?_, h2, ?_, h4⟩
        · unfold runes at h1 ⊢
          rw [runesGo, hd]
          simp only [List.cons_append]
          rw [runesGo_skip, h1]
        · unfold runes at h3 ⊢
          rw [List.cons_append, runesGo, hd']
          simp only [List.cons_append]
          rw [runesGo_skip, List.drop_append_of_le_length hlen, h3]
      | none =>
        cases hd' : (ByteArray.mk (b :: (bs ++ cs)).toArray).utf8DecodeChar? 0 with
        | none =>
          obtain ⟨R, N, X, h1, h2, h3, h4⟩ := ih bs cs (by omega)
          refine ⟨none :: R, N, X, ?_, h2, ?_, h4⟩
          · unfold runes at h1 ⊢
            rw [runesGo, hd]
            simp only [List.cons_append]
            rw [h1]
          · unfold runes at h3 ⊢
            rw [List.cons_append, runesGo, hd']
            simp only [List.cons_append]
            rw [h3]
        | some c =>
          refine ⟨[], runes (b :: bs), runes (b :: (bs ++ cs)), rfl, ?_, rfl, fun _ => hne _ (List.cons_ne_nil _ _)⟩
          obtain ⟨l, hl⟩ := decode_bytes _ _ hd'
          unfold runes
          rw [runesGo, hd]
          have hj : Junk (runesGo 0 bs) := by
            apply runes_cont
            intro x hx
            obtain ⟨i, hi, rfl⟩ := List.mem_iff_getElem.mp hx
            have hlt : bs.length + 1 < (String.utf8EncodeChar c).length := by
              apply Nat.lt_of_not_le
              intro hle
              have hb : b :: bs = String.utf8EncodeChar c ++ (b :: bs).drop (String.utf8EncodeChar c).length := by
                have e1 : (b :: bs).take (String.utf8EncodeChar c).length = String.utf8EncodeChar c := by
                  have := congrArg (List.take (String.utf8EncodeChar c).length) hl
                  rw [List.take_left, ← List.cons_append, List.take_append_of_le_length (by simpa using hle)] at this
                  exact this
                have e2 := List.take_append_drop (String.utf8EncodeChar c).length (b :: bs)
                rw [e1] at e2
                exact e2.symm
              have := ByteArray.utf8DecodeChar?_utf8EncodeChar_append
                (b := ByteArray.mk ((b :: bs).drop (String.utf8EncodeChar c).length).toArray) (c := c)
              have e : (String.utf8EncodeChar c).toByteArray ++
                  ByteArray.mk ((b :: bs).drop (String.utf8EncodeChar c).length).toArray =
                  ByteArray.mk (b :: bs).toArray := by
                apply ByteArray.ext
                conv => rhs; rw [hb]
                simp [ByteArray.data_append, List.data_toByteArray]
              rw [e, hd] at this
              cases this
            have hg : (String.utf8EncodeChar c)[i + 1]'(by omega) = bs[i] := by
              have h1 : (b :: (bs ++ cs))[i + 1]? = (String.utf8EncodeChar c ++ l)[i + 1]? := by rw [hl]
              rw [List.getElem?_cons_succ, List.getElem?_append_left hi, List.getElem?_append_left (by omega),
                List.getElem?_eq_getElem hi, List.getElem?_eq_getElem (by omega)] at h1
              exact (Option.some.inj h1).symm
            rw [← hg, UInt8.isUTF8FirstByte_getElem_utf8EncodeChar]
            omega
          intro r hr
          simp only [List.mem_cons] at hr
          rcases hr with rfl | hr
          · rfl
          · exact hj r hr

theorem lex_eq_lexR (bs : Bytes) : lex bs = lexR (runes bs) := rfl

/-- The tokens of the beginning of a file -/
theorem lex_cut (bs cs : Bytes) :
    ∃ P T U, lex bs = P ++ T ∧ (T = [] ∨ T = [.bad] ∨ ∃ s, T = [.chars s]) ∧ lex (bs ++ cs) = P ++ U ∧
      (cs ≠ [] → U ≠ []) := by
  obtain ⟨R, N, X, h1, h2, h3, h4⟩ := runes_cut _ bs cs (Nat.le_refl _)
  obtain ⟨P, R', T, e1, e2, e3⟩ := lexR_cut h2 _ R (Nat.le_refl _)
  refine ⟨P, T, lexR (R' ++ X), ?_, e2, ?_, fun hc => ?_⟩
  · rw [lex_eq_lexR, h1, e1]
  · rw [lex_eq_lexR, h3, e3]
  · have := h4 hc
    cases hx : R' ++ X with
    | nil => exact absurd (List.append_eq_nil_iff.mp hx).2 this
    | cons r rs => exact fun h => lexR_ne_nil r rs h

end Docx
