import Verif.SpecOrder
import Verif.Unmarshal

/-!
# Decoders do not look at prefixes and at the order of attributes

`Like d d'`: two decoders before inputs that differ only in prefixes, unknown
attributes and the order of attributes.
`Alike u u'`: on such decoders two decoding functions give the same.
-/

namespace Docx

set_option linter.unusedSectionVars false

section
variable [GoEnv]

/-- Two streams of tokens, read with these open elements -/
def twins : List QName → List QName → List Tok → List Tok → Prop
  | _, _, [], [] => True
  | st, st', .start q as :: r, .start q' as' :: r' =>
    q.loc = q'.loc ∧ sameAttrs q.loc as as' ∧ twins (q :: st) (q' :: st') r r'
  | st, st', .stop q :: r, .stop q' :: r' =>
    q.loc = q'.loc ∧ (st.head? = some q ↔ st'.head? = some q') ∧ twins st.tail st'.tail r r'
  | st, st', .chars c :: r, .chars c' :: r' => c = c' ∧ twins st st' r r'
  | st, st', .other :: r, .other :: r' => twins st st' r r'
  | st, st', .bad :: r, .bad :: r' => twins st st' r r'
  | _, _, _, _ => False

/-- The open elements -/
def opens : List StkEntry → List QName
  | [] => []
  | .elem q :: s => q :: opens s
  | .mark :: s => opens s

/-- Where the marks are -/
def marks : List StkEntry → List Bool
  | [] => []
  | .elem _ :: s => false :: marks s
  | .mark :: s => true :: marks s

structure Like (d d' : Dec) : Prop where
  dead : d.dead = d'.dead
  marks : marks d.stk = marks d'.stk
  toks : twins (opens d.stk) (opens d'.stk) d.rest d'.rest

theorem twins_length : ∀ {r r' : List Tok} {st st' : List QName}, twins st st' r r' → r.length = r'.length
  | [], [], _, _, _ => rfl
  | .start _ _ :: r, .start _ _ :: r', _, _, h => by
    simp only [List.length_cons]; rw [twins_length h.2.2]
  | .stop _ :: r, .stop _ :: r', _, _, h => by
    simp only [List.length_cons]; rw [twins_length h.2.2]
  | .chars _ :: r, .chars _ :: r', _, _, h => by
    simp only [List.length_cons]; rw [twins_length h.2]
  | .other :: r, .other :: r', _, _, h => by
    simp only [twins] at h
    simp only [List.length_cons]; rw [twins_length h]
  | .bad :: r, .bad :: r', _, _, h => by
    simp only [twins] at h
    simp only [List.length_cons]; rw [twins_length h]

theorem Like.length {d d' : Dec} (h : Like d d') : d.rest.length = d'.rest.length := twins_length h.toks

/-- Two tokens alike -/
def likeTok : Tok → Tok → Prop
  | .start q as, .start q' as' => q.loc = q'.loc ∧ sameAttrs q.loc as as'
  | .stop q, .stop q' => q.loc = q'.loc
  | .chars c, .chars c' => c = c'
  | .other, .other => True
  | .bad, .bad => True
  | _, _ => False

/-- Results of `Token` alike -/
def likeRead : Except Err Tok → Except Err Tok → Prop
  | .ok t, .ok t' => likeTok t t'
  | .error e, .error e' => e = e'
  | _, _ => False

theorem token_like {d d' : Dec} (h : Like d d') :
    likeRead d.token.1 d'.token.1 ∧ Like d.token.2 d'.token.2 := by
  obtain ⟨r, s, b⟩ := d
  obtain ⟨r', s', b'⟩ := d'
  obtain ⟨h1, h2, h3⟩ := h
  simp only at h1 h2 h3
  subst h1
  cases s with
  | nil =>
    cases s' with
    | cons x s' => cases x <;> cases h2
    | nil =>
      cases b with
      | true => cases r <;> cases r' <;> exact ⟨rfl, rfl, rfl, h3⟩
      | false =>
        cases r with
        | nil =>
          cases r' with
          | nil => exact ⟨rfl, rfl, rfl, h3⟩
          | cons t r' => cases h3
        | cons t r =>
          cases r' with
          | nil => cases t <;> cases h3
          | cons t' r' =>
            cases t <;> cases t' <;> first | (exact absurd h3 id) | skip
            · exact ⟨⟨h3.1, h3.2.1⟩, rfl, rfl, h3.2.2⟩
            · exact ⟨rfl, rfl, rfl, h3.2.2⟩
            · exact ⟨h3.1, rfl, rfl, h3.2⟩
            · simp only [twins] at h3
              exact ⟨trivial, rfl, rfl, h3⟩
            · exact ⟨rfl, rfl, rfl, h3⟩
  | cons x s =>
    cases s' with
    | nil => cases x <;> cases h2
    | cons x' s' =>
      cases x with
      | mark =>
        cases x' with
        | elem q => cases h2
        | mark =>
          cases b <;> exact ⟨rfl, rfl, h2, h3⟩
      | elem q =>
        cases x' with
        | mark => cases h2
        | elem q' =>
          have h2' : marks s = marks s' := by
            simp only [marks] at h2; injection h2
          cases b with
          | true => cases r <;> cases r' <;> exact ⟨rfl, rfl, h2, h3⟩
          | false =>
            cases r with
            | nil =>
              cases r' with
              | nil => exact ⟨rfl, rfl, h2, h3⟩
              | cons t r' => cases h3
            | cons t r =>
              cases r' with
              | nil => cases t <;> cases h3
              | cons t' r' =>
                cases t <;> cases t' <;> first | (exact absurd h3 id) | skip
                · refine ⟨⟨h3.1, h3.2.1⟩, rfl, ?_, h3.2.2⟩
                  simp only [Dec.token, marks, h2']
                · rename_i a a'
                  obtain ⟨h5, h6, h7⟩ := h3
                  simp only [opens, List.head?_cons, Option.some.injEq, List.tail_cons] at h6 h7
                  simp only [Dec.token]
                  by_cases ha : a = q
                  · have ha' : a' = q' := (h6.1 ha.symm).symm
                    rw [if_pos ha, if_pos ha']
                    exact ⟨h5, rfl, h2', h7⟩
                  · have ha' : ¬ a' = q' := fun e => ha (h6.2 e.symm).symm
                    rw [if_neg ha, if_neg ha']
                    exact ⟨rfl, rfl, h2', h7⟩
                · exact ⟨h3.1, rfl, h2, h3.2⟩
                · simp only [twins] at h3
                  exact ⟨trivial, rfl, h2, h3⟩
                · exact ⟨rfl, rfl, h2, h3⟩

/-- What two calls of `Token` give -/
theorem token_cases {d d' : Dec} (h : Like d d') :
    (∃ e e1 e1', d.token = (.error e, e1) ∧ d'.token = (.error e, e1') ∧ Like e1 e1') ∨
    (∃ q as q' as' e e', d.token = (.ok (.start q as), e) ∧ d'.token = (.ok (.start q' as'), e') ∧
      q.loc = q'.loc ∧ sameAttrs q.loc as as' ∧ Like e e') ∨
    (∃ q q' e e', d.token = (.ok (.stop q), e) ∧ d'.token = (.ok (.stop q'), e') ∧ q.loc = q'.loc ∧ Like e e') ∨
    (∃ c e e', d.token = (.ok (.chars c), e) ∧ d'.token = (.ok (.chars c), e') ∧ Like e e') ∨
    (∃ e e', d.token = (.ok .other, e) ∧ d'.token = (.ok .other, e') ∧ Like e e') ∨
    (∃ e e', d.token = (.ok .bad, e) ∧ d'.token = (.ok .bad, e') ∧ Like e e') := by
  obtain ⟨h1, h2⟩ := token_like h
  rcases ht : d.token with ⟨x, e⟩
  rcases ht' : d'.token with ⟨x', e'⟩
  rw [ht, ht'] at h1 h2
  cases x with
  | error a =>
    cases x' with
    | ok t => cases h1
    | error a' => cases h1; exact .inl ⟨_, _, _, rfl, rfl, h2⟩
  | ok t =>
    cases x' with
    | error a' => cases h1
    | ok t' =>
      cases t <;> cases t' <;> first | (exact absurd h1 id) | skip
      · exact .inr (.inl ⟨_, _, _, _, _, _, rfl, rfl, h1.1, h1.2, h2⟩)
      · exact .inr (.inr (.inl ⟨_, _, _, _, rfl, rfl, h1, h2⟩))
      · cases h1; exact .inr (.inr (.inr (.inl ⟨_, _, _, rfl, rfl, h2⟩)))
      · exact .inr (.inr (.inr (.inr (.inl ⟨_, _, rfl, rfl, h2⟩))))
      · exact .inr (.inr (.inr (.inr (.inr ⟨_, _, rfl, rfl, h2⟩))))

theorem skipN_like : ∀ (f n : Nat) {d d' : Dec}, Like d d' →
    (skipN f n d).1 = (skipN f n d').1 ∧ Like (skipN f n d).2 (skipN f n d').2
  | 0, _, _, _, h => ⟨rfl, h⟩
  | f + 1, n, d, d', h => by
    simp only [skipN]
    rcases token_cases h with ⟨_, _, _, e1, e2, h'⟩ | ⟨_, _, _, _, _, _, e1, e2, _, _, h'⟩ |
      ⟨_, _, _, _, e1, e2, _, h'⟩ | ⟨_, _, _, e1, e2, h'⟩ | ⟨_, _, e1, e2, h'⟩ | ⟨_, _, e1, e2, h'⟩ <;>
      rw [e1, e2]
    · exact ⟨rfl, h'⟩
    · exact skipN_like f (n + 1) h'
    · cases n with
      | zero => exact ⟨rfl, h'⟩
      | succ n => exact skipN_like f n h'
    all_goals exact skipN_like f n h'

theorem skip_like {d d' : Dec} (h : Like d d') : d.skip.1 = d'.skip.1 ∧ Like d.skip.2 d'.skip.2 := by
  unfold Dec.skip
  rw [h.length]
  exact skipN_like _ _ h

/-- Two decoding functions that do the same on inputs alike -/
def Alike {α : Type} (u u' : Dec → Out α) : Prop := ∀ d d', Like d d' →
  (u d).val = (u' d').val ∧ (u d).err = (u' d').err ∧ Like (u d).dec (u' d').dec

theorem marks_push : ∀ {s s' : List StkEntry}, marks s = marks s' → marks (pushMark s) = marks (pushMark s')
  | [], [], _ => rfl
  | [], .mark :: _, h => by cases h
  | [], .elem _ :: _, h => by cases h
  | .mark :: _, [], h => by cases h
  | .elem _ :: _, [], h => by cases h
  | .mark :: _, .elem _ :: _, h => by cases h
  | .elem _ :: _, .mark :: _, h => by cases h
  | .mark :: s, .mark :: s', h => by
    simp only [marks, List.cons.injEq, true_and] at h
    simp only [pushMark, marks, marks_push h]
  | .elem _ :: s, .elem _ :: s', h => by
    simp only [marks, List.cons.injEq, true_and] at h
    simp only [pushMark, marks, h]

theorem opens_push : ∀ s : List StkEntry, opens (pushMark s) = opens s
  | [] => rfl
  | .mark :: s => by simp only [pushMark, opens, opens_push s]
  | .elem _ :: _ => rfl

theorem push_like {d d' : Dec} (h : Like d d') : Like d.pushEOF d'.pushEOF :=
  ⟨h.dead, marks_push h.marks, by
    simp only [Dec.pushEOF, opens_push]; exact h.toks⟩

theorem pop_like {d d' : Dec} (h : Like d d') : d.popEOF.1 = d'.popEOF.1 ∧ Like d.popEOF.2 d'.popEOF.2 := by
  obtain ⟨r, s, b⟩ := d
  obtain ⟨r', s', b'⟩ := d'
  obtain ⟨h1, h2, h3⟩ := h
  simp only at h1 h2 h3
  cases s with
  | nil =>
    cases s' with
    | nil => exact ⟨rfl, h1, rfl, h3⟩
    | cons x s' => cases x <;> cases h2
  | cons x s =>
    cases s' with
    | nil => cases x <;> cases h2
    | cons x' s' =>
      cases x with
      | elem q =>
        cases x' with
        | elem q' => exact ⟨rfl, h1, h2, h3⟩
        | mark => cases h2
      | mark =>
        cases x' with
        | elem q' => cases h2
        | mark =>
          simp only [marks, List.cons.injEq, true_and] at h2
          exact ⟨rfl, h1, h2, h3⟩

section
variable {α σ : Type}

theorem decodeElement_alike {u u' : Dec → Out α} (h : Alike u u') :
    Alike (decodeElement u) (decodeElement u') := by
  intro d d' hd
  obtain ⟨h1, h2, h3⟩ := h _ _ (push_like hd)
  obtain ⟨h4, h5⟩ := pop_like h3
  unfold decodeElement
  simp only
  rw [← h2]
  cases (u d.pushEOF).err with
  | some e => exact ⟨h1, rfl, h5⟩
  | none =>
    rcases ha : (u d.pushEOF).dec.popEOF with ⟨x, y⟩
    rcases ha' : (u' d'.pushEOF).dec.popEOF with ⟨x', y'⟩
    rw [ha, ha'] at h4 h5
    simp only at h4
    subst h4
    cases x <;> exact ⟨h1, rfl, h5⟩

theorem sub_alike {u u' : Dec → Out α} (k : α → σ) (h : Alike u u') : Alike (sub u k) (sub u' k) := by
  intro d d' hd
  obtain ⟨h1, h2, h3⟩ := decodeElement_alike h d d' hd
  exact ⟨by simp only [sub, h1], by simp only [sub, h2], h3⟩

theorem subStrict_alike {u u' : Dec → Out α} (k : α → σ) (h : Alike u u') :
    Alike (subStrict u k) (subStrict u' k) := by
  intro d d' hd
  obtain ⟨h1, h2, h3⟩ := decodeElement_alike h d d' hd
  exact ⟨by simp only [subStrict, h1], by simp only [subStrict, h2], h3⟩

theorem flat_alike (s : σ) (e : Option Err) : Alike (flat s e) (flat s e) := fun _ _ h => ⟨rfl, rfl, h⟩

theorem skipTo_alike (s : σ) : Alike (skipTo s) (skipTo s) := fun _ _ h =>
  ⟨rfl, (skip_like h).1, (skip_like h).2⟩

/-- A case of a loop that does the same on attributes alike -/
def StepAlike (step step' : σ → String → List Attr → Dec → Out σ) : Prop :=
  ∀ s l as as', sameAttrs l as as' → Alike (step s l as) (step' s l as')

theorem loopN_alike {step step' : σ → String → List Attr → Dec → Out σ} (chars : σ → String → σ)
    (h : StepAlike step step') : ∀ n s, Alike (loopN step chars n s) (loopN step' chars n s)
  | 0, _ => fun _ _ hd => ⟨rfl, rfl, hd⟩
  | n + 1, s => by
    intro d d' hd
    simp only [loopN]
    rcases token_cases hd with ⟨x, _, _, e1, e2, h'⟩ | ⟨q, as, q', as', d1, d1', e1, e2, hl, ha, h'⟩ |
      ⟨_, _, _, _, e1, e2, _, h'⟩ | ⟨_, _, _, e1, e2, h'⟩ | ⟨_, _, e1, e2, h'⟩ | ⟨_, _, e1, e2, h'⟩ <;>
      rw [e1, e2]
    · cases x <;> exact ⟨rfl, rfl, h'⟩
    · obtain ⟨g1, g2, g3⟩ := h s q.loc as as' ha d1 d1' h'
      simp only
      rw [← hl]
      rcases hs : step s q.loc as d1 with ⟨v, e, dd⟩
      rcases hs' : step' s q.loc as' d1' with ⟨v', e', dd'⟩
      rw [hs, hs'] at g1 g2 g3
      simp only at g1 g2 g3
      subst g1 g2
      cases e with
      | none => exact loopN_alike chars h n v _ _ g3
      | some e => exact ⟨rfl, rfl, g3⟩
    all_goals exact loopN_alike chars h n _ _ _ h'

theorem loopC_alike {step step' : σ → String → List Attr → Dec → Out σ} (chars : σ → String → σ)
    (h : StepAlike step step') (s : σ) : Alike (loopC step chars s) (loopC step' chars s) := by
  intro d d' hd
  unfold loopC
  rw [hd.length]
  exact loopN_alike chars h _ s _ _ hd

theorem loop_alike {step step' : σ → String → List Attr → Dec → Out σ}
    (h : StepAlike step step') (s : σ) : Alike (loop step s) (loop step' s) := loopC_alike _ h s

/-- The numbers `N` among the attributes of an element `l`, whole numbers or not -/
def numbers (l : String) (N : List String) (whole : Bool) : Bool :=
  N.all (fun n => (numbersOf l).contains n) && (N.isEmpty || decide (l ∈ pageElements) == whole)

/-- The body of an attribute loop passes over names that are not read; it does not depend on the order of
two names; and it fails only when one of the numbers `N` is bad. -/
structure Passes (f : σ → String → String → σ × Option Err) (N : List String) (whole : Bool) : Prop where
  pass : ∀ s l v, attributeNames.contains l = false → f s l v = (s, none)
  comm : ∀ s n v n' v', n ≠ n' → (f (f s n v).1 n' v').1 = (f (f s n' v').1 n v).1
  ok : ∀ s n v, (n ∈ N → if whole then (atoi? v).isSome = true else (getInt v).2 = none) → (f s n v).2 = none

theorem attrs_readable (f : σ → String → String → σ × Option Err)
    (hf : ∀ s l v, attributeNames.contains l = false → f s l v = (s, none)) :
    ∀ (as : List Attr) (s : σ), attrs f s as =
      attrs f s ((readable as).map fun x => ⟨⟨"", x.1⟩, x.2⟩)
  | [], _ => rfl
  | a :: as, s => by
    by_cases h : attributeNames.contains a.name.loc = true
    · have : readable (a :: as) = (a.name.loc, a.val) :: readable as := by
        simp only [readable, List.filter_cons, h, if_true, List.map_cons]
      rw [this]
      simp only [attrs, List.map_cons]
      rcases f s a.name.loc a.val with ⟨s', _ | e⟩
      · exact attrs_readable f hf as s'
      · rfl
    · rw [Bool.not_eq_true] at h
      have : readable (a :: as) = readable as := by
        simp only [readable, List.filter_cons, h, Bool.false_eq_true, if_false]
      rw [this]
      simp only [attrs]
      rw [hf s a.name.loc a.val h]
      exact attrs_readable f hf as s

/-- Without errors a loop over attributes is a fold. -/
theorem attrs_foldl {f : σ → String → String → σ × Option Err} : ∀ (xs : List (String × String)) (s : σ),
    (∀ x ∈ xs, ∀ s, (f s x.1 x.2).2 = none) →
    attrs f s (xs.map fun x => ⟨⟨"", x.1⟩, x.2⟩) = (xs.foldl (fun s x => (f s x.1 x.2).1) s, none)
  | [], _, _ => rfl
  | x :: xs, s, h => by
    simp only [List.map_cons, attrs, List.foldl_cons]
    have h1 := h x List.mem_cons_self s
    rcases hf : f s x.1 x.2 with ⟨s', e⟩
    rw [hf] at h1
    simp only at h1
    subst h1
    exact attrs_foldl xs s' fun y hy => h y (List.mem_cons_of_mem _ hy)

/-- A fold does not depend on the order of the names. -/
theorem fold_perm {f : σ → String → String → σ}
    (hc : ∀ s n v n' v', n ≠ n' → f (f s n v) n' v' = f (f s n' v') n v) {xs ys : List (String × String)}
    (h : xs.Perm ys) : (xs.map (·.1)).Nodup → ∀ s : σ,
    xs.foldl (fun s x => f s x.1 x.2) s = ys.foldl (fun s x => f s x.1 x.2) s := by
  induction h with
  | nil => intro _ _; rfl
  | cons x _ ih =>
    intro hn s
    simp only [List.map_cons, List.nodup_cons] at hn
    simp only [List.foldl_cons]
    exact ih hn.2 _
  | swap x y l =>
    intro hn s
    simp only [List.map_cons, List.nodup_cons, List.mem_cons, not_or] at hn
    simp only [List.foldl_cons]
    rw [hc s y.1 y.2 x.1 x.2 hn.1.1]
  | trans h1 _ ih1 ih2 =>
    intro hn s
    rw [ih1 hn s]
    exact ih2 ((h1.map _).nodup hn) s

theorem attrs_like {f : σ → String → String → σ × Option Err} {N : List String} {whole : Bool}
    (hf : Passes f N whole) {l : String} {as as' : List Attr} (h : sameAttrs l as as')
    (hl : numbers l N whole = true) (s : σ) : attrs f s as = attrs f s as' := by
  rw [attrs_readable f hf.pass as, attrs_readable f hf.pass as']
  rcases h with h | ⟨hp, hd, hg⟩
  · rw [h]
  · have fine : ∀ x ∈ readable as, ∀ s, (f s x.1 x.2).2 = none := by
      intro x hx s
      apply hf.ok
      intro hN
      simp only [numbers, Bool.and_eq_true, List.all_eq_true, List.contains_iff_mem, Bool.or_eq_true,
        List.isEmpty_iff] at hl
      have g := hg x hx (hl.1 _ hN)
      unfold goodNumber at g
      rcases hl.2 with e | e
      · rw [e] at hN; cases hN
      · cases whole <;> simp_all
    rw [attrs_foldl _ _ fine, attrs_foldl _ _ fun x hx => fine x (hp.mem_iff.2 hx)]
    rw [fold_perm (f := fun s n v => (f s n v).1) hf.comm hp hd]

theorem getAtt_readable (n : String) (hn : attributeNames.contains n = true) : ∀ as : List Attr,
    getAtt as n = getAtt ((readable as).map fun x => ⟨⟨"", x.1⟩, x.2⟩) n
  | [] => rfl
  | a :: as => by
    by_cases h : attributeNames.contains a.name.loc = true
    · have : readable (a :: as) = (a.name.loc, a.val) :: readable as := by
        simp only [readable, List.filter_cons, h, if_true, List.map_cons]
      rw [this]
      simp only [getAtt, List.map_cons]
      rw [getAtt_readable n hn as]
    · have hne : ¬ a.name.loc = n := fun e => h (e ▸ hn)
      rw [Bool.not_eq_true] at h
      have : readable (a :: as) = readable as := by
        simp only [readable, List.filter_cons, h, Bool.false_eq_true, if_false]
      rw [this]
      simp only [getAtt]
      rw [if_neg hne]
      exact getAtt_readable n hn as

theorem getAtt_perm (n : String) {xs ys : List (String × String)} (h : xs.Perm ys) :
    (xs.map (·.1)).Nodup →
    getAtt (xs.map fun x => ⟨⟨"", x.1⟩, x.2⟩) n = getAtt (ys.map fun x => ⟨⟨"", x.1⟩, x.2⟩) n := by
  induction h with
  | nil => intro _; rfl
  | cons x _ ih =>
    intro hn
    simp only [List.map_cons, List.nodup_cons] at hn
    simp only [List.map_cons, getAtt]
    rw [ih hn.2]
  | swap x y l =>
    intro hn
    simp only [List.map_cons, List.nodup_cons, List.mem_cons, not_or] at hn
    simp only [List.map_cons, getAtt]
    by_cases h1 : y.1 = n
    · have : ¬ x.1 = n := fun e => hn.1.1 (h1.trans e.symm)
      simp only [h1, if_true, this, if_false]
    · simp only [h1, if_false]
  | trans h1 _ ih1 ih2 =>
    intro hn
    rw [ih1 hn]
    exact ih2 ((h1.map _).nodup hn)

theorem getAtt_like {l : String} {as as' : List Attr} (h : sameAttrs l as as') (n : String)
    (hn : attributeNames.contains n = true) : getAtt as n = getAtt as' n := by
  rw [getAtt_readable n hn as, getAtt_readable n hn as']
  rcases h with h | ⟨hp, hd, _⟩
  · rw [h]
  · exact getAtt_perm n hp hd

theorem leaf_alike {f : σ → String → String → σ × Option Err} {N : List String} {whole : Bool}
    (hf : Passes f N whole) {l : String} {as as' : List Attr} (h : sameAttrs l as as')
    (hl : numbers l N whole = true) (s : σ) : Alike (leaf f s as) (leaf f s as') := by
  intro d d' hd
  unfold leaf
  rw [attrs_like hf h hl]
  rcases attrs f s as' with ⟨s', _ | e⟩
  · rcases token_cases hd with ⟨_, _, _, e1, e2, h'⟩ | ⟨_, _, _, _, _, _, e1, e2, _, _, h'⟩ |
      ⟨_, _, _, _, e1, e2, _, h'⟩ | ⟨_, _, _, e1, e2, h'⟩ | ⟨_, _, e1, e2, h'⟩ | ⟨_, _, e1, e2, h'⟩ <;>
      rw [e1, e2] <;> exact ⟨rfl, rfl, h'⟩
  · exact ⟨rfl, rfl, hd⟩

theorem withAttrs_alike {f : σ → String → String → σ × Option Err} {N : List String} {whole : Bool}
    (hf : Passes f N whole)
    {body body' : σ → Dec → Out σ} (hb : ∀ s, Alike (body s) (body' s)) {l : String}
    {as as' : List Attr} (h : sameAttrs l as as') (hl : numbers l N whole = true) (s : σ) :
    Alike (withAttrs f body s as) (withAttrs f body' s as') := by
  intro d d' hd
  unfold withAttrs
  rw [attrs_like hf h hl]
  rcases attrs f s as' with ⟨s', _ | e⟩
  · exact hb s' d d' hd
  · exact ⟨rfl, rfl, hd⟩

theorem reflTextN_alike : ∀ (n : Nat) (s : String), Alike (reflTextN n s) (reflTextN n s)
  | 0, _ => fun _ _ hd => ⟨rfl, rfl, hd⟩
  | n + 1, s => by
    intro d d' hd
    simp only [reflTextN]
    rcases token_cases hd with ⟨x, _, _, e1, e2, h'⟩ | ⟨q, as, q', as', d1, d1', e1, e2, hl, ha, h'⟩ |
      ⟨_, _, _, _, e1, e2, _, h'⟩ | ⟨_, _, _, e1, e2, h'⟩ | ⟨_, _, e1, e2, h'⟩ | ⟨_, _, e1, e2, h'⟩ <;>
      rw [e1, e2]
    · exact ⟨rfl, rfl, h'⟩
    · simp only
      obtain ⟨g1, g2⟩ := skip_like h'
      rcases hs : d1.skip with ⟨x, y⟩
      rcases hs' : d1'.skip with ⟨x', y'⟩
      rw [hs, hs'] at g1 g2
      simp only at g1 g2
      subst g1
      cases x with
      | none => exact reflTextN_alike n s _ _ g2
      | some e => exact ⟨rfl, rfl, g2⟩
    · exact ⟨rfl, rfl, h'⟩
    all_goals exact reflTextN_alike n _ _ _ h'

theorem reflString_alike : Alike reflString reflString := by
  intro d d' hd
  unfold reflString
  rw [hd.length]
  obtain ⟨g1, g2, g3⟩ := reflTextN_alike (d'.rest.length + 1) "" d d' hd
  rcases hs : reflTextN (d'.rest.length + 1) "" d with ⟨v, e, y⟩
  rcases hs' : reflTextN (d'.rest.length + 1) "" d' with ⟨v', e', y'⟩
  rw [hs, hs'] at g1 g2 g3
  simp only at g1 g2 g3
  subst g1 g2
  cases e <;> exact ⟨rfl, rfl, g3⟩

theorem reflInt_alike (old : Int64) : Alike (reflInt old) (reflInt old) := by
  intro d d' hd
  unfold reflInt
  rw [hd.length]
  obtain ⟨g1, g2, g3⟩ := reflTextN_alike (d'.rest.length + 1) "" d d' hd
  rcases hs : reflTextN (d'.rest.length + 1) "" d with ⟨v, e, y⟩
  rcases hs' : reflTextN (d'.rest.length + 1) "" d' with ⟨v', e', y'⟩
  rw [hs, hs'] at g1 g2 g3
  simp only at g1 g2 g3
  subst g1 g2
  cases e with
  | some e => exact ⟨rfl, rfl, g3⟩
  | none =>
    simp only
    split
    · exact ⟨rfl, rfl, g3⟩
    · split <;> exact ⟨rfl, rfl, g3⟩

section
variable [GoEnv]

theorem flatInt_alike (s : σ) (v : String) (k : Int64 → σ) : Alike (flatInt s v k) (flatInt s v k) := by
  intro d d' hd
  unfold flatInt
  split
  · exact ⟨rfl, rfl, hd⟩
  · split <;> exact ⟨rfl, rfl, hd⟩

theorem flatIntSt_alike (s : σ) (v : String) (k : Int64 → σ) : Alike (flatIntSt s v k) (flatIntSt s v k) := by
  intro d d' hd
  unfold flatIntSt
  split <;> exact ⟨rfl, rfl, hd⟩

theorem flatAttrs_alike {f : α → String → String → α × Option Err} {N : List String} {whole : Bool}
    (hf : Passes f N whole) (init : α) {l : String} {as as' : List Attr} (h : sameAttrs l as as')
    (hl : numbers l N whole = true) (k : α → σ) :
    Alike (flatAttrs f init as k) (flatAttrs f init as' k) := by
  intro d d' hd
  unfold flatAttrs
  rw [attrs_like hf h hl]
  exact ⟨rfl, rfl, hd⟩

theorem flatAttrsV_alike (s : σ) {f : α → String → String → α × Option Err} {N : List String} {whole : Bool}
    (hf : Passes f N whole) (init : α) {l : String} {as as' : List Attr} (h : sameAttrs l as as')
    (hl : numbers l N whole = true) (k : α → σ) :
    Alike (flatAttrsV s f init as k) (flatAttrsV s f init as' k) := by
  intro d d' hd
  unfold flatAttrsV
  rw [attrs_like hf h hl]
  split <;> exact ⟨rfl, rfl, hd⟩

end
end

end

end Docx
