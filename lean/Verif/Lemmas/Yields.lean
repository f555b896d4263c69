import Verif.SpecRefs
import Verif.Lemmas.XmlRec

/-!
# What is decoded from a file whose start tags obey a rule

The rule `T` looks at a start tag (local name and attributes) and at the tokens after it.
-/

namespace Docx

set_option linter.unusedSectionVars false

variable [GoEnv] {T : String → List Attr → List Tok → Prop}

theorem startsAll_tail {t : Tok} {r : List Tok} (h : startsAll T (t :: r)) : startsAll T r := by
  cases t <;> first | exact h | exact h.2

theorem startsAll_sfx {a b : List Tok} (h : a <:+ b) (hb : startsAll T b) : startsAll T a := by
  obtain ⟨c, rfl⟩ := h
  induction c with
  | nil => exact hb
  | cons t c ih => exact ih (startsAll_tail hb)

/-- A decoder that has just read a start tag -/
def OpenedT (d : Dec) : Prop := ∃ q s, d.stk = .elem q :: s ∧ d.dead = false

theorem token_openedT {d d' : Dec} {q : QName} {as : List Attr} (h : d.token = (.ok (.start q as), d'))
    (hd : startsAll T d.rest) : T q.loc as d'.rest ∧ OpenedT d' ∧ startsAll T d'.rest := by
  rcases d with ⟨r, s, b⟩
  unfold Dec.token at h
  split at h <;> first
    | (simp at h; done)
    | skip
  · rename_i q' as' r' s' heq
    simp only [Prod.mk.injEq, Except.ok.injEq, Tok.start.injEq] at h
    obtain ⟨⟨rfl, rfl⟩, rfl⟩ := h
    cases heq
    exact ⟨hd.1, ⟨_, _, rfl, rfl⟩, hd.2⟩
  · split at h <;> simp at h

/-- The value decoded satisfies `P`, on every input whose start tags obey the rule -/
def YieldsT (T : String → List Attr → List Tok → Prop) {α : Type} (P : α → Prop) (u : Dec → Out α) : Prop :=
  ∀ d, startsAll T d.rest → P (u d).val

/-- A step of a loop keeps `P` -/
def StepT (T : String → List Attr → List Tok → Prop) {σ : Type} (P : σ → Prop) (step : σ → String → List Attr → Dec → Out σ) : Prop :=
  ∀ s l as d, P s → T l as d.rest → OpenedT d → startsAll T d.rest → P (step s l as d).val

theorem loopN_T {σ : Type} {P : σ → Prop} {step : σ → String → List Attr → Dec → Out σ}
    {chars : σ → String → σ} (hg : StepGood 0 step) (h : StepT T P step)
    (hc : ∀ s c, P s → P (chars s c)) :
    ∀ (f : Nat) (s : σ) (d : Dec), P s → startsAll T d.rest → P (loopN step chars f s d).val := by
  intro f
  induction f with
  | zero => intro s d hs _; exact hs
  | succ f ih =>
    intro s d hs hd
    rw [loopN]
    rcases hk : d.token with ⟨t, d'⟩
    have hd' : startsAll T d'.rest := startsAll_sfx (token_sfx' hk) hd
    cases t with
    | error e => cases e <;> exact hs
    | ok t =>
      cases t with
      | start q as =>
        have hf := token_openedT hk hd
        have := h s q.loc as d' hs hf.1 hf.2.1 hf.2.2
        have hx := (hg s q.loc as d').1
        simp only
        rcases hst : step s q.loc as d' with ⟨s', e, d''⟩
        rw [hst] at this hx
        cases e with
        | none => exact ih s' d'' this (startsAll_sfx hx hd')
        | some e => exact this
      | chars c => exact ih _ d' (hc s c hs) hd'
      | stop _ => exact ih s d' hs hd'
      | other => exact ih s d' hs hd'
      | bad => exact ih s d' hs hd'

theorem loop_T {σ : Type} {P : σ → Prop} {step : σ → String → List Attr → Dec → Out σ} {s : σ}
    (hg : StepGood 0 step) (h : StepT T P step) (hs : P s) : YieldsT T P (loop step s) :=
  fun d hd => loopN_T hg h (fun _ _ h => h) _ s d hs hd

theorem decodeElement_T {α : Type} {P : α → Prop} {u : Dec → Out α} (h : YieldsT T P u) :
    YieldsT T P (decodeElement u) := by
  intro d hd
  have := h d.pushEOF hd
  simp only [decodeElement]
  rcases ho : u d.pushEOF with ⟨v, e, d'⟩
  rw [ho] at this
  cases e with
  | some e => exact this
  | none =>
    rcases d'.popEOF with ⟨b, d''⟩
    cases b <;> exact this

theorem sub_T {α σ : Type} {P : α → Prop} {Q : σ → Prop} {u : Dec → Out α} (h : YieldsT T P u)
    {k : α → σ} (hk : ∀ v, P v → Q (k v)) : YieldsT T Q (sub u k) :=
  fun d hd => hk _ (decodeElement_T h d hd)

theorem subStrict_T {α σ : Type} {P : α → Prop} {Q : σ → Prop} {u : Dec → Out α}
    (h : YieldsT T P u) {k : α → σ} (hk : ∀ v, P v → Q (k v)) : YieldsT T Q (subStrict u k) :=
  fun d hd => hk _ (decodeElement_T h d hd)

theorem any_T {α : Type} (u : Dec → Out α) : YieldsT T (fun _ => True) u := fun _ _ => trivial

theorem attrs_keepT {σ : Type} {P : σ → Prop} {f : σ → String → String → σ × Option Err}
    (hf : ∀ s l v, P s → P (f s l v).1) : ∀ (as : List Attr) (s : σ), P s → P (attrs f s as).1 := by
  intro as
  induction as with
  | nil => intro s hs; exact hs
  | cons a as ih =>
    intro s hs
    have := hf s a.name.loc a.val hs
    rw [attrs]
    rcases hr : f s a.name.loc a.val with ⟨s', e⟩
    rw [hr] at this
    cases e with
    | none => exact ih s' this
    | some e => exact this

theorem withAttrs_T {σ : Type} {P : σ → Prop} {f : σ → String → String → σ × Option Err}
    {body : σ → Dec → Out σ} {s : σ} {as : List Attr} (hs : P (attrs f s as).1)
    (hb : ∀ s, P s → YieldsT T P (body s)) :
    YieldsT T P (withAttrs f body s as) := by
  intro d hd
  simp only [withAttrs]
  rcases hr : attrs f s as with ⟨s', e⟩
  rw [hr] at hs
  cases e with
  | none => exact hb s' hs d hd
  | some e => exact hs

theorem rootN_T {α : Type} {P : α → Prop} {u : List Attr → Dec → Out α} (h : ∀ as, YieldsT T P (u as))
    {s : α} (hs : P s) : ∀ (f : Nat) (d : Dec), startsAll T d.rest → P (rootN u s f d).val := by
  intro f
  induction f with
  | zero => intro d _; exact hs
  | succ f ih =>
    intro d hd
    rw [rootN]
    rcases hk : d.token with ⟨t, d'⟩
    have hd' : startsAll T d'.rest := startsAll_sfx (token_sfx' hk) hd
    cases t with
    | error e => exact hs
    | ok t =>
      cases t with
      | start q as => exact h as d' hd'
      | _ => exact ih d' hd'

theorem altN_T {parse : Run → String → List Attr → Dec → Out Parsed} {PR : Run → Prop} {PC : RChild → Prop}
    (h : ∀ r l as d, PR r → T l as d.rest → OpenedT d → startsAll T d.rest →
      PR (parse r l as d).val.1 ∧ ∀ c, (parse r l as d).val.2 = some c → PC c) :
    ∀ (f : Nat) (r : Run) (d : Dec), PR r → startsAll T d.rest →
      PR (altN parse f r d).val.1 ∧ ∀ c, (altN parse f r d).val.2 = some c → PC c := by
  intro f
  induction f with
  | zero => intro r d hr _; exact ⟨hr, by intro c hc; cases hc⟩
  | succ f ih =>
    intro r d hr hd
    let G : Out Parsed → Prop := fun o => PR o.val.1 ∧ ∀ c, o.val.2 = some c → PC c
    have hn : ∀ e d, G ⟨(r, none), e, d⟩ :=
      fun e d => ⟨hr, by intro c hc; cases hc⟩
    have hnext : ∀ d' : Dec, startsAll T d'.rest → G (match d'.skip with
      | (none, d'') => altN parse f r d''
      | (some e, d'') => (⟨(r, none), some e, d''⟩ : Out Parsed)) := by
      intro d' hd'
      have hx := skip_sfx d'
      rcases hs : d'.skip with ⟨e, d''⟩
      rw [hs] at hx
      cases e with
      | none => exact ih r d'' hr (startsAll_sfx hx hd')
      | some e => exact hn _ _
    change G (altN parse (f + 1) r d)
    rw [altN]
    rcases hk : d.token with ⟨t, d'⟩
    have hd' : startsAll T d'.rest := startsAll_sfx (token_sfx' hk) hd
    cases t with
    | error e => cases e <;> exact hn _ _
    | ok t =>
      cases t with
      | start q as =>
        simp only
        split
        · rcases hk' : d'.token with ⟨t, d''⟩
          cases t with
          | error e => exact hn _ _
          | ok t =>
            cases t with
            | start q2 as2 =>
              have hf := token_openedT hk' hd'
              exact h r _ _ _ hr hf.1 hf.2.1 hf.2.2
            | _ => exact hn _ _
        · exact hnext d' hd'
      | stop q =>
        simp only
        split
        · exact hn _ _
        · exact hnext d' hd'
      | chars c => exact hnext d' hd'
      | other => exact hnext d' hd'
      | bad => exact hnext d' hd'

/-- A part that begins with a given child, which makes the value satisfy `P` whatever it was -/
theorem decodeFirst_T {α : Type} {P : α → Prop} {step : α → String → List Attr → Dec → Out α} {s0 : α}
    {l : String} (hg : StepGood 0 step) (h : StepT T P step)
    (h1 : ∀ as d, T l as d.rest → OpenedT d → startsAll T d.rest → P (step s0 l as d).val)
    {d : Dec} (hn : ∃ q as r, d.rest = .start q as :: r ∧ q.loc = l) (hf : OpenedT d)
    (hd : startsAll T d.rest) : P (decodeElement (loop step s0) d).val := by
  suffices h : P (loop step s0 d.pushEOF).val by
    simp only [decodeElement]
    rcases ho : loop step s0 d.pushEOF with ⟨v, e, d'⟩
    rw [ho] at h
    cases e with
    | some e => exact h
    | none =>
      rcases d'.popEOF with ⟨b, d''⟩
      cases b <;> exact h
  obtain ⟨q, as', r, hr, hq⟩ := hn
  obtain ⟨q0, st, hst, hdead⟩ := hf
  have htok : d.pushEOF.token = (.ok (.start q as'), ⟨r, .elem q :: .elem q0 :: .mark :: st, false⟩) := by
    rcases d with ⟨rest, stk, dead⟩
    simp only at hr hst hdead
    subst hr; subst hst; subst hdead
    rfl
  rw [hr] at hd
  unfold loop
  rw [loopC, loopN, htok]
  have h2 := h1 as' ⟨r, .elem q :: .elem q0 :: .mark :: st, false⟩ (hq ▸ hd.1) ⟨_, _, rfl, rfl⟩ hd.2
  have hx := (hg s0 q.loc as' ⟨r, .elem q :: .elem q0 :: .mark :: st, false⟩).1
  rw [← hq] at h2
  simp only
  rcases hs : step s0 q.loc as' ⟨r, .elem q :: .elem q0 :: .mark :: st, false⟩ with ⟨s', e, d''⟩
  rw [hs] at h2 hx
  cases e with
  | some e => exact h2
  | none => exact loopN_T hg h (fun _ _ h => h) _ _ _ h2 (startsAll_sfx hx hd.2)

end Docx
