import Verif.SpecXml
import Verif.Lemmas.XmlTree

/-!
# Decoding does not see inserted elements of unknown names, nor white space and comments

A simulation: two decoders, the second with elements of unknown names, and perhaps character data and
comments, inserted into its tokens, go through the same states.
-/

namespace Docx

set_option linter.unusedSectionVars false

/-- The open elements -/
def chain : List StkEntry → List QName
  | [] => []
  | .elem q :: s => q :: chain s
  | .mark :: s => chain s

/-- Inside an element, and not inside a fragile one -/
def solid (c : List QName) : Prop := c ≠ [] ∧ ∀ q ∈ c, q.loc ∉ fragile

/-- Inside an element, and not inside a rigid one -/
def loose (c : List QName) : Prop := c ≠ [] ∧ ∀ q ∈ c, q.loc ∉ rigid

theorem rigid_fragile {l : String} (h : l ∈ rigid) : l ∈ fragile := List.mem_of_mem_erase h

theorem solid.loose {c : List QName} (h : solid c) : loose c :=
  ⟨h.1, fun q hq hr => h.2 q hq (rigid_fragile hr)⟩

/-- Whether character data and comments can be inserted too -/
class Gaps where
  on : Bool

/-- Directly inside an `AlternateContent` -/
def inAlt (c : List QName) : Prop := ∃ q, c.head? = some q ∧ q.loc = "AlternateContent"

/-- A token that says nothing among the children of the innermost element -/
def quiet (c : List QName) (t : Tok) : Prop :=
  ¬ inAlt c ∧ (t = .other ∨ ∃ s, t = .chars s ∧ ∀ q, c.head? = some q → q.loc ∉ textual)

variable [Gaps]

/-- The second list of tokens is the first with elements of unknown names, and perhaps character data
and comments, inserted; `c` are the elements open at the start. -/
inductive InsT : List QName → List Tok → List Tok → Prop
  | refl {c ts} : InsT c ts ts
  | insert {c ts ts' q as kids} (hc : solid c) (hq : q.loc ∉ known) (h : InsT c ts ts') :
      InsT c ts ((Node.elem q as kids).toks ++ ts')
  | start {c ts ts' q as} (h : InsT (q :: c) ts ts') : InsT c (.start q as :: ts) (.start q as :: ts')
  | stop {c ts ts' q} (h : InsT c.tail ts ts') : InsT c (.stop q :: ts) (.stop q :: ts')
  | gap {c ts ts' t} (hg : Gaps.on = true) (hc : loose c) (ht : quiet c t) (h : InsT c ts ts') :
      InsT c ts (t :: ts')
  | chars {c ts ts' s} (ha : Gaps.on = true → ¬ inAlt c) (h : InsT c ts ts') :
      InsT c (.chars s :: ts) (.chars s :: ts')
  | other {c ts ts'} (ha : Gaps.on = true → ¬ inAlt c) (h : InsT c ts ts') :
      InsT c (.other :: ts) (.other :: ts')
  | bad {c ts ts'} (h : InsT c ts ts') : InsT c (.bad :: ts) (.bad :: ts')

/-- The two decoders differ only by insertions still to be read. -/
structure SRel (d d' : Dec) : Prop where
  stk : d.stk = d'.stk
  dead : d.dead = d'.dead
  rest : InsT (chain d.stk) d.rest d'.rest

/-- Two results that differ only in that way -/
structure SameOut {α : Type} (o o' : Out α) : Prop where
  val : o.val = o'.val
  err : o.err = o'.err
  dec : SRel o.dec o'.dec

/-- A decoder that does not see insertions -/
def Sim {α : Type} (u : Dec → Out α) : Prop := ∀ d d', SRel d d' → SameOut (u d) (u d')

/-- The same, just after the start tag of an element with this local name -/
def USim {α : Type} (l : String) (u : Dec → Out α) : Prop :=
  ∀ d d' q b, q.loc = l → d.stk = .elem q :: .mark :: b → SRel d d' → SameOut (u d) (u d')

/-- The same for the body of a loop -/
def StepSim {σ : Type} (step : σ → String → List Attr → Dec → Out σ) : Prop :=
  ∀ s q as d d' b, d.stk = .elem q :: b → SRel d d' → SameOut (step s q.loc as d) (step s q.loc as d')

theorem Sim.u {α : Type} {u : Dec → Out α} (h : Sim u) (l : String) : USim l u :=
  fun d d' _ _ _ _ hr => h d d' hr

/-! ## Tokens -/

theorem tok_stop_ne {q p : QName} {r : List Tok} {s : List StkEntry} (h : ¬ q = p) :
    Dec.token ⟨.stop q :: r, .elem p :: s, false⟩ = (.error .syntax, ⟨r, s, true⟩) := by
  simp only [Dec.token, if_neg h]

/-- Both read the same token, or the second is about to read character data or a comment. -/
def TokGap (d d' : Dec) : Prop :=
  (∃ t r p s, d.stk = .elem p :: s ∧ quiet [p] t ∧ loose (chain d.stk) ∧
    d'.token = (.ok t, ⟨r, d.stk, false⟩) ∧ SRel d ⟨r, d.stk, false⟩ ∧ r.length < d'.rest.length ∧
    Gaps.on = true) ∨
  (∃ t d1 d1', d.token = (t, d1) ∧ d'.token = (t, d1') ∧ SRel d1 d1' ∧
    (∀ q as, t = .ok (.start q as) → d1.stk = .elem q :: d.stk) ∧
    (Gaps.on = true → inAlt (chain d.stk) → ((∃ c, t = .ok (.chars c)) ∨ t = .ok .other) → d = d'))

/-- Either the second decoder is about to read an inserted element, or `TokGap`. -/
theorem token_sim {d d' : Dec} (h : SRel d d') :
    (∃ q as kids r, q.loc ∉ known ∧ solid (chain d.stk) ∧
      d'.token = (.ok (.start q as), ⟨toksL kids ++ .stop q :: r, .elem q :: d.stk, false⟩) ∧
      SRel d ⟨r, d.stk, false⟩ ∧ r.length < d'.rest.length ∧ d.dead = false) ∨
    TokGap d d' := by
  rcases d with ⟨rest, stk, dead⟩
  rcases d' with ⟨rest', stk', dead'⟩
  obtain ⟨hs, hd, hr⟩ := h
  simp only at hs hd hr
  subst hs hd
  cases stk with
  | cons e s =>
    cases e with
    | mark =>
      exact .inr (.inr ⟨_, _, _, rfl, rfl, ⟨rfl, rfl, hr⟩, (fun _ _ h => by cases h), fun _ _ h => by simp at h⟩)
    | elem p =>
      cases dead with
      | true => exact .inr (.inr ⟨_, _, _, rfl, rfl, ⟨rfl, rfl, hr⟩, (fun _ _ h => by cases h), fun _ _ h => by simp at h⟩)
      | false =>
        cases hr with
        | refl =>
          refine .inr (.inr ?_)
          cases rest with
          | nil => exact ⟨_, _, _, rfl, rfl, ⟨rfl, rfl, .refl⟩, (fun _ _ h => by cases h), fun _ _ _ => rfl⟩
          | cons t r =>
            cases t with
            | start q as => exact ⟨_, _, _, rfl, rfl, ⟨rfl, rfl, .refl⟩, (fun _ _ h => by cases h; rfl), fun _ _ _ => rfl⟩
            | stop q =>
              by_cases hq : q = p
              · subst hq
                exact ⟨_, _, _, tok_stop .., tok_stop .., ⟨rfl, rfl, .refl⟩, (fun _ _ h => by cases h), fun _ _ _ => rfl⟩
              · exact ⟨_, _, _, tok_stop_ne hq, tok_stop_ne hq, ⟨rfl, rfl, .refl⟩, (fun _ _ h => by cases h), fun _ _ _ => rfl⟩
            | chars c => exact ⟨_, _, _, rfl, rfl, ⟨rfl, rfl, .refl⟩, (fun _ _ h => by cases h), fun _ _ _ => rfl⟩
            | other => exact ⟨_, _, _, rfl, rfl, ⟨rfl, rfl, .refl⟩, (fun _ _ h => by cases h), fun _ _ _ => rfl⟩
            | bad => exact ⟨_, _, _, rfl, rfl, ⟨rfl, rfl, .refl⟩, (fun _ _ h => by cases h), fun _ _ _ => rfl⟩
        | @insert _ _ ts' q as kids hc hq h =>
          refine .inl ⟨q, as, kids, ts', hq, hc, ?_, ⟨rfl, rfl, h⟩, ?_, rfl⟩
          · simp only [toks_elem, List.cons_append, List.append_assoc, List.nil_append]
            exact tok_start ..
          · simp only [toks_elem, List.length_append, List.length_cons]; omega
        | @gap _ _ ts' t hg hc ht h =>
          have ht1 : quiet [p] t := by
            simpa [quiet, inAlt, chain] using ht
          have htk : Dec.token ⟨t :: ts', .elem p :: s, false⟩ = (.ok t, ⟨ts', .elem p :: s, false⟩) := by
            rcases ht.2 with rfl | ⟨x, rfl, _⟩ <;> rfl
          exact .inr (.inl ⟨t, ts', p, s, rfl, ht1, hc, htk, ⟨rfl, rfl, h⟩, by simp, hg⟩)
        | start h => exact .inr (.inr ⟨_, _, _, rfl, rfl, ⟨rfl, rfl, h⟩, (fun _ _ h => by cases h; rfl), fun _ _ h => by simp at h⟩)
        | @stop _ ts ts' q h =>
          refine .inr (.inr ?_)
          by_cases hq : q = p
          · subst hq
            exact ⟨_, _, _, tok_stop .., tok_stop .., ⟨rfl, rfl, h⟩, (fun _ _ h => by cases h), fun _ _ h => by simp at h⟩
          · exact ⟨_, _, _, tok_stop_ne hq, tok_stop_ne hq, ⟨rfl, rfl, h⟩, (fun _ _ h => by cases h), fun _ _ h => by simp at h⟩
        | chars ha h => exact .inr (.inr ⟨_, _, _, rfl, rfl, ⟨rfl, rfl, h⟩, (fun _ _ h => by cases h), fun g a _ => absurd a (ha g)⟩)
        | other ha h => exact .inr (.inr ⟨_, _, _, rfl, rfl, ⟨rfl, rfl, h⟩, (fun _ _ h => by cases h), fun g a _ => absurd a (ha g)⟩)
        | bad h => exact .inr (.inr ⟨_, _, _, rfl, rfl, ⟨rfl, rfl, .bad h⟩, (fun _ _ h => by cases h), fun _ _ h => by simp at h⟩)
  | nil =>
    refine .inr (.inr ?_)
    cases dead with
    | true => exact ⟨_, _, _, rfl, rfl, ⟨rfl, rfl, hr⟩, (fun _ _ h => by cases h), fun _ _ h => by simp at h⟩
    | false =>
      cases hr with
      | refl =>
        cases rest with
        | nil => exact ⟨_, _, _, rfl, rfl, ⟨rfl, rfl, .refl⟩, (fun _ _ h => by cases h), fun _ _ _ => rfl⟩
        | cons t r =>
          cases t with
          | start q as => exact ⟨_, _, _, rfl, rfl, ⟨rfl, rfl, .refl⟩, (fun _ _ h => by cases h; rfl), fun _ _ _ => rfl⟩
          | stop q => exact ⟨_, _, _, rfl, rfl, ⟨rfl, rfl, .refl⟩, (fun _ _ h => by cases h), fun _ _ _ => rfl⟩
          | chars c => exact ⟨_, _, _, rfl, rfl, ⟨rfl, rfl, .refl⟩, (fun _ _ h => by cases h), fun _ _ _ => rfl⟩
          | other => exact ⟨_, _, _, rfl, rfl, ⟨rfl, rfl, .refl⟩, (fun _ _ h => by cases h), fun _ _ _ => rfl⟩
          | bad => exact ⟨_, _, _, rfl, rfl, ⟨rfl, rfl, .refl⟩, (fun _ _ h => by cases h), fun _ _ _ => rfl⟩
      | insert hc => exact absurd rfl hc.1
      | gap _ hc => exact absurd rfl hc.1
      | start h => exact ⟨_, _, _, rfl, rfl, ⟨rfl, rfl, h⟩, (fun _ _ h => by cases h; rfl), fun _ _ h => by simp at h⟩
      | stop h => exact ⟨_, _, _, rfl, rfl, ⟨rfl, rfl, h⟩, (fun _ _ h => by cases h), fun _ _ h => by simp at h⟩
      | chars ha h => exact ⟨_, _, _, rfl, rfl, ⟨rfl, rfl, h⟩, (fun _ _ h => by cases h), fun g a _ => absurd a (ha g)⟩
      | other ha h => exact ⟨_, _, _, rfl, rfl, ⟨rfl, rfl, h⟩, (fun _ _ h => by cases h), fun g a _ => absurd a (ha g)⟩
      | bad h => exact ⟨_, _, _, rfl, rfl, ⟨rfl, rfl, .bad h⟩, (fun _ _ h => by cases h), fun _ _ h => by simp at h⟩

/-- Inside a rigid element both read the same token. -/
theorem token_sim' {d d' : Dec} (h : SRel d d') (hf : ¬ loose (chain d.stk)) :
    ∃ t d1 d1', d.token = (t, d1) ∧ d'.token = (t, d1') ∧ SRel d1 d1' := by
  rcases token_sim h with ⟨_, _, _, _, _, hs, _⟩ | ⟨_, _, _, _, _, _, hs, _⟩ | ⟨t, d1, d1', h1, h2, h3, _⟩
  · exact absurd hs.loose hf
  · exact absurd hs hf
  · exact ⟨t, d1, d1', h1, h2, h3⟩

theorem skipN_sim : ∀ (f' f n : Nat) (d d' : Dec), SRel d d' → d.rest.length < f → d'.rest.length < f' →
    (skipN f n d).1 = (skipN f' n d').1 ∧ SRel (skipN f n d).2 (skipN f' n d').2 := by
  intro f'
  induction f' with
  | zero => intro f n d d' _ _ h; omega
  | succ f' ih =>
    intro f n d d' hr hf hf'
    rcases token_sim hr with ⟨q, as, kids, r, _, hs, ht, hrel, hlt, hdead⟩ |
      ⟨t, r, p, s, _, hq, _, ht, hrel, hlt, _⟩ | ⟨t, d1, d1', h1, h2, h3, _⟩
    · have hstk : d.stk ≠ [] := by intro h; rw [h] at hs; exact hs.1 rfl
      have hf'' : (toksL kids ++ Tok.stop q :: r).length < f' := by
        have h := token_ok ht
        simp only [List.length_append, List.length_cons] at h ⊢
        omega
      have : skipN (f' + 1) n d' = skipN (r.length + 1) n ⟨r, d.stk, false⟩ := by
        rw [skipN, ht]
        simp only
        rw [skipN_nodes kids f' (n + 1) (.stop q :: r) q _ (by simp at hf'' ⊢; omega)]
        simp only [List.length_cons]
        rw [skipN, tok_stop]
      rw [this]
      have h2 := ih f n d ⟨r, d.stk, false⟩ hrel hf (by simp only; omega)
      have h3 : skipN (r.length + 1) n ⟨r, d.stk, false⟩ = skipN f' n ⟨r, d.stk, false⟩ :=
        skipN_fuel _ _ _ _ (by simp) (by simp only; omega)
      rw [h3]
      exact h2
    · have : skipN (f' + 1) n d' = skipN f' n ⟨r, d.stk, false⟩ := by
        rw [skipN, ht]
        rcases hq.2 with rfl | ⟨x, rfl, _⟩ <;> rfl
      rw [this]
      exact ih f n d _ hrel hf (by simp only; omega)
    · cases f with
      | zero => omega
      | succ f =>
        rw [skipN, skipN, h1, h2]
        cases t with
        | error e => exact ⟨rfl, h3⟩
        | ok t =>
          have l1 := token_ok h1
          have l2 := token_ok h2
          cases t with
          | start q as => exact ih f (n + 1) d1 d1' h3 (by omega) (by omega)
          | stop q =>
            cases n with
            | zero => exact ⟨rfl, h3⟩
            | succ n => exact ih f n d1 d1' h3 (by omega) (by omega)
          | chars c => exact ih f n d1 d1' h3 (by omega) (by omega)
          | other => exact ih f n d1 d1' h3 (by omega) (by omega)
          | bad => exact ih f n d1 d1' h3 (by omega) (by omega)

theorem skip_sim {d d' : Dec} (h : SRel d d') : d.skip.1 = d'.skip.1 ∧ SRel d.skip.2 d'.skip.2 :=
  skipN_sim _ _ 0 d d' h (Nat.lt_succ_self _) (Nat.lt_succ_self _)

theorem sim_skipTo {σ : Type} (s : σ) : Sim (skipTo s) := by
  intro d d' h
  have := skip_sim h
  exact ⟨rfl, this.1, this.2⟩

theorem sim_flat {σ : Type} (s : σ) (e : Option Err) : Sim (flat s e) := fun _ _ h => ⟨rfl, rfl, h⟩

/-! ## Elements -/

theorem chain_mark (q : QName) (b : List StkEntry) :
    chain (.elem q :: .mark :: b) = chain (.elem q :: b) := rfl

theorem decodeElement_sim {α : Type} {u : Dec → Out α} {l : String} (hu : USim l u) {d d' : Dec}
    {q : QName} {b : List StkEntry} (hq : q.loc = l) (hs : d.stk = .elem q :: b) (h : SRel d d') :
    SameOut (decodeElement u d) (decodeElement u d') := by
  rcases d with ⟨rest, stk, dead⟩
  rcases d' with ⟨rest', stk', dead'⟩
  obtain ⟨h1, h2, h3⟩ := h
  simp only at h1 h2 h3 hs
  subst h1 h2 hs
  have ho := hu ⟨rest, .elem q :: .mark :: b, dead⟩ ⟨rest', .elem q :: .mark :: b, dead⟩ q b hq rfl
    ⟨rfl, rfl, h3⟩
  simp only [decodeElement, Dec.pushEOF, pushMark]
  generalize u ⟨rest, .elem q :: .mark :: b, dead⟩ = o at ho
  generalize u ⟨rest', .elem q :: .mark :: b, dead⟩ = o' at ho
  rcases o with ⟨v, e, ⟨r1, s1, x1⟩⟩
  rcases o' with ⟨v', e', ⟨r2, s2, x2⟩⟩
  obtain ⟨hv, he, hd1, hd2, hd3⟩ := ho
  simp only at hv he hd1 hd2 hd3
  subst hv he hd1 hd2
  have hpop : ∀ (s : List StkEntry), InsT (chain s) r1 r2 →
      (Dec.popEOF ⟨r1, s, x1⟩).1 = (Dec.popEOF ⟨r2, s, x1⟩).1 ∧
      SRel (Dec.popEOF ⟨r1, s, x1⟩).2 (Dec.popEOF ⟨r2, s, x1⟩).2 := by
    intro s hs
    unfold Dec.popEOF
    rcases s with _ | ⟨_ | _, s⟩
    · exact ⟨rfl, rfl, rfl, hs⟩
    · exact ⟨rfl, rfl, rfl, hs⟩
    · exact ⟨rfl, rfl, rfl, hs⟩
  have hp := hpop s1 hd3
  cases e with
  | some e => exact ⟨rfl, rfl, hp.2⟩
  | none =>
    rcases hpo : Dec.popEOF ⟨r1, s1, x1⟩ with ⟨c, y⟩
    rcases hpo' : Dec.popEOF ⟨r2, s1, x1⟩ with ⟨c', y'⟩
    rw [hpo, hpo'] at hp
    obtain ⟨hc, hy⟩ := hp
    simp only at hc hy
    subst hc
    cases c <;> exact ⟨rfl, rfl, hy⟩

theorem sim_sub {α σ : Type} {u : Dec → Out α} {l : String} (hu : USim l u) {f : α → σ} {d d' : Dec}
    {q : QName} {b : List StkEntry} (hq : q.loc = l) (hs : d.stk = .elem q :: b) (h : SRel d d') :
    SameOut (sub u f d) (sub u f d') := by
  have ho := decodeElement_sim hu hq hs h
  exact ⟨congrArg f ho.val, congrArg tolerate ho.err, ho.dec⟩

theorem sim_subStrict {α σ : Type} {u : Dec → Out α} {l : String} (hu : USim l u) {f : α → σ}
    {d d' : Dec} {q : QName} {b : List StkEntry} (hq : q.loc = l) (hs : d.stk = .elem q :: b)
    (h : SRel d d') : SameOut (subStrict u f d) (subStrict u f d') := by
  have ho := decodeElement_sim hu hq hs h
  exact ⟨congrArg f ho.val, ho.err, ho.dec⟩

theorem not_loose {q : QName} {b : List StkEntry} (h : q.loc ∈ rigid) :
    ¬ loose (chain (.elem q :: b)) :=
  fun hs => hs.2 q (List.mem_cons_self ..) h

theorem leaf_sim {σ : Type} {f : σ → String → String → σ × Option Err} {s : σ} {as : List Attr}
    {l : String} (hl : l ∈ rigid) : USim l (leaf f s as) := by
  intro d d' q b hq hs h
  simp only [leaf]
  rcases attrs f s as with ⟨v, e⟩
  cases e with
  | some e => exact ⟨rfl, rfl, h⟩
  | none =>
    obtain ⟨t, d1, d1', h1, h2, h3⟩ := token_sim' h (by rw [hs]; exact not_loose (hq ▸ hl))
    simp only [h1, h2]
    cases t with
    | error e => exact ⟨rfl, rfl, h3⟩
    | ok t => exact ⟨rfl, rfl, h3⟩

theorem withAttrs_sim {σ : Type} {f : σ → String → String → σ × Option Err} {body : σ → Dec → Out σ}
    {s : σ} {as : List Attr} (hb : ∀ s, Sim (body s)) : Sim (withAttrs f body s as) := by
  intro d d' h
  simp only [withAttrs]
  rcases attrs f s as with ⟨v, e⟩
  cases e with
  | some e => exact ⟨rfl, rfl, h⟩
  | none => exact hb v d d' h

section
variable [GoEnv]

theorem flatInt_sim {σ : Type} (s : σ) (v : String) (k : Int64 → σ) : Sim (flatInt s v k) := by
  intro d d' h
  simp only [flatInt]
  split
  · exact ⟨rfl, rfl, h⟩
  · split <;> exact ⟨rfl, rfl, h⟩

theorem flatIntSt_sim {σ : Type} (s : σ) (v : String) (k : Int64 → σ) : Sim (flatIntSt s v k) := by
  intro d d' h
  simp only [flatIntSt]
  split <;> exact ⟨rfl, rfl, h⟩
end

theorem flatAttrs_sim {α σ : Type} (f : α → String → String → α × Option Err) (init : α)
    (as : List Attr) (k : α → σ) : Sim (flatAttrs f init as k) := fun _ _ h => ⟨rfl, rfl, h⟩

theorem flatAttrsV_sim {α σ : Type} (s : σ) (f : α → String → String → α × Option Err) (init : α)
    (as : List Attr) (k : α → σ) : Sim (flatAttrsV s f init as k) := by
  intro d d' h
  simp only [flatAttrsV]
  split <;> exact ⟨rfl, rfl, h⟩

/-! ## Loops -/

/-- The loop skips elements of unknown names. -/
def StepUnk {σ : Type} (step : σ → String → List Attr → Dec → Out σ) : Prop :=
  ∀ s l as d, l ∉ known → step s l as d = skipTo s d

theorem loopN_sim {σ : Type} {step : σ → String → List Attr → Dec → Out σ} {chars : σ → String → σ}
    (hg : StepGood 0 step) (hstep : StepSim step) (hu : StepUnk step) (hch : ∀ s c, chars s c = s) :
    ∀ (f' f : Nat) (s : σ) (d d' : Dec), SRel d d' → d.rest.length < f → d'.rest.length < f' →
      SameOut (loopN step chars f s d) (loopN step chars f' s d') := by
  intro f'
  induction f' with
  | zero => intro f s d d' _ _ h; omega
  | succ f' ih =>
    intro f s d d' hr hf hf'
    rcases token_sim hr with ⟨q, as, kids, r, hq, hs, ht, hrel, hlt, hdead⟩ |
      ⟨t, r, p, st, _, hq, _, ht, hrel, hlt, _⟩ | ⟨t, d1, d1', h1, h2, h3, h4, _⟩
    · have : loopN step chars (f' + 1) s d' = loopN step chars f' s ⟨r, d.stk, false⟩ := by
        rw [loopN, ht]
        simp only [hu s q.loc as _ hq, skipTo, skip_kids]
      rw [this]
      exact ih f s d ⟨r, d.stk, false⟩ hrel hf (by simp only; omega)
    · have : loopN step chars (f' + 1) s d' = loopN step chars f' s ⟨r, d.stk, false⟩ := by
        rw [loopN, ht]
        rcases hq.2 with rfl | ⟨x, rfl, _⟩
        · rfl
        · simp only [hch]
      rw [this]
      exact ih f s d _ hrel hf (by simp only; omega)
    · cases f with
      | zero => omega
      | succ f =>
        rw [loopN, loopN, h1, h2]
        cases t with
        | error e => cases e <;> exact ⟨rfl, rfl, h3⟩
        | ok t =>
          have l1 := token_ok h1
          have l2 := token_ok h2
          cases t with
          | start q as =>
            have ho := hstep s q as d1 d1' d.stk (h4 q as rfl) h3
            have g1 := (hg s q.loc as d1).1.length_le
            have g2 := (hg s q.loc as d1').1.length_le
            simp only
            generalize step s q.loc as d1 = o at ho g1
            generalize step s q.loc as d1' = o' at ho g2
            rcases o with ⟨v, e, x⟩
            rcases o' with ⟨v', e', x'⟩
            obtain ⟨hv, he, hx⟩ := ho
            simp only at hv he hx g1 g2
            subst hv he
            cases e with
            | some e => exact ⟨rfl, rfl, hx⟩
            | none => exact ih f v x x' hx (by omega) (by omega)
          | stop q => exact ih f s d1 d1' h3 (by omega) (by omega)
          | chars c => exact ih f _ d1 d1' h3 (by omega) (by omega)
          | other => exact ih f s d1 d1' h3 (by omega) (by omega)
          | bad => exact ih f s d1 d1' h3 (by omega) (by omega)

theorem loop_sim {σ : Type} {step : σ → String → List Attr → Dec → Out σ}
    (hg : StepGood 0 step) (hstep : StepSim step) (hu : StepUnk step) (s : σ) : Sim (loop step s) :=
  fun d d' h => loopN_sim hg hstep hu (fun _ _ => rfl) _ _ s d d' h (Nat.lt_succ_self _)
    (Nat.lt_succ_self _)

/-! ### Loops inside a fragile element -/

/-- Inside an element with a name in `L` whose decoder was started above `b`, or at its end -/
def InFrag (L : List String) (b stk : List StkEntry) : Prop :=
  stk = .mark :: b ∨ ∃ pre q, stk = pre ++ .elem q :: .mark :: b ∧ q.loc ∈ L

theorem InFrag.cons {L : List String} {b S : List StkEntry} (e : StkEntry) (h : InFrag L b S) (hne : S ≠ .mark :: b) :
    InFrag L b (e :: S) := by
  rcases h with h | ⟨pre, q, h, hq⟩
  · exact absurd h hne
  · exact .inr ⟨e :: pre, q, by rw [h]; rfl, hq⟩

theorem chain_append (a b : List StkEntry) : chain (a ++ b) = chain a ++ chain b := by
  induction a with
  | nil => rfl
  | cons e a ih => cases e <;> simp [chain, ih]

theorem inFrag_not {L : List String} {b : List StkEntry} {x : Tok} {d1 : Dec} {d : Dec}
    (h : InFrag L b d.stk) (hs : ∀ q ∈ chain d.stk, q.loc ∉ L) (ht : d.token = (.ok x, d1)) : False := by
  rcases d with ⟨rest, stk, dead⟩
  rcases h with h | ⟨pre, q, h, hq⟩
  · simp only at h
    subst h
    simp [Dec.token] at ht
  · simp only at h
    subst h
    refine hs q ?_ hq
    simp [chain_append, chain]

theorem token_pops {d d1 : Dec} {t : Except Err Tok} (h : d.token = (t, d1)) :
    d1.stk = d.stk ∨ (∃ q as, t = .ok (.start q as) ∧ d1.stk = .elem q :: d.stk) ∨
      (∃ q, d.stk = .elem q :: d1.stk) := by
  rcases d with ⟨rest, stk, dead⟩
  rcases stk with _ | ⟨_ | _, stk⟩
  · cases dead
    · rcases rest with _ | ⟨_ | _ | _ | _ | _, rest⟩ <;> cases h <;> first
        | exact .inl rfl
        | exact .inr (.inl ⟨_, _, rfl, rfl⟩)
    · cases h; exact .inl rfl
  · cases dead
    · rcases rest with _ | ⟨_ | _ | _ | _ | _, rest⟩
      · cases h; exact .inl rfl
      · cases h; exact .inr (.inl ⟨_, _, rfl, rfl⟩)
      · rename_i p q
        by_cases hq : q = p
        · subst hq
          rw [tok_stop] at h
          cases h
          exact .inr (.inr ⟨_, rfl⟩)
        · rw [tok_stop_ne hq] at h
          cases h
          exact .inr (.inr ⟨_, rfl⟩)
      all_goals cases h; exact .inl rfl
    · cases h; exact .inl rfl
  · cases h; exact .inl rfl

theorem inFrag_token {L : List String} {b : List StkEntry} {d d1 : Dec} {t : Except Err Tok} (h : InFrag L b d.stk)
    (ht : d.token = (t, d1)) (hne : ∀ e, t ≠ .error e) : InFrag L b d1.stk := by
  rcases token_pops ht with h1 | ⟨q, as, _, h1⟩ | ⟨q, h1⟩
  · rw [h1]; exact h
  · rw [h1]
    rcases h with h | ⟨pre, p, h, hp⟩
    · exfalso
      rcases d with ⟨rest, stk, dead⟩
      simp only at h
      subst h
      cases ht
      exact hne _ rfl
    · exact .inr ⟨.elem q :: pre, p, by rw [h]; rfl, hp⟩
  · rcases h with h | ⟨pre, p, h, hp⟩
    · rw [h] at h1; cases h1
    · rw [h] at h1
      rcases pre with _ | ⟨e, pre⟩
      · simp only [List.nil_append, List.cons.injEq] at h1
        exact .inl h1.2.symm
      · simp only [List.cons_append, List.cons.injEq] at h1
        exact .inr ⟨pre, p, h1.2.symm, hp⟩

theorem token_not_mark {b : List StkEntry} {d d1 : Dec} {t : Tok} (h : d.token = (.ok t, d1)) :
    d.stk ≠ .mark :: b := by
  rcases d with ⟨rest, stk, dead⟩
  rintro rfl
  cases h

theorem decodeElement_dec {α : Type} (u : Dec → Out α) (d : Dec) :
    (decodeElement u d).dec = (u d.pushEOF).dec.popEOF.2 := by
  simp only [decodeElement]
  cases (u d.pushEOF).err with
  | some e => rfl
  | none =>
    rcases h : (u d.pushEOF).dec.popEOF with ⟨b, x⟩
    cases b <;> rfl

theorem loopN_simF {σ : Type} {step : σ → String → List Attr → Dec → Out σ} {chars : σ → String → σ}
    {L : List String} (hL : ∀ l ∈ L, l ∈ fragile) (hch : (∀ s c, chars s c = s) ∨ ∀ l ∈ L, l ∈ rigid)
    (b : List StkEntry) (hg : StepGood 0 step) (hstep : StepSim step)
    (hp : ∀ s q as d S, d.stk = .elem q :: S → InFrag L b S → S ≠ .mark :: b →
      InFrag L b (step s q.loc as d).dec.stk) :
    ∀ (f' f : Nat) (s : σ) (d d' : Dec), SRel d d' → InFrag L b d.stk → d.rest.length < f →
      d'.rest.length < f' → SameOut (loopN step chars f s d) (loopN step chars f' s d') := by
  intro f'
  induction f' with
  | zero => intro f s d d' _ _ _ h; omega
  | succ f' ih =>
    intro f s d d' hr hb hf hf'
    rcases token_sim hr with ⟨q, as, kids, r, hq, hs, ht, hrel, hlt, hdead⟩ |
      ⟨t, r, p, st, _, hq, hs, ht, hrel, hlt, _⟩ | ⟨t, d1, d1', h1, h2, h3, h4, _⟩
    · rw [hr.stk] at hs hb
      exact (inFrag_not hb (fun q hq h => hs.2 q hq (hL _ h)) ht).elim
    · rcases hch with hch | hch
      · have : loopN step chars (f' + 1) s d' = loopN step chars f' s ⟨r, d.stk, false⟩ := by
          rw [loopN, ht]
          rcases hq.2 with rfl | ⟨x, rfl, _⟩
          · rfl
          · simp only [hch]
        rw [this]
        exact ih f s d _ hrel hb hf (by simp only; omega)
      · rw [hr.stk] at hs hb
        exact (inFrag_not hb (fun q hq h => hs.2 q hq (hch _ h)) ht).elim
    · cases f with
      | zero => omega
      | succ f =>
        rw [loopN, loopN, h1, h2]
        cases t with
        | error e => cases e <;> exact ⟨rfl, rfl, h3⟩
        | ok t =>
          have hb1 := inFrag_token hb h1 (by simp)
          have l1 := token_ok h1
          have l2 := token_ok h2
          cases t with
          | start q as =>
            have ho := hstep s q as d1 d1' d.stk (h4 q as rfl) h3
            have g1 := (hg s q.loc as d1).1.length_le
            have g2 := (hg s q.loc as d1').1.length_le
            have hb2 := hp s q as d1 d.stk (h4 q as rfl) hb (token_not_mark h1)
            simp only
            generalize step s q.loc as d1 = o at ho g1 hb2
            generalize step s q.loc as d1' = o' at ho g2
            rcases o with ⟨v, e, x⟩
            rcases o' with ⟨v', e', x'⟩
            obtain ⟨hv, he, hx⟩ := ho
            simp only at hv he hx g1 g2 hb2
            subst hv he
            cases e with
            | some e => exact ⟨rfl, rfl, hx⟩
            | none => exact ih f v x x' hx hb2 (by omega) (by omega)
          | stop q => exact ih f s d1 d1' h3 hb1 (by omega) (by omega)
          | chars c => exact ih f _ d1 d1' h3 hb1 (by omega) (by omega)
          | other => exact ih f s d1 d1' h3 hb1 (by omega) (by omega)
          | bad => exact ih f s d1 d1' h3 hb1 (by omega) (by omega)

theorem loopC_simF {σ : Type} {step : σ → String → List Attr → Dec → Out σ} {chars : σ → String → σ}
    {L : List String} (hL : ∀ l ∈ L, l ∈ fragile) (hch : (∀ s c, chars s c = s) ∨ ∀ l ∈ L, l ∈ rigid)
    (hg : StepGood 0 step) (hstep : StepSim step)
    (hp : ∀ b s q as d S, d.stk = .elem q :: S → InFrag L b S → S ≠ .mark :: b →
      InFrag L b (step s q.loc as d).dec.stk) (s : σ) {l : String}
    (hl : l ∈ L) : USim l (loopC step chars s) := by
  intro d d' q b hq hs h
  exact loopN_simF hL hch b hg hstep (hp b) _ _ s d d' h (.inr ⟨[], q, hs, hq ▸ hl⟩) (Nat.lt_succ_self _)
    (Nat.lt_succ_self _)

/-! ## Reflective decoding -/

/-- A token read inside an element -/
theorem token_inside {d d1 : Dec} {t : Tok} {q : QName} {b : List StkEntry} (hs : d.stk = .elem q :: b)
    (h : d.token = (.ok t, d1)) :
    (∃ p as, t = .start p as ∧ d1.stk = .elem p :: d.stk) ∨ (t = .stop q ∧ d1.stk = b) ∨
      ((∃ c, t = .chars c) ∨ t = .other) ∧ d1.stk = d.stk := by
  rcases d with ⟨rest, stk, dead⟩
  simp only at hs
  subst hs
  cases dead
  · rcases rest with _ | ⟨_ | _ | _ | _ | _, rest⟩
    · cases h
    · cases h; exact .inl ⟨_, _, rfl, rfl⟩
    · rename_i p
      by_cases hq : p = q
      · subst hq
        rw [tok_stop] at h
        cases h
        exact .inr (.inl ⟨rfl, rfl⟩)
      · rw [tok_stop_ne hq] at h
        cases h
    · cases h; exact .inr (.inr ⟨.inl ⟨_, rfl⟩, rfl⟩)
    · cases h; exact .inr (.inr ⟨.inr rfl, rfl⟩)
    · cases h
  · cases h

/-- `Skip` ends after the end of the element it started in. -/
theorem skipN_inside : ∀ (f n : Nat) (d d1 : Dec) (pre : List QName) (b : List StkEntry),
    pre.length = n + 1 → d.stk = pre.map StkEntry.elem ++ b → skipN f n d = (none, d1) → d1.stk = b := by
  intro f
  induction f with
  | zero => intro n d d1 pre b _ _ h; cases h
  | succ f ih =>
    intro n d d1 pre b hn hs h
    rcases pre with _ | ⟨q, pre⟩
    · cases hn
    · rw [skipN] at h
      rcases ht : d.token with ⟨t, d2⟩
      rw [ht] at h
      cases t with
      | error e => cases h
      | ok t =>
        rcases token_inside hs ht with ⟨p, as, rfl, h2⟩ | ⟨rfl, h2⟩ | ⟨h3, h2⟩
        · exact ih (n + 1) d2 d1 (p :: q :: pre) b (by simp at hn ⊢; omega) (by rw [h2, hs]; rfl) h
        · cases n with
          | zero =>
            cases h
            cases pre with
            | nil => exact h2
            | cons _ _ => simp at hn
          | succ n => exact ih n d2 d1 pre b (by simpa using hn) h2 h
        · rcases h3 with ⟨c, rfl⟩ | rfl <;>
            exact ih n d2 d1 (q :: pre) b hn (h2.trans hs) h

theorem skip_inside {d d1 : Dec} {q : QName} {b : List StkEntry} (hs : d.stk = .elem q :: b)
    (h : d.skip = (none, d1)) : d1.stk = b :=
  skipN_inside _ 0 d d1 [q] b rfl hs h

theorem reflTextN_sim (p : QName) (b : List StkEntry) (hp : p.loc ∈ textual) : ∀ (f' f : Nat) (s : String)
    (d d' : Dec), SRel d d' → d.stk = .elem p :: b → d.rest.length < f →
    d'.rest.length < f' → SameOut (reflTextN f s d) (reflTextN f' s d') := by
  intro f'
  induction f' with
  | zero => intro f s d d' _ _ _ h; omega
  | succ f' ih =>
    intro f s d d' hr hstk hf hf'
    rcases token_sim hr with ⟨q, as, kids, r, hq, hs, ht, hrel, hlt, hdead⟩ |
      ⟨t, r, p', st, hst, hq, hs, ht, hrel, hlt, _⟩ | ⟨t, d1, d1', h1, h2, h3, h4, _⟩
    · have : reflTextN (f' + 1) s d' = reflTextN f' s ⟨r, d.stk, false⟩ := by
        rw [reflTextN, ht]
        simp only [skip_kids]
      rw [this]
      exact ih f s d ⟨r, d.stk, false⟩ hrel hstk hf (by simp only; omega)
    · have : reflTextN (f' + 1) s d' = reflTextN f' s ⟨r, d.stk, false⟩ := by
        rw [reflTextN, ht]
        rcases hq.2 with rfl | ⟨x, rfl, hx⟩
        · rfl
        · rw [hstk] at hst
          cases hst
          exact absurd hp (hx p rfl)
      rw [this]
      exact ih f s d ⟨r, d.stk, false⟩ hrel hstk hf (by simp only; omega)
    · cases f with
      | zero => omega
      | succ f =>
        rw [reflTextN, reflTextN, h1, h2]
        cases t with
        | error e => exact ⟨rfl, rfl, h3⟩
        | ok t =>
          have l1 := token_ok h1
          have l2 := token_ok h2
          cases t with
          | start q as =>
            have ho := skip_sim h3
            have g1 := skip_le d1
            have g2 := skip_le d1'
            simp only
            rcases hsk : d1.skip with ⟨e, x⟩
            rcases hsk' : d1'.skip with ⟨e', x'⟩
            rw [hsk, hsk'] at ho
            rw [hsk] at g1
            rw [hsk'] at g2
            obtain ⟨he, hx⟩ := ho
            simp only at he hx g1 g2
            subst he
            cases e with
            | some e => exact ⟨rfl, rfl, hx⟩
            | none =>
              exact ih f s x x' hx ((skip_inside (h4 q as rfl) hsk).trans hstk) (by omega) (by omega)
          | stop q => exact ⟨rfl, rfl, h3⟩
          | chars c =>
            have hi : d1.stk = d.stk := by simpa using token_inside hstk h1
            exact ih f _ d1 d1' h3 (hi.trans hstk) (by omega) (by omega)
          | other =>
            have hi : d1.stk = d.stk := by simpa using token_inside hstk h1
            exact ih f s d1 d1' h3 (hi.trans hstk) (by omega) (by omega)
          | bad => simpa using token_inside hstk h1

theorem reflString_sim {d d' : Dec} {q : QName} {b : List StkEntry} (hq : q.loc ∈ textual)
    (hst : d.stk = .elem q :: b) (h : SRel d d') : SameOut (reflString d) (reflString d') := by
  have ho := reflTextN_sim q b hq _ _ "" d d' h hst (Nat.lt_succ_self _) (Nat.lt_succ_self _)
  unfold reflString
  rcases h1 : reflTextN (d.rest.length + 1) "" d with ⟨s, e, x⟩
  rcases h2 : reflTextN (d'.rest.length + 1) "" d' with ⟨s', e', x'⟩
  simp only [Nat.succ_eq_add_one] at ho
  rw [h1, h2] at ho
  obtain ⟨hs, he, hx⟩ := ho
  simp only at hs he hx
  subst hs he
  cases e <;> exact ⟨rfl, rfl, hx⟩

theorem reflInt_sim (old : Int64) {d d' : Dec} {q : QName} {b : List StkEntry} (hq : q.loc ∈ textual)
    (hst : d.stk = .elem q :: b) (h : SRel d d') : SameOut (reflInt old d) (reflInt old d') := by
  have ho := reflTextN_sim q b hq _ _ "" d d' h hst (Nat.lt_succ_self _) (Nat.lt_succ_self _)
  unfold reflInt
  rcases h1 : reflTextN (d.rest.length + 1) "" d with ⟨s, e, x⟩
  rcases h2 : reflTextN (d'.rest.length + 1) "" d' with ⟨s', e', x'⟩
  simp only [Nat.succ_eq_add_one] at ho
  rw [h1, h2] at ho
  obtain ⟨hs, he, hx⟩ := ho
  simp only at hs he hx
  subst hs he
  cases e with
  | some e => exact ⟨rfl, rfl, hx⟩
  | none =>
    simp only
    split
    · exact ⟨rfl, rfl, hx⟩
    · split <;> exact ⟨rfl, rfl, hx⟩

end Docx
