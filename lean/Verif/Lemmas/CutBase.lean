import Verif.Lemmas.XmlRec

/-!
# A decoder that succeeds depends only on the tokens that it has read: the combinators
-/

namespace Docx

set_option linter.unusedSectionVars false

/-- The stack from the topmost mark on -/
def below (s : List StkEntry) : List StkEntry := s.dropWhile (fun e => decide (e ≠ .mark))

/-- Reading `c` leads from the stack `s` to the stack `s'`. -/
structure Path (s : List StkEntry) (c : List Tok) (s' : List StkEntry) : Prop where
  keep : below s <:+ below s'
  stop : s'.head? = some .mark → (s.head? = some .mark ∧ c = []) ∨ ∃ c0 q, c = c0 ++ [.stop q]

theorem below_mark (s : List StkEntry) : below (.mark :: s) = .mark :: s := by simp [below]
theorem below_elem (q : QName) (s : List StkEntry) : below (.elem q :: s) = below s := by simp [below]

theorem mem_below {s : List StkEntry} : .mark ∈ below s ↔ .mark ∈ s := by
  induction s with
  | nil => simp [below]
  | cons e s ih =>
    cases e with
    | mark => simp [below_mark]
    | elem q => rw [below_elem, ih]; simp

theorem below_sfx {s t : List StkEntry} (h : s <:+ t) : below s <:+ below t := by
  induction t with
  | nil =>
    have := List.suffix_nil.1 h
    subst this; exact List.suffix_refl _
  | cons e t ih =>
    rcases List.suffix_cons_iff.1 h with rfl | h2
    · exact List.suffix_refl _
    · cases e with
      | mark => rw [below_mark]; exact ((List.dropWhile_suffix _).trans h2).trans (List.suffix_cons _ _)
      | elem q => rw [below_elem]; exact ih h2

theorem Path.refl (s : List StkEntry) : Path s [] s := ⟨List.suffix_refl _, fun h => .inl ⟨h, rfl⟩⟩

theorem Path.trans {s s' s'' : List StkEntry} {c c' : List Tok} (h : Path s c s') (h' : Path s' c' s'') :
    Path s (c ++ c') s'' := by
  refine ⟨h.keep.trans h'.keep, fun e => ?_⟩
  rcases h'.stop e with ⟨e', rfl⟩ | ⟨c0, q, rfl⟩
  · rw [List.append_nil]; exact h.stop e'
  · exact .inr ⟨c ++ c0, q, by simp⟩

theorem Path.mem {s s' : List StkEntry} {c : List Tok} (h : Path s c s') (hm : .mark ∈ s) : .mark ∈ s' := by
  rw [← mem_below] at hm ⊢
  exact h.keep.subset hm

/-- The errors after which the decoding may go on -/
def Passable (e : Option Err) : Prop := e = none ∨ e = some .expected

theorem passable_tolerate {e : Option Err} (h : Passable (tolerate e)) : Passable e := by
  rcases e with _ | e
  · exact .inl rfl
  · cases e <;> first | exact .inr rfl | exact h

/-- If `u` does not fail on `d`, it depends only on the tokens that it has read. -/
def LocAt {α : Type} (u : Dec → Out α) (d : Dec) : Prop :=
  Passable (u d).err → ∃ c, d.rest = c ++ (u d).dec.rest ∧ (u d).dec.dead = false ∧ Path d.stk c (u d).dec.stk ∧
    ∀ r', u ⟨c ++ r', d.stk, false⟩ = ⟨(u d).val, (u d).err, ⟨r', (u d).dec.stk, false⟩⟩

/-- The same for all `d` with fewer than `k` tokens, inside of an element below which there is a mark -/
def ReadsOnly {α : Type} (k : Nat) (u : Dec → Out α) : Prop :=
  ∀ d : Dec, d.rest.length < k → (∃ q s, d.stk = .elem q :: s ∧ .mark ∈ s) → d.dead = false → LocAt u d

def StepLocal {σ : Type} (k : Nat) (step : σ → String → List Attr → Dec → Out σ) : Prop :=
  ∀ s l as, ReadsOnly k (step s l as)

theorem ReadsOnly.mono {α : Type} {k j : Nat} {u : Dec → Out α} (h : ReadsOnly k u) (hj : j ≤ k) : ReadsOnly j u :=
  fun d hd => h d (Nat.lt_of_lt_of_le hd hj)

/-! ## Tokens -/

theorem token_loc {d d' : Dec} {t : Tok} (h : d.token = (.ok t, d')) :
    d.rest = t :: d'.rest ∧ d.dead = false ∧ d'.dead = false ∧ Path d.stk [t] d'.stk ∧
    ∀ r', Dec.token ⟨t :: r', d.stk, false⟩ = (.ok t, ⟨r', d'.stk, false⟩) := by
  unfold Dec.token at h
  split at h <;> try (simp at h; done)
  · rename_i q as r s _
    simp only [Prod.mk.injEq, Except.ok.injEq] at h
    obtain ⟨rfl, rfl⟩ := h
    refine ⟨rfl, rfl, rfl, ⟨?_, fun e => by simp at e⟩, fun r' => ?_⟩
    · simp only; rw [below_elem]; exact List.suffix_refl _
    · cases s with
      | nil => rfl
      | cons e s => cases e with
        | elem => rfl
        | mark => rename_i hx; exact absurd rfl (hx _)
  · rename_i q r q' s
    split at h
    · rename_i hq
      simp only [Prod.mk.injEq, Except.ok.injEq] at h
      obtain ⟨rfl, rfl⟩ := h
      subst hq
      refine ⟨rfl, rfl, rfl, ⟨?_, fun _ => .inr ⟨[], q, rfl⟩⟩, fun r' => ?_⟩
      · simp only; rw [below_elem]; exact List.suffix_refl _
      · simp [Dec.token]
    · simp at h
  · rename_i c r s _
    simp only [Prod.mk.injEq, Except.ok.injEq] at h
    obtain ⟨rfl, rfl⟩ := h
    refine ⟨rfl, rfl, rfl, ⟨List.suffix_refl _, fun e => ?_⟩, fun r' => ?_⟩
    · cases s with
      | nil => simp at e
      | cons x s => cases x with
        | elem => simp at e
        | mark => rename_i hx; exact absurd rfl (hx _)
    · cases s with
      | nil => rfl
      | cons e s => cases e with
        | elem => rfl
        | mark => rename_i hx; exact absurd rfl (hx _)
  · rename_i r s _
    simp only [Prod.mk.injEq, Except.ok.injEq] at h
    obtain ⟨rfl, rfl⟩ := h
    refine ⟨rfl, rfl, rfl, ⟨List.suffix_refl _, fun e => ?_⟩, fun r' => ?_⟩
    · cases s with
      | nil => simp at e
      | cons x s => cases x with
        | elem => simp at e
        | mark => rename_i hx; exact absurd rfl (hx _)
    · cases s with
      | nil => rfl
      | cons e s => cases e with
        | elem => rfl
        | mark => rename_i hx; exact absurd rfl (hx _)

theorem token_eof {d d' : Dec} (hm : .mark ∈ d.stk) (h : d.token = (.error .eof, d')) :
    d' = d ∧ ∀ r' b, Dec.token ⟨r', d.stk, b⟩ = (.error .eof, ⟨r', d.stk, b⟩) := by
  unfold Dec.token at h
  split at h <;> try (simp at h; done)
  · simp only [Prod.mk.injEq, true_and] at h
    subst h
    exact ⟨rfl, fun _ _ => rfl⟩
  · simp at hm
  · split at h <;> simp at h

theorem token_start {d d' : Dec} {q : QName} {as : List Attr} (h : d.token = (.ok (.start q as), d')) :
    d'.stk = .elem q :: d.stk := by
  unfold Dec.token at h
  split at h <;> try (simp at h; done)
  · simp only [Prod.mk.injEq, Except.ok.injEq, Tok.start.injEq] at h
    obtain ⟨⟨rfl, rfl⟩, rfl⟩ := h
    rfl
  · split at h <;> simp at h

theorem token_errs {d d' : Dec} {e : Err} (h : d.token = (.error e, d')) : ¬ Passable (some e) := by
  unfold Dec.token at h
  repeat' split at h
  all_goals first
    | (simp at h; done)
    | (simp only [Prod.mk.injEq, Except.error.injEq] at h; obtain ⟨rfl, _⟩ := h; simp [Passable])

/-! ## Skip -/

theorem skipN_loc : ∀ (f n : Nat) (d d' : Dec), skipN f n d = (none, d') →
    ∃ c, d.rest = c ++ d'.rest ∧ d'.dead = false ∧ Path d.stk c d'.stk ∧
      ∀ r' g, (c ++ r').length < g → skipN g n ⟨c ++ r', d.stk, false⟩ = (none, ⟨r', d'.stk, false⟩) := by
  intro f
  induction f with
  | zero => intro n d d' h; simp [skipN] at h
  | succ f ih =>
    intro n d d' h
    simp only [skipN] at h
    rcases ht : d.token with ⟨r, d1⟩
    rw [ht] at h
    cases r with
    | error e => simp at h
    | ok t =>
      obtain ⟨t1, _, t3, t4, t5⟩ := token_loc ht
      have go : ∀ m, skipN f m d1 = (none, d') →
          (∀ g r', skipN (g + 1) n ⟨t :: r', d.stk, false⟩ = skipN g m ⟨r', d1.stk, false⟩) →
          ∃ c, d.rest = c ++ d'.rest ∧ d'.dead = false ∧ Path d.stk c d'.stk ∧
          ∀ r' g, (c ++ r').length < g → skipN g n ⟨c ++ r', d.stk, false⟩ = (none, ⟨r', d'.stk, false⟩) := by
        intro m hm hg
        obtain ⟨c, c1, c2, c3, c4⟩ := ih m d1 d' hm
        refine ⟨t :: c, by rw [t1, c1]; rfl, c2, t4.trans c3, fun r' g hl => ?_⟩
        cases g with
        | zero => omega
        | succ g =>
          rw [List.cons_append, hg]
          exact c4 r' g (by simp only [List.cons_append, List.length_cons] at hl; omega)
      cases t with
      | start q as => exact go _ h fun g r' => by simp only [skipN]; rw [t5]
      | chars c => exact go _ h fun g r' => by simp only [skipN]; rw [t5]
      | other => exact go _ h fun g r' => by simp only [skipN]; rw [t5]
      | bad => exact go _ h fun g r' => by simp only [skipN]; rw [t5]
      | stop q =>
        cases n with
        | succ m => exact go _ h fun g r' => by simp only [skipN]; rw [t5]
        | zero =>
          simp only [Prod.mk.injEq, true_and] at h
          subst h
          refine ⟨[.stop q], t1, t3, t4, fun r' g hl => ?_⟩
          cases g with
          | zero => omega
          | succ g => simp only [skipN]; rw [List.singleton_append, t5]

theorem skip_loc {d d' : Dec} (h : d.skip = (none, d')) :
    ∃ c, d.rest = c ++ d'.rest ∧ d'.dead = false ∧ Path d.stk c d'.stk ∧
      ∀ r', Dec.skip ⟨c ++ r', d.stk, false⟩ = (none, ⟨r', d'.stk, false⟩) := by
  obtain ⟨c, c1, c2, c3, c4⟩ := skipN_loc _ _ _ _ h
  exact ⟨c, c1, c2, c3, fun r' => c4 r' _ (Nat.lt_succ_self _)⟩

theorem skip_errs {d d' : Dec} {e : Err} (h : d.skip = (some e, d')) : ¬ Passable (some e) := by
  unfold Dec.skip at h
  have : ∀ (f n : Nat) (d : Dec), skipN f n d = (some e, d') → ¬ Passable (some e) := by
    intro f
    induction f with
    | zero => intro n d h; simp only [skipN, Prod.mk.injEq, Option.some.injEq] at h; rw [← h.1]; simp [Passable]
    | succ f ih =>
      intro n d h
      simp only [skipN] at h
      rcases ht : d.token with ⟨r, d1⟩
      rw [ht] at h
      cases r with
      | error x =>
        simp only [Prod.mk.injEq, Option.some.injEq] at h
        rw [← h.1]; exact token_errs ht
      | ok t =>
        cases t with
        | stop q => cases n with
          | zero => simp at h
          | succ n => exact ih _ _ h
        | _ => exact ih _ _ h
  exact this _ _ _ h

/-! ## Combinators -/

theorem local_flat {σ : Type} (k : Nat) (s : σ) (e : Option Err) : ReadsOnly k (flat s e) := by
  intro d _ _ hd _
  exact ⟨[], rfl, hd, Path.refl _, fun r' => rfl⟩

theorem local_skipTo {σ : Type} (k : Nat) (s : σ) : ReadsOnly k (skipTo s) := by
  intro d _ _ hd hf
  unfold skipTo at hf ⊢
  rcases hs : d.skip with ⟨e, d'⟩
  rw [hs] at hf
  cases e with
  | some e => exact absurd hf (skip_errs hs)
  | none =>
    obtain ⟨c, c1, c2, c3, c4⟩ := skip_loc hs
    exact ⟨c, c1, c2, c3, fun r' => by rw [c4]⟩

theorem local_decodeElement {α : Type} {k : Nat} {u : Dec → Out α} (h : ReadsOnly k u) :
    ReadsOnly k (decodeElement u) := by
  intro d hk ⟨q, s, hs, hm⟩ hd hf
  have hpush : d.pushEOF = ⟨d.rest, .elem q :: .mark :: s, false⟩ := by
    unfold Dec.pushEOF; rw [hs, ← hd]; rfl
  have hpush' : ∀ r', Dec.pushEOF ⟨r', d.stk, false⟩ = ⟨r', .elem q :: .mark :: s, false⟩ := by
    intro r'; unfold Dec.pushEOF; rw [hs]; rfl
  have hu := h ⟨d.rest, .elem q :: .mark :: s, false⟩ hk ⟨q, _, rfl, by simp⟩ rfl
  unfold decodeElement at hf ⊢
  simp only [hpush'] at hf ⊢
  rw [hpush] at hf ⊢
  have hf' : Passable (u ⟨d.rest, .elem q :: .mark :: s, false⟩).err := by
    revert hf
    cases (u ⟨d.rest, .elem q :: .mark :: s, false⟩).err with
    | none => intro _; exact .inl rfl
    | some e => intro hf; exact hf
  obtain ⟨c, c1, c2, c3, c4⟩ := hu hf'
  have hb : StkEntry.mark :: s <:+ below (u ⟨d.rest, .elem q :: .mark :: s, false⟩).dec.stk := by
    have := c3.keep
    rwa [below_elem, below_mark] at this
  have hst := c3.stop
  simp only at c1
  refine ⟨c, ?_⟩
  simp only [c4]
  generalize u ⟨d.rest, .elem q :: .mark :: s, false⟩ = o at *
  rcases o with ⟨v, e, ⟨r, t, b⟩⟩
  simp only at hf hf' c1 c2 hb hst ⊢
  subst c2
  -- the stack afterwards
  have key : d.stk = .elem q :: s → Path d.stk c (Dec.popEOF ⟨r, t, false⟩).2.stk := by
    intro _
    rw [hs]
    cases t with
    | nil => simp [below] at hb
    | cons x t =>
      cases x with
      | mark =>
        have hc : ∃ c0 q, c = c0 ++ [.stop q] := by
          rcases hst rfl with h | h
          · simp at h
          · exact h
        refine ⟨?_, fun _ => .inr hc⟩
        show below (.elem q :: s) <:+ below t
        rw [below_elem]
        rw [below_mark] at hb
        apply below_sfx
        rcases List.suffix_cons_iff.1 hb with h | h
        · injection h with _ h; rw [h]; exact List.suffix_refl _
        · exact (List.suffix_cons _ _).trans h
      | elem x =>
        refine ⟨?_, fun e => by simp [Dec.popEOF] at e⟩
        show below (.elem q :: s) <:+ below (.elem x :: t)
        rw [below_elem]
        exact (below_sfx (List.suffix_cons .mark s)).trans ((by rw [below_mark]; exact hb))
  have key := key hs
  cases e with
  | some e =>
    simp only at hf ⊢
    refine ⟨by rw [popEOF_rest]; exact c1, by unfold Dec.popEOF; split <;> rfl, key, fun r' => ?_⟩
    congr 1
    unfold Dec.popEOF
    cases t with
    | nil => rfl
    | cons x t => cases x <;> rfl
  | none =>
    simp only at hf ⊢
    cases t with
    | nil => simp [Dec.popEOF, Passable] at hf
    | cons x t =>
      cases x with
      | elem => simp [Dec.popEOF, Passable] at hf
      | mark => exact ⟨c1, rfl, key, fun r' => rfl⟩

theorem local_sub {α σ : Type} {k : Nat} {u : Dec → Out α} (h : ReadsOnly k u) (f : α → σ) :
    ReadsOnly k (sub u f) := by
  intro d hk hs hd hf
  obtain ⟨c, c1, c2, c3, c4⟩ := local_decodeElement h d hk hs hd (passable_tolerate hf)
  exact ⟨c, c1, c2, c3, fun r' => by unfold sub; rw [c4]⟩

theorem local_subStrict {α σ : Type} {k : Nat} {u : Dec → Out α} (h : ReadsOnly k u) (f : α → σ) :
    ReadsOnly k (subStrict u f) := by
  intro d hk hs hd hf
  obtain ⟨c, c1, c2, c3, c4⟩ := local_decodeElement h d hk hs hd hf
  exact ⟨c, c1, c2, c3, fun r' => by unfold subStrict; rw [c4]⟩

/-- A case that does not read on -/
theorem local_still {σ : Type} (k : Nat) {u : Dec → Out σ} {v : σ} {e : Option Err} (h : ∀ d, u d = ⟨v, e, d⟩) :
    ReadsOnly k u := by
  intro d _ _ hd _
  refine ⟨[], ?_, ?_, ?_, fun r' => ?_⟩
  · rw [h]; rfl
  · rw [h]; exact hd
  · rw [h]; exact Path.refl _
  · rw [h, h]; rfl

section
variable [GoEnv]

theorem local_flatInt {σ : Type} (k : Nat) (s : σ) (v : String) (f : Int64 → σ) : ReadsOnly k (flatInt s v f) := by
  by_cases hv : v = ""
  · exact local_still k (v := s) (e := none) fun d => by simp [flatInt, hv]
  · rcases hg : getInt v with ⟨n, _ | e⟩
    · exact local_still k (v := f n) (e := none) fun d => by simp [flatInt, hv, hg]
    · exact local_still k (v := s) (e := some e) fun d => by simp [flatInt, hv, hg]

theorem local_flatIntSt {σ : Type} (k : Nat) (s : σ) (v : String) (f : Int64 → σ) : ReadsOnly k (flatIntSt s v f) := by
  by_cases hv : v = ""
  · exact local_still k (v := s) (e := none) fun d => by simp [flatIntSt, hv]
  · exact local_still k (v := f (getInt v).1) (e := (getInt v).2) fun d => by simp [flatIntSt, hv]

end

theorem local_flatAttrs {α σ : Type} (k : Nat) {f : α → String → String → α × Option Err}
    (init : α) (as : List Attr) (g : α → σ) : ReadsOnly k (flatAttrs f init as g) :=
  local_still k fun _ => rfl

theorem local_flatAttrsV {α σ : Type} (k : Nat) (s : σ) {f : α → String → String → α × Option Err}
    (init : α) (as : List Attr) (g : α → σ) : ReadsOnly k (flatAttrsV s f init as g) := by
  rcases h : attrs f init as with ⟨v, _ | e⟩
  · exact local_still k (v := g v) (e := none) fun d => by simp [flatAttrsV, h]
  · exact local_still k (v := s) (e := some e) fun d => by simp [flatAttrsV, h]

theorem local_leaf {σ : Type} (k : Nat) {f : σ → String → String → σ × Option Err}
    (s : σ) (as : List Attr) : ReadsOnly k (leaf f s as) := by
  rcases h : attrs f s as with ⟨v, _ | e⟩
  · intro d _ _ hd hf
    rcases ht : d.token with ⟨r, d1⟩
    cases r with
    | error e =>
      simp only [leaf, h, ht] at hf
      exact absurd hf (token_errs ht)
    | ok t =>
      obtain ⟨t1, _, t3, t4, t5⟩ := token_loc ht
      refine ⟨[t], ?_⟩
      simp only [leaf, h, ht]
      exact ⟨t1, t3, t4, fun r' => by rw [List.singleton_append, t5]⟩
  · exact local_still k (v := v) (e := some e) fun d => by simp [leaf, h]

theorem local_withAttrs {σ : Type} {k : Nat} {f : σ → String → String → σ × Option Err}
    {body : σ → Dec → Out σ} (hb : ∀ s, ReadsOnly k (body s)) (s : σ) (as : List Attr) :
    ReadsOnly k (withAttrs f body s as) := by
  rcases h : attrs f s as with ⟨v, _ | e⟩
  · have : withAttrs f body s as = body v := by funext d; simp [withAttrs, h]
    rw [this]; exact hb v
  · exact local_still k (v := v) (e := some e) fun d => by simp [withAttrs, h]

/-- A step and what follows -/
theorem LocAt.step {α : Type} {u v : Dec → Out α} {d d1 : Dec} {c : List Tok} (h1 : u d = v d1)
    (hr : d.rest = c ++ d1.rest) (hp : Path d.stk c d1.stk)
    (h2 : ∀ r', u ⟨c ++ r', d.stk, false⟩ = v ⟨r', d1.stk, false⟩) (h : LocAt v d1) : LocAt u d := by
  intro hf
  rw [h1] at hf ⊢
  obtain ⟨c', c1, c2, c3, c4⟩ := h hf
  refine ⟨c ++ c', by rw [hr, c1, List.append_assoc], c2, hp.trans c3, fun r' => ?_⟩
  rw [List.append_assoc, h2, c4]

theorem LocAt.stays {α : Type} {u : Dec → Out α} {d : Dec} {v : α} {e : Option Err} (h1 : u d = ⟨v, e, d⟩)
    (hd : d.dead = false) (h2 : ∀ r', u ⟨r', d.stk, false⟩ = ⟨v, e, ⟨r', d.stk, false⟩⟩) : LocAt u d := by
  intro _
  rw [h1]
  exact ⟨[], rfl, hd, Path.refl _, fun r' => h2 r'⟩

theorem loopC_loc {σ : Type} {k j : Nat} {step : σ → String → List Attr → Dec → Out σ}
    {chars : σ → String → σ} (hg : StepGood j step) (h : StepLocal k step) : ∀ (n : Nat) (s : σ) (d : Dec),
    d.rest.length ≤ n → d.rest.length < k + 1 → .mark ∈ d.stk → d.dead = false → LocAt (loopC step chars s) d := by
  intro n
  induction n using Nat.strongRecOn with
  | _ n ih =>
    intro s d hn hk hm hd
    have next : ∀ (s' : σ) (t : Tok) (d1 : Dec), d.token = (.ok t, d1) → LocAt (loopC step chars s') d1 := by
      intro s' t d1 ht
      obtain ⟨t1, _, t3, t4, _⟩ := token_loc ht
      have hl : d.rest.length = d1.rest.length + 1 := by rw [t1]; rfl
      exact ih d1.rest.length (by omega) s' d1 (Nat.le_refl _) (by omega) (t4.mem hm) t3
    rcases ht : d.token with ⟨r, d1⟩
    cases r with
    | error e =>
      by_cases he : e = .eof
      · subst he
        obtain ⟨rfl, h2⟩ := token_eof hm ht
        exact LocAt.stays (v := s) (e := none) (by rw [loopC_eq hg, ht]) hd fun r' => by rw [loopC_eq hg, h2]
      · intro hf
        have : loopC step chars s d = ⟨s, some e, d1⟩ := by
          rw [loopC_eq hg, ht]
          cases e <;> first | rfl | exact absurd rfl he
        rw [this] at hf
        exact absurd hf (token_errs ht)
    | ok t =>
      obtain ⟨t1, _, t3, t4, t5⟩ := token_loc ht
      have hl : d.rest.length = d1.rest.length + 1 := by rw [t1]; rfl
      cases t with
      | start q as =>
        have hstk := token_start ht
        have hst := h s q.loc as d1 (by omega) ⟨q, d.stk, hstk, hm⟩ t3
        have hle := (hg s q.loc as d1).1.length_le
        rcases ho : step s q.loc as d1 with ⟨s', e, d2⟩
        rw [ho] at hle
        simp only at hle
        cases e with
        | none =>
          unfold LocAt at hst
          rw [ho] at hst
          obtain ⟨c, c1, c2, c3, c4⟩ := hst (.inl rfl)
          simp only at c1 c2 c3 c4
          refine LocAt.step (c := .start q as :: c) (v := loopC step chars s') (d1 := d2) ?_ (by rw [t1, c1]; rfl)
            (t4.trans c3) (fun r' => ?_)
            (ih d2.rest.length (by omega) s' d2 (Nat.le_refl _) (by omega) ((t4.trans c3).mem hm) c2)
          · rw [loopC_eq hg, ht]; simp only; rw [ho]
          · rw [loopC_eq hg, List.cons_append, t5]; simp only; rw [c4]
        | some e =>
          intro hf
          have h1 : loopC step chars s d = ⟨s', some e, d2⟩ := by rw [loopC_eq hg, ht]; simp only; rw [ho]
          rw [h1] at hf ⊢
          unfold LocAt at hst
          rw [ho] at hst
          obtain ⟨c, c1, c2, c3, c4⟩ := hst hf
          simp only at c1 c2 c3 c4
          refine ⟨.start q as :: c, by rw [t1, c1]; rfl, c2, t4.trans c3, fun r' => ?_⟩
          rw [loopC_eq hg, List.cons_append, t5]; simp only; rw [c4]
      | chars x =>
        exact LocAt.step (c := [.chars x]) (v := loopC step chars (chars s x)) (d1 := d1)
          (by rw [loopC_eq hg, ht]) t1 t4 (fun r' => by rw [loopC_eq hg, List.singleton_append, t5]) (next _ _ _ ht)
      | stop q =>
        exact LocAt.step (c := [.stop q]) (v := loopC step chars s) (d1 := d1)
          (by rw [loopC_eq hg, ht]) t1 t4 (fun r' => by rw [loopC_eq hg, List.singleton_append, t5]) (next _ _ _ ht)
      | other =>
        exact LocAt.step (c := [.other]) (v := loopC step chars s) (d1 := d1)
          (by rw [loopC_eq hg, ht]) t1 t4 (fun r' => by rw [loopC_eq hg, List.singleton_append, t5]) (next _ _ _ ht)
      | bad =>
        exact LocAt.step (c := [.bad]) (v := loopC step chars s) (d1 := d1)
          (by rw [loopC_eq hg, ht]) t1 t4 (fun r' => by rw [loopC_eq hg, List.singleton_append, t5]) (next _ _ _ ht)

theorem local_loopC {σ : Type} {k j : Nat} {step : σ → String → List Attr → Dec → Out σ}
    {chars : σ → String → σ} (hg : StepGood j step) (h : StepLocal k step) (s : σ) :
    ReadsOnly (k + 1) (loopC step chars s) := by
  intro d hk ⟨q, t, ht, hm⟩ hd
  exact loopC_loc hg h _ s d (Nat.le_refl _) hk (by rw [ht]; simp [hm]) hd

theorem local_loop {σ : Type} {k j : Nat} {step : σ → String → List Attr → Dec → Out σ}
    (hg : StepGood j step) (h : StepLocal k step) (s : σ) : ReadsOnly (k + 1) (loop step s) := local_loopC hg h s

theorem local_loop' {σ : Type} {k j : Nat} {step : σ → String → List Attr → Dec → Out σ}
    (hg : StepGood j step) (h : StepLocal k step) (s : σ) : ReadsOnly k (loop step s) :=
  (local_loop hg h s).mono (Nat.le_succ k)

/-! ## Simple values -/

theorem reflTextN_loc : ∀ (f : Nat) (s : String) (d : Dec), (reflTextN f s d).err = none →
    ∃ c, d.rest = c ++ (reflTextN f s d).dec.rest ∧ (reflTextN f s d).dec.dead = false ∧
      Path d.stk c (reflTextN f s d).dec.stk ∧
      ∀ r' g, (c ++ r').length < g → reflTextN g s ⟨c ++ r', d.stk, false⟩ =
        ⟨(reflTextN f s d).val, none, ⟨r', (reflTextN f s d).dec.stk, false⟩⟩ := by
  intro f
  induction f with
  | zero => intro s d h; simp [reflTextN] at h
  | succ f ih =>
    intro s d h
    rcases ht : d.token with ⟨r, d1⟩
    cases r with
    | error e => simp [reflTextN, ht] at h
    | ok t =>
      obtain ⟨t1, _, t3, t4, t5⟩ := token_loc ht
      have go : ∀ (s' : String) (d2 : Dec) (c0 : List Tok), reflTextN (f + 1) s d = reflTextN f s' d2 →
          d.rest = t :: c0 ++ d2.rest → Path d.stk (t :: c0) d2.stk →
          (∀ g r', reflTextN (g + 1) s ⟨t :: c0 ++ r', d.stk, false⟩ = reflTextN g s' ⟨r', d2.stk, false⟩) →
          ∃ c, d.rest = c ++ (reflTextN (f + 1) s d).dec.rest ∧ (reflTextN (f + 1) s d).dec.dead = false ∧
          Path d.stk c (reflTextN (f + 1) s d).dec.stk ∧
          ∀ r' g, (c ++ r').length < g → reflTextN g s ⟨c ++ r', d.stk, false⟩ =
            ⟨(reflTextN (f + 1) s d).val, none, ⟨r', (reflTextN (f + 1) s d).dec.stk, false⟩⟩ := by
        intro s' d2 c0 he hr hp hg
        rw [he] at h ⊢
        obtain ⟨c, c1, c2, c3, c4⟩ := ih s' d2 h
        refine ⟨t :: c0 ++ c, by rw [hr, c1, List.append_assoc], c2, hp.trans c3, fun r' g hl => ?_⟩
        cases g with
        | zero => omega
        | succ g =>
          rw [List.append_assoc, hg]
          exact c4 r' g (by
            simp only [List.cons_append, List.length_cons, List.length_append] at hl ⊢; omega)
      cases t with
      | start q as =>
        rcases hs : d1.skip with ⟨e, d2⟩
        cases e with
        | some e => simp [reflTextN, ht, hs] at h
        | none =>
          obtain ⟨c, c1, c2, c3, c4⟩ := skip_loc hs
          refine go s d2 c (by simp [reflTextN, ht, hs]) (by rw [t1, c1]; rfl) (t4.trans c3) fun g r' => ?_
          rw [List.cons_append]
          simp [reflTextN, t5, c4]
      | chars x =>
        exact go (s ++ x) d1 [] (by simp [reflTextN, ht]) t1 t4 fun g r' => by simp [reflTextN, t5]
      | other =>
        exact go s d1 [] (by simp [reflTextN, ht]) t1 t4 fun g r' => by simp [reflTextN, t5]
      | bad =>
        exact go s d1 [] (by simp [reflTextN, ht]) t1 t4 fun g r' => by simp [reflTextN, t5]
      | stop q =>
        have he : reflTextN (f + 1) s d = ⟨s, none, d1⟩ := by simp [reflTextN, ht]
        rw [he]
        refine ⟨[.stop q], t1, t3, t4, fun r' g hl => ?_⟩
        cases g with
        | zero => omega
        | succ g => simp [reflTextN, t5]

theorem reflTextN_errs : ∀ (f : Nat) (s : String) (d : Dec) (e : Err), (reflTextN f s d).err = some e →
    ¬ Passable (some e) := by
  intro f
  induction f with
  | zero => intro s d e h; simp only [reflTextN, Option.some.injEq] at h; rw [← h]; simp [Passable]
  | succ f ih =>
    intro s d e h
    rcases ht : d.token with ⟨r, d1⟩
    cases r with
    | error x =>
      simp only [reflTextN, ht, Option.some.injEq] at h
      rw [← h]; exact token_errs ht
    | ok t =>
      cases t with
      | start q as =>
        rcases hs : d1.skip with ⟨x, d2⟩
        cases x with
        | some x =>
          simp only [reflTextN, ht, hs, Option.some.injEq] at h
          rw [← h]; exact skip_errs hs
        | none => simp only [reflTextN, ht, hs] at h; exact ih _ _ _ h
      | stop q => simp [reflTextN, ht] at h
      | _ => simp only [reflTextN, ht] at h; exact ih _ _ _ h

theorem local_reflString (k : Nat) : ReadsOnly k reflString := by
  intro d _ _ hd hf
  rcases hr : reflTextN (d.rest.length + 1) "" d with ⟨s, e, d'⟩
  cases e with
  | some e =>
    unfold reflString at hf
    rw [hr] at hf
    exact absurd hf (reflTextN_errs _ _ _ e (by rw [hr]))
  | none =>
    obtain ⟨c, c1, c2, c3, c4⟩ := reflTextN_loc _ _ _ (by rw [hr])
    have he : reflString d = ⟨s, none, d'⟩ := by unfold reflString; rw [hr]
    rw [he]
    rw [hr] at c1 c2 c3 c4
    refine ⟨c, c1, c2, c3, fun r' => ?_⟩
    unfold reflString
    rw [c4 _ _ (Nat.lt_succ_self _)]

theorem local_reflInt (k : Nat) (n : Int64) : ReadsOnly k (reflInt n) := by
  intro d _ _ hd hf
  rcases hr : reflTextN (d.rest.length + 1) "" d with ⟨s, e, d'⟩
  cases e with
  | some e =>
    unfold reflInt at hf
    rw [hr] at hf
    exact absurd hf (reflTextN_errs _ _ _ e (by rw [hr]))
  | none =>
    obtain ⟨c, c1, c2, c3, c4⟩ := reflTextN_loc _ _ _ (by rw [hr])
    rw [hr] at c1 c2 c3 c4
    simp only at c1 c2 c3 c4
    have hc : ∀ r', reflTextN (List.length (c ++ r') + 1) "" ⟨c ++ r', d.stk, false⟩ = ⟨s, none, ⟨r', d'.stk, false⟩⟩ :=
      fun r' => c4 _ _ (Nat.lt_succ_self _)
    unfold reflInt at hf ⊢
    simp only [hc]
    rw [hr] at hf ⊢
    simp only at hf ⊢
    by_cases hs : s = ""
    · simp only [hs, if_true] at hf ⊢
      exact ⟨c, c1, c2, c3, fun r' => by rw [hc, hs]; rfl⟩
    · simp only [hs, if_false] at hf ⊢
      cases ha : atoi? (String.ofList (trimSpace s.toList)) with
      | some m => exact ⟨c, c1, c2, c3, fun r' => by rw [hc]; simp only [hs, if_false, ha]⟩
      | none => rw [ha] at hf; simp [Passable] at hf

end Docx
