import Verif.Unmarshal

/-!
# The decoder: tokens are used up, bounds are never reached
-/

namespace Docx

/-- `u` never gives tokens back, and with fewer than `k` tokens left it does not run out of fuel. -/
def Good {α : Type} (k : Nat) (u : Dec → Out α) : Prop :=
  ∀ d : Dec, (u d).dec.rest <:+ d.rest ∧ (d.rest.length < k → (u d).err ≠ some .fuel)

theorem Good.mono {α : Type} {k j : Nat} {u : Dec → Out α} (h : Good k u) (hj : j ≤ k) : Good j u :=
  fun d => ⟨(h d).1, fun hd => (h d).2 (Nat.lt_of_lt_of_le hd hj)⟩

/-- Reading a token shortens the rest, and a failing read never lengthens it. -/
theorem token_ok {d d' : Dec} {t : Tok} (h : d.token = (.ok t, d')) :
    d'.rest.length + 1 = d.rest.length := by
  unfold Dec.token at h
  split at h <;> try (simp at h; done)
  · simp at h; obtain ⟨_, rfl⟩ := h; rfl
  · split at h
    · simp at h; obtain ⟨_, rfl⟩ := h; rfl
    · simp at h
  · simp at h; obtain ⟨_, rfl⟩ := h; rfl
  · simp at h; obtain ⟨_, rfl⟩ := h; rfl

theorem token_sfx (d : Dec) : d.token.2.rest <:+ d.rest := by
  unfold Dec.token
  split <;> try split
  all_goals first
    | exact List.suffix_refl _
    | exact List.suffix_cons _ _

theorem token_sfx' {d d' : Dec} {r : Except Err Tok} (h : d.token = (r, d')) : d'.rest <:+ d.rest := by
  have := token_sfx d
  rwa [h] at this

theorem token_err {d d' : Dec} {e : Err} (h : d.token = (.error e, d')) :
    d'.rest.length ≤ d.rest.length ∧ e ≠ .fuel ∧ e ≠ .expected := by
  unfold Dec.token at h
  split at h <;> try (simp at h; done)
  all_goals first
    | (simp at h; obtain ⟨rfl, rfl⟩ := h; simp; done)
    | (split at h
       · simp at h
       · simp at h; obtain ⟨rfl, rfl⟩ := h; simp)

theorem token_le (d : Dec) : (d.token).2.rest.length ≤ d.rest.length := by
  rcases h : d.token with ⟨r, d'⟩
  cases r with
  | error e => exact (token_err h).1
  | ok t => have := token_ok h; simp; omega

/-! ## Skip -/

theorem skipN_good : ∀ (f n : Nat) (d : Dec),
    (skipN f n d).2.rest <:+ d.rest ∧
    (d.rest.length < f → (skipN f n d).1 ≠ some .fuel) := by
  intro f
  induction f with
  | zero => intro n d; simp [skipN]
  | succ f ih =>
    intro n d
    simp only [skipN]
    rcases h : d.token with ⟨r, d'⟩
    cases r with
    | error e =>
      have := token_err h
      simp [token_sfx' h, this.2]
    | ok t =>
      have hd := token_ok h
      have hs := token_sfx' h
      cases t with
      | stop q =>
        cases n with
        | zero => exact ⟨hs, fun _ => by simp⟩
        | succ m => simp only; have := ih m d'; exact ⟨this.1.trans hs, fun hh => this.2 (by omega)⟩
      | start q as => simp only; have := ih (n + 1) d'; exact ⟨this.1.trans hs, fun hh => this.2 (by omega)⟩
      | chars c => simp only; have := ih n d'; exact ⟨this.1.trans hs, fun hh => this.2 (by omega)⟩
      | other => simp only; have := ih n d'; exact ⟨this.1.trans hs, fun hh => this.2 (by omega)⟩
      | bad => simp only; have := ih n d'; exact ⟨this.1.trans hs, fun hh => this.2 (by omega)⟩

theorem skip_sfx (d : Dec) : d.skip.2.rest <:+ d.rest := (skipN_good _ _ d).1
theorem skip_le (d : Dec) : d.skip.2.rest.length ≤ d.rest.length := (skip_sfx d).length_le
theorem skip_noFuel (d : Dec) : d.skip.1 ≠ some .fuel := (skipN_good _ _ d).2 (Nat.lt_succ_self _)

/-- The bound of `skipN` does not matter once it exceeds the number of tokens. -/
theorem skipN_fuel : ∀ (f g n : Nat) (d : Dec), d.rest.length < f → d.rest.length < g →
    skipN f n d = skipN g n d := by
  intro f
  induction f with
  | zero => intro g n d h; omega
  | succ f ih =>
    intro g n d hf hg
    cases g with
    | zero => omega
    | succ g =>
      simp only [skipN]
      rcases h : d.token with ⟨r, d'⟩
      cases r with
      | error e => rfl
      | ok t =>
        have hd := token_ok h
        cases t with
        | stop q =>
          cases n with
          | zero => rfl
          | succ m => simp only; exact ih g m d' (by omega) (by omega)
        | start q as => simp only; exact ih g _ d' (by omega) (by omega)
        | chars c => simp only; exact ih g _ d' (by omega) (by omega)
        | other => simp only; exact ih g _ d' (by omega) (by omega)
        | bad => simp only; exact ih g _ d' (by omega) (by omega)

/-! ## Combinators are good -/

theorem popEOF_rest (d : Dec) : d.popEOF.2.rest = d.rest := by
  unfold Dec.popEOF; split <;> rfl

theorem good_decodeElement {α : Type} {k : Nat} {u : Dec → Out α} (h : Good k u) :
    Good k (decodeElement u) := by
  intro d
  have hd := h d.pushEOF
  have hr : d.pushEOF.rest = d.rest := rfl
  rw [hr] at hd
  unfold decodeElement
  simp only
  cases he : (u d.pushEOF).err with
  | some e =>
    rw [he] at hd
    simp only [popEOF_rest]
    exact ⟨hd.1, fun hk => hd.2 hk⟩
  | none =>
    have hp := popEOF_rest (u d.pushEOF).dec
    rcases hpp : (u d.pushEOF).dec.popEOF with ⟨b, d'⟩
    rw [hpp] at hp
    simp at hp
    cases b <;> simp [hp, hd.1]

theorem tolerate_noFuel {e : Option Err} (h : e ≠ some .fuel) : tolerate e ≠ some .fuel := by
  unfold tolerate; split
  · simp
  · exact h

theorem good_sub {α σ : Type} {k : Nat} {u : Dec → Out α} (h : Good k u) (f : α → σ) :
    Good k (sub u f) := by
  intro d
  have hd := good_decodeElement h d
  exact ⟨hd.1, fun hk => tolerate_noFuel (hd.2 hk)⟩

theorem good_subStrict {α σ : Type} {k : Nat} {u : Dec → Out α} (h : Good k u) (f : α → σ) :
    Good k (subStrict u f) := by
  intro d
  have hd := good_decodeElement h d
  exact ⟨hd.1, fun hk => hd.2 hk⟩

theorem good_flat {σ : Type} (k : Nat) (s : σ) {e : Option Err} (he : e ≠ some .fuel) :
    Good k (flat s e) := fun _ => ⟨List.suffix_refl _, fun _ => he⟩

theorem good_skipTo {σ : Type} (k : Nat) (s : σ) : Good k (skipTo s) :=
  fun d => ⟨skip_sfx d, fun _ => skip_noFuel d⟩

/-- Attribute cases never report fuel. -/
def AttrGood {σ : Type} (f : σ → String → String → σ × Option Err) : Prop :=
  ∀ s l v, (f s l v).2 ≠ some .fuel

theorem attrs_noFuel {σ : Type} {f : σ → String → String → σ × Option Err} (h : AttrGood f) :
    ∀ (as : List Attr) (s : σ), (attrs f s as).2 ≠ some .fuel := by
  intro as
  induction as with
  | nil => intro s; simp [attrs]
  | cons a as ih =>
    intro s
    simp only [attrs]
    have := h s a.name.loc a.val
    rcases hf : f s a.name.loc a.val with ⟨s', e⟩
    rw [hf] at this
    cases e with
    | none => exact ih s'
    | some e => exact this

section
variable [GoEnv]

omit [GoEnv] in
theorem sscanNum_err {b : Bool} {cs : List Char} {e : Err} (h : sscanNum b cs = .error e) :
    e ≠ .fuel := by
  cases cs with
  | nil => cases h; simp
  | cons c cs =>
    unfold sscanNum at h
    cases hp : parseDigits? (takeDigits (c :: cs)) with
    | none => rw [hp] at h; cases h; simp
    | some n =>
      rw [hp] at h
      simp only at h
      generalize (if b = true then -(n : Int) else n) = i at h
      generalize inRange i = r at h
      cases r with
      | true => simp at h
      | false => simp at h; subst h; simp

omit [GoEnv] in
theorem sscanD_err : ∀ {cs : List Char} {e : Err}, sscanD cs = .error e → e ≠ .fuel := by
  intro cs
  induction cs with
  | nil => intro e h; simp [sscanD] at h; subst h; simp
  | cons c cs ih =>
    intro e h
    unfold sscanD at h
    split at h
    · simp at h; subst h; simp
    · split at h
      · exact ih h
      · split at h
        · exact sscanNum_err h
        · split at h
          · exact sscanNum_err h
          · exact sscanNum_err h

theorem getInt_noFuel (v : String) : (getInt v).2 ≠ some .fuel := by
  unfold getInt
  split
  · simp
  · split
    · simp
    · split
      · simp
      · rename_i h; simpa using sscanD_err h

theorem intAttr_noFuel {σ : Type} (v : String) (k : Int64 → σ) : (intAttr v k).2 ≠ some .fuel :=
  getInt_noFuel v

theorem intAttrNE_noFuel {σ : Type} (s : σ) (v : String) (k : Int64 → σ) :
    (intAttrNE s v k).2 ≠ some .fuel := by
  unfold intAttrNE; split
  · simp
  · exact getInt_noFuel v

theorem intAttrLoose_noFuel {σ : Type} (v : String) (k : Int64 → σ) :
    (intAttrLoose v k).2 ≠ some .fuel := by
  simp [intAttrLoose]

omit [GoEnv] in
theorem atoiAttr_noFuel {σ : Type} (v : String) (k : Int64 → σ) : (atoiAttr v k).2 ≠ some .fuel := by
  unfold atoiAttr; split <;> simp

theorem good_flatInt {σ : Type} (k : Nat) (s : σ) (v : String) (f : Int64 → σ) :
    Good k (flatInt s v f) := by
  intro d
  unfold flatInt
  split
  · simp
  · have := getInt_noFuel v
    split
    · simp
    · rename_i h; rw [h] at this; exact ⟨List.suffix_refl _, fun _ => this⟩

theorem good_flatIntSt {σ : Type} (k : Nat) (s : σ) (v : String) (f : Int64 → σ) :
    Good k (flatIntSt s v f) := by
  intro d
  unfold flatIntSt
  split
  · simp
  · exact ⟨List.suffix_refl _, fun _ => getInt_noFuel v⟩

end

theorem good_flatAttrs {α σ : Type} (k : Nat) {f : α → String → String → α × Option Err}
    (h : AttrGood f) (init : α) (as : List Attr) (g : α → σ) : Good k (flatAttrs f init as g) :=
  fun _ => ⟨List.suffix_refl _, fun _ => attrs_noFuel h as init⟩

theorem good_flatAttrsV {α σ : Type} (k : Nat) (s : σ) {f : α → String → String → α × Option Err}
    (h : AttrGood f) (init : α) (as : List Attr) (g : α → σ) : Good k (flatAttrsV s f init as g) := by
  intro d
  have := attrs_noFuel h as init
  unfold flatAttrsV
  split
  · simp
  · rename_i hh; rw [hh] at this; exact ⟨List.suffix_refl _, fun _ => this⟩

theorem good_leaf {σ : Type} (k : Nat) {f : σ → String → String → σ × Option Err} (h : AttrGood f)
    (s : σ) (as : List Attr) : Good k (leaf f s as) := by
  intro d
  have := attrs_noFuel h as s
  unfold leaf
  split
  · rename_i hh; rw [hh] at this; exact ⟨List.suffix_refl _, fun _ => this⟩
  · split
    · rename_i hh; exact ⟨token_sfx' hh, fun _ => by simp⟩
    · rename_i hh; exact ⟨token_sfx' hh, fun _ => by simp [(token_err hh).2]⟩

theorem good_withAttrs {σ : Type} {k : Nat} {f : σ → String → String → σ × Option Err}
    (h : AttrGood f) {body : σ → Dec → Out σ} (hb : ∀ s, Good k (body s)) (s : σ) (as : List Attr) :
    Good k (withAttrs f body s as) := by
  intro d
  have := attrs_noFuel h as s
  unfold withAttrs
  split
  · rename_i hh; rw [hh] at this; exact ⟨List.suffix_refl _, fun _ => this⟩
  · exact hb _ d

/-- All the cases of a `switch` are good. -/
def StepGood {σ : Type} (k : Nat) (step : σ → String → List Attr → Dec → Out σ) : Prop :=
  ∀ s l as, Good k (step s l as)

theorem loopN_good {σ : Type} {k : Nat} {step : σ → String → List Attr → Dec → Out σ}
    {chars : σ → String → σ} (h : StepGood k step) : ∀ (f : Nat) (s : σ) (d : Dec),
    (loopN step chars f s d).dec.rest <:+ d.rest ∧
    (d.rest.length < f → d.rest.length < k + 1 → (loopN step chars f s d).err ≠ some .fuel) := by
  intro f
  induction f with
  | zero => intro s d; simp [loopN]
  | succ f ih =>
    intro s d
    simp only [loopN]
    rcases ht : d.token with ⟨r, d'⟩
    have hx := token_sfx' ht
    cases r with
    | error e =>
      have := token_err ht
      cases e <;> simp_all
    | ok t =>
      have hd := token_ok ht
      have ihd (s') := ih s' d'
      cases t with
      | start q as =>
        simp only
        have hs := h s q.loc as d'
        rcases hst : step s q.loc as d' with ⟨s', e, d''⟩
        rw [hst] at hs
        cases e with
        | none =>
          simp only at hs ⊢
          have := ih s' d''
          have hl := hs.1.length_le
          exact ⟨(this.1.trans hs.1).trans hx, fun h1 h2 => this.2 (by omega) (by omega)⟩
        | some e =>
          simp only at hs ⊢
          exact ⟨hs.1.trans hx, fun _ h2 => hs.2 (by omega)⟩
      | chars c => simp only; exact ⟨(ihd (chars s c)).1.trans hx, fun h1 h2 => (ihd _).2 (by omega) (by omega)⟩
      | stop q => simp only; exact ⟨(ihd s).1.trans hx, fun h1 h2 => (ihd _).2 (by omega) (by omega)⟩
      | other => simp only; exact ⟨(ihd s).1.trans hx, fun h1 h2 => (ihd _).2 (by omega) (by omega)⟩
      | bad => simp only; exact ⟨(ihd s).1.trans hx, fun h1 h2 => (ihd _).2 (by omega) (by omega)⟩

/-- A loop whose cases are good with fewer than `k` tokens is good with one token more. -/
theorem good_loopC {σ : Type} {k : Nat} {step : σ → String → List Attr → Dec → Out σ}
    {chars : σ → String → σ} (h : StepGood k step) (s : σ) : Good (k + 1) (loopC step chars s) :=
  fun d => ⟨(loopN_good h _ s d).1, fun hk => (loopN_good h _ s d).2 (Nat.lt_succ_self _) hk⟩

theorem good_loop {σ : Type} {k : Nat} {step : σ → String → List Attr → Dec → Out σ}
    (h : StepGood k step) (s : σ) : Good (k + 1) (loop step s) := good_loopC h s

theorem good_loop' {σ : Type} {k : Nat} {step : σ → String → List Attr → Dec → Out σ}
    (h : StepGood k step) (s : σ) : Good k (loop step s) := (good_loop h s).mono (Nat.le_succ k)

theorem reflTextN_good : ∀ (f : Nat) (s : String) (d : Dec),
    (reflTextN f s d).dec.rest <:+ d.rest ∧
    (d.rest.length < f → (reflTextN f s d).err ≠ some .fuel) := by
  intro f
  induction f with
  | zero => intro s d; simp [reflTextN]
  | succ f ih =>
    intro s d
    simp only [reflTextN]
    rcases ht : d.token with ⟨r, d'⟩
    have hx := token_sfx' ht
    cases r with
    | error e => have := token_err ht; simp_all
    | ok t =>
      have hd := token_ok ht
      cases t with
      | start q as =>
        simp only
        have h1 := skip_sfx d'
        have h2 := skip_noFuel d'
        rcases hs : d'.skip with ⟨e, d''⟩
        rw [hs] at h1 h2
        have hl := h1.length_le
        cases e with
        | none =>
          simp only at h1 hl ⊢
          exact ⟨((ih s d'').1.trans h1).trans hx, fun h => (ih s d'').2 (by omega)⟩
        | some e => simp only at h1 h2 ⊢; exact ⟨h1.trans hx, fun _ => h2⟩
      | chars c => simp only; exact ⟨(ih (s ++ c) d').1.trans hx, fun h => (ih _ d').2 (by omega)⟩
      | stop q => exact ⟨hx, fun _ => by simp⟩
      | other => simp only; exact ⟨(ih s d').1.trans hx, fun h => (ih _ d').2 (by omega)⟩
      | bad => simp only; exact ⟨(ih s d').1.trans hx, fun h => (ih _ d').2 (by omega)⟩

theorem good_reflString (k : Nat) : Good k reflString := by
  intro d
  have h := reflTextN_good (d.rest.length + 1) "" d
  unfold reflString
  rcases hr : reflTextN (d.rest.length + 1) "" d with ⟨s, e, d'⟩
  rw [hr] at h
  cases e with
  | none => exact ⟨h.1, fun _ => by simp⟩
  | some e => exact ⟨h.1, fun _ => h.2 (Nat.lt_succ_self _)⟩

theorem good_reflInt (k : Nat) (n : Int64) : Good k (reflInt n) := by
  intro d
  have h := reflTextN_good (d.rest.length + 1) "" d
  unfold reflInt
  rcases hr : reflTextN (d.rest.length + 1) "" d with ⟨s, e, d'⟩
  rw [hr] at h
  cases e with
  | none =>
    simp only
    split
    · exact ⟨h.1, fun _ => by simp⟩
    · split
      · exact ⟨h.1, fun _ => by simp⟩
      · exact ⟨h.1, fun _ => by simp⟩
  | some e => exact ⟨h.1, fun _ => h.2 (Nat.lt_succ_self _)⟩

/-! ## Unfolding a loop once -/

theorem loopN_fuel {σ : Type} {step : σ → String → List Attr → Dec → Out σ}
    {chars : σ → String → σ} {k : Nat} (h : StepGood k step) : ∀ (f g : Nat) (s : σ) (d : Dec),
    d.rest.length < f → d.rest.length < g → loopN step chars f s d = loopN step chars g s d := by
  intro f
  induction f with
  | zero => intro g s d h; omega
  | succ f ih =>
    intro g s d hf hg
    cases g with
    | zero => omega
    | succ g =>
      simp only [loopN]
      rcases ht : d.token with ⟨r, d'⟩
      cases r with
      | error e => cases e <;> rfl
      | ok t =>
        have hd := token_ok ht
        cases t with
        | start q as =>
          simp only
          have hs := (h s q.loc as d').1.length_le
          rcases hst : step s q.loc as d' with ⟨s', e, d''⟩
          rw [hst] at hs
          cases e with
          | none => simp only at hs ⊢; exact ih g s' d'' (by omega) (by omega)
          | some e => rfl
        | chars c => simp only; exact ih g _ d' (by omega) (by omega)
        | stop q => simp only; exact ih g _ d' (by omega) (by omega)
        | other => simp only; exact ih g _ d' (by omega) (by omega)
        | bad => simp only; exact ih g _ d' (by omega) (by omega)

/-- One turn of the loop -/
theorem loopC_eq {σ : Type} {step : σ → String → List Attr → Dec → Out σ}
    {chars : σ → String → σ} {k : Nat} (h : StepGood k step) (s : σ) (d : Dec) :
    loopC step chars s d = match d.token with
      | (.error .eof, d') => ⟨s, none, d'⟩
      | (.error e, d') => ⟨s, some e, d'⟩
      | (.ok (.start q as), d') =>
        match step s q.loc as d' with
        | ⟨s', none, d''⟩ => loopC step chars s' d''
        | ⟨s', some e, d''⟩ => ⟨s', some e, d''⟩
      | (.ok (.chars c), d') => loopC step chars (chars s c) d'
      | (.ok _, d') => loopC step chars s d' := by
  unfold loopC
  conv => lhs; unfold loopN
  rcases ht : d.token with ⟨r, d'⟩
  cases r with
  | error e => cases e <;> rfl
  | ok t =>
    have hd := token_ok ht
    cases t with
    | start q as =>
      simp only
      have hs := (h s q.loc as d').1.length_le
      rcases hst : step s q.loc as d' with ⟨s', e, d''⟩
      rw [hst] at hs
      cases e with
      | none => simp only at hs ⊢; exact loopN_fuel h _ _ s' d'' (by omega) (by omega)
      | some e => rfl
    | chars c => simp only; exact loopN_fuel h _ _ _ d' (by omega) (by omega)
    | stop q => simp only; exact loopN_fuel h _ _ _ d' (by omega) (by omega)
    | other => simp only; exact loopN_fuel h _ _ _ d' (by omega) (by omega)
    | bad => simp only; exact loopN_fuel h _ _ _ d' (by omega) (by omega)

end Docx
