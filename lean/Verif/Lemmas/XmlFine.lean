import Verif.SpecXml
import Verif.Lemmas.XmlTree
import Verif.Lemmas.XmlRec

/-!
# Without bad numbers, decoders stay inside their element

A decoder reading a well-formed tree in which all numbers are readable never reports "expected
integer", and if it reports no error at all it has stopped inside its element or at its end.
-/

namespace Docx

set_option linter.unusedSectionVars false

variable [GoEnv]

/-- The open elements of the current decoder, innermost first, each with the children still to be
read -/
abbrev Ctx := List (List Node × QName)

def ctxToks : Ctx → List Tok
  | [] => []
  | (ks, q) :: c => toksL ks ++ .stop q :: ctxToks c

def ctxStk : Ctx → List StkEntry
  | [] => []
  | (_, q) :: c => .elem q :: ctxStk c

/-- The decoder inside `c`, with `rest` and `stk` outside the current element -/
def inCtx (c : Ctx) (rest : List Tok) (stk : List StkEntry) : Dec :=
  ⟨ctxToks c ++ rest, ctxStk c ++ .mark :: stk, false⟩

def OkCtx (c : Ctx) : Prop := ∀ x ∈ c, numsOkL x.1

theorem OkCtx.tail {x : List Node × QName} {c : Ctx} (h : OkCtx (x :: c)) : OkCtx c :=
  fun y hy => h y (List.mem_cons_of_mem _ hy)

theorem OkCtx.cons {ks : List Node} {q : QName} {c : Ctx} (h : numsOkL ks) (hc : OkCtx c) :
    OkCtx ((ks, q) :: c) := by
  intro y hy
  rcases List.mem_cons.mp hy with rfl | hy
  · exact h
  · exact hc y hy

theorem OkCtx.nil : OkCtx [] := by intro y hy; cases hy

/-- The next token -/
theorem token_ctx (c : Ctx) (rest : List Tok) (stk : List StkEntry) (h : OkCtx c) :
    (c = [] ∧ (inCtx c rest stk).token = (.error .eof, inCtx [] rest stk)) ∨
    (∃ t c', (inCtx c rest stk).token = (.ok t, inCtx c' rest stk) ∧ OkCtx c' ∧
      ∀ q as, t = .start q as → ∃ kids c0, c' = (kids, q) :: c0 ∧ attrsOk q.loc as) := by
  cases c with
  | nil => exact .inl ⟨rfl, rfl⟩
  | cons x c =>
    obtain ⟨ks, q⟩ := x
    refine .inr ?_
    cases ks with
    | nil =>
      refine ⟨.stop q, c, ?_, h.tail, fun _ _ h => by cases h⟩
      simp only [inCtx, ctxToks, ctxStk, toksL_nil, List.nil_append, List.cons_append]
      exact tok_stop ..
    | cons n ks =>
      have hn : numsOkL (n :: ks) := h _ (List.mem_cons_self ..)
      obtain ⟨h1, h2⟩ := hn
      cases n with
      | elem p as kids =>
        refine ⟨.start p as, (kids, p) :: (ks, q) :: c, ?_, .cons h1.2 (.cons h2 h.tail), ?_⟩
        · simp only [inCtx, ctxToks, ctxStk, toksL_cons, toks_elem, List.cons_append, List.append_assoc,
            List.nil_append]
          rfl
        · intro q' as' he
          cases he
          exact ⟨kids, _, rfl, h1.1⟩
      | text s =>
        refine ⟨.chars s, (ks, q) :: c, ?_, .cons h2 h.tail, fun _ _ h => by cases h⟩
        simp only [inCtx, ctxToks, ctxStk, toksL_cons, toks_text, List.cons_append, List.append_assoc,
            List.nil_append]
        rfl
      | other =>
        refine ⟨.other, (ks, q) :: c, ?_, .cons h2 h.tail, fun _ _ h => by cases h⟩
        simp only [inCtx, ctxToks, ctxStk, toksL_cons, toks_other, List.cons_append, List.append_assoc,
            List.nil_append]
        rfl

/-- No "expected", and without an error still inside -/
structure Fine {α : Type} (o : Out α) (rest : List Tok) (stk : List StkEntry) : Prop where
  inside : o.err = none → ∃ c, OkCtx c ∧ o.dec = inCtx c rest stk
  soft : o.err ≠ some .expected

/-- A decoder that is fine -/
def F {α : Type} (u : Dec → Out α) : Prop :=
  ∀ c rest stk, OkCtx c → Fine (u (inCtx c rest stk)) rest stk

/-- The body of a loop that is fine -/
def StepFine {σ : Type} (step : σ → String → List Attr → Dec → Out σ) : Prop :=
  ∀ s q as kids c rest stk, attrsOk q.loc as → OkCtx ((kids, q) :: c) →
    Fine (step s q.loc as (inCtx ((kids, q) :: c) rest stk)) rest stk

theorem fine_here {α : Type} {v : α} {c : Ctx} {rest : List Tok} {stk : List StkEntry} (h : OkCtx c) :
    Fine ⟨v, none, inCtx c rest stk⟩ rest stk := ⟨fun _ => ⟨c, h, rfl⟩, by simp⟩

theorem fine_err {α : Type} {v : α} {e : Err} {d : Dec} {rest : List Tok} {stk : List StkEntry}
    (h : e ≠ .expected) : Fine ⟨v, some e, d⟩ rest stk := ⟨(fun h => by cases h), by simpa using h⟩

theorem skipN_fine : ∀ (f n : Nat) (c : Ctx) (rest : List Tok) (stk : List StkEntry), OkCtx c →
    ((skipN f n (inCtx c rest stk)).1 = none → ∃ c', OkCtx c' ∧
      (skipN f n (inCtx c rest stk)).2 = inCtx c' rest stk) ∧
    (skipN f n (inCtx c rest stk)).1 ≠ some .expected := by
  intro f
  induction f with
  | zero => intro n c rest stk h; simp [skipN]
  | succ f ih =>
    intro n c rest stk h
    rcases token_ctx c rest stk h with ⟨_, ht⟩ | ⟨t, c', ht, hc', _⟩
    · rw [skipN, ht]; simp
    · rw [skipN, ht]
      cases t with
      | start q as => exact ih _ c' rest stk hc'
      | stop q =>
        cases n with
        | zero => exact ⟨fun _ => ⟨c', hc', rfl⟩, by simp⟩
        | succ n => exact ih _ c' rest stk hc'
      | chars s => exact ih _ c' rest stk hc'
      | other => exact ih _ c' rest stk hc'
      | bad => exact ih _ c' rest stk hc'

theorem skip_fine {c : Ctx} {rest : List Tok} {stk : List StkEntry} (h : OkCtx c) :
    ((inCtx c rest stk).skip.1 = none → ∃ c', OkCtx c' ∧
      (inCtx c rest stk).skip.2 = inCtx c' rest stk) ∧
    (inCtx c rest stk).skip.1 ≠ some .expected := skipN_fine _ _ c rest stk h

theorem fine_skipTo {σ : Type} (s : σ) : F (skipTo s) := by
  intro c rest stk h
  have := skip_fine (rest := rest) (stk := stk) h
  exact ⟨this.1, this.2⟩

theorem fine_flat {σ : Type} (s : σ) : F (flat s none) := fun _ _ _ h => fine_here h

/-- Decoding one element whose decoder is fine -/
theorem decodeElement_fine {α : Type} {u : Dec → Out α} (hu : F u) {kids : List Node} {q : QName}
    (hk : numsOkL kids) (rest : List Tok) (stk : List StkEntry) :
    ((decodeElement u ⟨toksL kids ++ .stop q :: rest, .elem q :: stk, false⟩).err = none →
      (decodeElement u ⟨toksL kids ++ .stop q :: rest, .elem q :: stk, false⟩).dec =
        ⟨rest, stk, false⟩) ∧
    (decodeElement u ⟨toksL kids ++ .stop q :: rest, .elem q :: stk, false⟩).err ≠ some .expected := by
  have hf := hu [(kids, q)] rest stk (.cons hk .nil)
  have he : (Dec.pushEOF ⟨toksL kids ++ .stop q :: rest, .elem q :: stk, false⟩) =
      inCtx [(kids, q)] rest stk := by
    simp [Dec.pushEOF, pushMark, inCtx, ctxToks, ctxStk]
  simp only [decodeElement, he]
  generalize u (inCtx [(kids, q)] rest stk) = o at hf
  rcases o with ⟨v, e, d⟩
  obtain ⟨h1, h2⟩ := hf
  simp only at h1 h2
  cases e with
  | some e => exact ⟨(fun h => by cases h), h2⟩
  | none =>
    obtain ⟨c, hc, rfl⟩ := h1 rfl
    cases c with
    | nil => exact ⟨fun _ => rfl, by simp [inCtx, ctxStk, Dec.popEOF]⟩
    | cons x c => simp [inCtx, ctxStk, Dec.popEOF]

theorem inCtx_cons (kids : List Node) (q : QName) (c : Ctx) (rest : List Tok) (stk : List StkEntry) :
    inCtx ((kids, q) :: c) rest stk =
      ⟨toksL kids ++ .stop q :: (ctxToks c ++ rest), .elem q :: (ctxStk c ++ .mark :: stk), false⟩ := by
  simp [inCtx, ctxToks, ctxStk]

theorem fine_subStrict {α σ : Type} {u : Dec → Out α} (hu : F u) {f : α → σ} {kids : List Node}
    {q : QName} {c : Ctx} (h : OkCtx ((kids, q) :: c)) (rest : List Tok) (stk : List StkEntry) :
    Fine (subStrict u f (inCtx ((kids, q) :: c) rest stk)) rest stk := by
  rw [inCtx_cons]
  have := decodeElement_fine hu (q := q) (h _ (List.mem_cons_self ..)) (ctxToks c ++ rest)
    (ctxStk c ++ .mark :: stk)
  exact ⟨fun he => ⟨c, h.tail, this.1 he⟩, this.2⟩

theorem fine_sub {α σ : Type} {u : Dec → Out α} (hu : F u) {f : α → σ} {kids : List Node}
    {q : QName} {c : Ctx} (h : OkCtx ((kids, q) :: c)) (rest : List Tok) (stk : List StkEntry) :
    Fine (sub u f (inCtx ((kids, q) :: c) rest stk)) rest stk := by
  rw [inCtx_cons]
  have := decodeElement_fine hu (q := q) (h _ (List.mem_cons_self ..)) (ctxToks c ++ rest)
    (ctxStk c ++ .mark :: stk)
  have ht : ∀ e : Option Err, e ≠ some .expected → tolerate e = e := by
    intro e h
    unfold tolerate
    split
    · exact absurd rfl h
    · rfl
  refine ⟨fun he => ⟨c, h.tail, this.1 ?_⟩, ?_⟩
  · simp only [sub, ht _ this.2] at he
    exact he
  · simp only [sub, ht _ this.2]
    exact this.2

/-- The attribute loop of an element `l` never reports "expected". -/
def AttrFine {σ : Type} (l : String) (f : σ → String → String → σ × Option Err) : Prop :=
  ∀ s a v, (a ∈ numeric l → numLike v) → (f s a v).2 ≠ some .expected

theorem attrs_fine {σ : Type} {l : String} {f : σ → String → String → σ × Option Err}
    (hf : AttrFine l f) : ∀ (as : List Attr) (s : σ), attrsOk l as → (attrs f s as).2 ≠ some .expected := by
  intro as
  induction as with
  | nil => intro s _; simp [attrs]
  | cons a as ih =>
    intro s h
    have h1 := hf s a.name.loc a.val (h a (List.mem_cons_self ..))
    simp only [attrs]
    rcases hfa : f s a.name.loc a.val with ⟨s', _ | e⟩
    · exact ih s' fun b hb => h b (List.mem_cons_of_mem _ hb)
    · rw [hfa] at h1
      exact h1

theorem leaf_fine {σ : Type} {l : String} {f : σ → String → String → σ × Option Err} {s : σ}
    {as : List Attr} (hf : AttrFine l f) (ha : attrsOk l as) : F (leaf f s as) := by
  intro c rest stk h
  have := attrs_fine hf as s ha
  simp only [leaf]
  rcases hv : attrs f s as with ⟨v, _ | e⟩
  · rcases token_ctx c rest stk h with ⟨_, ht⟩ | ⟨t, c', ht, hc', _⟩
    · simp only [ht]
      exact fine_err (by simp)
    · simp only [ht]
      exact fine_here hc'
  · rw [hv] at this
    exact fine_err (by simpa using this)

theorem withAttrs_fine {σ : Type} {l : String} {f : σ → String → String → σ × Option Err}
    {body : σ → Dec → Out σ} {s : σ} {as : List Attr} (hf : AttrFine l f) (ha : attrsOk l as)
    (hb : ∀ s, F (body s)) : F (withAttrs f body s as) := by
  intro c rest stk h
  have := attrs_fine hf as s ha
  simp only [withAttrs]
  rcases hv : attrs f s as with ⟨v, _ | e⟩
  · exact hb v c rest stk h
  · rw [hv] at this
    exact fine_err (by simpa using this)

theorem getAtt_mem {as : List Attr} {n : String} (h : getAtt as n ≠ "") :
    ∃ a ∈ as, a.name.loc = n ∧ a.val = getAtt as n := by
  induction as with
  | nil => exact absurd rfl h
  | cons a as ih =>
    simp only [getAtt] at h ⊢
    split
    · rename_i hn
      exact ⟨a, List.mem_cons_self .., hn, rfl⟩
    · rename_i hn
      rw [if_neg hn] at h
      obtain ⟨b, hb, h1, h2⟩ := ih h
      exact ⟨b, List.mem_cons_of_mem _ hb, h1, h2⟩

theorem getAtt_fine {l n : String} {as : List Attr} (ha : attrsOk l as) (hn : n ∈ numeric l)
    (h : getAtt as n ≠ "") : (getInt (getAtt as n)).2 ≠ some .expected := by
  obtain ⟨a, hm, h1, h2⟩ := getAtt_mem h
  rw [← h2]
  exact ha a hm (h1 ▸ hn)

theorem flatInt_fine {σ : Type} {l n : String} {as : List Attr} (ha : attrsOk l as) (s : σ)
    (k : Int64 → σ) (hn : n ∈ numeric l) : F (flatInt s (getAtt as n) k) := by
  intro c rest stk h
  simp only [flatInt]
  split
  · exact fine_here h
  · rename_i hne
    have := getAtt_fine ha hn hne
    rcases hg : getInt (getAtt as n) with ⟨m, _ | e⟩
    · exact fine_here h
    · rw [hg] at this
      exact fine_err (by simpa using this)

theorem flatIntSt_fine {σ : Type} {l n : String} {as : List Attr} (ha : attrsOk l as) (s : σ)
    (k : Int64 → σ) (hn : n ∈ numeric l) : F (flatIntSt s (getAtt as n) k) := by
  intro c rest stk h
  simp only [flatIntSt]
  split
  · exact fine_here h
  · rename_i hne
    exact ⟨fun _ => ⟨c, h, rfl⟩, getAtt_fine ha hn hne⟩

theorem flatAttrs_fine {α σ : Type} {l : String} {f : α → String → String → α × Option Err}
    {as : List Attr} (hf : AttrFine l f) (ha : attrsOk l as) (init : α) (k : α → σ) :
    F (flatAttrs f init as k) :=
  fun c _ _ h => ⟨fun _ => ⟨c, h, rfl⟩, attrs_fine hf as init ha⟩

theorem flatAttrsV_fine {α σ : Type} {l : String} {f : α → String → String → α × Option Err}
    {as : List Attr} (hf : AttrFine l f) (ha : attrsOk l as) (s : σ) (init : α) (k : α → σ) :
    F (flatAttrsV s f init as k) := by
  intro c rest stk h
  have := attrs_fine hf as init ha
  simp only [flatAttrsV]
  rcases hv : attrs f init as with ⟨v, _ | e⟩
  · exact fine_here h
  · rw [hv] at this
    exact fine_err (by simpa using this)

/-! ## Loops -/

theorem loopN_fine {σ : Type} {step : σ → String → List Attr → Dec → Out σ} {chars : σ → String → σ}
    (hs : StepFine step) : ∀ (f : Nat) (s : σ) (c : Ctx) (rest : List Tok) (stk : List StkEntry),
    OkCtx c → Fine (loopN step chars f s (inCtx c rest stk)) rest stk := by
  intro f
  induction f with
  | zero => intro s c rest stk _; exact fine_err (by simp)
  | succ f ih =>
    intro s c rest stk h
    rw [loopN]
    rcases token_ctx c rest stk h with ⟨_, ht⟩ | ⟨t, c', ht, hc', hst⟩
    · rw [ht]
      exact fine_here .nil
    · rw [ht]
      cases t with
      | start q as =>
        obtain ⟨kids, c0, rfl, ha⟩ := hst q as rfl
        have ho := hs s q as kids c0 rest stk ha hc'
        simp only
        generalize step s q.loc as (inCtx ((kids, q) :: c0) rest stk) = o at ho
        rcases o with ⟨v, _ | e, d⟩
        · obtain ⟨c1, hc1, hd⟩ := ho.inside rfl
          simp only at hd
          subst hd
          exact ih v c1 rest stk hc1
        · exact ho
      | stop q => exact ih s c' rest stk hc'
      | chars x => exact ih _ c' rest stk hc'
      | other => exact ih s c' rest stk hc'
      | bad => exact ih s c' rest stk hc'

theorem loopC_fine {σ : Type} {step : σ → String → List Attr → Dec → Out σ} {chars : σ → String → σ}
    (hs : StepFine step) (s : σ) : F (loopC step chars s) := fun c rest stk h =>
  loopN_fine hs _ s c rest stk h

theorem loop_fine {σ : Type} {step : σ → String → List Attr → Dec → Out σ}
    (hs : StepFine step) (s : σ) : F (loop step s) := loopC_fine hs s

theorem reflTextN_fine : ∀ (f : Nat) (s : String), F (reflTextN f s) := by
  intro f
  induction f with
  | zero => intro s c rest stk _; exact fine_err (by simp)
  | succ f ih =>
    intro s c rest stk h
    rw [reflTextN]
    rcases token_ctx c rest stk h with ⟨_, ht⟩ | ⟨t, c', ht, hc', hst⟩
    · rw [ht]
      exact fine_err (by simp)
    · rw [ht]
      cases t with
      | start q as =>
        have hsk := skip_fine (rest := rest) (stk := stk) hc'
        simp only
        rcases he : (inCtx c' rest stk).skip with ⟨_ | e, d⟩
        · rw [he] at hsk
          obtain ⟨c1, hc1, hd⟩ := hsk.1 rfl
          simp only at hd
          subst hd
          exact ih s c1 rest stk hc1
        · rw [he] at hsk
          exact fine_err (by simpa using hsk.2)
      | stop q => exact fine_here hc'
      | chars x => exact ih _ c' rest stk hc'
      | other => exact ih s c' rest stk hc'
      | bad => exact ih s c' rest stk hc'

theorem reflString_fine : F reflString := by
  intro c rest stk h
  unfold reflString
  have ho := reflTextN_fine ((inCtx c rest stk).rest.length + 1) "" c rest stk h
  rcases he : reflTextN ((inCtx c rest stk).rest.length + 1) "" (inCtx c rest stk) with ⟨v, _ | e, d⟩
  · rw [he] at ho
    exact ho
  · rw [he] at ho
    exact fine_err (by simpa using ho.soft)

theorem reflInt_fine (old : Int64) : F (reflInt old) := by
  intro c rest stk h
  unfold reflInt
  have ho := reflTextN_fine ((inCtx c rest stk).rest.length + 1) "" c rest stk h
  rcases he : reflTextN ((inCtx c rest stk).rest.length + 1) "" (inCtx c rest stk) with ⟨v, _ | e, d⟩
  · rw [he] at ho
    obtain ⟨c1, hc1, hd⟩ := ho.inside rfl
    simp only at hd
    subst hd
    simp only
    split
    · exact fine_here hc1
    · split
      · exact fine_here hc1
      · exact fine_err (by simp)
  · rw [he] at ho
    exact fine_err (by simpa using ho.soft)

/-- `tolerate` changes nothing here. -/
theorem fine_tolerate {α β : Type} {o : Out α} {rest : List Tok} {stk : List StkEntry}
    (h : Fine o rest stk) (v : β) : Fine ⟨v, tolerate o.err, o.dec⟩ rest stk := by
  rcases o with ⟨w, _ | e, d⟩
  · exact ⟨h.inside, by simp [tolerate]⟩
  · have := h.soft
    cases e <;> first
      | exact absurd rfl this
      | exact fine_err (by simp)

/-! ## Attributes -/

theorem none_fine {σ : Type} {s : σ} : ((s, none) : σ × Option Err).2 ≠ some .expected := by simp

theorem intAttr_fine {σ : Type} {v : String} (k : Int64 → σ) (h : numLike v) :
    (intAttr v k).2 ≠ some .expected := h

theorem intAttrNE_fine {σ : Type} {v : String} (s : σ) (k : Int64 → σ) (h : numLike v) :
    (intAttrNE s v k).2 ≠ some .expected := by
  unfold intAttrNE
  split
  · simp
  · exact h

theorem intAttrLoose_fine {σ : Type} (v : String) (k : Int64 → σ) :
    (intAttrLoose v k).2 ≠ some .expected := by simp [intAttrLoose]

theorem atoiAttr_fine {σ : Type} (v : String) (k : Int64 → σ) :
    (atoiAttr v k).2 ≠ some .expected := by
  unfold atoiAttr
  split <;> simp

/-- closes the attribute cases -/
macro "attr_fine" h:ident : tactic =>
  `(tactic| (repeat' split) <;> first
      | exact none_fine
      | exact intAttrLoose_fine _ _
      | exact atoiAttr_fine _ _
      | (refine intAttr_fine _ ($h ?_); decide)
      | (refine intAttrNE_fine _ _ ($h ?_); decide))

end Docx
