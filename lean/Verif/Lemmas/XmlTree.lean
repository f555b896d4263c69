import Verif.Lemmas.XmlRec
import Verif.Lemmas.Num
import Verif.Marshal

/-!
# Decoding well-formed elements

`Decodes u ks v`: after a start tag, the decoder `u` reads the children `ks` and the end tag and
yields `v`.  `Takes step s ks s'`: the token loop with body `step` goes from state `s` to state `s'`
while reading `ks`.
-/

namespace Docx

/-- After a start tag, `u` reads the children `ks` and the end tag and yields `v`. -/
def Decodes {α : Type} (u : Dec → Out α) (ks : List Node) (v : α) : Prop :=
  ∀ q rest stk, decodeElement u ⟨toksL ks ++ .stop q :: rest, .elem q :: stk, false⟩ =
    ⟨v, none, ⟨rest, stk, false⟩⟩

/-- The loop goes from `s` to `s'` while reading `ks`. -/
def TakesC {σ : Type} (step : σ → String → List Attr → Dec → Out σ) (chars : σ → String → σ)
    (s : σ) (ks : List Node) (s' : σ) : Prop :=
  ∀ q rest stk, loopC step chars s ⟨toksL ks ++ rest, .elem q :: stk, false⟩ =
    loopC step chars s' ⟨rest, .elem q :: stk, false⟩

/-- The same for the loops that ignore character data -/
abbrev Takes {σ : Type} (step : σ → String → List Attr → Dec → Out σ) (s : σ) (ks : List Node)
    (s' : σ) : Prop := TakesC step (fun s _ => s) s ks s'

@[simp] theorem toksL_nil : toksL [] = [] := by simp [toksL]
@[simp] theorem toksL_cons (n : Node) (ns : List Node) : toksL (n :: ns) = n.toks ++ toksL ns := by
  simp [toksL]
@[simp] theorem toks_elem (q : QName) (as : List Attr) (kids : List Node) :
    (Node.elem q as kids).toks = .start q as :: (toksL kids ++ [.stop q]) := by
  simp [Node.toks]
@[simp] theorem toks_text (s : String) : (Node.text s).toks = [.chars s] := by simp [Node.toks]
@[simp] theorem toks_other : Node.other.toks = [.other] := by simp [Node.toks]

theorem toksL_append (a b : List Node) : toksL (a ++ b) = toksL a ++ toksL b := by
  induction a with
  | nil => simp
  | cons n a ih => simp [ih]

/-- The attributes of an element -/
def Node.as : Node → List Attr
  | .elem _ as _ => as
  | _ => []

/-- The children of an element -/
def Node.kids : Node → List Node
  | .elem _ _ ks => ks
  | _ => []

/-! ## Tokens on a live decoder -/

theorem tok_start (q : QName) (as : List Attr) (r : List Tok) (p : QName) (s : List StkEntry) :
    (Dec.token ⟨.start q as :: r, .elem p :: s, false⟩) =
      (.ok (.start q as), ⟨r, .elem q :: .elem p :: s, false⟩) := rfl

theorem tok_stop (q : QName) (r : List Tok) (s : List StkEntry) :
    (Dec.token ⟨.stop q :: r, .elem q :: s, false⟩) = (.ok (.stop q), ⟨r, s, false⟩) := by
  simp [Dec.token]

theorem tok_chars (c : String) (r : List Tok) (p : QName) (s : List StkEntry) :
    (Dec.token ⟨.chars c :: r, .elem p :: s, false⟩) = (.ok (.chars c), ⟨r, .elem p :: s, false⟩) := rfl

theorem tok_other (r : List Tok) (p : QName) (s : List StkEntry) :
    (Dec.token ⟨.other :: r, .elem p :: s, false⟩) = (.ok .other, ⟨r, .elem p :: s, false⟩) := rfl

theorem tok_mark (r : List Tok) (s : List StkEntry) :
    (Dec.token ⟨r, .mark :: s, false⟩) = (.error .eof, ⟨r, .mark :: s, false⟩) := rfl

/-! ## Skipping -/

mutual
theorem skipN_node (n : Node) (f m : Nat) (rest : List Tok) (p : QName) (s : List StkEntry)
    (hf : n.toks.length + rest.length < f) :
    skipN f m ⟨n.toks ++ rest, .elem p :: s, false⟩ =
      skipN (rest.length + 1) m ⟨rest, .elem p :: s, false⟩ := by
  match n with
  | .elem q as kids =>
    cases f with
    | zero => simp at hf
    | succ f =>
      simp only [toks_elem, List.cons_append, List.length_cons, List.length_append, List.length_nil,
        List.append_assoc, List.nil_append] at hf ⊢
      rw [skipN, tok_start]
      simp only
      rw [skipN_nodes kids f (m + 1) (.stop q :: rest) q _ (by simp; omega)]
      simp only [List.length_cons]
      rw [skipN, tok_stop]
  | .text c =>
    cases f with
    | zero => simp at hf
    | succ f =>
      simp only [toks_text, List.cons_append, List.length_cons, List.length_nil,
        List.nil_append] at hf ⊢
      rw [skipN, tok_chars]
      exact skipN_fuel _ _ _ _ (by simp; omega) (by simp)
  | .other =>
    cases f with
    | zero => simp at hf
    | succ f =>
      simp only [toks_other, List.cons_append, List.length_cons, List.length_nil,
        List.nil_append] at hf ⊢
      rw [skipN, tok_other]
      exact skipN_fuel _ _ _ _ (by simp; omega) (by simp)
theorem skipN_nodes (ns : List Node) (f m : Nat) (rest : List Tok) (p : QName) (s : List StkEntry)
    (hf : (toksL ns).length + rest.length < f) :
    skipN f m ⟨toksL ns ++ rest, .elem p :: s, false⟩ =
      skipN (rest.length + 1) m ⟨rest, .elem p :: s, false⟩ := by
  match ns with
  | [] =>
    simp only [toksL_nil, List.nil_append, List.length_nil] at hf ⊢
    exact skipN_fuel _ _ _ _ (by simp; omega) (by simp)
  | n :: ns =>
    simp only [toksL_cons, List.length_append, List.append_assoc] at hf ⊢
    rw [skipN_node n f m (toksL ns ++ rest) p s (by simp; omega)]
    rw [skipN_nodes ns _ m rest p s (by simp)]
end

/-- `Skip` after a start tag reads the whole element. -/
theorem skip_kids (ks : List Node) (q : QName) (rest : List Tok) (s : List StkEntry) :
    Dec.skip ⟨toksL ks ++ .stop q :: rest, .elem q :: s, false⟩ = (none, ⟨rest, s, false⟩) := by
  unfold Dec.skip
  rw [skipN_nodes ks _ 0 (.stop q :: rest) q s (by simp)]
  simp only [List.length_cons]
  rw [skipN, tok_stop]

/-! ## The loop -/

section
variable {σ α : Type} {step : σ → String → List Attr → Dec → Out σ} {chars : σ → String → σ}
  {k : Nat} {s s' s'' : σ} {ks ks' : List Node}

theorem TakesC.nil : TakesC step chars s [] s := by intro q rest stk; simp

theorem TakesC.nil' (h : s = s') : TakesC step chars s [] s' := h ▸ TakesC.nil

theorem TakesC.append (h1 : TakesC step chars s ks s') (h2 : TakesC step chars s' ks' s'') :
    TakesC step chars s (ks ++ ks') s'' := by
  intro q rest stk
  rw [toksL_append, List.append_assoc, h1 q (toksL ks' ++ rest) stk, h2]

theorem TakesC.cons {n : Node} (h1 : TakesC step chars s [n] s') (h2 : TakesC step chars s' ks' s'') :
    TakesC step chars s (n :: ks') s'' := TakesC.append (ks := [n]) h1 h2

/-- The end of the loop -/
theorem loopC_end (hg : StepGood k step) (s : σ) (q : QName) (rest : List Tok) (stk : List StkEntry) :
    loopC step chars s ⟨.stop q :: rest, .elem q :: .mark :: stk, false⟩ =
      ⟨s, none, ⟨rest, .mark :: stk, false⟩⟩ := by
  rw [loopC_eq hg, tok_stop]
  simp only
  rw [loopC_eq hg, tok_mark]

theorem decodes_loopC (hg : StepGood k step) (h : TakesC step chars s ks s') :
    Decodes (loopC step chars s) ks s' := by
  intro q rest stk
  simp only [decodeElement, Dec.pushEOF, pushMark]
  rw [h q, loopC_end hg]
  rfl

theorem decodes_loop (hg : StepGood k step) (h : Takes step s ks s') :
    Decodes (loop step s) ks s' := decodes_loopC hg h

theorem takes_text (hg : StepGood k step) (c : String) (h : chars s c = s') :
    TakesC step chars s [.text c] s' := by
  intro q rest stk
  rw [loopC_eq hg]
  simp only [toksL_cons, toksL_nil, toks_text, List.append_nil, List.cons_append, List.nil_append,
    tok_chars, h]

theorem takes_other (hg : StepGood k step) : TakesC step chars s [.other] s := by
  intro q rest stk
  rw [loopC_eq hg]
  simp only [toksL_cons, toksL_nil, toks_other, List.append_nil, List.cons_append, List.nil_append,
    tok_other]

/-- One step, whatever kind it is -/
theorem takes_elem (hg : StepGood k step) {q : QName} {as : List Attr} {kids : List Node}
    (h : ∀ rest stk, step s q.loc as ⟨toksL kids ++ .stop q :: rest, .elem q :: stk, false⟩ =
      ⟨s', none, ⟨rest, stk, false⟩⟩) : TakesC step chars s [.elem q as kids] s' := by
  intro p rest stk
  rw [loopC_eq hg]
  simp only [toksL_cons, toksL_nil, toks_elem, List.append_nil, List.cons_append, List.nil_append,
    List.append_assoc, tok_start, h]

theorem takes_sub (hg : StepGood k step) {n : Node} {q : QName} {as : List Attr} {kids : List Node}
    {u : Dec → Out α} {v : α} (hn : n = .elem q as kids) (hd : Decodes u kids v) (f : α → σ)
    (hs : step s q.loc as = sub u f) (hf : f v = s') :
    TakesC step chars s [n] s' := by
  subst hn
  apply takes_elem hg
  intro rest stk
  rw [hs, sub, hd q rest stk, hf]
  rfl

theorem takes_skip (hg : StepGood k step) {n : Node} {q : QName} {as : List Attr} {kids : List Node}
    (hn : n = .elem q as kids) (hs : step s q.loc as = skipTo s') :
    TakesC step chars s [n] s' := by
  subst hn
  apply takes_elem hg
  intro rest stk
  rw [hs, skipTo, skip_kids]

theorem takes_flat (hg : StepGood k step) {n : Node} {q : QName} {as : List Attr} {kids : List Node}
    (hn : n = .elem q as kids) (hs : ∀ d, step s q.loc as d = ⟨s', none, d⟩)
    (hk : TakesC step chars s' kids s'') : TakesC step chars s [n] s'' := by
  subst hn
  intro p rest stk
  rw [loopC_eq hg]
  simp only [toksL_cons, toksL_nil, toks_elem, List.append_nil, List.cons_append, List.nil_append,
    List.append_assoc, tok_start, hs]
  rw [hk q]
  rw [loopC_eq hg, tok_stop]

/-- A pointer field -/
theorem takes_optN {β : Type} {f : β → Node} (o : Option β) (set : Option β → σ)
    (h : ∀ v, TakesC step chars (set none) [f v] (set (some v))) :
    TakesC step chars (set none) (optN f o) (set o) := by
  cases o with
  | none => exact TakesC.nil
  | some v => exact h v

theorem takes_flagN (hg : StepGood k step) (b : Bool) {pre loc : String} (set : Bool → σ)
    (h : ∀ d, step (set false) loc [] d = ⟨set true, none, d⟩) :
    TakesC step chars (set false) (flagN b pre loc) (set b) := by
  cases b with
  | false => exact TakesC.nil
  | true => exact takes_flat hg rfl h TakesC.nil

theorem takes_flagS (hg : StepGood k step) (b : Bool) {pre loc : String} (set : Bool → σ)
    (h : step (set false) loc [] = skipTo (set true)) :
    TakesC step chars (set false) (flagN b pre loc) (set b) := by
  cases b with
  | false => exact TakesC.nil
  | true => exact takes_skip hg rfl h

theorem takes_valN (hg : StepGood k step) (o : Option String) {loc : String} (set : Option String → σ)
    (h : ∀ as d, step (set none) loc as d = ⟨set (some (getAtt as "val")), none, d⟩) :
    TakesC step chars (set none) (valN loc o) (set o) := by
  cases o with
  | none => exact TakesC.nil
  | some v => exact takes_flat hg rfl (h _) TakesC.nil

theorem takes_valS (hg : StepGood k step) (o : Option String) {loc : String} (set : Option String → σ)
    (h : ∀ as, step (set none) loc as = skipTo (set (some (getAtt as "val")))) :
    TakesC step chars (set none) (valN loc o) (set o) := by
  cases o with
  | none => exact TakesC.nil
  | some v => exact takes_skip hg rfl (h _)

theorem takes_valO (hg : StepGood k step) (o : Option String) {loc : String} (set : Option String → σ)
    (h : ∀ as d, step (set none) loc as d = ⟨set (some (getAtt as "val")), none, d⟩) :
    TakesC step chars (set none) (valO loc o) (set o) := by
  cases o with
  | none => exact TakesC.nil
  | some v =>
    refine takes_flat hg rfl (h _) (TakesC.nil' ?_)
    unfold strO
    split
    · next e => rw [e]; rfl
    · rfl

/-- A list of children, each appended to a list in the state -/
theorem takes_list {β γ : Type} {f : β → Node} {g : β → List γ} (xs : List β) (pre : List γ)
    (set : List γ → σ)
    (h : ∀ x ∈ xs, ∀ ys, TakesC step chars (set ys) [f x] (set (ys ++ g x))) :
    TakesC step chars (set pre) (xs.map f) (set (pre ++ xs.flatMap g)) := by
  induction xs generalizing pre with
  | nil => exact TakesC.nil' (by simp)
  | cons x xs ih =>
    refine TakesC.cons (h x (List.mem_cons_self ..) pre) ?_
    have := ih (pre ++ g x) (fun y hy => h y (List.mem_cons_of_mem _ hy))
    simpa using this

end

theorem decodes_leaf {σ : Type} {f : σ → String → String → σ × Option Err} {s s' : σ}
    {as : List Attr} (h : attrs f s as = (s', none)) : Decodes (leaf f s as) [] s' := by
  intro q rest stk
  simp only [decodeElement, Dec.pushEOF, pushMark, leaf, h, toksL_nil, List.nil_append, tok_stop]
  rfl

theorem decodes_withAttrs {σ : Type} {f : σ → String → String → σ × Option Err}
    {b : σ → Dec → Out σ} {s s' : σ} {as : List Attr} {ks : List Node} {v : σ}
    (h : attrs f s as = (s', none)) (hb : Decodes (b s') ks v) :
    Decodes (withAttrs f b s as) ks v := by
  intro q rest stk
  have := hb q rest stk
  simp only [decodeElement, withAttrs, h] at this ⊢
  exact this

/-! ## Attributes -/

/-- The attribute loop goes from `s` to `s'` while reading `as`. -/
abbrev AttrTakes {σ : Type} (f : σ → String → String → σ × Option Err) (s : σ) (as : List Attr)
    (s' : σ) : Prop := attrs f s as = (s', none)

section
variable {σ : Type} {f : σ → String → String → σ × Option Err} {s s' s'' : σ}

theorem AttrTakes.append {as bs : List Attr} (h1 : AttrTakes f s as s') (h2 : AttrTakes f s' bs s'') :
    AttrTakes f s (as ++ bs) s'' := by
  induction as generalizing s with
  | nil => simp [AttrTakes, attrs] at h1; subst h1; exact h2
  | cons a as ih =>
    simp only [AttrTakes, attrs, List.cons_append] at h1 ⊢
    split at h1
    · next s1 h => exact ih h1
    · simp at h1

theorem at_one {a : Attr} (h : f s a.name.loc a.val = (s', none)) : AttrTakes f s [a] s' := by
  simp [AttrTakes, attrs, h]

theorem at_strA {pre loc v : String} (h : f s loc v = (s', none)) :
    AttrTakes f s (strA pre loc v) s' := at_one h

theorem at_strO {pre loc : String} (v : String) (set : String → σ)
    (h : f (set "") loc v = (set v, none)) : AttrTakes f (set "") (strO pre loc v) (set v) := by
  unfold strO
  split
  · next e => subst e; rfl
  · exact at_one h

theorem itoa_ne_empty (n : Int64) : itoa n ≠ "" := by
  intro h
  have h1 := atoi_itoa n
  rw [h] at h1
  simp [atoi?, parseDigits?] at h1

variable [GoEnv]

theorem getInt_itoa (n : Int64) : getInt (itoa n) = (n, none) := by
  simp [getInt, atoi_itoa]

theorem at_intA {pre loc : String} (n : Int64) {set : Int64 → σ}
    (h : f s loc (itoa n) = intAttr (itoa n) set) : AttrTakes f s (intA pre loc n) (set n) := by
  apply at_one
  rw [h, intAttr, getInt_itoa]

theorem at_intAL {pre loc : String} (n : Int64) {set : Int64 → σ}
    (h : f s loc (itoa n) = intAttrLoose (itoa n) set) : AttrTakes f s (intA pre loc n) (set n) := by
  apply at_one
  rw [h, intAttrLoose, getInt_itoa]

omit [GoEnv] in
theorem at_intAA {pre loc : String} (n : Int64) {set : Int64 → σ}
    (h : f s loc (itoa n) = atoiAttr (itoa n) set) : AttrTakes f s (intA pre loc n) (set n) := by
  apply at_one
  rw [h, atoiAttr, atoi_itoa]

theorem at_intO {pre loc : String} (n : Int64) (set : Int64 → σ)
    (h : f (set 0) loc (itoa n) = intAttr (itoa n) set) :
    AttrTakes f (set 0) (intO pre loc n) (set n) := by
  unfold intO
  split
  · next e => subst e; rfl
  · exact at_intA (pre := pre) n h

theorem at_intON {pre loc : String} (n : Int64) (set : Int64 → σ)
    (h : f (set 0) loc (itoa n) = intAttrNE (set 0) (itoa n) set) :
    AttrTakes f (set 0) (intO pre loc n) (set n) := by
  unfold intO
  split
  · next e => subst e; rfl
  · refine at_intA (pre := pre) n (set := set) ?_
    rw [h, intAttrNE, if_neg (itoa_ne_empty n)]

end

theorem getAtt_self (q : QName) (v : String) (as : List Attr) : getAtt (⟨q, v⟩ :: as) q.loc = v := by
  simp [getAtt]

variable [GoEnv]

theorem takes_valI {σ : Type} {step : σ → String → List Attr → Dec → Out σ}
    {chars : σ → String → σ} {k : Nat} (hg : StepGood k step) (o : Option Int64)
    {loc : String} (set : Option Int64 → σ) {s0 : σ}
    (h : ∀ as, step (set none) loc as = flatInt s0 (getAtt as "val") fun n => set (some n)) :
    TakesC step chars (set none) (valI loc o) (set o) := by
  cases o with
  | none => exact TakesC.nil
  | some v =>
    refine takes_flat hg rfl (fun d => ?_) TakesC.nil
    rw [h]
    have : getAtt (intA "w" "val" v) "val" = itoa v := rfl
    rw [this, flatInt, if_neg (itoa_ne_empty v), getInt_itoa]

end Docx
