import Verif.Lemmas.XmlOutline
import Verif.SpecFormat

/-!
# Tokens in a context
-/

namespace Docx

set_option linter.unusedSectionVars false

variable [GoEnv]

omit [GoEnv] in
theorem firstAttr_eq (n : String) : ∀ as : List Attr, firstAttr n as = getAtt as n
  | [] => rfl
  | a :: as => by
    have ih := firstAttr_eq n as
    unfold firstAttr at ih ⊢
    rw [getAtt, List.find?_cons]
    by_cases h : a.name.loc = n
    · simp [h]
    · rw [beq_false_of_ne h, if_neg h]
      exact ih

section
variable (rest : List Tok) (stk : List StkEntry)

theorem tokC_nil : (inCtx [] rest stk).token = (.error .eof, inCtx [] rest stk) := rfl

theorem tokC_stop (q : QName) (c : Ctx) :
    (inCtx (([], q) :: c) rest stk).token = (.ok (.stop q), inCtx c rest stk) := by
  simp only [inCtx, ctxToks, ctxStk, toksL_nil, List.nil_append, List.cons_append]
  exact tok_stop ..

theorem tokC_elem (p : QName) (as : List Attr) (kids ks : List Node) (q : QName) (c : Ctx) :
    (inCtx ((.elem p as kids :: ks, q) :: c) rest stk).token =
      (.ok (.start p as), inCtx ((kids, p) :: (ks, q) :: c) rest stk) := by
  simp only [inCtx, ctxToks, ctxStk, toksL_cons, toks_elem, List.cons_append, List.append_assoc,
    List.nil_append]
  rfl

theorem tokC_text (s : String) (ks : List Node) (q : QName) (c : Ctx) :
    (inCtx ((.text s :: ks, q) :: c) rest stk).token = (.ok (.chars s), inCtx ((ks, q) :: c) rest stk) := by
  simp only [inCtx, ctxToks, ctxStk, toksL_cons, toks_text, List.cons_append, List.append_assoc,
    List.nil_append]
  rfl

theorem tokC_other (ks : List Node) (q : QName) (c : Ctx) :
    (inCtx ((.other :: ks, q) :: c) rest stk).token = (.ok .other, inCtx ((ks, q) :: c) rest stk) := by
  simp only [inCtx, ctxToks, ctxStk, toksL_cons, toks_other, List.cons_append, List.append_assoc,
    List.nil_append]
  rfl

theorem skipC (ks : List Node) (q : QName) (c : Ctx) :
    (inCtx ((ks, q) :: c) rest stk).skip = (none, inCtx c rest stk) := by
  rw [inCtx_cons, skip_kids]
  rfl

end

theorem OkCtx.head {x : List Node × QName} {c : Ctx} (h : OkCtx (x :: c)) : numsOkL x.1 :=
  h x (List.mem_cons_self ..)

/-- The decoder used by `decodeElement` for the whole element -/
theorem decodeC {α : Type} {u : Dec → Out α} (hu : F u) {kids : List Node} {q : QName} {c : Ctx}
    {rest : List Tok} {stk : List StkEntry} (hk : numsOkL kids)
    (h : (decodeElement u (inCtx ((kids, q) :: c) rest stk)).err = none) :
    (decodeElement u (inCtx ((kids, q) :: c) rest stk)).dec = inCtx c rest stk ∧
    (u (inCtx [(kids, q)] (ctxToks c ++ rest) (ctxStk c ++ .mark :: stk))).err = none ∧
    (decodeElement u (inCtx ((kids, q) :: c) rest stk)).val =
      (u (inCtx [(kids, q)] (ctxToks c ++ rest) (ctxStk c ++ .mark :: stk))).val := by
  rw [inCtx_cons] at h ⊢
  have h1 := (decodeElement_fine hu (q := q) hk (ctxToks c ++ rest) (ctxStk c ++ .mark :: stk)).1 h
  have h2 := decodeElement_parts h
  have he : (Dec.pushEOF ⟨toksL kids ++ .stop q :: (ctxToks c ++ rest),
      .elem q :: (ctxStk c ++ .mark :: stk), false⟩) =
      inCtx [(kids, q)] (ctxToks c ++ rest) (ctxStk c ++ .mark :: stk) := by
    simp [Dec.pushEOF, pushMark, inCtx, ctxToks, ctxStk]
  rw [he] at h2
  exact ⟨h1, h2.1, h2.2⟩

theorem tolerate_ok {e : Option Err} (h1 : e ≠ some .expected) (h2 : tolerate e = none) : e = none := by
  unfold tolerate at h2
  split at h2
  · exact absurd rfl h1
  · exact h2

theorem inCtx_one (kids : List Node) (q : QName) (rest : List Tok) (stk : List StkEntry) :
    inCtx [(kids, q)] rest stk = ⟨toksL kids ++ .stop q :: rest, .elem q :: .mark :: stk, false⟩ := by
  simp [inCtx, ctxToks, ctxStk]

end Docx
