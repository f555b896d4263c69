import Verif.Lemmas.XmlRec

/-!
# Parsing terminates (C40)

The loops of the `UnmarshalXML` methods have no bound, and neither has their recursion.  The model
gives both a bound and reports the error `fuel` if it is reached.  The theorems say that this error
never comes, and that no larger bound changes anything: the bounds are not visible.
-/

namespace Docx

variable [GoEnv]

/-- Decoding with `n` turns for the outermost loop and `n` levels of recursion -/
def decodeWithin (n : Nat) (file : Option DocId) (s : List BItem) (toks : List Tok) :
    Out (List BItem) :=
  rootN (fun _ => decodeElement (unDocument (decs n) file s)) s n ⟨toks, [], false⟩

/-- C40: decoding a document stops on every token stream, well formed or not. -/
theorem C40_decode_terminates (file : Option DocId) (s : List BItem) (toks : List Tok) :
    (decodeDocument file s toks).err ≠ some .fuel := by
  rw [decodeDocument_eq]
  apply rootN_good (k := toks.length) _ _ _ _ (Nat.lt_succ_self _) (Nat.lt_succ_self _)
  intro _
  exact good_decodeElement (unDocument_good (D_good _) file s)

omit [GoEnv] in
theorem rootN_more {α : Type} {u : List Attr → Dec → Out α} (s : α) :
    ∀ (f g : Nat) (d : Dec), d.rest.length < f → d.rest.length < g →
      rootN u s f d = rootN u s g d := by
  intro f
  induction f with
  | zero => intro g d h; omega
  | succ f ih =>
    intro g d hf hg
    cases g with
    | zero => omega
    | succ g =>
      simp only [rootN]
      rcases ht : d.token with ⟨t, d'⟩
      cases t with
      | error e => rfl
      | ok t =>
        have hd := token_ok ht
        cases t with
        | start q as => rfl
        | stop _ => exact ih g d' (by omega) (by omega)
        | chars _ => exact ih g d' (by omega) (by omega)
        | other => exact ih g d' (by omega) (by omega)
        | bad => exact ih g d' (by omega) (by omega)

/-- C40: the bounds do not matter; every larger bound on iterations and nesting gives the same
result. -/
theorem C40_bound_irrelevant (file : Option DocId) (s : List BItem) (toks : List Tok) (n : Nat)
    (h : toks.length < n) : decodeWithin n file s toks = decodeDocument file s toks := by
  have h1 : decodeWithin n file s toks =
      rootN (fun _ => decodeElement (unDocument D file s)) s n ⟨toks, [], false⟩ := by
    unfold decodeWithin
    apply rootN_agree (k := toks.length) _ _ _ _ (Nat.lt_succ_self _)
    intro _ d hd
    have := unDocument_agree (decs_D n) (decs_good _) file s d.pushEOF
      (by show d.rest.length < _; omega)
    simp only [decodeElement, this]
  rw [h1, decodeDocument_eq]
  exact rootN_more s n _ _ h (Nat.lt_succ_self _)

/-- C40: what is decoded has been read: what is left is the end of the input. -/
theorem C40_decode_consumes (file : Option DocId) (s : List BItem) (toks : List Tok) :
    (decodeDocument file s toks).dec.rest <:+ toks := by
  rw [decodeDocument_eq]
  have : ∀ (f : Nat) (d : Dec),
      (rootN (fun _ => decodeElement (unDocument D file s)) s f d).dec.rest <:+ d.rest := by
    intro f
    induction f with
    | zero => intro d; exact List.suffix_refl _
    | succ f ih =>
      intro d
      simp only [rootN]
      have hle := token_sfx d
      rcases ht : d.token with ⟨t, d'⟩
      rw [ht] at hle
      cases t with
      | error e => exact hle
      | ok t =>
        cases t with
        | start q as =>
          exact (good_decodeElement (unDocument_good (D_good 0) file s) d').1.trans hle
        | stop _ => exact (ih d').trans hle
        | chars _ => exact (ih d').trans hle
        | other => exact (ih d').trans hle
        | bad => exact (ih d').trans hle
  exact this _ _

private def q (s : String) : QName := ⟨"w", s⟩

/-- A well-formed document with one paragraph -/
example : (decodeDocument (some 0) []
    [.start (q "document") [], .start (q "body") [], .start (q "p") [], .start (q "r") [],
      .start (q "t") [], .chars "hi", .stop (q "t"), .stop (q "r"), .stop (q "p"),
      .stop (q "body"), .stop (q "document")]).err = none := by rfl

/-- A truncated one is an error, not a loop -/
example : (decodeDocument (some 0) [] [.start (q "document") [], .start (q "body") [],
    .start (q "p") []]).err = some .syntax := by rfl

end Docx
