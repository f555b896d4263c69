import Verif.Lemmas.CutBase
import Verif.Pack

/-!
# Reading the table of relationships depends only on the tokens that were read
-/

namespace Docx

theorem unRelsN_loc : ∀ (f : Nat) (s : List Rel) (d : Dec), (unRelsN f s d).err = none →
    ∃ c q, d.rest = c ++ [.stop q] ++ (unRelsN f s d).dec.rest ∧
      ∀ r' g, (c ++ [Tok.stop q] ++ r').length < g →
        (unRelsN g s ⟨c ++ [.stop q] ++ r', d.stk, false⟩).val = (unRelsN f s d).val ∧
        (unRelsN g s ⟨c ++ [.stop q] ++ r', d.stk, false⟩).err = none ∧
        (unRelsN g s ⟨c ++ [.stop q] ++ r', d.stk, false⟩).dec.rest = r' := by
  intro f
  induction f with
  | zero => intro s d h; simp [unRelsN] at h
  | succ f ih =>
    intro s d h
    rcases ht : d.token with ⟨r, d1⟩
    cases r with
    | error e => simp [unRelsN, ht] at h
    | ok t =>
      obtain ⟨t1, _, t3, t4, t5⟩ := token_loc ht
      have go : ∀ (s' : List Rel) (d2 : Dec) (c0 : List Tok), unRelsN (f + 1) s d = unRelsN f s' d2 →
          d.rest = t :: c0 ++ d2.rest →
          (∀ g r', unRelsN (g + 1) s ⟨t :: c0 ++ r', d.stk, false⟩ = unRelsN g s' ⟨r', d2.stk, false⟩) →
          ∃ c q, d.rest = c ++ [.stop q] ++ (unRelsN (f + 1) s d).dec.rest ∧
          ∀ r' g, (c ++ [Tok.stop q] ++ r').length < g →
            (unRelsN g s ⟨c ++ [.stop q] ++ r', d.stk, false⟩).val = (unRelsN (f + 1) s d).val ∧
            (unRelsN g s ⟨c ++ [.stop q] ++ r', d.stk, false⟩).err = none ∧
            (unRelsN g s ⟨c ++ [.stop q] ++ r', d.stk, false⟩).dec.rest = r' := by
        intro s' d2 c0 he hr hg
        rw [he] at h ⊢
        obtain ⟨c, q, c1, c2⟩ := ih s' d2 h
        refine ⟨t :: c0 ++ c, q, by rw [hr, c1]; simp, fun r' g hl => ?_⟩
        cases g with
        | zero => omega
        | succ g =>
          have e : t :: c0 ++ c ++ [Tok.stop q] ++ r' = t :: c0 ++ (c ++ [Tok.stop q] ++ r') := by simp
          rw [e, hg]
          exact c2 r' g (by
            simp only [List.cons_append, List.length_cons, List.length_append] at hl ⊢; omega)
      cases t with
      | start q as =>
        by_cases hq : q.loc = "Relationship"
        · rcases hu : unRel as d1 with ⟨v, e, d2⟩
          cases e with
          | some e => simp [unRelsN, ht, hq, hu] at h
          | none =>
            have hx : (reflTextN (d1.rest.length + 1) "" d1).err = none := by
              have := congrArg Out.err hu
              exact this
            obtain ⟨c, c1, c2, c3, c4⟩ := reflTextN_loc _ _ _ hx
            have hd : (reflTextN (d1.rest.length + 1) "" d1).dec = d2 := congrArg Out.dec hu
            have hv : as.foldl relAttr ⟨"", "", "", ""⟩ = v := congrArg Out.val hu
            rw [hd] at c1 c4
            refine go (s ++ [v]) d2 c (by simp [unRelsN, ht, hq, hu]) (by rw [t1, c1]; rfl) fun g r' => ?_
            have := c4 r' ((c ++ r').length + 1) (Nat.lt_succ_self _)
            rw [List.cons_append]
            simp only [unRelsN, t5, hq, if_true, unRel, this, hv]
        · rcases hs : d1.skip with ⟨e, d2⟩
          cases e with
          | some e => simp [unRelsN, ht, hq, hs] at h
          | none =>
            obtain ⟨c, c1, c2, c3, c4⟩ := skip_loc hs
            refine go s d2 c (by simp [unRelsN, ht, hq, hs]) (by rw [t1, c1]; rfl) fun g r' => ?_
            rw [List.cons_append]
            simp [unRelsN, t5, c4, hq]
      | chars x =>
        exact go s d1 [] (by simp [unRelsN, ht]) t1 fun g r' => by simp [unRelsN, t5]
      | other =>
        exact go s d1 [] (by simp [unRelsN, ht]) t1 fun g r' => by simp [unRelsN, t5]
      | bad =>
        exact go s d1 [] (by simp [unRelsN, ht]) t1 fun g r' => by simp [unRelsN, t5]
      | stop q =>
        have he : unRelsN (f + 1) s d = ⟨s, none, d1⟩ := by simp [unRelsN, ht]
        rw [he]
        refine ⟨[], q, by rw [t1]; rfl, fun r' g hl => ?_⟩
        cases g with
        | zero => omega
        | succ g => simp [unRelsN, t5]

theorem decodeRels_local (x : String) (s : List Rel) (toks : List Tok) (h : (decodeRels x s toks).err = none) :
    ∃ c q, toks = c ++ [.stop q] ++ (decodeRels x s toks).dec.rest ∧
      ∀ r', (decodeRels x s (c ++ [.stop q] ++ r')).val = (decodeRels x s toks).val ∧
        (decodeRels x s (c ++ [.stop q] ++ r')).err = none ∧
        (decodeRels x s (c ++ [.stop q] ++ r')).dec.rest = r' := by
  unfold decodeRels at h ⊢
  generalize hu : (fun (as : List Attr) (d : Dec) =>
    let o := unRelsN (d.rest.length + 1) s d
    (⟨(relsXmlns x as, o.val), o.err, o.dec⟩ : Out (String × List Rel))) = u at h ⊢
  have key : ∀ (f : Nat) (ts : List Tok), ts.length < f →
      (rootN u (x, s) f ⟨ts, [], false⟩).err = none →
      ∃ c q, ts = c ++ [.stop q] ++ (rootN u (x, s) f ⟨ts, [], false⟩).dec.rest ∧
        ∀ r' g, (c ++ [Tok.stop q] ++ r').length < g →
          (rootN u (x, s) g ⟨c ++ [.stop q] ++ r', [], false⟩).val = (rootN u (x, s) f ⟨ts, [], false⟩).val ∧
          (rootN u (x, s) g ⟨c ++ [.stop q] ++ r', [], false⟩).err = none ∧
          (rootN u (x, s) g ⟨c ++ [.stop q] ++ r', [], false⟩).dec.rest = r' := by
    intro f
    induction f with
    | zero => intro ts hl; omega
    | succ f ih =>
      intro ts hl
      cases ts with
      | nil => intro h; simp [rootN, Dec.token] at h
      | cons t ts =>
        simp only [List.length_cons] at hl
        have next : (∀ f ts, rootN u (x, s) (f + 1) ⟨t :: ts, [], false⟩ = rootN u (x, s) f ⟨ts, [], false⟩) →
            (rootN u (x, s) (f + 1) ⟨t :: ts, [], false⟩).err = none →
            ∃ c q, t :: ts = c ++ [.stop q] ++ (rootN u (x, s) (f + 1) ⟨t :: ts, [], false⟩).dec.rest ∧
            ∀ r' g, (c ++ [Tok.stop q] ++ r').length < g →
              (rootN u (x, s) g ⟨c ++ [.stop q] ++ r', [], false⟩).val =
                (rootN u (x, s) (f + 1) ⟨t :: ts, [], false⟩).val ∧
              (rootN u (x, s) g ⟨c ++ [.stop q] ++ r', [], false⟩).err = none ∧
              (rootN u (x, s) g ⟨c ++ [.stop q] ++ r', [], false⟩).dec.rest = r' := by
          intro hs h
          rw [hs] at h ⊢
          obtain ⟨c, q, c1, c2⟩ := ih ts (by omega) h
          refine ⟨t :: c, q, by rw [List.cons_append, List.cons_append, ← c1], fun r' g hg => ?_⟩
          cases g with
          | zero => omega
          | succ g =>
            rw [List.cons_append, List.cons_append, hs]
            exact c2 r' g (by simp only [List.cons_append, List.length_cons] at hg; omega)
        cases t with
        | chars x => exact next fun _ _ => rfl
        | other => exact next fun _ _ => rfl
        | bad => intro h; simp [rootN, Dec.token] at h
        | stop q => intro h; simp [rootN, Dec.token] at h
        | start q as =>
          have e1 : ∀ f ts, rootN u (x, s) (f + 1) ⟨.start q as :: ts, [], false⟩ =
              u as ⟨ts, [.elem q], false⟩ := fun _ _ => rfl
          rw [e1]
          intro h
          subst hu
          simp only at h ⊢
          obtain ⟨c, q', c1, c2⟩ := unRelsN_loc _ _ _ h
          refine ⟨.start q as :: c, q', by simp only at c1; rw [List.cons_append, List.cons_append, ← c1], fun r' g hg => ?_⟩
          cases g with
          | zero => omega
          | succ g =>
            rw [List.cons_append, List.cons_append, e1]
            simp only
            obtain ⟨x1, x2, x3⟩ := c2 r' _ (Nat.lt_succ_self _)
            exact ⟨by rw [x1], x2, x3⟩
  obtain ⟨c, q, c1, c2⟩ := key _ _ (Nat.lt_succ_self _) h
  exact ⟨c, q, c1, fun r' => c2 r' _ (Nat.lt_succ_self _)⟩

end Docx
