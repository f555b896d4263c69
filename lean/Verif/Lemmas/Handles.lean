import Verif.SpecHandles

/-!
# The functions with a record of files give the results of those without
-/

set_option linter.unusedSectionVars false

namespace Docx

variable [GoEnv]

theorem parseRelsT_fst (f : Doc) (e : Entry) : (f.parseRelsT e).1 = f.parseRels e := by
  unfold Doc.parseRelsT
  split
  · rename_i x h; simp [Doc.parseRels, h]
  · rfl

theorem parseDocumentT_fst (f : Doc) (me : DocId) (e : Entry) : (f.parseDocumentT me e).1 = f.parseDocument me e := by
  unfold Doc.parseDocumentT
  split
  · rename_i x h; simp [Doc.parseDocument, h]
  · rfl

theorem parseMediaT_fst (f : Doc) (n : String) (e : Entry) : (f.parseMediaT n e).1 = f.parseMedia n e := by
  unfold Doc.parseMediaT Doc.parseMedia
  cases e.file with
  | error x => rfl
  | ok s => cases h : s.err <;> simp [h]

theorem unpackEntryT_fst (f : Doc) (me : DocId) (e : Entry) : (f.unpackEntryT me e).1 = f.unpackEntry me e := by
  unfold Doc.unpackEntryT Doc.unpackEntry
  split
  · exact parseRelsT_fst f e
  · split
    · exact parseDocumentT_fst f me e
    · cases afterMedia e.name with
      | none => rfl
      | some n => exact parseMediaT_fst f n e

theorem unpackAllT_fst (me : DocId) : ∀ (es : List Entry) (f : Doc), (f.unpackAllT me es).1 = f.unpackAll me es
  | [], _ => rfl
  | e :: es, f => by
    have h := unpackEntryT_fst f me e
    unfold Doc.unpackAllT Doc.unpackAll
    rw [← h]
    rcases f.unpackEntryT me e with ⟨⟨f', _ | x⟩, t⟩
    · exact unpackAllT_fst me es f'
    · rfl

theorem unpackT_fst (me : DocId) (a : Archive) : (unpackT me a).1 = unpack me a := by
  unfold unpackT unpack
  rw [← unpackAllT_fst]
  rcases Doc.unpackAllT _ me a with ⟨⟨f', _ | x⟩, t⟩ <;> rfl

theorem openTmplT_fst (f : Doc) : ∀ (ns : List String) (m : List (String × Stream)), (f.openTmplT m ns).1 = f.openTmpl m ns
  | [], _ => rfl
  | n :: ns, m => by
    unfold Doc.openTmplT Doc.openTmpl
    cases f.tmplfs with
    | none => rfl
    | some fs =>
      cases h : fs (f.tmplPath n) with
      | error e => simp [h]
      | ok s => simp only [h]; exact openTmplT_fst f ns _

theorem filesT_fst (f : Doc) : f.filesT.1 = f.files := by
  unfold Doc.filesT Doc.files
  rw [← openTmplT_fst]
  rcases f.openTmplT [] f.tmpfslst with ⟨_ | _ | _, t⟩ <;> rfl

/-! ## Files left open -/

theorem openAfter_append (b : List String) : ∀ (s t : List FileEv), openAfter b (s ++ t) = openAfter (openAfter b s) t := by
  intro s
  induction s generalizing b with
  | nil => intro t; rfl
  | cons e s ih => intro t; cases e <;> exact ih _ t

theorem openAfter_opened (b : List String) : ∀ ns : List String, openAfter b (ns.map .opened) = b ++ ns := by
  intro ns
  induction ns generalizing b with
  | nil => simp [openAfter]
  | cons n ns ih => simp [openAfter, ih]

theorem openClose (n : String) : openAfter [] [.opened n, .closed n] = [] := by
  simp [openAfter]

/-- One entry: nothing is left open, but for a media file that cannot be read -/
theorem unpackEntryT_open (f : Doc) (me : DocId) (e : Entry) :
    openAfter [] (f.unpackEntryT me e).2 = [] ∨
      ((∃ n, afterMedia e.name = some n) ∧ (∃ s x, e.file = .ok s ∧ s.err = some x ∧ (f.unpackEntryT me e).1.2 = some x) ∧
        openAfter [] (f.unpackEntryT me e).2 = [e.name]) := by
  unfold Doc.unpackEntryT
  split
  · left; unfold Doc.parseRelsT; split
    · rfl
    · exact openClose _
  · split
    · left; unfold Doc.parseDocumentT; split
      · rfl
      · exact openClose _
    · cases hn : afterMedia e.name with
      | none => exact .inl rfl
      | some n =>
        simp only [Doc.parseMediaT]
        cases hf : e.file with
        | error x => exact .inl rfl
        | ok s =>
          cases hs : s.err with
          | none => left; simp only [hs]; exact openClose _
          | some x => right; simp only [hs]; exact ⟨⟨n, rfl⟩, ⟨s, x, rfl, hs, rfl⟩, rfl⟩

theorem unpackAllT_open (me : DocId) : ∀ (es : List Entry) (f : Doc),
    openAfter [] (f.unpackAllT me es).2 = [] ∨
      ∃ e ∈ es, (∃ n, afterMedia e.name = some n) ∧ (∃ s x, e.file = .ok s ∧ s.err = some x ∧ (f.unpackAllT me es).1.2 = some x) ∧
        openAfter [] (f.unpackAllT me es).2 = [e.name]
  | [], _ => .inl rfl
  | e :: es, f => by
    have h := unpackEntryT_open f me e
    unfold Doc.unpackAllT
    rcases hu : f.unpackEntryT me e with ⟨⟨f', _ | x⟩, t⟩
    · rw [hu] at h
      have h0 : openAfter [] t = [] := by
        rcases h with h | ⟨_, ⟨s, x, _, _, h⟩, _⟩
        · exact h
        · cases h
      simp only [openAfter_append, h0]
      rcases unpackAllT_open me es f' with h1 | ⟨e', he, h1⟩
      · exact .inl h1
      · exact .inr ⟨e', List.mem_cons_of_mem _ he, h1⟩
    · rw [hu] at h
      rcases h with h | h
      · exact .inl h
      · exact .inr ⟨e, List.mem_cons_self, h⟩

/-- Template files are opened in order, up to the first that cannot be opened -/
theorem openTmplT_snd (f : Doc) : ∀ (ns : List String) (m : List (String × Stream)),
    ∃ k, k ≤ ns.length ∧ (f.openTmplT m ns).2 = (ns.take k).map (fun n => .opened (f.tmplPath n)) ∧
      ((f.openTmplT m ns).1 = f.openTmpl m ns) ∧ (∀ m', (f.openTmplT m ns).1 = .ok m' → k = ns.length) ∧
      (∀ e, (f.openTmplT m ns).1 = .err e → ∃ n fs, ns[k]? = some n ∧ f.tmplfs = some fs ∧ fs (f.tmplPath n) = .error e)
  | [], m => ⟨0, Nat.le_refl _, rfl, rfl, fun _ _ => rfl, fun e h => by cases h⟩
  | n :: ns, m => by
    cases hf : f.tmplfs with
    | none => exact ⟨0, Nat.zero_le _, by simp [Doc.openTmplT, hf], openTmplT_fst f _ m,
        by simp [Doc.openTmplT, hf], by simp [Doc.openTmplT, hf]⟩
    | some fs =>
      cases h : fs (f.tmplPath n) with
      | error e =>
        refine ⟨0, Nat.zero_le _, by simp [Doc.openTmplT, hf, h], openTmplT_fst f _ m, by simp [Doc.openTmplT, hf, h], ?_⟩
        intro e' he
        simp only [Doc.openTmplT, hf, h, Res.err.injEq] at he
        subst he
        exact ⟨n, fs, rfl, rfl, h⟩
      | ok s =>
        obtain ⟨k, h1, h2, _, h4, h5⟩ := openTmplT_snd f ns (putFile m n s)
        refine ⟨k + 1, Nat.succ_le_succ h1, by simp [Doc.openTmplT, hf, h, h2], openTmplT_fst f _ m, ?_, ?_⟩
        · intro m' hm
          simp only [Doc.openTmplT, hf, h] at hm
          simp [h4 m' hm]
        · intro e he
          simp only [Doc.openTmplT, hf, h] at he
          rw [← hf]
          exact h5 e he

end Docx
