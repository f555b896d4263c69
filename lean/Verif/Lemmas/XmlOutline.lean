import Verif.Lemmas.XmlFineAll

/-!
# What is read of a document without bad numbers
-/

namespace Docx

set_option linter.unusedSectionVars false

variable [GoEnv]

/-- The result of a successful decoding of an element is related to its children. -/
def Reads {α : Type} (u : Dec → Out α) (R : List Node → α → Prop) : Prop :=
  ∀ q kids rest stk, numsOkL kids →
    (u ⟨toksL kids ++ .stop q :: rest, .elem q :: .mark :: stk, false⟩).err = none →
      R kids (u ⟨toksL kids ++ .stop q :: rest, .elem q :: .mark :: stk, false⟩).val

/-- A case of a loop that reads its element to the end and adds to a list -/
def XAdds {σ β : Type} (f : Dec → Out σ) (out : σ → List β) (s : σ) (q : QName) (kids : List Node)
    (bs : List β) : Prop :=
  ∀ rest stk, (f ⟨toksL kids ++ .stop q :: rest, .elem q :: stk, false⟩).err = none →
    out (f ⟨toksL kids ++ .stop q :: rest, .elem q :: stk, false⟩).val = out s ++ bs ∧
      (f ⟨toksL kids ++ .stop q :: rest, .elem q :: stk, false⟩).dec = ⟨rest, stk, false⟩

theorem decodeElement_parts {α : Type} {u : Dec → Out α} {d : Dec}
    (h : (decodeElement u d).err = none) :
    (u d.pushEOF).err = none ∧ (decodeElement u d).val = (u d.pushEOF).val := by
  unfold decodeElement at h ⊢
  rcases he : u d.pushEOF with ⟨v, _ | e, x⟩
  · rw [he] at h
    simp only at h ⊢
    rcases x.popEOF with ⟨_ | _, y⟩ <;> simp
  · rw [he] at h
    cases h

theorem adds_sub {α σ β : Type} {u : Dec → Out α} {f : α → σ} {out : σ → List β} {s : σ} {q : QName}
    {kids : List Node} {bs : List β} {R : List Node → α → Prop} (hu : F u) (hr : Reads u R)
    (hk : numsOkL kids) (hf : ∀ v, R kids v → out (f v) = out s ++ bs) :
    XAdds (sub u f) out s q kids bs := by
  intro rest stk
  have h := decodeElement_fine hu (q := q) hk rest stk
  have hp := decodeElement_parts (u := u) (d := ⟨toksL kids ++ .stop q :: rest, .elem q :: stk, false⟩)
  simp only [sub]
  generalize decodeElement u ⟨toksL kids ++ .stop q :: rest, .elem q :: stk, false⟩ = o at h hp
  rcases o with ⟨v, e, d⟩
  intro he
  have he' : e = none := by
    cases e with
    | none => rfl
    | some e => cases e <;> first
      | exact absurd rfl h.2
      | cases he
  subst he'
  obtain ⟨h3, h4⟩ := hp rfl
  refine ⟨hf v ?_, h.1 rfl⟩
  simp only at h4
  rw [h4]
  exact hr q kids rest stk hk h3

theorem adds_skip {σ β : Type} {out : σ → List β} (s : σ) (q : QName) (kids : List Node) :
    XAdds (skipTo s) out s q kids [] := by
  intro rest stk _
  simp [skipTo, skip_kids]

/-- A loop all of whose cases read their element to the end -/
theorem loop_reads {σ β : Type} {step : σ → String → List Attr → Dec → Out σ} (out : σ → List β)
    (of : Node → List β) (ht : ∀ x, of (.text x) = []) (ho : of .other = [])
    (hs : ∀ s q as kids, attrsOk q.loc as → numsOkL kids →
      XAdds (step s q.loc as) out s q kids (of (.elem q as kids))) (s : σ) :
    Reads (loop step s) fun kids v => out v = out s ++ kids.flatMap of := by
  have key : ∀ (f : Nat) (s : σ) (ks : List Node) (q : QName) (rest : List Tok) (stk : List StkEntry),
      numsOkL ks →
      (loopN step (fun s _ => s) f s ⟨toksL ks ++ .stop q :: rest, .elem q :: .mark :: stk, false⟩).err =
        none →
      out (loopN step (fun s _ => s) f s
        ⟨toksL ks ++ .stop q :: rest, .elem q :: .mark :: stk, false⟩).val = out s ++ ks.flatMap of := by
    intro f
    induction f with
    | zero => intro s ks q rest stk _ h; cases h
    | succ f ih =>
      intro s ks q rest stk hk h
      cases ks with
      | nil =>
        rw [toksL_nil, List.nil_append, loopN, tok_stop] at h ⊢
        simp only at h ⊢
        cases f with
        | zero => cases h
        | succ f =>
          rw [loopN, tok_mark]
          simp
      | cons n ks =>
        cases n with
        | elem p as kids =>
          rw [loopN] at h ⊢
          simp only [toksL_cons, toks_elem, List.cons_append, List.append_assoc, List.nil_append,
            tok_start] at h ⊢
          have hst := hs s p as kids hk.1.1 hk.1.2 (toksL ks ++ .stop q :: rest)
            (.elem q :: .mark :: stk)
          generalize step s p.loc as ⟨toksL kids ++ .stop p :: (toksL ks ++ .stop q :: rest),
            .elem p :: .elem q :: .mark :: stk, false⟩ = o at h hst
          rcases o with ⟨v, _ | e, d⟩
          · obtain ⟨h1, h2⟩ := hst rfl
            simp only at h1 h2 h ⊢
            subst h2
            rw [ih v ks q rest stk hk.2 h, h1, List.flatMap_cons, List.append_assoc]
          · cases h
        | text x =>
          rw [loopN] at h ⊢
          simp only [toksL_cons, toks_text, List.cons_append, List.nil_append, tok_chars] at h ⊢
          rw [ih s ks q rest stk hk.2 h, List.flatMap_cons, ht, List.nil_append]
        | other =>
          rw [loopN] at h ⊢
          simp only [toksL_cons, toks_other, List.cons_append, List.nil_append, tok_other] at h ⊢
          rw [ih s ks q rest stk hk.2 h, List.flatMap_cons, ho, List.nil_append]
  intro q kids rest stk hk h
  exact key _ s kids q rest stk hk h

variable {p : Decs}

theorem reads_any {α : Type} (u : Dec → Out α) : Reads u fun _ _ => True := fun _ _ _ _ _ _ => trivial

theorem unPara_reads (h : DecsFine p) (file : Option DocId) :
    Reads (unPara p file) fun kids v => paraOutline v = kids.flatMap xmlPKind := by
  have hl : Reads (loop (paraStep p file) { file := file }) fun kids v =>
      paraOutline v = paraOutline { file := file } ++ kids.flatMap xmlPKind := by
    refine loop_reads paraOutline xmlPKind (fun _ => rfl) rfl ?_ _
    intro s q as kids ha hk
    unfold paraStep
    generalize hl : q.loc = l at ha
    split
    · refine adds_sub (unLink_fine h) (reads_any _) hk ?_
      intro v _
      simp [paraOutline, xmlPKind, hl]
    · refine adds_sub (unRun_fine h _ _ _ runAttr_fine_r ha) (reads_any _) hk ?_
      intro v _
      simp [paraOutline, xmlPKind, hl]
    · refine adds_sub unRPr_fine (reads_any _) hk ?_
      intro v _
      simp [paraOutline, xmlPKind, hl]
    · refine adds_sub unPPr_fine (reads_any _) hk ?_
      intro v _
      simp [paraOutline, xmlPKind, hl]
    · rename_i h1 h2 h3 h4
      have : xmlPKind (.elem q as kids) = [] := by
        simp only [xmlPKind, hl]
        rw [if_neg h2, if_neg h1, if_neg h3]
      rw [this]
      exact adds_skip s q kids
  intro q kids rest stk hk he
  unfold unPara at he ⊢
  have := hl q kids rest stk hk
  generalize loop (paraStep p file) { file := file }
    ⟨toksL kids ++ .stop q :: rest, .elem q :: .mark :: stk, false⟩ = o at this he
  rcases o with ⟨v, _ | e, d⟩
  · have := this rfl
    simp only at this ⊢
    rw [this]
    rfl
  · cases he

theorem unCell_reads (h : DecsFine p) (file : Option DocId) :
    Reads (unCell p file) fun kids v => v.paras.map paraOutline = xmlParas kids := by
  have hl := loop_reads (step := cellStep p file) (fun c => c.paras.map paraOutline)
    (fun n => (childrenOf "p" n).map fun k => k.flatMap xmlPKind) (fun _ => rfl) rfl
    (by
      intro s q as kids ha hk
      unfold cellStep
      generalize hl : q.loc = l at ha
      split
      · refine adds_sub (unPara_fine h _) (unPara_reads h _) hk ?_
        intro v hv
        simp [childrenOf, hl, hv]
      · refine adds_sub unTcPr_fine (reads_any _) hk ?_
        intro v hv
        simp [childrenOf, hl]
      · rename_i h1 h2
        simp only [childrenOf, hl, if_neg h1, List.map_nil]
        exact adds_skip s q kids) { file := file }
  intro q kids rest stk hk he
  have := hl q kids rest stk hk he
  simp only [xmlParas, List.map_flatMap]
  exact this

theorem unRow_reads (h : DecsFine p) (file : Option DocId) :
    Reads (unRow p file) fun kids v =>
      (v.cells.map fun c => c.paras.map paraOutline) = (kids.flatMap (childrenOf "tc")).map xmlParas := by
  have hl := loop_reads (step := rowStep p file) (fun r => r.cells.map fun c => c.paras.map paraOutline)
    (fun n => (childrenOf "tc" n).map xmlParas) (fun _ => rfl) rfl
    (by
      intro s q as kids ha hk
      unfold rowStep
      generalize hl : q.loc = l at ha
      split
      · refine adds_sub unTrPr_fine (reads_any _) hk ?_
        intro v hv
        simp [childrenOf, hl]
      · refine adds_sub (unCell_fine h _) (unCell_reads h _) hk ?_
        intro v hv
        simp [childrenOf, hl, hv]
      · rename_i h1 h2
        simp only [childrenOf, hl, if_neg h2, List.map_nil]
        exact adds_skip s q kids) {}
  intro q kids rest stk hk he
  have := hl q kids rest stk hk he
  simp only [List.map_flatMap]
  exact this

theorem unTable_reads (h : DecsFine p) (file : Option DocId) :
    Reads (unTable p file) fun kids v =>
      (v.rows.map fun r => r.cells.map fun c => c.paras.map paraOutline) = xmlRows kids := by
  have hl := loop_reads (step := tableStep p file)
    (fun t => t.rows.map fun r => r.cells.map fun c => c.paras.map paraOutline)
    (fun n => (childrenOf "tr" n).map fun r => (r.flatMap (childrenOf "tc")).map xmlParas)
    (fun _ => rfl) rfl
    (by
      intro s q as kids ha hk
      unfold tableStep
      generalize hl : q.loc = l at ha
      split
      · refine adds_sub (unRow_fine h _) (unRow_reads h _) hk ?_
        intro v hv
        simp [childrenOf, hl, hv]
      · refine adds_sub unTblPr_fine (reads_any _) hk ?_
        intro v hv
        simp [childrenOf, hl]
      · refine adds_sub unGrid_fine (reads_any _) hk ?_
        intro v hv
        simp [childrenOf, hl]
      · rename_i h1 h2 h3
        simp only [childrenOf, hl, if_neg h1, List.map_nil]
        exact adds_skip s q kids) {}
  intro q kids rest stk hk he
  have := hl q kids rest stk hk he
  rw [xmlRows, List.map_flatMap]
  exact this

theorem unBody_reads (h : DecsFine p) (file : Option DocId) (s : List BItem) :
    Reads (unBody p file s) fun kids v => v.map itemOutline = s.map itemOutline ++ kids.flatMap xmlItem :=
  loop_reads (step := bodyStep p file) (fun v => v.map itemOutline) xmlItem (fun _ => rfl) rfl
    (by
      intro s q as kids ha hk
      unfold bodyStep
      generalize hl : q.loc = l at ha
      split
      · refine adds_sub (unPara_fine h _) (unPara_reads h _) hk ?_
        intro v hv
        simp [xmlItem, hl, hv, itemOutline]
      · refine adds_sub (unTable_fine h _) (unTable_reads h _) hk ?_
        intro v hv
        simp [xmlItem, hl, hv, itemOutline]
      · refine adds_sub unSect_fine (reads_any _) hk ?_
        intro v hv
        simp [xmlItem, hl, itemOutline]
      · rename_i h1 h2 h3
        have : xmlItem (.elem q as kids) = [] := by
          simp only [xmlItem, hl]
          rw [if_neg h1, if_neg h2, if_neg h3]
        rw [this]
        exact adds_skip s q kids) s

theorem unDocument_reads (h : DecsFine p) (file : Option DocId) (s : List BItem) :
    Reads (unDocument p file s) fun kids v =>
      v.map itemOutline = s.map itemOutline ++ xmlOutline kids := by
  have hl := loop_reads (step := documentStep p file) (fun v => v.map itemOutline)
    (fun n => (childrenOf "body" n).flatMap fun b => b.flatMap xmlItem) (fun _ => rfl) rfl
    (by
      intro s q as kids ha hk
      unfold documentStep
      generalize hl : q.loc = l at ha
      split
      · refine adds_sub (unBody_fine h _ _) (unBody_reads h _ _) hk ?_
        intro v hv
        simp [childrenOf, hl, hv]
      · rename_i h1
        simp only [childrenOf, hl, if_neg h1, List.flatMap_nil]
        exact adds_skip s q kids) s
  intro q kids rest stk hk he
  have := hl q kids rest stk hk he
  simp only [xmlOutline, List.flatMap_assoc]
  exact this

end Docx
