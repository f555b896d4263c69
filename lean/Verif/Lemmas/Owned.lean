import Verif.Lemmas.Evo
import Verif.Spec

/-!
# Builder histories

In a history of builder calls every paragraph and cell belongs to the document it is in, and the ids
of drawings are the values the drawing counter of that document has taken.
-/

namespace Docx

theorem flatMap_modify_perm {α β : Type} {f : α → List β} {extra : List β} {g : α → α} :
    ∀ {l : List α} {i : Nat} {x : α}, l[i]? = some x → (f (g x)).Perm (f x ++ extra) →
    ((l.modify i g).flatMap f).Perm (l.flatMap f ++ extra) := by
  intro l
  induction l with
  | nil => intro i x h; simp at h
  | cons a l ih =>
    intro i x h hp
    cases i with
    | zero =>
      simp only [List.getElem?_cons_zero, Option.some.injEq] at h; subst h
      simp only [List.modify_zero_cons, List.flatMap_cons, List.append_assoc]
      refine (hp.append_right _).trans ?_
      rw [List.append_assoc]
      exact (List.perm_append_comm).append_left _
    | succ i =>
      simp only [List.getElem?_cons_succ] at h
      simp only [List.modify_succ_cons, List.flatMap_cons, List.append_assoc]
      exact (ih h hp).append_left _

theorem forall_modify {α : Type} {P : α → Prop} {g : α → α} :
    ∀ {l : List α} {i : Nat}, (∀ x ∈ l, P x) → (∀ x, P x → P (g x)) → ∀ x ∈ l.modify i g, P x := by
  intro l
  induction l with
  | nil => intro i h _ x hx; simp at hx
  | cons a l ih =>
    intro i h hg x hx
    cases i with
    | zero =>
      simp only [List.modify_zero_cons, List.mem_cons] at hx
      rcases hx with rfl | hx
      · exact hg _ (h _ (by simp))
      · exact h x (by simp [hx])
    | succ i =>
      simp only [List.modify_succ_cons, List.mem_cons] at hx
      rcases hx with rfl | hx
      · exact h _ (by simp)
      · exact ih (fun y hy => h y (by simp [hy])) hg x hx

theorem flatMap_modify_eq {α β : Type} {f : α → List β} {g : α → α} (hg : ∀ x, f (g x) = f x) :
    ∀ {l : List α} {i : Nat}, (l.modify i g).flatMap f = l.flatMap f := by
  intro l
  induction l with
  | nil => intro i; simp
  | cons a l ih =>
    intro i
    cases i with
    | zero => simp [hg]
    | succ i => simp [ih]

theorem cellAdd_draws (r c : Nat) (x : BItem) :
    (match x with
      | .table t => BItem.table { t with rows := t.rows.modify r fun row =>
          { row with cells := row.cells.modify c Cell.addParagraph } }
      | x => x).draws = x.draws := by
  cases x with
  | para p => rfl
  | sect s => rfl
  | table t =>
    refine flatMap_modify_eq ?_
    intro row
    refine flatMap_modify_eq ?_
    intro cell
    simp [Cell.draws, Cell.addParagraph, Para.draws]

/-- All paragraphs and cells of an item belong to the document `d`. -/
def CellOf (d : DocId) (c : Cell) : Prop := c.file = some d ∧ ∀ p ∈ c.paras, p.file = some d
def RowOf (d : DocId) (r : Row) : Prop := ∀ c ∈ r.cells, CellOf d c
def ItemOf (d : DocId) : BItem → Prop
  | .para p => p.file = some d
  | .table t => ∀ r ∈ t.rows, RowOf d r
  | .sect _ => True

theorem itemOf_modPara {d : DocId} {items : List BItem} {l : Loc} {p' : Para}
    (h : ∀ x ∈ items, ItemOf d x) (hp : p'.file = some d) :
    ∀ x ∈ modPara items l (fun _ => p'), ItemOf d x := by
  cases l with
  | body i =>
    refine forall_modify h ?_
    intro x hx
    cases x with
    | para p => exact hp
    | table t => exact hx
    | sect s => exact hx
  | cell i r c j =>
    refine forall_modify h ?_
    intro x hx
    cases x with
    | para p => exact hx
    | sect s => exact hx
    | table t =>
      refine forall_modify (P := RowOf d) hx ?_
      intro row hrow
      refine forall_modify (P := CellOf d) hrow ?_
      intro cell hcell
      exact ⟨hcell.1, forall_modify (P := fun (p : Para) => p.file = some d) hcell.2 fun _ _ => hp⟩

theorem getPara_file {d : DocId} {items : List BItem} {l : Loc} {p : Para}
    (h : ∀ x ∈ items, ItemOf d x) (hp : getPara items l = some p) : p.file = some d := by
  cases l with
  | body i =>
    simp only [getPara] at hp
    split at hp
    · rename_i q hq
      simp only [Option.some.injEq] at hp; subst hp
      exact h _ (List.mem_of_getElem? hq)
    · simp at hp
  | cell i r c j =>
    simp only [getPara] at hp
    split at hp
    · rename_i t ht
      have ht := h _ (List.mem_of_getElem? ht)
      simp only [Option.bind_eq_bind, Option.bind_eq_some_iff] at hp
      obtain ⟨row, hrow, cell, hcell, hj⟩ := hp
      exact (ht row (List.mem_of_getElem? hrow) cell (List.mem_of_getElem? hcell)).2 p
        (List.mem_of_getElem? hj)
    · simp at hp

theorem draws_modPara {items : List BItem} {l : Loc} {p p' : Para} {extra : List Drawing}
    (hp : getPara items l = some p) (he : p'.draws = p.draws ++ extra) :
    ((modPara items l (fun _ => p')).flatMap BItem.draws).Perm
      (items.flatMap BItem.draws ++ extra) := by
  cases l with
  | body i =>
    simp only [getPara] at hp
    split at hp
    · rename_i q hq
      simp only [Option.some.injEq] at hp; subst hp
      refine flatMap_modify_perm hq ?_
      simp only [BItem.draws, he]
      exact .refl _
    · simp at hp
  | cell i r c j =>
    simp only [getPara] at hp
    split at hp
    · rename_i t ht
      simp only [Option.bind_eq_bind, Option.bind_eq_some_iff] at hp
      obtain ⟨row, hrow, cell, hcell, hj⟩ := hp
      refine flatMap_modify_perm ht ?_
      simp only [BItem.draws]
      refine flatMap_modify_perm hrow ?_
      simp only [Row.draws]
      refine flatMap_modify_perm hcell ?_
      simp only [Cell.draws]
      refine flatMap_modify_perm hj ?_
      rw [he]
    · simp at hp

/-- A document of a builder history at address `d`: everything in it belongs to it, its drawing ids are
different and among the first `docID` values of the counter, which is at most `n`. -/
structure BuiltDoc (d : DocId) (n : Nat) (f : Doc) : Prop where
  owns : ∀ x ∈ f.items, ItemOf d x
  count : f.docID.toNat ≤ n
  nodup : f.docPrIds.Nodup
  ids : ∀ i ∈ f.docPrIds, i.toUInt64.toNat ≤ f.docID.toNat

theorem BuiltDoc.mono {d n m f} (h : BuiltDoc d n f) (hn : n ≤ m) : BuiltDoc d m f :=
  ⟨h.owns, Nat.le_trans h.count hn, h.nodup, h.ids⟩

theorem BuiltDoc.push {d n} {f : Doc} (h : BuiltDoc d n f) (x : BItem) (hx : ItemOf d x)
    (hi : x.draws = []) : BuiltDoc d n { f with items := f.items ++ [x] } := by
  have e : (f.items ++ [x]).flatMap BItem.draws = f.items.flatMap BItem.draws := by simp [hi]
  refine ⟨?_, h.count, ?_, ?_⟩
  · intro y hy
    rcases List.mem_append.1 hy with hy | hy
    · exact h.owns y hy
    · simp only [List.mem_cons, List.not_mem_nil, or_false] at hy; subst hy; exact hx
  · show (((f.items ++ [x]).flatMap BItem.draws).flatMap Drawing.docPrIds).Nodup
    rw [e]; exact h.nodup
  · show ∀ i ∈ ((f.items ++ [x]).flatMap BItem.draws).flatMap Drawing.docPrIds, _
    rw [e]; exact h.ids

theorem built_new (d n) : BuiltDoc d n Doc.new :=
  ⟨by intro x hx; simp [Doc.new] at hx, Nat.zero_le _, by simp [Doc.docPrIds, Doc.draws, Doc.new],
   by intro i hi; simp [Doc.docPrIds, Doc.draws, Doc.new] at hi⟩

/-- What a paragraph call does to the document and the paragraph. -/
structure Adds (f : Doc) (p : Para) (f' : Doc) (p' : Para) : Prop where
  items : f'.items = f.items
  file : p'.file = p.file
  ids : (p'.draws = p.draws ∧ f'.docID = f.docID) ∨
    (f'.docID = f.docID + 1 ∧ ∃ d, p'.draws = p.draws ++ [d] ∧ d.docPrIds = [(f.docID + 1).toInt64])

theorem onPara_built {w w' : World} {n : Nat} {d : DocId} {l : Loc}
    {act : Doc → Para → Res (Doc × Para)} (hn : n + 1 < 2 ^ 64)
    (ha : ∀ f p f' p', act f p = .ok (f', p') → Adds f p f' p')
    (hw : ∀ (d : DocId) f, w[d]? = some f → BuiltDoc d n f) (h : w.onPara d l act = .ok w') :
    ∀ (d : DocId) f, w'[d]? = some f → BuiltDoc d (n + 1) f := by
  obtain ⟨doc, p, fid, f, f', p', doc1, hdoc, hp, hfid, hf, hact, hd1, rfl⟩ := onPara_ok h
  have hb := hw d doc hdoc
  have e := getPara_file hb.owns hp
  rw [hfid] at e; obtain rfl := Option.some.inj e
  rw [hdoc] at hf; obtain rfl := Option.some.inj hf
  have hl := lt_of_getElem? hdoc
  rw [List.getElem?_set_self hl] at hd1; obtain rfl := Option.some.inj hd1
  obtain ⟨h1, h2, h3⟩ := ha _ _ _ _ hact
  intro d' g hg
  rw [List.set_set] at hg
  by_cases hd : d' = fid
  · subst hd
    rw [List.getElem?_set_self hl] at hg; obtain rfl := Option.some.inj hg
    have hone : (1 : UInt64).toNat = 1 := rfl
    have hcnt := hb.count
    have hsucc : (doc.docID + 1).toNat = doc.docID.toNat + 1 := by
      rw [UInt64.toNat_add, hone]; omega
    have key : ∀ extra, p'.draws = p.draws ++ extra →
        (((modPara f'.items l fun _ => p').flatMap BItem.draws).flatMap Drawing.docPrIds).Perm
          (doc.docPrIds ++ extra.flatMap Drawing.docPrIds) := by
      intro extra he
      rw [h1]
      have := (draws_modPara hp he).flatMap_right Drawing.docPrIds
      rwa [List.flatMap_append] at this
    have hown : ∀ x ∈ modPara f'.items l (fun _ => p'), ItemOf d' x := by
      rw [h1]; exact itemOf_modPara hb.owns (h2.trans hfid)
    rcases h3 with ⟨h3, h4⟩ | ⟨h4, dr, h3, h5⟩
    · have k := key [] (by simpa using h3)
      rw [List.flatMap_nil, List.append_nil] at k
      refine ⟨hown, ?_, k.nodup_iff.2 hb.nodup, ?_⟩
      · show f'.docID.toNat ≤ n + 1; rw [h4]; omega
      · intro i hi
        show _ ≤ f'.docID.toNat
        rw [h4]; exact hb.ids i (k.mem_iff.1 hi)
    · have k := key _ h3
      rw [List.flatMap_cons, List.flatMap_nil, List.append_nil, h5] at k
      refine ⟨hown, ?_, k.nodup_iff.2 ?_, ?_⟩
      · show f'.docID.toNat ≤ n + 1; rw [h4, hsucc]; omega
      · rw [List.nodup_append]
        refine ⟨hb.nodup, by simp, ?_⟩
        intro a ha b hb' e
        simp only [List.mem_cons, List.not_mem_nil, or_false] at hb'
        subst hb'; subst e
        have := hb.ids _ ha
        rw [UInt64.toUInt64_toInt64, hsucc] at this
        omega
      · intro i hi
        show _ ≤ f'.docID.toNat
        rw [h4, hsucc]
        rcases List.mem_append.1 (k.mem_iff.1 hi) with hi | hi
        · exact Nat.le_succ_of_le (hb.ids i hi)
        · simp only [List.mem_cons, List.not_mem_nil, or_false] at hi; subst hi
          rw [UInt64.toUInt64_toInt64, hsucc]; exact Nat.le_refl _
  · rw [List.getElem?_set_ne (Ne.symm hd)] at hg
    exact (hw d' g hg).mono (Nat.le_succ _)

theorem onDoc_built {w w' : World} {n : Nat} {d : DocId} {act : Doc → Res Doc}
    (ha : ∀ f f', act f = .ok f' → BuiltDoc d n f → BuiltDoc d n f')
    (hw : ∀ (d : DocId) f, w[d]? = some f → BuiltDoc d n f) (h : w.onDoc d act = .ok w') :
    ∀ (d : DocId) f, w'[d]? = some f → BuiltDoc d (n + 1) f := by
  unfold World.onDoc at h
  split at h
  · simp at h
  · rename_i f hf
    obtain ⟨f', h1, h2⟩ := Res.bind_eq_ok.1 h
    simp only [Res.ok.injEq] at h2; subst h2
    intro d' g hg
    by_cases hd : d' = d
    · subst hd
      rw [List.getElem?_set_self (lt_of_getElem? hf)] at hg; obtain rfl := Option.some.inj hg
      exact (ha _ _ h1 (hw _ _ hf)).mono (Nat.le_succ _)
    · rw [List.getElem?_set_ne (Ne.symm hd)] at hg
      exact (hw d' g hg).mono (Nat.le_succ _)

theorem addRun_draws (p : Para) (r : Run) : (p.addRun r).draws = p.draws ++ r.draws := by
  simp [Para.draws, Para.addRun, PChild.draws]

theorem tabPieces_draws (idx) (ks : List (List Char)) : (tabPieces idx ks).filterMap RChild.drawing? = [] := by
  induction ks generalizing idx with
  | nil => rfl
  | cons k ks ih =>
    simp only [tabPieces, List.filterMap_append, ih, List.append_nil]
    split <;> split <;> simp [RChild.drawing?]

theorem linePieces_draws (i) (ss : List (List Char)) : (linePieces i ss).filterMap RChild.drawing? = [] := by
  induction ss generalizing i with
  | nil => rfl
  | cons s ss ih =>
    simp only [linePieces, List.filterMap_append, ih, List.append_nil, tabPieces_draws]
    split <;> simp [RChild.drawing?]

theorem addText_adds (f : Doc) (p : Para) (text : String) : Adds f p f (p.addText text).1 := by
  unfold Para.addText
  split
  · exact ⟨rfl, rfl, .inl ⟨by simp [Para.addTab, addRun_draws, Run.draws, RChild.drawing?], rfl⟩⟩
  · exact ⟨rfl, rfl, .inl ⟨by simp [addRun_draws, Run.draws, linePieces_draws], rfl⟩⟩

theorem addLink_adds (f : Doc) (p : Para) (text link : String) :
    Adds f p (p.addLink f text link).1 (p.addLink f text link).2.1 :=
  ⟨rfl, rfl, .inl ⟨by simp [Para.addLink, Para.draws, PChild.draws, Run.draws], rfl⟩⟩

theorem addPicture_adds [ImgEnv] {f f' : Doc} {pic : Bytes} {r} (h : f.addPicture pic = (f', r)) :
    f'.items = f.items ∧ ((∃ e, r = .err e) ∧ f' = f ∨
      f'.docID = f.docID + 1 ∧ (r = .panic ∨ ∃ id rid w h, r = .ok ((f.docID + 1).toInt64, id, rid, w, h))) := by
  unfold Doc.addPicture at h
  split at h
  · simp only [Prod.mk.injEq] at h
    obtain ⟨rfl, rfl⟩ := h
    exact ⟨rfl, .inl ⟨⟨_, rfl⟩, rfl⟩⟩
  · simp only at h
    split at h
    · simp only [Prod.mk.injEq] at h
      obtain ⟨rfl, rfl⟩ := h
      exact ⟨rfl, .inr ⟨rfl, .inl rfl⟩⟩
    · simp only [Prod.mk.injEq] at h
      obtain ⟨rfl, rfl⟩ := h
      exact ⟨rfl, .inr ⟨rfl, .inr ⟨_, _, _, _, rfl⟩⟩⟩

theorem step_built [ImgEnv] {w w' : World} {n : Nat} {o : Op} (hn : n + 1 < 2 ^ 64) (ho : o.Builds)
    (hw : ∀ (d : DocId) f, w[d]? = some f → BuiltDoc d n f) (h : step w o = .ok w') :
    ∀ (d : DocId) f, w'[d]? = some f → BuiltDoc d (n + 1) f := by
  cases o with
  | load => exact ho.elim
  | append => exact ho.elim
  | split => exact ho.elim
  | edit => exact ho.elim
  | new =>
    simp only [step, Res.ok.injEq] at h; subst h
    intro d f hf
    rcases Nat.lt_or_ge d w.length with hd | hd
    · rw [List.getElem?_append_left hd] at hf
      exact (hw d f hf).mono (Nat.le_succ _)
    · rw [List.getElem?_append_right hd] at hf
      have : d - w.length = 0 := by have := lt_of_getElem? hf; simp at this; omega
      rw [this] at hf
      simp only [List.getElem?_cons_zero, Option.some.injEq] at hf; subst hf
      exact built_new _ _
  | addParagraph d =>
    refine onDoc_built ?_ hw h
    intro f f' h hb; simp only [Res.ok.injEq] at h; subst h
    exact hb.push _ rfl rfl
  | cellAddParagraph d i r c =>
    refine onDoc_built ?_ hw h
    intro f f' h hb; simp only [Res.ok.injEq] at h; subst h
    refine ⟨?_, hb.count, ?_, ?_⟩
    · refine forall_modify hb.owns ?_
      intro x hx
      cases x with
      | para p => exact hx
      | sect s => exact hx
      | table t =>
        refine forall_modify (P := RowOf d) hx ?_
        intro row hrow
        refine forall_modify (P := CellOf d) hrow ?_
        intro cell hcell
        refine ⟨hcell.1, ?_⟩
        intro p hp
        simp only [Cell.addParagraph, List.mem_append, List.mem_cons, List.not_mem_nil, or_false] at hp
        rcases hp with hp | rfl
        · exact hcell.2 p hp
        · exact hcell.1
    · unfold Doc.docPrIds Doc.draws
      rw [flatMap_modify_eq ?_]
      · exact hb.nodup
      · exact cellAdd_draws r c
    · unfold Doc.docPrIds Doc.draws
      rw [flatMap_modify_eq ?_]
      · exact hb.ids
      · exact cellAdd_draws r c
  | addTable d row col width colors =>
    refine onDoc_built ?_ hw h
    intro f f' h hb
    unfold Doc.addTable at h
    split at h
    · rename_i heq
      simp only [Res.ok.injEq] at h; subst h
      split at heq
      · simp at heq
      · split at heq
        · simp at heq
        · simp only [Res.ok.injEq, Prod.mk.injEq] at heq
          rw [← heq.1]
          refine hb.push _ ?_ ?_
          · intro r hr c hc
            simp only [List.mem_replicate] at hr
            rw [hr.2] at hc
            simp only [List.mem_replicate] at hc
            rw [hc.2]
            exact ⟨rfl, by intro p hp; simp at hp⟩
          · simp only [BItem.draws, List.flatMap_eq_nil_iff]
            intro r hr
            simp only [List.mem_replicate] at hr
            rw [hr.2]
            simp only [Row.draws, List.flatMap_eq_nil_iff]
            intro c hc
            simp only [List.mem_replicate] at hc
            rw [hc.2]; rfl
    · simp at h
    · simp at h
  | addTableTwips d rows cols width colors =>
    refine onDoc_built ?_ hw h
    intro f f' h hb; simp only [Res.ok.injEq] at h; subst h
    refine hb.push _ ?_ ?_
    · intro r hr c hc
      simp only [List.mem_map] at hr
      obtain ⟨h, _, rfl⟩ := hr
      simp only [List.mem_map] at hc
      obtain ⟨h, _, rfl⟩ := hc
      exact ⟨rfl, by intro p hp; simp at hp⟩
    · simp only [BItem.draws, List.flatMap_eq_nil_iff]
      intro r hr
      simp only [List.mem_map] at hr
      obtain ⟨h, _, rfl⟩ := hr
      simp only [Row.draws, List.flatMap_eq_nil_iff]
      intro c hc
      simp only [List.mem_map] at hc
      obtain ⟨h, _, rfl⟩ := hc
      rfl
  | withA3Page d =>
    refine onDoc_built ?_ hw h
    intro f f' h hb; simp only [Res.ok.injEq] at h; subst h; exact hb.push _ trivial rfl
  | withA4Page d =>
    refine onDoc_built ?_ hw h
    intro f f' h hb; simp only [Res.ok.injEq] at h; subst h; exact hb.push _ trivial rfl
  | useTemplate d t l tfs =>
    refine onDoc_built ?_ hw h
    intro f f' h hb; simp only [Res.ok.injEq] at h; subst h; exact ⟨hb.owns, hb.count, hb.nodup, hb.ids⟩
  | increaseID d name =>
    refine onDoc_built ?_ hw h
    intro f f' h hb; simp only [Res.ok.injEq] at h; subst h; exact ⟨hb.owns, hb.count, hb.nodup, hb.ids⟩
  | addText d l text =>
    refine onPara_built hn ?_ hw h
    intro f p f' p' h; simp only [Res.ok.injEq, Prod.mk.injEq] at h; rw [← h.1, ← h.2]
    exact addText_adds _ _ _
  | addLink d l text link =>
    refine onPara_built hn ?_ hw h
    intro f p f' p' h; simp only [Res.ok.injEq, Prod.mk.injEq] at h; rw [← h.1, ← h.2]
    exact addLink_adds _ _ _ _
  | addInlineDrawing d l pic =>
    refine onPara_built hn ?_ hw h
    intro f p f' p' h
    unfold Para.addInlineDrawing at h
    cases hp : f.addPicture pic with
    | mk f1 r =>
      obtain ⟨h1, h2⟩ := addPicture_adds hp
      rw [hp] at h
      rcases h2 with ⟨⟨e, rfl⟩, rfl⟩ | ⟨h3, rfl | ⟨id, rid, a, b, rfl⟩⟩
      · simp only [Res.ok.injEq, Prod.mk.injEq] at h
        obtain ⟨rfl, rfl⟩ := h
        exact ⟨rfl, rfl, .inl ⟨rfl, rfl⟩⟩
      · simp at h
      · simp only [Res.ok.injEq, Prod.mk.injEq] at h
        obtain ⟨rfl, rfl⟩ := h
        exact ⟨h1, rfl, .inr ⟨h3, _, addRun_draws _ _, rfl⟩⟩
  | addAnchorDrawing d l pic =>
    refine onPara_built hn ?_ hw h
    intro f p f' p' h
    unfold Para.addAnchorDrawing at h
    cases hp : f.addPicture pic with
    | mk f1 r =>
      obtain ⟨h1, h2⟩ := addPicture_adds hp
      rw [hp] at h
      rcases h2 with ⟨⟨e, rfl⟩, rfl⟩ | ⟨h3, rfl | ⟨id, rid, a, b, rfl⟩⟩
      · simp only [Res.ok.injEq, Prod.mk.injEq] at h
        obtain ⟨rfl, rfl⟩ := h
        exact ⟨rfl, rfl, .inl ⟨rfl, rfl⟩⟩
      · simp at h
      · simp only [Res.ok.injEq, Prod.mk.injEq] at h
        obtain ⟨rfl, rfl⟩ := h
        exact ⟨h1, rfl, .inr ⟨h3, _, addRun_draws _ _, rfl⟩⟩
  | addInlineShape d l sw sh name bw prst ln =>
    refine onPara_built hn ?_ hw h
    intro f p f' p' h; simp only [Res.ok.injEq, Prod.mk.injEq] at h; rw [← h.1, ← h.2]
    exact ⟨rfl, rfl, .inr ⟨rfl, _, addRun_draws _ _, rfl⟩⟩
  | addAnchorShape d l sw sh name bw prst ln =>
    refine onPara_built hn ?_ hw h
    intro f p f' p' h; simp only [Res.ok.injEq, Prod.mk.injEq] at h; rw [← h.1, ← h.2]
    exact ⟨rfl, rfl, .inr ⟨rfl, _, addRun_draws _ _, rfl⟩⟩

theorem run_built [ImgEnv] : ∀ {os : List Op} {n : Nat} {w w' : World}, n + os.length < 2 ^ 64 →
    (∀ o ∈ os, o.Builds) → (∀ (d : DocId) f, w[d]? = some f → BuiltDoc d n f) → run w os = .ok w' →
    ∀ (d : DocId) f, w'[d]? = some f → BuiltDoc d (n + os.length) f := by
  intro os
  induction os with
  | nil =>
    intro n w w' _ _ hw h
    simp only [run, Res.ok.injEq] at h; subst h
    exact hw
  | cons o os ih =>
    intro n w w' hn ho hw h
    simp only [List.length_cons] at hn
    simp only [run] at h
    split at h
    · rename_i w1 h1
      have := ih (n := n + 1) (by omega) (fun o ho' => ho o (by simp [ho']))
        (step_built (by omega) (ho o (by simp)) hw h1) h
      simpa [Nat.add_assoc, Nat.add_comm 1] using this
    · simp at h
    · simp at h

end Docx
