import Verif.Lemmas.AliasSize
import Verif.Marshal

/-!
# C63: a document and its copies

`AppendFile` and `SplitByParagraph` copy the contents of one document to another one.  A user expects the
copy and its source to be separate: what is done to the one is not done to the other.  With respect to
calls that *add* something this holds.  With respect to setters it does not: copies keep the pointers to
the properties, to the texts and to the extents of pictures.
-/

set_option linter.unusedSectionVars false

namespace Docx

section
variable [ImgEnv]

/-! ## The memory model and the model with values -/

/-- For every history, setters and shared objects included: a call has the same outcome on documents with
shared objects as it has on their values, and the values afterwards are the same. -/
theorem C63_call_values {s : PWorld} (h : PReach s) (o : Op) :
    match s.pstep (.call o), step s.world o with
    | .ok s', .ok w => w = s'.world
    | .err e, .err e' => e = e'
    | .panic, .panic => True
    | _, _ => False := by
  have hr := step_rel (reach_ok h) o
  show match s.step o, step s.world o with
    | .ok s', .ok w => w = s'.world
    | .err e, .err e' => e = e'
    | .panic, .panic => True
    | _, _ => False
  cases h1 : s.step o <;> cases h2 : step s.world o <;> rw [h1, h2] at hr
  · exact hr.1
  all_goals first | exact hr | exact hr.elim | trivial

/-- What clients can do to documents with shared objects, they could do to documents that share nothing:
for every history there is one of the model with values that ends with the same documents.  (So what is
proved of the documents of all histories there holds here.) -/
theorem C63_values {s : PWorld} (h : PReach s) : ∃ os, run [] os = .ok s.world := reach_run h

/-! ## What is separate -/

/-- Calls that add to a document change the contents of no other document, whatever they share: no
paragraph, run, table, text or property of another document changes.  (`Op.append f af` adds to `f`.) -/
theorem C63_additions_partial {s s' : PWorld} (h : PReach s) {o : Op} {d e : DocId} (hd : (POp.call o).doc = some d)
    (hs : s.pstep (.call o) = .ok s') (hne : e ≠ d) (he : e < s.world.length) :
    (s'.world[e]?).map (·.items) = (s.world[e]?).map (·.items) :=
  call_other (reach_ok h) hd hs (.inl hne) he

/-- Splitting a document changes the contents of no document that was there, itself included. -/
theorem C63_split_keeps {s s' : PWorld} (h : PReach s) {d e : DocId} {sep : World → Para → Res Bool}
    (hs : s.pstep (.call (.split d sep)) = .ok s') (he : e < s.world.length) :
    (s'.world[e]?).map (·.items) = (s.world[e]?).map (·.items) :=
  call_other (reach_ok h) rfl hs (.inr ⟨sep, rfl⟩) he

/-- Setters, and clients that write to texts or rearrange contents, change no document of another family:
documents between which nothing was copied, directly or through others, are separate for good. -/
theorem C63_families_partial {s s' : PWorld} {fam : DocId → Nat} (h : PHist s fam) {o : POp} {d e : DocId} (fine : o.Fine)
    (ho : o.Sets) (hd : o.doc = some d) (hs : s.pstep o = .ok s') (hne : fam e ≠ fam d) : s'.world[e]? = s.world[e]? :=
  setter_other h fine ho hd hs hne

/-! ## What is shared -/

private theorem value_run {s : PWorld} (hs : s.Ok) {d : DocId} {f : Doc} {l : Loc} {p : Para} {j : Nat} {r : Run}
    (hf : s.world[d]? = some f) (hp : getPara f.items l = some p) (hj : p.children[j]? = some (.run r)) :
    ∃ xs q r', s.items[d]? = some xs ∧ pgetPara xs l = some q ∧ q.children[j]? = some (.run r') ∧ r = r'.load s.mem := by
  obtain ⟨f0, xs, h1, h2, rfl⟩ := world_get_some hs hf
  simp only [pgetPara_load, Option.map_eq_some_iff] at hp
  obtain ⟨q, h3, rfl⟩ := hp
  simp only [PPara.load, List.getElem?_map, Option.map_eq_some_iff] at hj
  obtain ⟨c, h4, h5⟩ := hj
  cases c with
  | run r' => simp only [PPChild.load, PChild.run.injEq] at h5; exact ⟨xs, q, r', h2, h3, h4, h5.symm⟩
  | link id r' => cases h5
  | rpr k => cases h5

/-- After `f.AppendFile(af)` where the source lies, and where the copies are -/
private theorem append_at {s s' : PWorld} (hok : s.Ok) {f af : DocId} {F : Doc} (hF : s.world[f]? = some F)
    (h : s.pstep (.call (.append f af)) = .ok s') {xs : List PItem} {l : Loc} {p : PPara} (hx : s.items[af]? = some xs)
    (hp : pgetPara xs l = some p) :
    Ext' s.mem s'.mem ∧ s'.Ok ∧ s'.paraAt af l = some p ∧
      ∃ p', s'.paraAt f (l.after F.items.length) = some p' ∧ ParaShares p p' := by
  obtain ⟨_, zs, hz, hl⟩ := call_ok (o := .append f af) hok h
  obtain ⟨f0, its, h1, h2, rfl⟩ := world_get_some hok hF
  simp only [PWorld.pstep, PWorld.step, h1, PWorld.appendFile, hx] at h
  obtain ⟨ys, h3, h4⟩ := append_share h2 h
  refine ⟨hl.ext, hl.ok, ?_, ?_⟩
  · by_cases e : af = f
    · subst e
      rw [h2] at hx
      obtain rfl := Option.some.inj hx
      simp only [PWorld.paraAt, h3, Option.bind_some]
      exact pgetPara_append hp
    · simp only [PWorld.paraAt]
      rw [hl.other af e, hx]
      exact hp
  · obtain ⟨p', a, b⟩ := shares_para (its := its) h4 hp
    refine ⟨p', ?_, b⟩
    simp only [PWorld.paraAt, h3, Option.bind_some]
    simpa [bodyVals] using a

/-- The same for a table -/
private theorem append_table_at {s s' : PWorld} (hok : s.Ok) {f af : DocId} {F : Doc} (hF : s.world[f]? = some F)
    (h : s.pstep (.call (.append f af)) = .ok s') {xs : List PItem} {i : Nat} {q : PTable} (hx : s.items[af]? = some xs)
    (hq : xs[i]? = some (.table q)) :
    Ext' s.mem s'.mem ∧ s'.Ok ∧ ∃ zs, s'.items[af]? = some zs ∧ zs[i]? = some (.table q) ∧
      ∃ ys, s'.items[f]? = some ys ∧ ∃ q', ys[F.items.length + i]? = some (.table q') ∧ TableShares q q' := by
  obtain ⟨_, zs, hz, hl⟩ := call_ok (o := .append f af) hok h
  obtain ⟨f0, its, h1, h2, rfl⟩ := world_get_some hok hF
  simp only [PWorld.pstep, PWorld.step, h1, PWorld.appendFile, hx] at h
  obtain ⟨ys, h3, h4⟩ := append_share h2 h
  refine ⟨hl.ext, hl.ok, ?_⟩
  obtain ⟨y, hy, sh⟩ := h4 i _ hq
  cases sh with
  | @table _ t' sh =>
    have hc : (its ++ ys)[(bodyVals s.mem its).length + i]? = some (.table t') := by
      simp only [bodyVals, List.length_map]
      rw [List.getElem?_append_right (Nat.le_add_right _ _), Nat.add_sub_cancel_left, hy]
    by_cases e : af = f
    · subst e
      rw [h2] at hx
      obtain rfl := Option.some.inj hx
      exact ⟨_, h3, by rw [List.getElem?_append_left (List.getElem?_eq_some_iff.1 hq).1, hq], _, h3, _, hc, sh⟩
    · exact ⟨xs, by rw [hl.other af e, hx], hq, _, h3, _, hc, sh⟩

/-- **Runs are shared.**  After `f.AppendFile(af)`, for every run of `af` with properties: the copy of its
paragraph in `f` has a run such that every setter called on that run changes the run of `af`. -/
theorem C63_append_shares_run {s s' : PWorld} (h : PReach s) {f af : DocId} {F A : Doc} {l : Loc} {p : Para} {j : Nat} {r : Run}
    {x : RPr} (hF : s.world[f]? = some F) (hA : s.world[af]? = some A) (hp : getPara A.items l = some p)
    (hj : p.children[j]? = some (.run r)) (hx : r.rpr = some x) (hs : s.pstep (.call (.append f af)) = .ok s') :
    ∃ j', ∀ g : RPr → RPr, ∃ s'', s'.pstep (.run f (l.after F.items.length) j' g) = .ok s'' ∧
      ∃ A', s''.world[af]? = some A' ∧ ∃ p', getPara A'.items l = some p' ∧
        ∃ r', p'.children[j]? = some (.run r') ∧ r'.rpr = some (g x) := by
  have hok := reach_ok h
  obtain ⟨xs, q, r0, h1, h2, h3, rfl⟩ := value_run hok hA hp hj
  simp only [PRun.load, Option.map_eq_some_iff] at hx
  obtain ⟨k, hk, rfl⟩ := hx
  obtain ⟨ex, ok', src, q', cp, sh⟩ := append_at hok hF hs h1 h2
  obtain ⟨j', r', h4, h5⟩ := sh.runs j r0 h3
  refine ⟨j', fun g => ?_⟩
  have ht : k < s.mem.length := (hok.typed af xs h1).lt (.rpr, k) (pgetPara_refs h2 _ (runAt_refs (j := j) (r := r0)
    (by simp [PPara.runAt, h3]) _ (by simp [PRun.refs, hk])))
  have hm : s'.mem.rpr k = s.mem.rpr k := by simp only [Mem.rpr, ex.get ht]
  rw [← hm]
  exact run_through ok' src h3 hk cp h4 (h5.rpr.trans hk) g

/-- **Texts are shared.**  Likewise, a client that writes to a text of that run (`text.Text = ...`) changes
the text of the source. -/
theorem C63_append_shares_text {s s' : PWorld} (h : PReach s) {f af : DocId} {F A : Doc} {l : Loc} {p : Para} {j n : Nat} {r : Run}
    {x : Leaf} (hF : s.world[f]? = some F) (hA : s.world[af]? = some A) (hp : getPara A.items l = some p)
    (hj : p.children[j]? = some (.run r)) (hx : r.children[n]? = some x.child) (hs : s.pstep (.call (.append f af)) = .ok s') :
    ∃ j', ∀ g : Leaf → Leaf, ∃ s'', s'.pstep (.leaf f (l.after F.items.length) j' n g) = .ok s'' ∧
      ∃ A', s''.world[af]? = some A' ∧ ∃ p', getPara A'.items l = some p' ∧
        ∃ r', p'.children[j]? = some (.run r') ∧ r'.children[n]? = some (g x).child := by
  have hok := reach_ok h
  obtain ⟨xs, q, r0, h1, h2, h3, rfl⟩ := value_run hok hA hp hj
  simp only [PRun.load, List.getElem?_map, Option.map_eq_some_iff] at hx
  obtain ⟨c, hc, hcx⟩ := hx
  cases c with
  | drawing i a => cases x <;> cases hcx
  | leaf k =>
    have hxk : x = s.mem.leaf k := by
      simp only [PRChild.load] at hcx
      cases x <;> cases hm : s.mem.leaf k <;> simp_all [Leaf.child]
    subst hxk
    obtain ⟨ex, ok', src, q', cp, sh⟩ := append_at hok hF hs h1 h2
    obtain ⟨j', r', h4, h5⟩ := sh.runs j r0 h3
    refine ⟨j', fun g => ?_⟩
    have ht : k < s.mem.length := (hok.typed af xs h1).lt (.leaf, k) (pgetPara_refs h2 _ (runAt_refs (j := j) (r := r0)
      (by simp [PPara.runAt, h3]) _ (List.mem_append_right _ (List.mem_flatMap.2 ⟨_, List.mem_iff_getElem?.2 ⟨n, hc⟩, by simp [PRChild.refs]⟩))))
    have hm : s'.mem.leaf k = s.mem.leaf k := by simp only [Mem.leaf, ex.get ht]
    rw [← hm]
    exact leaf_through ok' src h3 hc cp h4 (h5.leaf n k hc) g

/-- **Paragraph properties are shared.**  Likewise for the setters of paragraphs. -/
theorem C63_append_shares_para {s s' : PWorld} (h : PReach s) {f af : DocId} {F A : Doc} {l : Loc} {p : Para}
    {x : PPr} (hne : af ≠ f) (hF : s.world[f]? = some F) (hA : s.world[af]? = some A) (hp : getPara A.items l = some p)
    (hx : p.props = some x) (hs : s.pstep (.call (.append f af)) = .ok s') (g : PPr → PPr) :
    ∃ s'', s'.pstep (.para f (l.after F.items.length) g) = .ok s'' ∧
      ∃ A', s''.world[af]? = some A' ∧ ∃ p', getPara A'.items l = some p' ∧ p'.props = some (g x) := by
  have hok := reach_ok h
  obtain ⟨f0, xs, h1, h2, rfl⟩ := world_get_some hok hA
  simp only [pgetPara_load, Option.map_eq_some_iff] at hp
  obtain ⟨q, h3, rfl⟩ := hp
  simp only [PPara.load, Option.map_eq_some_iff] at hx
  obtain ⟨k, hk, rfl⟩ := hx
  obtain ⟨ex, ok', src, q', cp, sh⟩ := append_at hok hF hs h2 h3
  have ht : k < s.mem.length := (hok.typed af xs h2).lt (.ppr, k) (pgetPara_refs h3 _ (by simp [PPara.refs, hk]))
  have hm : s'.mem.ppr k = s.mem.ppr k := by simp only [Mem.ppr, ex.get ht]
  rw [← hm]
  exact para_through ok' src hk cp (sh.props.trans hk) g hne

/-- **Parts share with the document that was split.**  After `SplitByParagraph`, for every run with
properties of the document: one of the parts has a run such that every setter called on that run changes
the run of the document. -/
theorem C63_split_shares_run {s s' : PWorld} (h : PReach s) {d : DocId} {sep : World → Para → Res Bool} {A : Doc} {l : Loc}
    {p : Para} {j : Nat} {r : Run} {x : RPr} (hA : s.world[d]? = some A) (hp : getPara A.items l = some p)
    (hj : p.children[j]? = some (.run r)) (hx : r.rpr = some x) (hs : s.pstep (.call (.split d sep)) = .ok s') :
    ∃ e i j', s.world.length ≤ e ∧ e ≠ d ∧ ∀ g : RPr → RPr, ∃ s'', s'.pstep (.run e (l.inItem i) j' g) = .ok s'' ∧
      ∃ A', s''.world[d]? = some A' ∧ ∃ p', getPara A'.items l = some p' ∧
        ∃ r', p'.children[j]? = some (.run r') ∧ r'.rpr = some (g x) := by
  have hok := reach_ok h
  obtain ⟨xs, q, r0, h1, h2, h3, rfl⟩ := value_run hok hA hp hj
  simp only [PRun.load, Option.map_eq_some_iff] at hx
  obtain ⟨k, hk, rfl⟩ := hx
  obtain ⟨_, zs, hz, hpt⟩ := call_ok (o := .split d sep) hok hs
  have hparts : Parts s.items.length s' xs := by
    obtain ⟨f0, hf0⟩ := some_of_len hok.len.symm h1
    simp only [PWorld.pstep, PWorld.step, PWorld.splitByParagraph, hf0, h1] at hs
    split at hs
    · rename_i s1 ds heq
      obtain rfl := Res.ok.inj hs
      exact (splitLoop_share hok.len hok (hok.typed d xs h1) (Nat.le_refl _) heq).2
    · cases hs
    · cases hs
  obtain ⟨it, hit⟩ := pgetPara_item h2
  obtain ⟨e, its, he, hi, y, hy, sh⟩ := hparts it (List.mem_iff_getElem?.2 ⟨_, hit⟩)
  obtain ⟨i, hi'⟩ := List.mem_iff_getElem?.1 hy
  obtain ⟨q', h4, h5⟩ := item_para hit hi' sh h2
  obtain ⟨j', r', h6, h7⟩ := h5.runs j r0 h3
  have hd : d < s.items.length := (List.getElem?_eq_some_iff.1 h1).1
  refine ⟨e, i, j', ?_, ?_, fun g => ?_⟩
  · rw [world_len hok, hok.len]; exact he
  · intro e1; rw [e1] at he; exact Nat.lt_irrefl _ (Nat.lt_of_lt_of_le hd he)
  have ht : k < s.mem.length := (hok.typed d xs h1).lt (.rpr, k) (pgetPara_refs h2 _ (runAt_refs (j := j) (r := r0)
    (by simp [PPara.runAt, h3]) _ (by simp [PRun.refs, hk])))
  have hm : s'.mem.rpr k = s.mem.rpr k := by simp only [Mem.rpr, hpt.ext.get ht]
  rw [← hm]
  refine run_through hpt.ok (p := q) (p' := q') ?_ h3 hk ?_ h6 (h7.rpr.trans hk) g
  · simp only [PWorld.paraAt]
    rw [hpt.old d hd, h1]
    exact h2
  · simp only [PWorld.paraAt, hi]
    exact h4

/-- **`Size`.**  `Size(w, h)` called on a drawing of a document gives that drawing the new size, as C19 says
of its value. -/
theorem C63_size {s : PWorld} (hr : PReach s) {d : DocId} {A : Doc} {l : Loc} {p : Para} {j n : Nat} {r : Run} {dr : Drawing}
    (hA : s.world[d]? = some A) (hp : getPara A.items l = some p) (hj : p.children[j]? = some (.run r))
    (hn : r.children[n]? = some (.drawing dr)) (w h : Int64) :
    (∀ i, dr.inl = some i → ∃ s', s.pstep (.size d l j n w h) = .ok s' ∧ ∃ A', s'.world[d]? = some A' ∧
      ∃ p', getPara A'.items l = some p' ∧ ∃ r', p'.children[j]? = some (.run r') ∧
        ∃ dr', r'.children[n]? = some (.drawing dr') ∧ dr'.inl = some (i.setSize w h)) ∧
    (∀ a, dr.inl = none → dr.anchor = some a → ∃ s', s.pstep (.size d l j n w h) = .ok s' ∧ ∃ A', s'.world[d]? = some A' ∧
      ∃ p', getPara A'.items l = some p' ∧ ∃ r', p'.children[j]? = some (.run r') ∧
        ∃ dr', r'.children[n]? = some (.drawing dr') ∧ dr'.inl = none ∧ dr'.anchor = some (a.setSize w h)) := by
  have hok := reach_ok hr
  obtain ⟨xs, q, r0, h1, h2, h3, rfl⟩ := value_run hok hA hp hj
  simp only [PRun.load, List.getElem?_map, Option.map_eq_some_iff] at hn
  obtain ⟨c, hc, hcx⟩ := hn
  cases c with
  | leaf k => simp only [PRChild.load] at hcx; cases hm : s.mem.leaf k <;> simp [hm, Leaf.child] at hcx
  | drawing i a =>
    simp only [PRChild.load, RChild.drawing.injEq] at hcx
    subst hcx
    obtain ⟨g1, g2⟩ := size_through hok (d := d) (l := l) (p := q) (by simp [PWorld.paraAt, h1, h2]) h3 hc w h
    constructor
    · intro i' hi
      simp only [loadDrawing, Option.map_eq_some_iff] at hi
      obtain ⟨k, rfl, rfl⟩ := hi
      exact g1 k rfl
    · intro a' hi ha
      simp only [loadDrawing, Option.map_eq_some_iff, Option.map_eq_none_iff] at hi ha
      obtain ⟨k, rfl, rfl⟩ := ha
      exact g2 k hi rfl

/-- **Table properties are shared.**  After `f.AppendFile(af)`, the setter of the properties of the copy of a
table, of a row or of a cell changes the table, the row or the cell of the source. -/
theorem C63_append_shares_table {s s' : PWorld} (h : PReach s) {f af : DocId} {F A : Doc} {i : Nat} {t : Table}
    (hF : s.world[f]? = some F) (hA : s.world[af]? = some A) (ht : A.items[i]? = some (.table t))
    (hs : s.pstep (.call (.append f af)) = .ok s') :
    (∀ x, t.props = some x → ∀ g : TblPr → TblPr, ∃ s'', s'.pstep (.table f (F.items.length + i) g) = .ok s'' ∧
      ∃ A', s''.world[af]? = some A' ∧ ∃ t', A'.items[i]? = some (.table t') ∧ t'.props = some (g x)) ∧
    (∀ (k : Nat) r x, t.rows[k]? = some r → r.props = some x → ∀ g : TrPr → TrPr,
      ∃ s'', s'.pstep (.row f (F.items.length + i) k g) = .ok s'' ∧ ∃ A', s''.world[af]? = some A' ∧
        ∃ t', A'.items[i]? = some (.table t') ∧ ∃ r', t'.rows[k]? = some r' ∧ r'.props = some (g x)) ∧
    (∀ (k n : Nat) r c x, t.rows[k]? = some r → r.cells[n]? = some c → c.props = some x → ∀ g : TcPr → TcPr,
      ∃ s'', s'.pstep (.cell f (F.items.length + i) k n g) = .ok s'' ∧ ∃ A', s''.world[af]? = some A' ∧
        ∃ t', A'.items[i]? = some (.table t') ∧ ∃ r', t'.rows[k]? = some r' ∧
          ∃ c', r'.cells[n]? = some c' ∧ c'.props = some (g x)) := by
  have hok := reach_ok h
  obtain ⟨f1, xs, h1, h2, rfl⟩ := world_get_some hok hA
  simp only [bodyVals, List.getElem?_map, Option.map_eq_some_iff] at ht
  obtain ⟨y, hy, hyt⟩ := ht
  cases y with
  | para q => cases hyt
  | sect k => cases hyt
  | table q =>
    simp only [PItem.load, BItem.table.injEq] at hyt
    subst hyt
    obtain ⟨ex, ok', zs, hz, hzi, ys, hys, q', cp, sh⟩ := append_table_at hok hF hs h2 hy
    have hq : ptable ys (F.items.length + i) = some q' := by simp [ptable, cp]
    obtain ⟨f2, hf2⟩ := some_of_len ok'.len.symm hz
    have typed : ∀ x ∈ (PItem.table q).refs s.mem, (s'.mem[x.2]?).map Obj.kind = some x.1 ∧ s'.mem[x.2]? = s.mem[x.2]? := fun x hx => by
      have a := hok.typed af xs h2 x (List.mem_flatMap.2 ⟨_, List.mem_iff_getElem?.2 ⟨i, hy⟩, hx⟩)
      have b := (hok.typed af xs h2).lt x (List.mem_flatMap.2 ⟨_, List.mem_iff_getElem?.2 ⟨i, hy⟩, hx⟩)
      exact ⟨by rw [ex.get b]; exact a, ex.get b⟩
    have out : ∀ m : Mem, ∃ A', ({ s' with mem := m } : PWorld).world[af]? = some A' ∧ A'.items[i]? = some (.table (q.load m)) := fun m =>
      ⟨_, world_get (s := { s' with mem := m }) hf2 hz, by simp [bodyVals, hzi, PItem.load]⟩
    refine ⟨?_, ?_, ?_⟩
    · intro x hx g
      simp only [PTable.load, Option.map_eq_some_iff] at hx
      obtain ⟨k, hk, rfl⟩ := hx
      obtain ⟨tk, ek⟩ := typed (.tbl, k) (by simp [PItem.refs, PTable.refs, hk])
      have hk' : q'.props = some k := sh.props.trans hk
      refine ⟨{ s' with mem := s'.mem.write k (Obj.onTbl g) }, by
        simp only [PWorld.pstep, hys, Option.bind_some, hq, PTable.set, hk'], ?_⟩
      obtain ⟨A', a1, a2⟩ := out (s'.mem.write k (Obj.onTbl g))
      refine ⟨A', a1, _, a2, ?_⟩
      simp only [PTable.load, hk, Option.map_some, Option.some.injEq]
      rw [onTbl_tbl tk, Mem.tbl, ek, ← Mem.tbl]
    · intro n r x hr hx g
      simp only [PTable.load, List.getElem?_map, Option.map_eq_some_iff] at hr
      obtain ⟨r0, hr0, rfl⟩ := hr
      simp only [PRow.load, Option.map_eq_some_iff] at hx
      obtain ⟨k, hk, rfl⟩ := hx
      obtain ⟨tk, ek⟩ := typed (.tr, k) (List.mem_append_right _ (List.mem_flatMap.2 ⟨_, List.mem_iff_getElem?.2 ⟨n, hr0⟩,
        by simp [PRow.refs, hk]⟩))
      obtain ⟨r1, hr1, shr⟩ := sh.rows n r0 hr0
      have hk' : r1.props = some k := shr.props.trans hk
      refine ⟨{ s' with mem := s'.mem.write k (Obj.onTr g) }, by
        simp only [PWorld.pstep, hys, Option.bind_some, hq, hr1, PRow.set, hk'], ?_⟩
      obtain ⟨A', a1, a2⟩ := out (s'.mem.write k (Obj.onTr g))
      refine ⟨A', a1, _, a2, r0.load _, by simp only [PTable.load, List.getElem?_map, hr0]; rfl, ?_⟩
      simp only [PRow.load, hk, Option.map_some, Option.some.injEq]
      rw [onTr_tr tk, Mem.tr, ek, ← Mem.tr]
    · intro n m r c x hr hc hx g
      simp only [PTable.load, List.getElem?_map, Option.map_eq_some_iff] at hr
      obtain ⟨r0, hr0, rfl⟩ := hr
      simp only [PRow.load, List.getElem?_map, Option.map_eq_some_iff] at hc
      obtain ⟨c0, hc0, rfl⟩ := hc
      simp only [PCell.load, Option.map_eq_some_iff] at hx
      obtain ⟨k, hk, rfl⟩ := hx
      obtain ⟨tk, ek⟩ := typed (.tc, k) (List.mem_append_right _ (List.mem_flatMap.2 ⟨_, List.mem_iff_getElem?.2 ⟨n, hr0⟩,
        List.mem_append_right _ (List.mem_flatMap.2 ⟨_, List.mem_iff_getElem?.2 ⟨m, hc0⟩, by simp [PCell.refs, hk]⟩)⟩))
      obtain ⟨r1, hr1, shr⟩ := sh.rows n r0 hr0
      obtain ⟨c1, hc1, shc⟩ := shr.cells m c0 hc0
      have hk' : c1.props = some k := shc.props.trans hk
      refine ⟨{ s' with mem := s'.mem.write k (Obj.onTc g) }, by
        simp only [PWorld.pstep, hys, Option.bind_some, hq, hr1, hc1, PCell.set, hk'], ?_⟩
      obtain ⟨A', a1, a2⟩ := out (s'.mem.write k (Obj.onTc g))
      refine ⟨A', a1, _, a2, r0.load _, by simp only [PTable.load, List.getElem?_map, hr0]; rfl, c0.load _,
        by simp only [PRow.load, List.getElem?_map, hc0]; rfl, ?_⟩
      simp only [PCell.load, hk, Option.map_some, Option.some.injEq]
      rw [onTc_tc tk, Mem.tc, ek, ← Mem.tc]

theorem prun_reach {s s' : PWorld} (h : PReach s) {os : List POp} (hf : ∀ o ∈ os, o.Fine) (hs : prun s os = .ok s') : PReach s' := by
  induction os generalizing s with
  | nil => simp only [prun, Res.ok.injEq] at hs; subst hs; exact h
  | cons o os ih =>
    simp only [prun] at hs
    cases h1 : s.pstep o with
    | ok s1 =>
      rw [h1] at hs
      exact ih (.step h (hf o (by simp)) h1) (fun o ho => hf o (by simp [ho])) hs
    | err e => rw [h1] at hs; cases hs
    | panic => rw [h1] at hs; cases hs

/-- The steps of the witness: a document with the text `a`, and a second one it is appended to -/
def appendA : List POp :=
  [.call .new, .call (.addParagraph 0), .call (.addText 0 (.body 0) "a"), .call .new, .call (.append 1 0)]

/-- Saved XML of a document -/
def savedXml (s : PWorld) (d : DocId) : Option (List Node) := (s.world[d]?).map fun f => f.items.map mItem

/-- C63 is false of setters: after `doc1.AppendFile(doc0)`, `Bold` called on the copied run makes the text of
`doc0` bold, in its saved file too. -/
theorem C63_not_separate : ∃ s s', prun {} appendA = .ok s ∧
    savedXml s 0 = some [el "w" "p" [] [el "w" "r" [] [el "w" "rPr" [] [], el "w" "t" [] [.text "a"]]]] ∧
    s.pstep (.run 1 (.body 0) 0 fun x => { x with bold := true }) = .ok s' ∧
    savedXml s' 0 = some [el "w" "p" [] [el "w" "r" [] [el "w" "rPr" [] [el "w" "b" [] []], el "w" "t" [] [.text "a"]]]] :=
  ⟨_, _, rfl, rfl, rfl, rfl⟩

/-! ## The hypotheses are met -/

theorem appendA_fine : ∀ o ∈ appendA, o.Fine := by
  intro o ho
  simp only [appendA, List.mem_cons, List.not_mem_nil, or_false] at ho
  rcases ho with rfl | rfl | rfl | rfl | rfl <;> trivial

/-- A state as in `C63_append_shares_run`: the run has properties and `AppendFile` succeeds -/
example : ∃ s s' A p r, prun {} (appendA.take 4) = .ok s ∧ PReach s ∧ s.world[0]? = some A ∧ getPara A.items (.body 0) = some p ∧
    p.children[0]? = some (.run r) ∧ r.rpr = some ({} : RPr) ∧ s.pstep (.call (.append 1 0)) = .ok s' :=
  ⟨_, _, _, _, _, rfl, prun_reach (os := appendA.take 4) .start (fun o ho => appendA_fine o (List.mem_of_mem_take ho)) rfl, rfl, rfl, rfl, rfl, rfl⟩

/-- A state as in `C63_append_shares_table`: a table whose properties, rows and cells have properties -/
example : ∃ s s' A t, prun {} [.call .new, .call (.addTable 0 2 2 0 none), .call .new] = .ok s ∧ s.world[0]? = some A ∧
    A.items[0]? = some (.table t) ∧ t.props.isSome = true ∧ t.rows.all (fun r => r.props.isSome && r.cells.all (·.props.isSome)) = true ∧
    t.rows.length = 2 ∧ s.pstep (.call (.append 1 0)) = .ok s' :=
  ⟨_, _, _, _, rfl, rfl, rfl, rfl, rfl, rfl, rfl⟩

/-- Families: three documents, of which the second and the first are joined; `Bold` on the second leaves the
third as it was -/
example : ∃ s fam s', PHist s fam ∧ fam 2 ≠ fam 1 ∧ fam 0 = fam 1 ∧ s.world.length = 3 ∧
    s.pstep (.run 1 (.body 0) 0 fun x => { x with bold := true }) = .ok s' ∧ s'.world[2]? = s.world[2]? := by
  refine ⟨_, _, _, .step (o := .call (.append 1 0)) (.step (o := .call .new) (.step (o := .call .new) (.step (o := .call (.addText 0 (.body 0) "a"))
    (.step (o := .call (.addParagraph 0)) (.step (o := .call .new) .start trivial rfl) trivial rfl) trivial rfl) trivial rfl) trivial rfl) trivial rfl,
    ?_, rfl, rfl, rfl, rfl⟩
  decide

end

section
local instance shImgEnv : ImgEnv := ⟨fun _ => some (10, 20, "png")⟩

/-- The extent of the picture in the first run of a document, after a history that succeeds -/
def extentAfter (os : List POp) (d : DocId) : Option Ext :=
  match prun {} os with
  | .ok s =>
    (s.world[d]?).bind fun f => (getPara f.items (.body 0)).bind fun p => (p.children[0]?).bind fun
      | .run r => (r.children[0]?).bind fun
        | .drawing dr => dr.inl.bind (·.extent)
        | _ => none
      | _ => none
  | _ => none

/-- The drawings know the document they are in, as those of parsed files do (structdrawing.go:69, 76; pictures
that a call added cannot be copied, see C31) -/
def asParsed : List BItem → List BItem := List.map fun
  | .para p => .para { p with children := p.children.map fun
      | .run r => .run { r with children := r.children.map fun
          | .drawing d => .drawing { d with inl := d.inl.map fun i => { i with file := some 0 } }
          | c => c }
      | c => c }
  | x => x

/-- A document with a picture, and a second one it is appended to -/
def appendPic : List POp :=
  [.call .new, .call (.addParagraph 0), .call (.addInlineDrawing 0 (.body 0) [1]), .call (.edit 0 asParsed), .call .new,
    .call (.append 1 0)]

/-- `Size` called on the copy of a picture changes the size of the source -/
theorem C63_size_shared : (∃ x, extentAfter appendPic 0 = some x ∧ x.cx ≠ 7) ∧
    extentAfter (appendPic ++ [.size 1 (.body 0) 0 0 7 9]) 0 = some { cx := 7, cy := 9 } := by
  refine ⟨⟨{ cx := 2637155, cy := 5274310 }, ?_, by decide⟩, ?_⟩
  · decide +kernel
  · decide +kernel

end

end Docx
