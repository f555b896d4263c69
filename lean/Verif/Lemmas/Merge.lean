import Verif.Text

/-! # Lemmas about `MergeText` -/

namespace Docx

@[simp] theorem HRC.load_txt (h : Heap) (i : Nat) :
    (HRC.txt i).load h = .text (h.texts[i]?.getD {}) := by
  simp only [HRC.load]; cases h.texts[i]? <;> rfl
@[simp] theorem HRC.load_other (h : Heap) (c : RChild) : (HRC.other c).load h = c := rfl

/-- the text objects a list of run children points to -/
def refs (ks : List HRC) : List Nat := ks.filterMap fun | .txt i => some i | .other _ => none

/-- the children behind `other` are not texts -/
def Proper (ks : List HRC) : Prop := ∀ o, HRC.other o ∈ ks → ∀ t, o ≠ .text t

@[simp] theorem refs_nil : refs [] = [] := rfl
@[simp] theorem refs_txt (i : Nat) (ks) : refs (.txt i :: ks) = i :: refs ks := rfl
@[simp] theorem refs_other (c) (ks) : refs (.other c :: ks) = refs ks := rfl
@[simp] theorem refs_append (a b : List HRC) : refs (a ++ b) = refs a ++ refs b := by
  simp [refs]

/-! ## Frames: what is older than `n` texts and `m` runs stays as it is -/

/-- Texts below `n` and runs below `m` are the same in both heaps, and nothing is freed. -/
structure Frame (n m : Nat) (h h' : Heap) : Prop where
  texts : ∀ i, i < n → h'.texts[i]? = h.texts[i]?
  runs : ∀ i, i < m → h'.runs[i]? = h.runs[i]?
  tlen : h.texts.length ≤ h'.texts.length
  rlen : h.runs.length ≤ h'.runs.length

theorem Frame.refl (n m h) : Frame n m h h := ⟨fun _ _ => rfl, fun _ _ => rfl, Nat.le_refl _, Nat.le_refl _⟩

theorem Frame.trans {n m h1 h2 h3} (a : Frame n m h1 h2) (b : Frame n m h2 h3) : Frame n m h1 h3 :=
  ⟨fun i hi => (b.texts i hi).trans (a.texts i hi), fun i hi => (b.runs i hi).trans (a.runs i hi),
   Nat.le_trans a.tlen b.tlen, Nat.le_trans a.rlen b.rlen⟩

/-- Runs from `m` on point only to texts from `n` on. -/
def Fresh (n m : Nat) (h : Heap) : Prop := ∀ i, m ≤ i → ∀ x ∈ refs (h.kids i), n ≤ x

theorem frame_newText {n m h} (hn : n ≤ h.texts.length) : Frame n m h h.newText.1 := by
  refine ⟨?_, fun _ _ => rfl, ?_, Nat.le_refl _⟩
  · intro i hi
    simp only [Heap.newText]
    rw [List.getElem?_append_left (by omega)]
  · simp [Heap.newText]

theorem frame_addText {n m h i s} (hi : n ≤ i) : Frame n m h (h.addText i s) := by
  refine ⟨?_, fun _ _ => rfl, ?_, Nat.le_refl _⟩
  · intro j hj
    have : ¬ i = j := by omega
    simp [Heap.addText, this]
  · simp [Heap.addText]

theorem frame_pushKid {n m h i c} (hi : m ≤ i) : Frame n m h (h.pushKid i c) := by
  refine ⟨fun _ _ => rfl, ?_, Nat.le_refl _, ?_⟩
  · intro j hj
    have : ¬ i = j := by omega
    simp [Heap.pushKid, this]
  · simp [Heap.pushKid]

theorem frame_newRun {n m h r} (hm : m ≤ h.runs.length) : Frame n m h (h.newRun r).1 := by
  refine ⟨fun _ _ => rfl, ?_, Nat.le_refl _, ?_⟩
  · intro i hi
    simp only [Heap.newRun]
    rw [List.getElem?_append_left (by omega)]
  · simp [Heap.newRun]

theorem kids_newText (h : Heap) (i : Nat) : h.newText.1.kids i = h.kids i := rfl
theorem kids_addText (h : Heap) (j s) (i : Nat) : (h.addText j s).kids i = h.kids i := rfl

theorem kids_pushKid (h : Heap) (j : Nat) (c : HRC) (i : Nat) :
    (h.pushKid j c).kids i = if i = j ∧ i < h.runs.length then h.kids i ++ [c] else h.kids i := by
  unfold Heap.kids Heap.pushKid
  simp only [List.getElem?_modify]
  by_cases hij : j = i
  · subst hij
    by_cases hl : j < h.runs.length
    · simp [hl]
    · have : h.runs[j]? = none := by simp; omega
      simp [hl]
  · have : ¬ i = j := fun e => hij e.symm
    simp [hij, this]

theorem kids_newRun (h : Heap) (r : HRun) (i : Nat) :
    (h.newRun r).1.kids i = if i = h.runs.length then r.children else h.kids i := by
  unfold Heap.kids Heap.newRun
  by_cases hi : i = h.runs.length
  · subst hi; simp
  · simp only [hi, if_false]
    by_cases hl : i < h.runs.length
    · rw [List.getElem?_append_left hl]
    · rw [List.getElem?_eq_none (by simp; omega), List.getElem?_eq_none (by omega)]

theorem fresh_newText {n m h} (hf : Fresh n m h) : Fresh n m h.newText.1 := hf
theorem fresh_addText {n m h i s} (hf : Fresh n m h) : Fresh n m (h.addText i s) := hf

theorem fresh_pushKid {n m h i c} (hf : Fresh n m h) (hc : ∀ x ∈ refs [c], n ≤ x) :
    Fresh n m (h.pushKid i c) := by
  intro j hj x hx
  rw [kids_pushKid] at hx
  split at hx
  · rw [refs_append, List.mem_append] at hx
    rcases hx with hx | hx
    · exact hf j hj x hx
    · exact hc x hx
  · exact hf j hj x hx

theorem gather_frame {n m : Nat} : ∀ (cs : List HRC) (h : Heap) (t : Nat) (acc : List HRC),
    n ≤ t → n ≤ h.texts.length → (∀ x ∈ refs acc, n ≤ x) →
    Frame n m h (gather h t acc cs).1 ∧ n ≤ (gather h t acc cs).2.1 ∧
    (gather h t acc cs).1.runs = h.runs ∧ ∀ x ∈ refs (gather h t acc cs).2.2, n ≤ x := by
  intro cs
  induction cs with
  | nil =>
    intro h t acc ht hn ha
    unfold gather
    split
    · refine ⟨.refl .., ht, rfl, ?_⟩
      intro x hx; simp only [refs_append, refs_txt, refs_nil, List.mem_append, List.mem_singleton] at hx
      rcases hx with hx | rfl
      · exact ha x hx
      · exact ht
    · exact ⟨.refl .., ht, rfl, ha⟩
  | cons c cs ih =>
    intro h t acc ht hn ha
    cases c with
    | txt x =>
      simp only [gather]
      split
      · have hl : n ≤ (h.addText t (h.text x)).texts.length := by simpa [Heap.addText] using hn
        obtain ⟨a, b, c, d⟩ := ih (h.addText t (h.text x)) t acc ht hl ha
        exact ⟨(frame_addText ht).trans a, b, c, d⟩
      · exact ih h t acc ht hn ha
    | other o =>
      simp only [gather]
      split
      · have hl : n ≤ h.newText.1.texts.length := by simp [Heap.newText]; omega
        obtain ⟨a, b, c, d⟩ := ih h.newText.1 h.newText.2 (acc ++ [.txt t] ++ [.other o]) hn hl (by
          intro x hx
          simp only [refs_append, refs_txt, refs_other, refs_nil, List.mem_append, List.mem_singleton,
            List.not_mem_nil, or_false] at hx
          rcases hx with hx | rfl
          · exact ha x hx
          · exact ht)
        exact ⟨(frame_newText hn).trans a, b, c, d⟩
      · refine ih h t _ ht hn ?_
        intro x hx
        simp only [refs_append, refs_other, refs_nil, List.append_nil] at hx
        exact ha x hx

theorem mergeKids_frame {n m : Nat} : ∀ (cs : List HRC) (h : Heap) (prev t pt : Nat) (na : Bool),
    n ≤ t → n ≤ pt → m ≤ prev → n ≤ h.texts.length → Fresh n m h →
    Frame n m h (mergeKids h prev t pt na cs) ∧ Fresh n m (mergeKids h prev t pt na cs) := by
  intro cs
  induction cs with
  | nil =>
    intro h prev t pt na ht hpt hp hn hf
    unfold mergeKids
    split
    · exact ⟨frame_pushKid hp, fresh_pushKid hf (by simpa using ht)⟩
    · exact ⟨.refl .., hf⟩
  | cons c cs ih =>
    intro h prev t pt na ht hpt hp hn hf
    cases c with
    | txt x =>
      simp only [mergeKids]
      split
      · have hl : n ≤ (h.addText pt (h.text x)).texts.length := by simpa [Heap.addText] using hn
        obtain ⟨a, b⟩ := ih (h.addText pt (h.text x)) prev t pt na ht hpt hp hl (fresh_addText hf)
        exact ⟨(frame_addText hpt).trans a, b⟩
      · exact ih h prev t pt na ht hpt hp hn hf
    | other o =>
      simp only [mergeKids]
      split
      · obtain ⟨h1, e1, f1, g1, l1⟩ : ∃ h1, (if na then h else h.pushKid prev (.txt t)) = h1 ∧
            Frame n m h h1 ∧ Fresh n m h1 ∧ n ≤ h1.texts.length := by
          cases na
          · exact ⟨_, rfl, frame_pushKid hp, fresh_pushKid hf (by simpa using ht), hn⟩
          · exact ⟨_, rfl, .refl .., hf, hn⟩
        rw [e1]
        have hl : n ≤ (h1.newText.1.pushKid prev (.other o)).texts.length := by
          simp [Heap.newText, Heap.pushKid]; omega
        obtain ⟨a, b⟩ := ih (h1.newText.1.pushKid prev (.other o)) prev t h1.newText.2 false ht l1 hp hl
          (fresh_pushKid (fresh_newText g1) (by simp))
        exact ⟨f1.trans ((frame_newText l1).trans ((frame_pushKid hp).trans a)), b⟩
      · have hl : n ≤ (h.pushKid prev (.other o)).texts.length := hn
        obtain ⟨a, b⟩ := ih (h.pushKid prev (.other o)) prev t pt na ht hpt hp hl
          (fresh_pushKid hf (by simp))
        exact ⟨(frame_pushKid hp).trans a, b⟩

theorem mergeInto_frame {n m : Nat} (h : Heap) (prev t : Nat) (kids : List HRC) (ht : n ≤ t)
    (hp : m ≤ prev) (hn : n ≤ h.texts.length) (hf : Fresh n m h) :
    Frame n m h (mergeInto h prev t kids) ∧ Fresh n m (mergeInto h prev t kids) := by
  unfold mergeInto
  split
  · rename_i i hl
    refine mergeKids_frame kids h prev t i true ht ?_ hp hn hf
    refine hf prev hp i ?_
    have := List.mem_of_getLast? hl
    exact List.mem_filterMap.2 ⟨_, this, rfl⟩
  · obtain ⟨a, b⟩ := mergeKids_frame (n := n) (m := m) kids h.newText.1 prev t h.newText.2 false ht hn hp
      (by simp [Heap.newText]; omega) (fresh_newText hf)
    exact ⟨(frame_newText hn).trans a, b⟩

theorem mergeLoop_frame {n m : Nat} (rule : MergeRule) : ∀ (cs : List HPC) (h : Heap) (prev : Option Nat)
    (acc : List HPC), (∀ p, prev = some p → m ≤ p) → n ≤ h.texts.length → m ≤ h.runs.length →
    Fresh n m h → Frame n m h (mergeLoop rule h prev acc cs).1 := by
  intro cs
  induction cs with
  | nil => intro h prev acc _ _ _ _; exact .refl ..
  | cons c cs ih =>
    intro h prev acc hp hn hm hf
    cases c with
    | other o => simp only [mergeLoop]; exact ih h prev _ hp hn hm hf
    | run o =>
      simp only [mergeLoop]
      split
      · exact .refl ..
      · rename_i ro hro
        have hl : n ≤ h.newText.1.texts.length := by simp [Heap.newText]; omega
        obtain ⟨g1, g2, g3, g4⟩ := gather_frame (n := n) (m := m) ro.children h.newText.1 h.newText.2 []
          hn hl (by simp)
        generalize hg : gather h.newText.1 h.newText.2 [] ro.children = g at g1 g2 g3 g4
        obtain ⟨h2, t, kids⟩ := g
        simp only at g1 g2 g3 g4 ⊢
        have f2 : Frame n m h h2 := (frame_newText hn).trans g1
        have hn2 : n ≤ h2.texts.length := Nat.le_trans hn f2.tlen
        have hm2 : m ≤ h2.runs.length := Nat.le_trans hm f2.rlen
        have hf2 : Fresh n m h2 := by
          intro i hi x hx
          refine hf i hi x ?_
          have : h2.kids i = h.kids i := by unfold Heap.kids; rw [g3]; rfl
          rw [this] at hx; exact hx
        have hnr : ∀ r : HRun, (∀ x ∈ refs r.children, n ≤ x) → Fresh n m (h2.newRun r).1 := by
          intro r hr i hi x hx
          rw [kids_newRun] at hx
          split at hx
          · exact hr x hx
          · exact hf2 i hi x hx
        split
        · rename_i pr
          split
          · obtain ⟨a, b⟩ := mergeInto_frame h2 pr t kids g2 (hp pr rfl) hn2 hf2
            exact (f2.trans a).trans (ih _ _ _ hp (Nat.le_trans hn2 a.tlen) (Nat.le_trans hm2 a.rlen) b)
          · refine (f2.trans (frame_newRun hm2)).trans (ih _ _ _ ?_ hn2 ?_ (hnr _ g4))
            · intro p hp; cases hp; exact hm2
            · exact Nat.le_trans hm2 (frame_newRun (n := n) hm2).rlen
        · refine (f2.trans (frame_newRun hm2)).trans (ih _ _ _ ?_ hn2 ?_ (hnr _ g4))
          · intro p hp; cases hp; exact hm2
          · exact Nat.le_trans hm2 (frame_newRun (n := n) hm2).rlen

/-! ## Putting a paragraph on the heap -/

theorem load_txt_append {h : Heap} {ts : List Text} {rs : List HRun} {c : HRC}
    (hc : ∀ x ∈ refs [c], x < h.texts.length) :
    c.load ⟨h.texts ++ ts, rs⟩ = c.load h := by
  cases c with
  | other c => rfl
  | txt i =>
    have : i < h.texts.length := by simpa using hc
    simp only [HRC.load_txt]
    rw [List.getElem?_append_left this]

theorem allocRChildren_spec : ∀ (cs : List RChild) (h : Heap),
    ∃ ts, (allocRChildren h cs).1 = { h with texts := h.texts ++ ts } ∧
      (∀ x ∈ refs (allocRChildren h cs).2, h.texts.length ≤ x ∧ x < h.texts.length + ts.length) ∧
      (allocRChildren h cs).2.map (·.load (allocRChildren h cs).1) = cs ∧
      Proper (allocRChildren h cs).2 := by
  intro cs
  induction cs with
  | nil => intro h; exact ⟨[], by simp [allocRChildren], by simp [allocRChildren], rfl, by simp [allocRChildren, Proper]⟩
  | cons c cs ih =>
    intro h
    have other : ∀ c, (∀ t, c ≠ RChild.text t) → ∃ ts, (allocRChildren h (c :: cs)).1 = { h with texts := h.texts ++ ts } ∧
      (∀ x ∈ refs (allocRChildren h (c :: cs)).2, h.texts.length ≤ x ∧ x < h.texts.length + ts.length) ∧
      (allocRChildren h (c :: cs)).2.map (·.load (allocRChildren h (c :: cs)).1) = c :: cs ∧
      Proper (allocRChildren h (c :: cs)).2 := by
      intro c hc
      obtain ⟨ts, h1, h2, h3, h4⟩ := ih h
      have e : allocRChildren h (c :: cs) = ((allocRChildren h cs).1, .other c :: (allocRChildren h cs).2) := by
        cases c with
        | text t => exact absurd rfl (hc t)
        | _ => rfl
      rw [e]
      refine ⟨ts, h1, ?_, ?_, ?_⟩
      · simpa using h2
      · simp only [List.map_cons, h3, HRC.load_other]
      · intro o ho
        simp only [List.mem_cons, HRC.other.injEq] at ho
        rcases ho with rfl | ho
        · exact hc
        · exact h4 o ho
    cases c with
    | text t =>
      obtain ⟨ts, h1, h2, h3, h4⟩ := ih { h with texts := h.texts ++ [t] }
      refine ⟨t :: ts, ?_, ?_, ?_, ?_⟩
      · simp only [allocRChildren]; rw [h1]; simp
      · intro x hx
        simp only [allocRChildren, refs_txt, List.mem_cons] at hx
        rcases hx with rfl | hx
        · simp
        · have := h2 x hx; simp at this ⊢; omega
      · simp only [allocRChildren, List.map_cons, h3, HRC.load_txt]
        rw [h1]
        simp
      · intro o ho
        simp only [allocRChildren, List.mem_cons, reduceCtorEq, false_or] at ho
        exact h4 o ho
    | tab t => exact other _ (by simp)
    | br t => exact other _ (by simp)
    | drawing t => exact other _ (by simp)

@[simp] theorem HPC.load_other (h : Heap) (c : PChild) : (HPC.other c).load h = c := rfl
@[simp] theorem HPC.load_run (h : Heap) (i : Nat) : (HPC.run i).load h = .run (h.loadRun i) := rfl

/-- what a pointer of a paragraph is when its objects are allocated -/
def HPC.Ok (h : Heap) : HPC → Prop
  | .other _ => True
  | .run i => i < h.runs.length ∧ (∀ x ∈ refs (h.kids i), x < h.texts.length) ∧ Proper (h.kids i)

theorem HPC.load_mono {h h' : Heap} {c : HPC} (hc : c.Ok h)
    (ht : ∀ i, i < h.texts.length → h'.texts[i]? = h.texts[i]?)
    (hr : ∀ i, i < h.runs.length → h'.runs[i]? = h.runs[i]?) : c.load h' = c.load h := by
  cases c with
  | other c => rfl
  | run i =>
    obtain ⟨h1, h2, h3⟩ := hc
    simp only [HPC.load, Heap.loadRun, hr i h1]
    cases hri : h.runs[i]? with
    | none => rfl
    | some r =>
      simp only [HRun.load, PChild.run.injEq, Run.mk.injEq, true_and]
      refine List.map_congr_left ?_
      intro k hk
      cases k with
      | other c => rfl
      | txt j =>
        simp only [HRC.load_txt]
        rw [ht j (h2 j ?_)]
        simp only [Heap.kids, hri]
        exact List.mem_filterMap.2 ⟨_, hk, rfl⟩

theorem HPC.ok_mono {h h' : Heap} {c : HPC} (hc : c.Ok h)
    (ht : h.texts.length ≤ h'.texts.length) (hl : h.runs.length ≤ h'.runs.length)
    (hr : ∀ i, i < h.runs.length → h'.runs[i]? = h.runs[i]?) : c.Ok h' := by
  cases c with
  | other c => trivial
  | run i =>
    obtain ⟨h1, h2, h3⟩ := hc
    have : h'.kids i = h.kids i := by unfold Heap.kids; rw [hr i h1]
    refine ⟨by omega, ?_, this ▸ h3⟩
    intro x hx
    rw [this] at hx
    have := h2 x hx
    omega

theorem allocPChildren_spec : ∀ (cs : List PChild) (h : Heap),
    (∃ ts rs, (allocPChildren h cs).1 = ⟨h.texts ++ ts, h.runs ++ rs⟩) ∧
    (∀ c ∈ (allocPChildren h cs).2, c.Ok (allocPChildren h cs).1) ∧
    (allocPChildren h cs).2.map (·.load (allocPChildren h cs).1) = cs := by
  intro cs
  induction cs with
  | nil => intro h; exact ⟨⟨[], [], by simp [allocPChildren]⟩, by simp [allocPChildren], rfl⟩
  | cons c cs ih =>
    intro h
    have other : ∀ c, (∀ r, c ≠ PChild.run r) →
        (∃ ts rs, (allocPChildren h (c :: cs)).1 = ⟨h.texts ++ ts, h.runs ++ rs⟩) ∧
        (∀ x ∈ (allocPChildren h (c :: cs)).2, x.Ok (allocPChildren h (c :: cs)).1) ∧
        (allocPChildren h (c :: cs)).2.map (·.load (allocPChildren h (c :: cs)).1) = c :: cs := by
      intro c hc
      obtain ⟨h1, h2, h3⟩ := ih h
      have e : allocPChildren h (c :: cs) = ((allocPChildren h cs).1, .other c :: (allocPChildren h cs).2) := by
        cases c with
        | run t => exact absurd rfl (hc t)
        | _ => rfl
      rw [e]
      refine ⟨h1, ?_, ?_⟩
      · intro x hx
        simp only [List.mem_cons] at hx
        rcases hx with rfl | hx
        · trivial
        · exact h2 x hx
      · simp only [List.map_cons, h3, HPC.load_other]
    cases c with
    | link t => exact other _ (by simp)
    | rpr t => exact other _ (by simp)
    | run r =>
      obtain ⟨ts, a1, a2, a3, a4⟩ := allocRChildren_spec r.children h
      simp only [allocPChildren]
      generalize hg : allocRChildren h r.children = g at a1 a2 a3 a4
      obtain ⟨h1, kids⟩ := g
      simp only at a1 a2 a3 a4 ⊢
      obtain ⟨⟨ts', rs', b1⟩, b2, b3⟩ := ih (h1.newRun ⟨r.space, r.rpr, r.instr, kids⟩).1
      generalize hg2 : allocPChildren (h1.newRun ⟨r.space, r.rpr, r.instr, kids⟩).1 cs = g2 at b1 b2 b3
      obtain ⟨h3, l⟩ := g2
      simp only at b1 b2 b3 ⊢
      have hruns : h3.runs = h.runs ++ (⟨r.space, r.rpr, r.instr, kids⟩ :: rs') := by
        rw [b1, a1]; simp [Heap.newRun]
      have htexts : h3.texts = h.texts ++ (ts ++ ts') := by
        rw [b1, a1]; simp [Heap.newRun]
      have hi : h3.runs[h1.runs.length]? = some ⟨r.space, r.rpr, r.instr, kids⟩ := by
        rw [hruns, a1]; simp
      have hk : h3.kids h1.runs.length = kids := by simp [Heap.kids, hi]
      refine ⟨⟨ts ++ ts', ⟨r.space, r.rpr, r.instr, kids⟩ :: rs', by cases h3; simp only at hruns htexts; rw [hruns, htexts]⟩, ?_, ?_⟩
      · intro c hc
        simp only [List.mem_cons] at hc
        rcases hc with rfl | hc
        · refine ⟨?_, ?_, by simp only [Heap.newRun]; rw [hk]; exact a4⟩
          · simp only [Heap.newRun]; rw [hruns, a1]; simp
          · intro x hx
            simp only [Heap.newRun] at hx
            rw [hk] at hx
            have := a2 x hx
            rw [htexts]; simp; omega
        · exact b2 c hc
      · simp only [List.map_cons, b3, HPC.load_run, Heap.newRun, Heap.loadRun, hi, HRun.load]
        congr 2
        have : kids.map (·.load h3) = kids.map (·.load h1) := by
          refine List.map_congr_left ?_
          intro k hk
          have e3 : h3 = ⟨h1.texts ++ ts', h3.runs⟩ := by cases h3; simp_all
          rw [e3]
          refine load_txt_append ?_
          intro x hx
          have hx' : x ∈ refs kids := by
            cases k with
            | other c => simp at hx
            | txt j =>
              simp only [refs_txt, refs_nil, List.mem_singleton] at hx
              subst hx
              exact List.mem_filterMap.2 ⟨_, hk, rfl⟩
          have := a2 x hx'
          rw [a1]; simp; omega
        rw [this, a3]
        cases r; rfl

end Docx
