import Verif.Props.Api

/-! # C14, C15: setters -/

namespace Docx

/-! ## C14 -/

/-- **C14, runs.** A run setter makes its own property equal to its argument and leaves every other
property, the children and all else of the run as they were. -/
theorem C14_run_setter (s : RSetter) (r r' : Run) (h : s.apply r = .ok r') :
    ∃ p p', r.rpr = some p ∧ r' = { r with rpr := some p' } ∧ p'.get s.field = s.value ∧
      ∀ φ, φ ≠ s.field → p'.get φ = p.get φ := by
  cases s <;>
    simp only [RSetter.apply, Run.setColor, Run.setSize, Run.setSizeCs, Run.setShade, Run.setSpacing,
      Run.setBold, Run.setItalic, Run.setUnderline, Run.setHighlight, Run.setStrike, Run.setFont,
      Run.setProp] at h <;>
    (split at h
     · simp at h
     · rename_i p hp
       simp only [Res.ok.injEq] at h
       refine ⟨p, _, hp, h.symm, rfl, ?_⟩
       intro φ hφ
       cases φ <;> first | rfl | exact absurd rfl hφ)

/-- **C14, chains.** After any chain of run setters every property has the value of the last setter
for it in the chain, or its old value if there is none; the rest of the run is unchanged. -/
theorem C14_run_chain (ss : List RSetter) (r r' : Run) (p : RPr) (hp : r.rpr = some p)
    (h : RSetter.chain ss r = .ok r') :
    ∃ p', r' = { r with rpr := some p' } ∧
      ∀ φ, p'.get φ = ((RSetter.last φ ss).getD (p.get φ)) := by
  induction ss generalizing r p with
  | nil =>
    simp only [RSetter.chain, Res.ok.injEq] at h
    subst h
    exact ⟨p, by cases r; simp_all, fun φ => rfl⟩
  | cons s ss ih =>
    simp only [RSetter.chain] at h
    split at h
    · rename_i r1 h1
      obtain ⟨p0, p1, e0, e1, e2, e3⟩ := C14_run_setter s r r1 h1
      rw [hp] at e0; obtain rfl := Option.some.inj e0
      obtain ⟨p', e4, e5⟩ := ih r1 p1 (by rw [e1]) h
      refine ⟨p', by rw [e4, e1], ?_⟩
      intro φ
      rw [e5 φ]
      unfold RSetter.last
      rw [List.reverse_cons, List.find?_append]
      cases hf : ss.reverse.find? (fun s => s.field = φ) with
      | some x => simp
      | none =>
        by_cases he : s.field = φ
        · subst he; simp [e2]
        · have : List.find? (fun s => decide (s.field = φ)) [s] = none := by simp [he]
          rw [this]
          simp [e3 φ (Ne.symm he)]
    · simp at h
    · simp at h

/-- **C14, paragraphs.** A paragraph setter makes its own property equal to its argument (creating the
property set if needed) and leaves every other property, the children, the document it belongs to and
its text as they were. -/
theorem C14_para_setter [HashEnv] (s : PSetter) (p : Para) :
    (s.apply p).get s.field = s.value ∧ (∀ φ, φ ≠ s.field → (s.apply p).get φ = p.get φ) ∧
    (s.apply p).children = p.children ∧ (s.apply p).file = p.file ∧
    ∀ w, (s.apply p).str w = p.str w := by
  obtain ⟨props, children, file⟩ := p
  cases s <;> refine ⟨rfl, ?_, rfl, rfl, fun _ => rfl⟩ <;> intro φ hφ <;>
    cases props with
    | none =>
      cases φ with
      | rp ψ => cases ψ <;> first | rfl | exact absurd rfl hφ
      | _ => first | rfl | exact absurd rfl hφ
    | some pp =>
      obtain ⟨_, _, _, _, _, _, _, _, _, _, _, _, _, rpr⟩ := pp
      cases φ with
      | rp ψ => cases rpr <;> cases ψ <;> first | rfl | exact absurd rfl hφ
      | _ => first | rfl | exact absurd rfl hφ

/-- A second call of a paragraph setter for the same property overrides the first. -/
theorem C14_para_overrides (s s' : PSetter) (p : Para) (h : s'.field = s.field) :
    ∀ φ, (s'.apply (s.apply p)).get φ = (s'.apply p).get φ := by
  intro φ
  have : HashEnv := hashEnv
  by_cases e : φ = s'.field
  · subst e
    rw [(C14_para_setter s' _).1, (C14_para_setter s' _).1]
  · rw [(C14_para_setter s' _).2.1 φ e, (C14_para_setter s' _).2.1 φ e,
      (C14_para_setter s p).2.1 φ (h ▸ e)]

/-- **C14, tables.** `Justification` of a table sets the alignment and nothing else, and panics exactly
on a table without properties. -/
theorem C14_table (t : Table) (v : String) :
    (∀ p, t.props = some p →
      ∃ p' t', t.justification v = .ok t' ∧ t' = { t with props := some p' } ∧ p'.jc = some v ∧
        { p' with jc := p.jc } = p) ∧
    (t.props = none → t.justification v = .panic) := by
  constructor
  · intro p hp
    refine ⟨{ p with jc := some v }, _, ?_, rfl, rfl, rfl⟩
    simp [Table.justification, hp]
  · intro hp; simp [Table.justification, hp]

/-- **C14, rows.** The same for a row. -/
theorem C14_row (t : Row) (v : String) :
    (∀ p, t.props = some p →
      ∃ p' t', t.justification v = .ok t' ∧ t' = { t with props := some p' } ∧ p'.jc = some v ∧
        { p' with jc := p.jc } = p) ∧
    (t.props = none → t.justification v = .panic) := by
  constructor
  · intro p hp
    refine ⟨{ p with jc := some v }, _, ?_, rfl, rfl, rfl⟩
    simp [Row.justification, hp]
  · intro hp; simp [Row.justification, hp]

/-- **C14, cells.** The same for the shade of a cell. -/
theorem C14_cell (c : Cell) (val color fill : String) :
    (∀ p, c.props = some p →
      ∃ p' c', c.setShade val color fill = .ok c' ∧ c' = { c with props := some p' } ∧
        p'.shade = some { val := val, color := color, fill := fill } ∧ { p' with shade := p.shade } = p) ∧
    (c.props = none → c.setShade val color fill = .panic) := by
  constructor
  · intro p hp
    refine ⟨{ p with shade := some { val := val, color := color, fill := fill } }, _, ?_, rfl, rfl, rfl⟩
    simp [Cell.setShade, hp]
  · intro hp; simp [Cell.setShade, hp]

example : ∃ r' p', RSetter.chain [.color "red", .bold, .size "20", .color "blue"]
      (({} : Para).addText "x").2 = .ok r' ∧ r'.rpr = some p' ∧ p'.get .color = .str "blue" ∧
      p'.get .bold = .flag ∧ p'.get .size = .str "20" ∧ p'.get .italic = .absent :=
  ⟨_, _, rfl, rfl, by decide, by decide, by decide, by decide⟩

example : ((({} : Para).justification "center").setStyle "1").get .jc = .str "center" := by decide

/-! ## C15 -/

/-- The runs handed out by the library when it builds content. -/
inductive Built [ImgEnv] : Run → Prop where
  | text (p : Para) (s : String) : Built (p.addText s).2
  | tab (p : Para) : Built p.addTab.2
  | pageBreak (p : Para) : Built p.addPageBreaks.2
  | link (p : Para) (f : Doc) (t l : String) : Built (p.addLink f t l).2.2.run
  | inlineDrawing (p : Para) (f : Doc) (pic : Bytes) (f' p' r) :
      p.addInlineDrawing f pic = (f', p', .ok r) → Built r
  | anchorDrawing (p : Para) (f : Doc) (pic : Bytes) (f' p' r) :
      p.addAnchorDrawing f pic = (f', p', .ok r) → Built r
  | inlineShape (p : Para) (f : Doc) (w h n b pr ln) : Built (p.addInlineShape f w h n b pr ln).2.2
  | anchorShape (p : Para) (f : Doc) (w h n b pr ln) : Built (p.addAnchorShape f w h n b pr ln).2.2

theorem built_rpr [ImgEnv] {r : Run} (h : Built r) : ∃ p, r.rpr = some p := by
  cases h with
  | text p s => unfold Para.addText; split <;> exact ⟨_, rfl⟩
  | tab p => exact ⟨_, rfl⟩
  | pageBreak p => exact ⟨_, rfl⟩
  | link p f t l => exact ⟨_, rfl⟩
  | inlineDrawing p f pic f' p' r h =>
    unfold Para.addInlineDrawing at h
    split at h <;> simp only [Res.ok.injEq, Prod.mk.injEq, reduceCtorEq, and_false] at h
    rw [← h.2.2]; exact ⟨_, rfl⟩
  | anchorDrawing p f pic f' p' r h =>
    unfold Para.addAnchorDrawing at h
    split at h <;> simp only [Res.ok.injEq, Prod.mk.injEq, reduceCtorEq, and_false] at h
    rw [← h.2.2]; exact ⟨_, rfl⟩
  | inlineShape p f w h n b pr ln => exact ⟨_, rfl⟩
  | anchorShape p f w h n b pr ln => exact ⟨_, rfl⟩

/-- A setter panics exactly when the run has no property set, and never returns an error. -/
theorem C15_panics_iff (s : RSetter) (r : Run) :
    (r.rpr = none → s.apply r = .panic) ∧ (r.rpr ≠ none → ∃ r', s.apply r = .ok r') := by
  cases s <;>
    (simp only [RSetter.apply, Run.setColor, Run.setSize, Run.setSizeCs, Run.setShade, Run.setSpacing,
      Run.setBold, Run.setItalic, Run.setUnderline, Run.setHighlight, Run.setStrike, Run.setFont,
      Run.setProp]
     cases r.rpr with
     | none => exact ⟨fun _ => rfl, fun h => absurd rfl h⟩
     | some p => exact ⟨fun h => (by simp at h), fun _ => ⟨_, rfl⟩⟩)

/-- **C15.** Any chain of setters on a run built by the library returns normally. -/
theorem C15_built_runs_never_panic [ImgEnv] (r : Run) (h : Built r) (ss : List RSetter) :
    ∃ r', RSetter.chain ss r = .ok r' := by
  obtain ⟨p, hp⟩ := built_rpr h
  clear h
  induction ss generalizing r p with
  | nil => exact ⟨r, rfl⟩
  | cons s ss ih =>
    obtain ⟨r1, h1⟩ := (C15_panics_iff s r).2 (by rw [hp]; simp)
    obtain ⟨_, p1, _, e1, _, _⟩ := C14_run_setter s r r1 h1
    simp only [RSetter.chain, h1]
    exact ih r1 p1 (by rw [e1])

/-- **C15.** On a run without properties every non-empty chain of setters panics. -/
theorem C15_no_rpr_panics (r : Run) (h : r.rpr = none) (ss : List RSetter) (hs : ss ≠ []) :
    RSetter.chain ss r = .panic := by
  cases ss with
  | nil => exact absurd rfl hs
  | cons s ss => simp [RSetter.chain, (C15_panics_iff s r).1 h]

example : @Built pngEnv (({} : Para).addText "x").2 := @Built.text pngEnv _ _
example : ({ children := [.text { text := "parsed" }] } : Run).rpr = none := rfl

end Docx
