import Verif.SpecAnySessions
import Verif.Props.AnyText

/-!
# C87 in programs that open, change, save and open again
-/

namespace Docx

set_option linter.unusedSectionVars false

section

variable [GoEnv] [ImgEnv]

/-- What has a number as id after cleaning had it before. -/
theorem clean_number {id : String} (h : GoodId (clean id)) : clean id = id := by
  obtain ⟨n, ⟨ds, _, h2, h3, _⟩, _⟩ := h
  refine (clean_iff _).2 ?_
  intro c hc
  have hm : cleanChar c ∈ (clean id).toList := by
    simp only [clean, String.toList_ofList]
    exact List.mem_map.2 ⟨c, hc, rfl⟩
  rw [h3] at hm
  by_cases hx : xmlChar c = true
  · exact hx
  · exfalso
    have : cleanChar c = '�' := by simp [cleanChar, hx]
    rw [this] at hm
    simp only [List.mem_cons] at hm
    rcases hm with hm | hm | hm | hm
    · exact absurd hm (by decide)
    · exact absurd hm (by decide)
    · exact absurd hm (by decide)
    · exact absurd (h2 _ hm) (by decide)

/-- What opening gives of any document that was saved -/
theorem reopen_any {f : Doc} {out : Saved} {me : DocId} {g : Doc} (hs : Saves f out none)
    (hg : unpack me (reread out) = (g, none)) :
    (∀ r ∈ f.rels, clean r.id = r.id) ∧ g.rels = f.rels.map clRel ∧
      bodyTexts g.items = cleanTexts (bodyTexts f.items) := by
  have h1 : (unpack me (reread out)).2 = none := by rw [hg]
  have h2 := (C87_exactly f out hs me).1 h1
  have h3 : ∀ r ∈ f.rels, clean r.id = r.id := fun r hr => clean_number (h2 r hr)
  obtain ⟨g', hg', h4, _, _, h5, _⟩ := C87_opens f out hs (fun r hr => by rw [← h3 r hr]; exact h2 r hr) me
  rw [hg] at hg'
  obtain ⟨rfl, _⟩ := Prod.mk.inj hg'
  exact ⟨h3, h4, h5⟩

theorem refer_clean {id : String} : ∀ {rs : List Rel}, (∀ r ∈ rs, clean r.id = r.id) →
    referTarget id (rs.map clRel) = (referTarget id rs).map clean
  | [], _ => rfl
  | r :: rs, h => by
    simp only [List.map_cons, referTarget, clRel, h r (by simp)]
    split
    · rfl
    · exact refer_clean fun r hr => h r (by simp [hr])

theorem ids_clean {rs : List Rel} (h : ∀ r ∈ rs, clean r.id = r.id) :
    (rs.map clRel).map (·.id) = rs.map (·.id) := by
  rw [List.map_map]
  exact List.map_congr_left fun r hr => h r hr

/-- Opening the saved file does not put the counter higher. -/
theorem counter_any {f : Doc} {out : Saved} {me : DocId} {g : Doc}
    (hs : Saves f out none) (hg : unpack me (reread out) = (g, none)) (hn : NumbersBelow f) :
    NumbersBelow g ∧ g.rID.toNat ≤ f.rID.toNat := by
  obtain ⟨hid, hr, _⟩ := reopen_any hs hg
  obtain ⟨g', h1, rfl⟩ := unpack_ok hg
  have hm : relsName ∈ (reread out).map (·.name) := by
    rw [reread_names]; exact (C49_exactly f out hs _).2 (.inr (.inr (.inl rfl)))
  have hsc := unpackAll_counter (by rw [reread_names]; exact C49_distinct f out none hs) hm h1
  obtain ⟨_, a2, a3⟩ := scanIds_max _ _ _ hsc
  refine ⟨a2, ?_⟩
  rcases a3 with a3 | ⟨r, hr', a3⟩
  · have : g'.rID = 0 := a3
    show g'.rID.toNat ≤ _
    rw [this]; exact Nat.zero_le _
  · have hr2 : r ∈ f.rels.map clRel := by rw [← hr]; exact hr'
    obtain ⟨r0, h0, rfl⟩ := List.mem_map.1 hr2
    refine hn r0 h0 _ ?_
    have : (clRel r0).id = r0.id := hid r0 h0
    rw [← this]; exact a3

theorem LaterAny.rel {w w' : World} {d d' : DocId} (h : LaterAny w d w' d') {f : Doc} (hf : w[d]? = some f)
    (R : Doc → Prop) (h0 : R f)
    (hc : ∀ g g', R g → Evo g g' → R g')
    (hr : ∀ g g' out me, R g → Saves g out none → unpack me (reread out) = (g', none) → R g') :
    ∃ f', w'[d']? = some f' ∧ R f' := by
  induction h with
  | same => exact ⟨f, hf, h0⟩
  | action _ ha ih =>
    obtain ⟨g, hg, hR⟩ := ih
    obtain ⟨g', hg', e, _⟩ := action_old ha hg
    exact ⟨g', hg', hc g g' hR e⟩
  | reopened _ hr' ih =>
    obtain ⟨g, hg, hR⟩ := ih
    obtain ⟨g1, out, h1, h3, h4⟩ := hr'
    rw [hg] at h1; obtain rfl := Option.some.inj h1
    exact ⟨_, by simp, hr _ _ _ _ hR h3 h4⟩

/-- **C87, links.** Whatever strings are in a document, whatever is called, and however often it is saved
and opened again: an id goes on standing for its target, from the first reopening on with the characters
that XML cannot carry replaced. -/
theorem C87_links (w w' : World) (d d' : DocId) (h : LaterAny w d w' d') (f : Doc) (hf : w[d]? = some f)
    (id t : String) (ht : f.referTarget id = some t) :
    ∃ f', w'[d']? = some f' ∧ (f'.referTarget id = some t ∨ f'.referTarget id = some (clean t)) := by
  refine h.rel hf (fun g => g.referTarget id = some t ∨ g.referTarget id = some (clean t)) (.inl ht) ?_ ?_
  · intro g g' hg e
    exact hg.imp e.resolves e.resolves
  · intro g g' out me hg hs hu
    obtain ⟨h1, h2, _⟩ := reopen_any hs hu
    right
    unfold Doc.referTarget at hg ⊢
    rw [h2, refer_clean h1]
    rcases hg with hg | hg
    · rw [hg]; rfl
    · rw [hg]
      exact congrArg some ((clean_iff _).2 (xmlText_clean t))

/-- **C87, ids.** If the ids of a document are different and not above the counter (as in every new and
every opened document, `C73_new` and `C73_opened`), then they stay different, whatever its strings are. -/
theorem C87_ids (w w' : World) (d d' : DocId) (h : LaterAny w d w' d') (f f' : Doc)
    (hf : w[d]? = some f) (hf' : w'[d']? = some f') (hu : (seenIds f).Nodup) (hn : NumbersBelow f)
    (hroom : f.rID.toNat + (f'.rels.length - f.rels.length) < 2 ^ 63) :
    (seenIds f').Nodup ∧ NumbersBelow f' := by
  rw [seenIds_eq] at hu ⊢
  obtain ⟨g, hg, hle, hR⟩ := h.rel hf (fun g => f.rels.length ≤ g.rels.length ∧
      (f.rID.toNat + (g.rels.length - f.rels.length) < 2 ^ 63 → (g.rels.map (·.id)).Nodup ∧
        NumbersBelow g ∧ g.rID.toNat ≤ f.rID.toNat + (g.rels.length - f.rels.length)))
    ⟨Nat.le_refl _, fun _ => ⟨hu, hn, by omega⟩⟩
    (by
      intro g g' ⟨hle, hR⟩ e
      have hle' := e.rels_le
      refine ⟨Nat.le_trans hle hle', fun hb => ?_⟩
      obtain ⟨r1, r2, r3⟩ := hR (by omega)
      obtain ⟨a, b, c⟩ := evo_numbers e r1 r2 (by omega)
      exact ⟨a, b, by omega⟩)
    (by
      intro g g' out me ⟨hle, hR⟩ hs hu'
      obtain ⟨h1, h2, _⟩ := reopen_any hs hu'
      have hlen : g'.rels.length = g.rels.length := by rw [h2, List.length_map]
      rw [hlen]
      refine ⟨hle, fun hb => ?_⟩
      obtain ⟨r1, r2, r3⟩ := hR hb
      obtain ⟨a, b⟩ := counter_any hs hu' r2
      exact ⟨by rw [h2, ids_clean h1]; exact r1, a, by omega⟩)
  rw [hf'] at hg; obtain rfl := Option.some.inj hg
  obtain ⟨a, b, _⟩ := hR hroom
  exact ⟨a, b⟩

end

/-! ## Case -/

local instance anySessionsEnv : GoEnv := ⟨fun _ => none, fun _ => false, fun _ => false⟩
local instance anySessionsImg : ImgEnv := ⟨fun _ => none⟩

/-- A link with a control character in its target, saved and opened again: the id stands for the target with
U+FFFD.  The hypotheses of the theorems are met. -/
example : ∃ (w w' : World) (f f' : Doc) (d' : DocId), w[0]? = some f ∧ LaterAny w 0 w' d' ∧ d' ≠ 0 ∧
    w'[d']? = some f' ∧ (seenIds f).Nodup ∧ NumbersBelow f ∧
    f.rID.toNat + (f'.rels.length - f.rels.length) < 2 ^ 63 ∧
    f.referTarget "rId4" = some "http://x/\u0002" ∧ f'.referTarget "rId4" = some "http://x/\uFFFD" := by
  have key : (match run [] oddCalls with
    | .ok [f] => f.referTarget "rId4" == some "http://x/\u0002" && (f.tmpfslst == [] && f.media.length == 0) &&
        (f.rels.map (·.id) == ["rId1", "rId2", "rId3", "rId4"] && f.rID == 4) &&
        ((scanIds 0 f.rels).1 == 4 && (scanIds 0 f.rels).2.isNone)
    | _ => false) = true := by decide +kernel
  split at key
  · rename_i f hr
    simp only [Bool.and_eq_true, beq_iff_eq, List.length_eq_zero_iff, Option.isNone_iff_eq_none] at key
    obtain ⟨⟨⟨k1, k2, k3⟩, k4, k5⟩, k6, k7⟩ := key
    have hid := (scanIds_ok f.rels 0).1 k7
    have hn : NumbersBelow f := by
      obtain ⟨_, a, _⟩ := scanIds_max f.rels 0 f.rID (by rw [k5, ← k6, ← k7])
      exact a
    obtain ⟨out, e, hs⟩ := C53_returns f (.inr k2)
    obtain rfl := C53_success f (by simp [k2]) (by simp [k2]) (by simp [k3]) out e hs
    obtain ⟨g, hu, _⟩ := C87_opens f out hs hid 1
    obtain ⟨h1, h2, _⟩ := reopen_any hs hu
    refine ⟨[f], [f] ++ [g], f, g, 1, rfl, .reopened .same ⟨f, out, rfl, hs, hu⟩, by decide, rfl, ?_, hn, ?_, k1, ?_⟩
    · rw [seenIds_eq, k4]; decide
    · rw [h2, List.length_map, k5]; simp
    · unfold Doc.referTarget at k1 ⊢
      rw [h2, refer_clean h1, k1]
      decide +kernel
  · simp at key

end Docx
