import Verif.Lemmas.PackPath
import Verif.Props.XmlText

/-! # Saving and unpacking -/

namespace Docx

set_option linter.unusedSectionVars false

variable [GoEnv]

theorem relsOf_mRel (rs : List Rel) : relsOf (rs.map mRel) = rs := by
  induction rs with
  | nil => rfl
  | cons r rs ih =>
    have hr : mRel r = .elem ⟨"", "Relationship"⟩ (strA "" "Id" r.id ++ strA "" "Type" r.type ++
      strA "" "Target" r.target ++ strO "" "TargetMode" r.targetMode) [] := rfl
    rw [List.map_cons, hr, relsOf, if_pos rfl, ih]
    congr 1
    obtain ⟨id, ty, ta, tm⟩ := r
    unfold strO
    by_cases e : tm = ""
    · subst e; rfl
    · simp only [e, if_false]; rfl

theorem goodId_xmlText {id : String} (h : GoodId id) : xmlText id := by
  obtain ⟨n, ⟨ds, _, h2, h3, _⟩, _⟩ := h
  intro c hc
  rw [h3] at hc
  simp only [List.mem_cons] at hc
  have hd : ∀ d : Char, '0' ≤ d ∧ d ≤ '9' → xmlChar d = true := by
    intro d hd
    have e0 : 48 ≤ d.toNat := UInt32.le_iff_toNat_le.1 (Char.le_def.1 hd.1)
    have e9 : d.toNat ≤ 57 := UInt32.le_iff_toNat_le.1 (Char.le_def.1 hd.2)
    unfold xmlChar
    simp
    omega
  rcases hc with rfl | rfl | rfl | hc
  · decide
  · decide
  · decide
  · exact hd c (h2 c hc)

/-- All strings of the relationship table can be written in XML -/
theorem mRels_strings {x : String} {rs : List Rel} (hx : xmlText x)
    (h : ∀ r ∈ rs, xmlText r.id ∧ xmlText r.type ∧ xmlText r.target ∧ xmlText r.targetMode) :
    ∀ s ∈ (mRels x rs).strings, xmlText s := by
  intro s hs
  unfold mRels el strA at hs
  rw [Node.strings] at hs
  simp only [List.map_cons, List.map_nil, List.singleton_append, List.mem_cons] at hs
  rcases hs with rfl | hs
  · exact hx
  · induction rs with
    | nil => simp [stringsL] at hs
    | cons r rs ih =>
      simp only [List.mem_cons, forall_eq_or_imp] at h
      rw [List.map_cons, stringsL, List.mem_append] at hs
      rcases hs with hs | hs
      · obtain ⟨h1, h2, h3, h4⟩ := h.1
        unfold mRel el strA strO at hs
        rw [Node.strings] at hs
        split at hs <;> simp [stringsL] at hs
        · rcases hs with rfl | rfl | rfl
          · exact h1
          · exact h2
          · exact h3
        · rcases hs with rfl | rfl | rfl | rfl
          · exact h1
          · exact h2
          · exact h3
          · exact h4
      · exact ih h.2 hs

theorem decodeRels_saved {x x0 : String} {rs s : List Rel} (hx : xmlText x)
    (h : ∀ r ∈ rs, xmlText r.id ∧ xmlText r.type ∧ xmlText r.target ∧ xmlText r.targetMode) :
    decodeRels x0 s (lex (xmlBytes (mRels x rs))) = ⟨(x, s ++ rs), none, ⟨[], [], false⟩⟩ := by
  rw [C48_rels, clean_node _ (mRels_strings hx h)]
  have := decodeRels_tree x0 s [.other, .text "\n"] ⟨"", "Relationships"⟩ (strA "" "xmlns" x)
    (rs.map mRel) [] rfl
  rw [relsOf_mRel] at this
  rw [partToks]
  simp only [List.append_nil] at this
  exact this

/-- An entry as WriteTo leaves it -/
def GoodEntry (x : String) (rs : List Rel) (items : List BItem) (e : Entry) : Prop :=
  ∃ b, e.file = .ok ⟨b, none⟩ ∧ (e.name = relsName → b = xmlBytes (mRels x rs)) ∧
    (e.name = documentName → b = xmlBytes (mDocument items))

theorem unpackAll_saved {x : String} {rs : List Rel} {items : List BItem} {me : DocId} (hx : xmlText x)
    (hr : ∀ r ∈ rs, xmlText r.id ∧ xmlText r.type ∧ xmlText r.target ∧ xmlText r.targetMode)
    (hg : ∀ r ∈ rs, GoodId r.id) (hi : ∀ s ∈ (mDocument items).strings, xmlText s) :
    ∀ (es : List Entry) (f : Doc), (es.map (·.name)).Nodup → (∀ e ∈ es, GoodEntry x rs items e) →
    (relsName ∈ es.map (·.name) → f.rels = []) → (documentName ∈ es.map (·.name) → f.items = []) →
    ∃ g, f.unpackAll me es = (g, none) ∧
      (relsName ∈ es.map (·.name) → g.rels = rs ∧ g.relXmlns = x) ∧
      (documentName ∈ es.map (·.name) → g.items = normBody (some me) items) := by
  intro es
  induction es with
  | nil => intro f _ _ _ _; exact ⟨f, rfl, by simp, by simp⟩
  | cons e es ih =>
    intro f hn he h1 h2
    simp only [List.map_cons, List.nodup_cons] at hn
    simp only [List.mem_cons, forall_eq_or_imp] at he
    obtain ⟨⟨b, hb, hb1, hb2⟩, he⟩ := he
    have step : ∃ f', f.unpackEntry me e = (f', none) ∧
        (e.name = relsName → f'.rels = rs ∧ f'.relXmlns = x) ∧
        (e.name = documentName → f'.items = normBody (some me) items) := by
      unfold Doc.unpackEntry
      by_cases c1 : e.name = relsName
      · rw [if_pos c1]
        have c2 : e.name ≠ documentName := by rw [c1]; decide
        have hf : f.rels = [] := h1 (by simp [c1])
        unfold Doc.parseRels
        rw [hb]
        simp only [Stream.toks, hb1 c1, hf, decodeRels_saved hx hr, List.nil_append]
        have := (scanIds_ok rs f.rID).2 hg
        exact ⟨_, Prod.ext rfl this, fun _ => ⟨rfl, rfl⟩, fun h => absurd h c2⟩
      · rw [if_neg c1]
        by_cases c2 : e.name = documentName
        · rw [if_pos c2]
          have hf : f.items = [] := h2 (by simp [c2])
          unfold Doc.parseDocument
          rw [hb]
          simp only [Stream.toks, hb2 c2, hf, C41_bytes (some me) items hi]
          exact ⟨_, rfl, fun h => absurd h c1, fun _ => rfl⟩
        · rw [if_neg c2]
          cases afterMedia e.name with
          | none => exact ⟨_, rfl, fun h => absurd h c1, fun h => absurd h c2⟩
          | some n =>
            simp only [Doc.parseMedia, hb]
            exact ⟨_, rfl, fun h => absurd h c1, fun h => absurd h c2⟩
    obtain ⟨f', hf', hs1, hs2⟩ := step
    obtain ⟨_, _, _, _, _, _, _, _, a9, _, a11, _⟩ := unpackEntry_ok hf'
    obtain ⟨g, hg1, hg2, hg3⟩ := ih f' hn.2 he
      (fun hm => by
        have hne : e.name ≠ relsName := fun e => hn.1 (e ▸ hm)
        rw [(a9 hne).1]; exact h1 (by simp only [List.map_cons, List.mem_cons]; exact .inr hm))
      (fun hm => by
        have hne : e.name ≠ documentName := fun e => hn.1 (e ▸ hm)
        rw [(a11 hne).1]; exact h2 (by simp only [List.map_cons, List.mem_cons]; exact .inr hm))
    obtain ⟨_, _, _, _, _, _, _, _, b9, _, b11, _⟩ := unpackAll_ok hg1
    refine ⟨g, by rw [Doc.unpackAll, hf']; exact hg1, ?_, ?_⟩
    · intro hm
      by_cases hin : relsName ∈ es.map (·.name)
      · exact hg2 hin
      · simp only [List.map_cons, List.mem_cons] at hm
        have := hs1 (hm.resolve_right hin).symm
        have hb := b9 hin
        exact ⟨by rw [hb.1, this.1], by rw [hb.2.2, this.2]⟩
    · intro hm
      by_cases hin : documentName ∈ es.map (·.name)
      · exact hg3 hin
      · simp only [List.map_cons, List.mem_cons] at hm
        rw [(b11 hin).1, hs2 (hm.resolve_right hin).symm]

theorem reread_names (out : Saved) : (reread out).map (·.name) = out.map (·.1) := by
  simp [reread]

end Docx
