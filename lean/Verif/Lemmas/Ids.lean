import Verif.Lemmas.Evo
import Verif.Lemmas.Num

/-! # Relationship ids and media names along an evolution -/

namespace Docx

theorem toInt64_inj {a b : UInt64} (h : a.toInt64 = b.toInt64) : a = b := by
  cases a; cases b
  simpa [UInt64.toInt64] using h

theorem string_append_left_cancel {a b c : String} (h : a ++ b = a ++ c) : b = c := by
  have := congrArg String.toList h
  simp only [String.toList_append, List.append_cancel_left_eq] at this
  exact String.toList_inj.1 this

theorem ridOf_inj {a b : UInt64} (h : ridOf a = ridOf b) : a = b :=
  toInt64_inj (itoa_inj (string_append_left_cancel h))

theorem append_sep_inj {x : Char} {xs ys r r' : List Char} (hx : x ∉ xs) (hy : x ∉ ys)
    (h : xs ++ x :: r = ys ++ x :: r') : xs = ys := by
  induction xs generalizing ys with
  | nil =>
    cases ys with
    | nil => rfl
    | cons y ys => simp only [List.nil_append, List.cons_append, List.cons.injEq] at h
                   exact absurd (by rw [h.1]; simp) hy
  | cons a xs ih =>
    cases ys with
    | nil => simp only [List.nil_append, List.cons_append, List.cons.injEq] at h
             exact absurd (by rw [← h.1]; simp) hx
    | cons y ys =>
      simp only [List.cons_append, List.cons.injEq] at h
      rw [h.1, ih (fun m => hx (by simp [m])) (fun m => hy (by simp [m])) h.2]

theorem dot_notMem_itoa (n : Int64) : '.' ∉ (itoa n).toList := by
  unfold itoa intRep
  rw [String.toList_ofList]
  have : ∀ m : Nat, '.' ∉ natRep m := by
    intro m h
    have := natRep_digits m _ h
    revert this; decide
  split
  · simp [this]
  · exact this _

theorem imageName_inj {a b : UInt64} {fa fb : String} (h : imageName a fa = imageName b fb) :
    a = b := by
  unfold imageName at h
  have h := congrArg String.toList h
  simp only [String.toList_append, List.append_assoc, List.append_cancel_left_eq] at h
  have e : (".".toList : List Char) = ['.'] := by decide
  rw [e] at h
  simp only [List.singleton_append] at h
  exact toInt64_inj (itoa_inj (String.toList_inj.1
    (append_sep_inj (dot_notMem_itoa _) (dot_notMem_itoa _) h)))

theorem ofNat_succ_add (a : UInt64) (n : Nat) :
    a + UInt64.ofNat n + 1 = a + UInt64.ofNat (n + 1) := by
  rw [UInt64.ofNat_add, UInt64.add_assoc]; rfl

theorem add_ofNat_inj {a : UInt64} {m n : Nat} (hm : m < 2 ^ 64) (hn : n < 2 ^ 64)
    (h : a + UInt64.ofNat m = a + UInt64.ofNat n) : m = n := by
  have h := congrArg UInt64.toNat h
  simp only [UInt64.toNat_add, UInt64.toNat_ofNat'] at h
  have := a.toNat_lt
  omega

/-- What an evolution adds to the relationships. -/
theorem Evo.rels {f g : Doc} (h : Evo f g) : ∃ ext : List Rel, g.rels = f.rels ++ ext ∧
    g.rID = f.rID + UInt64.ofNat ext.length ∧
    ∀ (i : Nat) (r : Rel), ext[i]? = some r → r.id = ridOf (f.rID + UInt64.ofNat (i + 1)) := by
  have push : ∀ {g : Doc} {ext : List Rel} {r : Rel},
      g.rID = f.rID + UInt64.ofNat ext.length → r.id = ridOf (g.rID + 1) →
      (∀ (i : Nat) (r : Rel), ext[i]? = some r → r.id = ridOf (f.rID + UInt64.ofNat (i + 1))) →
      (g.rID + 1 = f.rID + UInt64.ofNat (ext ++ [r]).length ∧
      ∀ (i : Nat) (r' : Rel), (ext ++ [r])[i]? = some r' → r'.id = ridOf (f.rID + UInt64.ofNat (i + 1))) := by
    intro g ext r h1 h2 h3
    refine ⟨by rw [h1, ofNat_succ_add]; simp, ?_⟩
    intro i r' hr
    rcases Nat.lt_or_ge i ext.length with hi | hi
    · rw [List.getElem?_append_left hi] at hr; exact h3 i r' hr
    · rw [List.getElem?_append_right hi] at hr
      have h0 : i - ext.length = 0 := by
        have := lt_of_getElem? hr; simp at this; omega
      rw [h0] at hr
      simp only [List.getElem?_cons_zero, Option.some.injEq] at hr
      subst hr
      rw [h2, h1, ofNat_succ_add]
      congr 2; congr 1; omega
  induction h with
  | refl => exact ⟨[], by simp⟩
  | items l _ ih => exact ih
  | template t l tf _ ih => exact ih
  | docID _ ih => exact ih
  | incID n _ ih => exact ih
  | @link g l _ ih =>
    obtain ⟨ext, h1, h2, h3⟩ := ih
    obtain ⟨h4, h5⟩ := push (r := ⟨ridOf (g.rID + 1), relHyperlink, l, relTargetMode⟩) h2 rfl h3
    exact ⟨_, by simp only [Doc.addLinkRelation, h1, List.append_assoc], h4, h5⟩
  | @image g fmt d _ ih =>
    obtain ⟨ext, h1, h2, h3⟩ := ih
    obtain ⟨h4, h5⟩ := push
      (r := ⟨ridOf (g.rID + 1), relImage, "media/" ++ imageName (g.imageID + 1) fmt, ""⟩) h2 rfl h3
    exact ⟨_, by simp only [Doc.addImage, Doc.addMedia, Doc.addImageRelation, h1,
      List.append_assoc], h4, h5⟩

/-- What an evolution adds to the media. -/
theorem Evo.media {f g : Doc} (h : Evo f g) : ∃ ext : List Media, g.media = f.media ++ ext ∧
    g.imageID = f.imageID + UInt64.ofNat ext.length ∧
    ∀ (i : Nat) (m : Media), ext[i]? = some m →
      ∃ fmt, m.name = imageName (f.imageID + UInt64.ofNat (i + 1)) fmt := by
  induction h with
  | refl => exact ⟨[], by simp⟩
  | items l _ ih => exact ih
  | template t l tf _ ih => exact ih
  | docID _ ih => exact ih
  | incID n _ ih => exact ih
  | link l _ ih => exact ih
  | @image g fmt d _ ih =>
    obtain ⟨ext, h1, h2, h3⟩ := ih
    refine ⟨ext ++ [⟨imageName (g.imageID + 1) fmt, d⟩], ?_, ?_, ?_⟩
    · simp only [Doc.addImage, Doc.addMedia, Doc.addImageRelation, h1, List.append_assoc]
    · simp only [Doc.addImage, Doc.addMedia, Doc.addImageRelation, h2, ofNat_succ_add,
        List.length_append, List.length_singleton]
    · intro i m hm
      rcases Nat.lt_or_ge i ext.length with hi | hi
      · rw [List.getElem?_append_left hi] at hm; exact h3 i m hm
      · rw [List.getElem?_append_right hi] at hm
        have h0 : i - ext.length = 0 := by
          have := lt_of_getElem? hm; simp at this; omega
        rw [h0] at hm
        simp only [List.getElem?_cons_zero, Option.some.injEq] at hm
        subst hm
        have : i = ext.length := by omega
        exact ⟨fmt, by rw [h2, ofNat_succ_add, this]⟩

/-- The name index: it finds the last media of a name, and nothing else. -/
def IdxOK (f : Doc) : Prop := ∀ name : String,
  match f.mediaIdx name with
  | none => ∀ m ∈ f.media, m.name ≠ name
  | some i => (∃ m, f.media[i]? = some m ∧ m.name = name) ∧
      ∀ j m, i < j → f.media[j]? = some m → m.name ≠ name

theorem addMedia_idxOK {f : Doc} (h : IdxOK f) (m : Media) : IdxOK (f.addMedia m) := by
  intro name
  have h := h name
  simp only [Doc.addMedia, upd]
  by_cases e : name = m.name
  · simp only [if_pos e]
    refine ⟨⟨m, by simp, e.symm⟩, ?_⟩
    intro j m' hj hm
    have := lt_of_getElem? hm
    simp at this; omega
  · simp only [if_neg e]
    split at h
    · rename_i hn
      intro m' hm
      rcases List.mem_append.1 hm with hm | hm
      · exact h m' hm
      · simp only [List.mem_singleton] at hm; subst hm; exact fun h => e h.symm
    · rename_i i hn
      obtain ⟨⟨m0, hm0, e0⟩, h2⟩ := h
      have hl := lt_of_getElem? hm0
      refine ⟨⟨m0, by rw [List.getElem?_append_left hl]; exact hm0, e0⟩, ?_⟩
      intro j m' hj hm
      rcases Nat.lt_or_ge j f.media.length with hi | hi
      · rw [List.getElem?_append_left hi] at hm; exact h2 j m' hj hm
      · rw [List.getElem?_append_right hi] at hm
        have h0 : j - f.media.length = 0 := by
          have := lt_of_getElem? hm; simp at this; omega
        rw [h0] at hm
        simp only [List.getElem?_cons_zero, Option.some.injEq] at hm
        subst hm; exact fun h => e h.symm

theorem Evo.idxOK {f g : Doc} (h : Evo f g) (hf : IdxOK f) : IdxOK g := by
  induction h with
  | refl => exact hf
  | items l _ ih => exact ih
  | template t l tf _ ih => exact ih
  | docID _ ih => exact ih
  | incID n _ ih => exact ih
  | link l _ ih => exact ih
  | @image g fmt d _ ih =>
    have : IdxOK { g with imageID := g.imageID + 1 } := ih
    exact addMedia_idxOK this _

/-- `Media(name)` answers with the last media of that name. -/
theorem getMedia_of_idxOK {f : Doc} (h : IdxOK f) (name : String) :
    f.getMedia name = .ok (f.media.reverse.find? fun m => m.name == name) := by
  have h := h name
  unfold Doc.getMedia
  split at h
  · rename_i hn
    simp only [hn]
    congr 1
    symm
    rw [List.find?_eq_none]
    intro m hm
    simpa using h m (by simpa using hm)
  · rename_i i hn
    obtain ⟨⟨m, hm, e⟩, h2⟩ := h
    simp only [hn, hm]
    congr 1
    symm
    rw [List.find?_eq_some_iff_append]
    have hl := lt_of_getElem? hm
    refine ⟨by simpa using e, (f.media.drop (i + 1)).reverse, (f.media.take i).reverse, ?_, ?_⟩
    · have : f.media = f.media.take i ++ m :: f.media.drop (i + 1) := by
        have e1 : f.media[i] = m := by simpa [List.getElem?_eq_getElem hl] using hm
        rw [← e1, List.getElem_cons_drop, List.take_append_drop]
      conv => lhs; rw [this]
      simp
    · intro a ha
      simp only [List.mem_reverse] at ha
      obtain ⟨k, hk, rfl⟩ := List.getElem_of_mem ha
      simp only [List.getElem_drop]
      simp only [List.length_drop] at hk
      have := h2 (i + 1 + k) (f.media[i + 1 + k]'(by omega)) (by omega) (by simp)
      simpa using this

theorem buildIdx_spec : ∀ (xs pre : List Media) (m : String → Option Nat),
    (IdxOK { media := pre, mediaIdx := m }) →
    IdxOK { media := pre ++ xs, mediaIdx := buildIdx m pre.length xs } := by
  intro xs
  induction xs with
  | nil => intro pre m h; simpa [buildIdx] using h
  | cons x xs ih =>
    intro pre m h
    have h1 := addMedia_idxOK h x
    simp only [Doc.addMedia] at h1
    have := ih (pre ++ [x]) _ h1
    simp only [List.length_append, List.length_singleton, List.append_assoc,
      List.singleton_append] at this
    simpa only [buildIdx] using this

theorem idxOK_congr {f g : Doc} (h1 : f.media = g.media) (h2 : f.mediaIdx = g.mediaIdx)
    (h : IdxOK f) : IdxOK g := by
  intro name
  have := h name
  rw [h1, h2] at this
  exact this

theorem load_idxOK (items : List BItem) (media : List Media) :
    IdxOK (Doc.loadBodyItems items media) := by
  have := buildIdx_spec media [] (fun _ => none) (by intro name; simp)
  exact idxOK_congr (by simp [Doc.loadBodyItems]) (by simp [Doc.loadBodyItems]) this

theorem base_idxOK {b : Doc} (h : Base b) : IdxOK b := by
  rcases h with rfl | ⟨items, media, rfl⟩ | ⟨f, rfl⟩
  · intro name; simp [Doc.new]
  · exact load_idxOK items media
  · intro name; simp [splitDoc]

theorem referTarget_append {id t : String} {l l' : List Rel} (h : referTarget id l = some t) :
    referTarget id (l ++ l') = some t := by
  induction l with
  | nil => simp [referTarget] at h
  | cons a l ih =>
    simp only [List.cons_append, referTarget] at h ⊢
    split at h
    · rename_i e; simp [e] at h ⊢; exact h
    · rename_i e; simp only [e, if_false]; exact ih h

theorem referTarget_fresh {id : String} {l : List Rel} (h : ∀ r ∈ l, r.id ≠ id) (x : Rel)
    (hx : x.id = id) : referTarget id (l ++ [x]) = some x.target := by
  induction l with
  | nil => simp [referTarget, hx]
  | cons a l ih =>
    simp only [List.cons_append, referTarget]
    rw [if_neg (h a (by simp))]
    exact ih fun r hr => h r (by simp [hr])

/-- A resolved id stays resolved. -/
theorem Evo.resolves {f g : Doc} (h : Evo f g) {id t : String} (hr : f.referTarget id = some t) :
    g.referTarget id = some t := by
  obtain ⟨ext, h1, _, _⟩ := h.rels
  unfold Doc.referTarget at *
  rw [h1]; exact referTarget_append hr

/-- The id counter is ahead of every id in the table. -/
def Ahead (f : Doc) : Prop := ∀ n : UInt64, f.rID < n → ∀ r ∈ f.rels, r.id ≠ ridOf n

theorem Evo.ahead {f g : Doc} (h : Evo f g) (ha : Ahead f)
    (hw : f.rID.toNat + (g.rels.length - f.rels.length) < 2 ^ 64) :
    Ahead g ∧ g.rID.toNat = f.rID.toNat + (g.rels.length - f.rels.length) := by
  obtain ⟨ext, h1, h2, h3⟩ := h.rels
  have hl : g.rels.length - f.rels.length = ext.length := by rw [h1]; simp
  rw [hl] at hw ⊢
  have hn : ∀ k, k ≤ ext.length → (f.rID + UInt64.ofNat k).toNat = f.rID.toNat + k := by
    intro k hk
    rw [UInt64.toNat_add, UInt64.toNat_ofNat']; omega
  refine ⟨?_, by rw [h2, hn _ (Nat.le_refl _)]⟩
  intro n hgt r hr
  rw [h1] at hr
  have hgt' : g.rID.toNat < n.toNat := UInt64.lt_iff_toNat_lt.1 hgt
  rw [h2, hn _ (Nat.le_refl _)] at hgt'
  rcases List.mem_append.1 hr with hr | hr
  · exact ha n (UInt64.lt_iff_toNat_lt.2 (by omega)) r hr
  · obtain ⟨i, hi, rfl⟩ := List.getElem_of_mem hr
    rw [h3 i ext[i] (by simp)]
    intro e
    have := congrArg UInt64.toNat (ridOf_inj e)
    rw [hn _ (by omega)] at this
    omega

theorem baseRels_ids : baseRels.map (·.id) = [ridOf 1, ridOf 2, ridOf 3] := by decide

theorem base_rels {b : Doc} (h : Base b) : b.rels = baseRels ∧ b.rID = 3 ∧ b.imageID = 0 ∧
    b.docID = 0 := by
  rcases h with rfl | ⟨items, media, rfl⟩ | ⟨f, rfl⟩ <;> exact ⟨rfl, rfl, rfl, rfl⟩

theorem base_ahead {b : Doc} (h : Base b) : Ahead b := by
  obtain ⟨h1, h2, _, _⟩ := base_rels h
  intro n hn r hr
  rw [h1] at hr
  rw [h2] at hn
  have hn : (3 : Nat) < n.toNat := by simpa using UInt64.lt_iff_toNat_lt.1 hn
  have hm : r.id ∈ baseRels.map (·.id) := List.mem_map.2 ⟨r, hr, rfl⟩
  rw [baseRels_ids] at hm
  simp only [List.mem_cons, List.not_mem_nil, or_false] at hm
  intro e
  rw [e] at hm
  rcases hm with hm | hm | hm <;>
  · have := congrArg UInt64.toNat (ridOf_inj hm)
    simp at this; omega

/-- The ids of a document that evolved from a base one are `rId1`, `rId2`, … -/
theorem base_ids {b g : Doc} (hb : Base b) (h : Evo b g) :
    g.rels.map (·.id) = (List.range g.rels.length).map fun i => ridOf (UInt64.ofNat (i + 1)) := by
  obtain ⟨ext, h1, h2, h3⟩ := h.rels
  obtain ⟨e1, e2, _, _⟩ := base_rels hb
  apply List.ext_getElem
  · simp
  intro i hi hi'
  simp only [List.getElem_map, List.getElem_range]
  simp only [List.length_map] at hi
  rcases Nat.lt_or_ge i 3 with h | h
  · have : g.rels[i] = baseRels[i]'(by simpa [baseRels] using h) := by
      have hb3 : i < b.rels.length := by rw [e1]; simpa [baseRels] using h
      simp only [h1]
      rw [List.getElem_append_left hb3]
      simp only [e1]
    rw [this]
    match i, h with
    | 0, _ => exact (by decide : "rId1" = ridOf 1)
    | 1, _ => exact (by decide : "rId2" = ridOf 2)
    | 2, _ => exact (by decide : "rId3" = ridOf 3)
  · have hb3 : b.rels.length ≤ i := by rw [e1]; simpa [baseRels] using h
    have hlen : g.rels.length = b.rels.length + ext.length := by rw [h1]; simp
    have hlen3 : b.rels.length = 3 := by rw [e1]; rfl
    have : g.rels[i] = ext[i - b.rels.length]'(by omega) := by
      simp only [h1]
      rw [List.getElem_append_right hb3]
    rw [this, h3 (i - b.rels.length) _ (by rw [List.getElem?_eq_getElem]), e2, hlen3]
    congr 1
    have e3 : (3 : UInt64) = UInt64.ofNat 3 := rfl
    rw [e3, ← UInt64.ofNat_add]
    congr 1; omega

theorem base_ids_nodup {b g : Doc} (hb : Base b) (h : Evo b g) (hl : g.rels.length ≤ 2 ^ 64) :
    (g.rels.map (·.id)).Nodup := by
  rw [base_ids hb h]
  unfold List.Nodup
  rw [List.pairwise_map]
  refine List.Pairwise.imp_of_mem ?_ List.nodup_range
  intro i j hi hj hne e
  simp only [List.mem_range] at hi hj
  have := congrArg UInt64.toNat (ridOf_inj e)
  simp only [UInt64.toNat_ofNat'] at this
  omega

end Docx
