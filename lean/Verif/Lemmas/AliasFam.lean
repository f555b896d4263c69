import Verif.Lemmas.AliasReach
import Verif.SpecAlias

/-!
# Families, and histories of values
-/

set_option linter.unusedSectionVars false

namespace Docx

theorem RelRes.of_ok {α β : Type} {R : α → β → Prop} {x : Res α} {y : Res β} {a : α} (h : RelRes R x y) (hx : x = .ok a) :
    ∃ b, y = .ok b ∧ R a b := by
  subst hx
  cases y with
  | ok b => exact ⟨b, rfl, h⟩
  | err e => exact h.elim
  | panic => exact h.elim

theorem call_ok [ImgEnv] {s s' : PWorld} (hs : s.Ok) {o : Op} (h : s.step o = .ok s') :
    step s.world o = .ok s'.world ∧ Effect s o s' := by
  obtain ⟨b, h1, rfl, h2⟩ := (step_rel hs o).of_ok h
  exact ⟨h1, h2⟩

/-- No object is reached from both -/
def Disj (rs qs : List Ref) : Prop := ∀ r ∈ rs, ∀ q ∈ qs, r.2 ≠ q.2

structure FamInv (s : PWorld) (fam : DocId → Nat) : Prop where
  ok : s.Ok
  lt : ∀ e : DocId, e < s.items.length → fam e < s.items.length
  apart : ∀ (d e : DocId) xs ys, s.items[d]? = some xs → s.items[e]? = some ys → fam d ≠ fam e →
    Disj (bodyRefs s.mem xs) (bodyRefs s.mem ys)

theorem Disj.symm {a b : List Ref} (h : Disj a b) : Disj b a := fun r hr q hq e => h q hq r hr e.symm

theorem moves_inv {s s' : PWorld} {fam fam' : DocId → Nat} {d : DocId} {rs : List Ref} (h : FamInv s fam) (hm : Moves s d rs s')
    (hlt : ∀ e : DocId, e < s.items.length → fam' e < s.items.length)
    (hfam : ∀ a b, fam' a ≠ fam' b → fam a ≠ fam b)
    (hrs : ∀ (e : DocId) ys, s.items[e]? = some ys → fam' d ≠ fam' e → Disj rs (bodyRefs s.mem ys)) : FamInv s' fam' := by
  refine ⟨hm.ok, fun e he => by rw [hm.len] at he ⊢; exact hlt e he, ?_⟩
  have one : ∀ (e : DocId) xs ys, e ≠ d → s'.items[d]? = some xs → s'.items[e]? = some ys → fam' d ≠ fam' e →
      Disj (bodyRefs s'.mem xs) (bodyRefs s'.mem ys) := by
    intro e xs ys hne hx hy hf
    rw [hm.other e hne] at hy
    obtain ⟨xs0, hx0, hsub⟩ := hm.here xs hx
    rw [hm.refs e ys hy]
    intro r hr q hq
    rcases hsub r hr with h1 | h1 | h1
    · exact h.apart d e xs0 ys hx0 hy (hfam _ _ hf) r h1 q hq
    · exact hrs e ys hy hf r h1 q hq
    · have := (h.ok.typed e ys hy).lt q hq
      intro e; rw [e] at h1
      exact Nat.lt_irrefl _ (Nat.lt_of_lt_of_le this h1)
  intro a b xs ys hx hy hf
  by_cases ha : a = d
  · subst ha
    exact one b xs ys (fun hb => hf (by rw [hb])) hx hy hf
  · by_cases hb : b = d
    · subst hb
      exact (one a ys xs ha hy hx (Ne.symm hf)).symm
    · rw [hm.other a ha] at hx
      rw [hm.other b hb] at hy
      rw [hm.refs a xs hx, hm.refs b ys hy]
      exact h.apart a b xs ys hx hy (hfam _ _ hf)

theorem parted_inv {s s' : PWorld} {fam fam' : DocId → Nat} {rs : List Ref} (h : FamInv s fam) (hm : Parted s rs s')
    (hold : ∀ e : DocId, e < s.items.length → fam' e = fam e)
    (hnew : ∀ a b : DocId, s.items.length ≤ a → a < s'.items.length → s.items.length ≤ b → b < s'.items.length → fam' a = fam' b)
    (hlt : ∀ e : DocId, s.items.length ≤ e → e < s'.items.length → fam' e < s'.items.length)
    (hrs : ∀ (a e : DocId) ys, s.items.length ≤ a → s.items[e]? = some ys → fam' a ≠ fam' e → Disj rs (bodyRefs s.mem ys)) :
    FamInv s' fam' := by
  have split : ∀ (e : DocId) xs, s'.items[e]? = some xs → (e < s.items.length ∧ s.items[e]? = some xs) ∨ s.items.length ≤ e := by
    intro e xs hx
    rcases Nat.lt_or_ge e s.items.length with he | he
    · rw [hm.old e he] at hx; exact .inl ⟨he, hx⟩
    · exact .inr he
  have rf : ∀ (e : DocId) xs, s.items[e]? = some xs → bodyRefs s'.mem xs = bodyRefs s.mem xs :=
    fun e xs hx => body_frame.refs (hm.ext.agree (h.ok.typed e xs hx))
  refine ⟨hm.ok, ?_, ?_⟩
  · intro e he
    rcases Nat.lt_or_ge e s.items.length with h1 | h1
    · rw [hold e h1]
      exact Nat.lt_of_lt_of_le (h.lt e h1) hm.len
    · exact hlt e h1 he
  · have one : ∀ (a b : DocId) xs ys, s.items.length ≤ a → s'.items[a]? = some xs → b < s.items.length → s.items[b]? = some ys →
        fam' a ≠ fam' b → Disj (bodyRefs s'.mem xs) (bodyRefs s'.mem ys) := by
      intro a b xs ys ha hx hb hy hf
      rw [rf b ys hy]
      intro r hr q hq
      rcases hm.parts a ha xs hx r hr with h1 | h1
      · exact hrs a b ys ha hy hf r h1 q hq
      · have := (h.ok.typed b ys hy).lt q hq
        intro e; rw [e] at h1
        exact Nat.lt_irrefl _ (Nat.lt_of_lt_of_le this h1)
    intro a b xs ys hx hy hf
    rcases split a xs hx with ⟨ha, hx'⟩ | ha <;> rcases split b ys hy with ⟨hb, hy'⟩ | hb
    · rw [rf a xs hx', rf b ys hy']
      rw [hold a ha, hold b hb] at hf
      exact h.apart a b xs ys hx' hy' hf
    · exact (one b a ys xs hb hy ha hx' (Ne.symm hf)).symm
    · exact one a b xs ys ha hx hb hy' hf
    · exact absurd (hnew a b ha (List.getElem?_eq_some_iff.1 hx).1 hb (List.getElem?_eq_some_iff.1 hy).1) hf

theorem pstep_inv [ImgEnv] {s s' : PWorld} {fam : DocId → Nat} {o : POp} (h : FamInv s fam) (hf : o.Fine) (hs : s.pstep o = .ok s') :
    FamInv s' (famAfter s.items.length fam o) := by
  have plain : ∀ {d}, Moves s d [] s' → FamInv s' fam := fun hm =>
    moves_inv h hm h.lt (fun _ _ h => h) (fun _ _ _ _ r hr => nomatch hr)
  by_cases hset : o.Sets
  · obtain ⟨_, d, _, hm⟩ := setter_moves h.ok hf hset hs
    cases o with
    | call o => exact hset.elim
    | _ => exact plain hm
  · cases o with
    | call o =>
      obtain ⟨hv, he⟩ := call_ok h.ok hs
      have fresh : Parted s [] s' → s'.items.length = s.items.length + 1 →
          FamInv s' (fun e => if e = s.items.length then s.items.length else fam e) := by
        intro hp hl
        refine parted_inv h hp ?_ ?_ ?_ ?_
        · intro e he
          rw [if_neg (fun h => by rw [h] at he; exact Nat.lt_irrefl _ he)]
        · intro a b h1 h2 h3 h4
          rw [hl] at h2 h4
          have e1 := Nat.le_antisymm (Nat.le_of_lt_succ h2) h1
          have e2 := Nat.le_antisymm (Nat.le_of_lt_succ h4) h3
          rw [e1, e2]
        · intro e h1 h2
          have h2' := h2
          rw [hl] at h2'
          have e1 := Nat.le_antisymm (Nat.le_of_lt_succ h2') h1
          rw [if_pos e1, hl]
          exact Nat.lt_succ_self _
        · intro a e ys _ _ _ r hr
          cases hr
      cases o with
      | new =>
        refine fresh he ?_
        simp only [PWorld.pstep, PWorld.step, Res.ok.injEq] at hs
        subst hs
        simp
      | load items media =>
        refine fresh he ?_
        simp only [PWorld.pstep, PWorld.step, Res.ok.injEq] at hs
        subst hs
        simp
      | append f af =>
        obtain ⟨xs, hx, hl⟩ := he
        have haf : af < s.items.length := (List.getElem?_eq_some_iff.1 hx).1
        refine moves_inv h (hl.moves h.ok) ?_ ?_ ?_
        · intro e he
          simp only [famAfter]
          split
          · exact h.lt af haf
          · exact h.lt e he
        · intro a b hab e
          apply hab
          simp only [famAfter, e]
        · intro e ys hy hne
          refine h.apart af e xs ys hx hy ?_
          intro e1
          apply hne
          simp only [famAfter, ↓reduceIte, e1]
          split <;> rfl
      | split d sep =>
        obtain ⟨xs, hx, hp⟩ := he
        have hd : d < s.items.length := (List.getElem?_eq_some_iff.1 hx).1
        refine parted_inv h hp ?_ ?_ ?_ ?_
        · intro e he
          simp only [famAfter]
          rw [if_neg (Nat.not_le_of_lt he)]
        · intro a b h1 _ h3 _
          simp only [famAfter]
          rw [if_pos h1, if_pos h3]
        · intro e h1 _
          simp only [famAfter]
          rw [if_pos h1]
          exact Nat.lt_of_lt_of_le (h.lt d hd) hp.len
        · intro a e ys h1 hy hne
          refine h.apart d e xs ys hx hy ?_
          intro e1
          apply hne
          simp only [famAfter]
          rw [if_pos h1, if_neg (Nat.not_le_of_lt (List.getElem?_eq_some_iff.1 hy).1), e1]
      | _ => exact plain (he.moves h.ok)
    | _ => exact absurd trivial hset

theorem hist_inv [ImgEnv] {s : PWorld} {fam : DocId → Nat} (h : PHist s fam) : FamInv s fam := by
  induction h with
  | start =>
    exact ⟨⟨rfl, fun e xs hx => by simp at hx⟩, fun e he => by simp at he, fun d e xs ys hx => by simp at hx⟩
  | step h fine hs ih => exact pstep_inv ih fine hs

theorem hist_reach [ImgEnv] {s : PWorld} {fam : DocId → Nat} (h : PHist s fam) : PReach s := by
  induction h with
  | start => exact .start
  | step h fine hs ih => exact .step ih fine hs

theorem reach_hist [ImgEnv] {s : PWorld} (h : PReach s) : ∃ fam, PHist s fam := by
  induction h with
  | start => exact ⟨_, .start⟩
  | step h fine hs ih =>
    obtain ⟨fam, ih⟩ := ih
    exact ⟨_, .step ih fine hs⟩

theorem reach_ok [ImgEnv] {s : PWorld} (h : PReach s) : s.Ok := by
  obtain ⟨fam, h⟩ := reach_hist h
  exact (hist_inv h).ok

/-! ## Histories of values -/

theorem run_append [ImgEnv] {w w' : World} {os os' : List Op} (h : run w os = .ok w') : run w (os ++ os') = run w' os' := by
  induction os generalizing w with
  | nil => simp only [run, Res.ok.injEq] at h; subst h; rfl
  | cons o os ih =>
    simp only [run, List.cons_append] at h ⊢
    cases hs : step w o with
    | ok w1 => rw [hs] at h; exact ih h
    | err e => rw [hs] at h; cases h
    | panic => rw [hs] at h; cases h

/-- New contents for the documents, one after the other -/
theorem edits_run [ImgEnv] {docs : World} {its its' : List (List BItem)} (h : docs.length = its.length) (h' : docs.length = its'.length) :
    ∀ n ≤ docs.length, ∃ os : List Op, (∀ o ∈ os, ∃ d g, o = .edit d g) ∧
      run (fill docs its) os = .ok (fill docs (its'.take n ++ its.drop n)) := by
  intro n
  induction n with
  | zero => intro _; exact ⟨[], (by simp), by simp [run]⟩
  | succ n ih =>
    intro hn
    obtain ⟨os, he, hr⟩ := ih (Nat.le_of_succ_le hn)
    have hi : n < its.length := h ▸ hn
    have hi' : n < its'.length := h' ▸ hn
    refine ⟨os ++ [.edit n fun _ => its'[n]], ?_, ?_⟩
    · intro o ho
      rcases List.mem_append.1 ho with ho | ho
      · exact he o ho
      · exact ⟨_, _, List.mem_singleton.1 ho⟩
    · rw [run_append hr]
      have hget : (its'.take n ++ its.drop n)[n]? = some its[n] := by
        rw [List.getElem?_append_right (by simp; omega)]
        simp [List.length_take, Nat.min_eq_left (Nat.le_of_lt hi'), hi]
      have hd : docs[n]? = some docs[n] := List.getElem?_eq_getElem hn
      simp only [run, step, World.onDoc]
      have hg := fill_get hd hget
      rw [show (fill docs (its'.take n ++ its.drop n))[(n : DocId)]? = _ from hg]
      simp only [Res.bind_ok]
      congr 1
      apply List.ext_getElem?
      intro j
      by_cases hj : n = j
      · subst hj
        have hlen : n < (fill docs (its'.take n ++ its.drop n)).length := (List.getElem?_eq_some_iff.1 hg).1
        have h1 : (its'.take (n + 1) ++ its.drop (n + 1))[n]? = some its'[n] := by
          rw [List.getElem?_append_left (by simp; omega)]
          simp [hi']
        rw [List.getElem?_set_self hlen, fill_get hd h1]
      · rw [List.getElem?_set_ne hj]
        simp only [fill, List.getElem?_zipWith]
        have : (its'.take n ++ its.drop n)[j]? = (its'.take (n + 1) ++ its.drop (n + 1))[j]? := by
          rcases Nat.lt_or_ge j n with h1 | h1
          · rw [List.getElem?_append_left (by simp; omega), List.getElem?_append_left (by simp; omega)]
            rw [List.getElem?_take_of_lt h1, List.getElem?_take_of_lt (Nat.lt_succ_of_lt h1)]
          · have h2 : n + 1 ≤ j := Nat.lt_of_le_of_ne h1 hj
            rw [List.getElem?_append_right (by simp; omega), List.getElem?_append_right (by simp; omega)]
            simp only [List.length_take, List.getElem?_drop]
            congr 1
            omega
        rw [this]

theorem setter_run [ImgEnv] {s s' : PWorld} (hs : s.Ok) (hs' : s'.Ok) (hd : s'.docs = s.docs) :
    ∃ os : List Op, (∀ o ∈ os, ∃ d g, o = .edit d g) ∧ run s.world os = .ok s'.world := by
  obtain ⟨os, he, hr⟩ := edits_run (docs := s.docs) (its := s.items.map (bodyVals s.mem)) (its' := s'.items.map (bodyVals s'.mem))
    (by simp [hs.len]) (by simp [← hd, hs'.len]) s.docs.length (Nat.le_refl _)
  refine ⟨os, he, ?_⟩
  rw [world_eq, world_eq, hd, hr]
  congr 2
  rw [List.take_of_length_le (by rw [← hd, hs'.len]; simp), List.drop_eq_nil_of_le (by rw [hs.len]; simp), List.append_nil]

theorem reach_run [ImgEnv] {s : PWorld} (h : PReach s) : ∃ os, run [] os = .ok s.world := by
  induction h with
  | start => exact ⟨[], rfl⟩
  | @step s s' o h fine hs ih =>
    obtain ⟨os, ho⟩ := ih
    have ok := reach_ok h
    have ok' := reach_ok (.step h fine hs)
    cases o with
    | call o =>
      refine ⟨os ++ [o], ?_⟩
      rw [run_append ho]
      simp only [run, (call_ok ok hs).1]
    | _ =>
      obtain ⟨os', _, hr⟩ := setter_run ok ok' (setter_moves ok fine trivial hs).1
      exact ⟨os ++ os', by rw [run_append ho, hr]⟩

/-- A setter leaves the documents of other families as they are -/
theorem setter_other [ImgEnv] {s s' : PWorld} {fam : DocId → Nat} (h : PHist s fam) {o : POp} (hf : o.Fine) (ho : o.Sets)
    {d e : DocId} (hd : o.doc = some d) (hs : s.pstep o = .ok s') (hne : fam e ≠ fam d) : s'.world[e]? = s.world[e]? := by
  have inv := hist_inv h
  obtain ⟨hdocs, d', hd', hm⟩ := setter_moves inv.ok hf ho hs
  rw [hd] at hd'
  obtain rfl := Option.some.inj hd'
  have he : e ≠ d := fun h => hne (by rw [h])
  simp only [world_eq, fill, List.getElem?_zipWith, List.getElem?_map, hdocs, hm.other e he]
  cases hx : s.items[e]? with
  | none => rfl
  | some xs =>
    have : bodyVals s'.mem xs = bodyVals s.mem xs := by
      refine body_frame.load ?_
      intro r hr
      refine hm.agree r.2 ((inv.ok.typed e xs hx).lt r hr) ?_
      intro ys hy t ht
      exact inv.apart e d xs ys hx hy hne r hr _ ht rfl
    simp only [Option.map_some, this]

/-- A call changes the contents of no other document, however much they share -/
theorem call_other [ImgEnv] {s s' : PWorld} (hs : s.Ok) {o : Op} {d e : DocId} (hd : (POp.call o).doc = some d)
    (h : s.pstep (.call o) = .ok s') (hne : e ≠ d ∨ ∃ sep, o = .split d sep) (he : e < s.world.length) :
    (s'.world[e]?).map (·.items) = (s.world[e]?).map (·.items) := by
  obtain ⟨hv, eff⟩ := call_ok hs h
  have he' : e < s.items.length := by rw [world_len hs, hs.len] at he; exact he
  have fin : s'.Ok → Ext' s.mem s'.mem → s'.items[e]? = s.items[e]? → (s'.world[e]?).map (·.items) = (s.world[e]?).map (·.items) := by
    intro ok' ex hi
    have hx : s.items[e]? = some s.items[e] := List.getElem?_eq_getElem he'
    have hd1 : ∃ f, s.docs[e]? = some f := ⟨_, List.getElem?_eq_getElem (by rw [hs.len]; exact he')⟩
    obtain ⟨f, hf⟩ := hd1
    have hl' : e < s'.items.length := by rw [hx] at hi; exact (List.getElem?_eq_some_iff.1 hi).1
    have hd2 : ∃ f, s'.docs[e]? = some f := ⟨_, List.getElem?_eq_getElem (by rw [ok'.len]; exact hl')⟩
    obtain ⟨f', hf'⟩ := hd2
    rw [world_eq, world_eq, fill_get hf (its := s.items.map (bodyVals s.mem)) (by rw [List.getElem?_map, hx]; rfl),
      fill_get hf' (its := s'.items.map (bodyVals s'.mem)) (by rw [List.getElem?_map, hi, hx]; rfl)]
    simp only [Option.map_some]
    rw [body_frame.same (hs.typed e _ hx) ex]
  cases o with
  | new => cases hd
  | load => cases hd
  | append f af =>
    obtain ⟨xs, hx, hl⟩ := eff
    obtain rfl := Option.some.inj hd
    rcases hne with hne | ⟨_, hne⟩
    · exact fin hl.ok hl.ext (hl.other e hne)
    · cases hne
  | split d sep =>
    obtain ⟨xs, hx, hp⟩ := eff
    exact fin hp.ok hp.ext (hp.old e he')
  | _ =>
    obtain rfl := Option.some.inj hd
    rcases hne with hne | ⟨_, hne⟩
    · exact fin (Local.ok eff) (Local.ext eff) (Local.other eff e hne)
    · cases hne

end Docx
