import Verif.Props.Busy

/-!
# C83: with a mutex all calls return
-/

namespace Docx

/-- A step with the mutex is a step. -/
theorem guarded_busy {g g' : Guarded} {t : Nat} (h : guardedStep g t = some g') : busyStep g.s t = some g'.s := by
  unfold guardedStep at h
  unfold busyStep
  split at h
  · cases h
  · rename_i th hth
    split at h
    · rename_i hnow
      split at h
      · cases h
      · simp only [busyStep, hth, hnow] at h
        split at h
        · cases h
        · simp only [Option.map_some, Option.some.injEq] at h
          subst h; rfl
    · rename_i c pc hnow
      split at h <;> (rename_i heq; cases h; rw [heq])

theorem ownOrder_step {calls : List (List BCall)} {s s' : Busy} {t : Nat} (hi : OwnOrder calls s)
    (h : busyStep s t = some s') : OwnOrder calls s' := by
  unfold busyStep at h
  split at h
  · cases h
  · rename_i th hth
    have hlt : t < s.threads.length := (List.getElem?_eq_some_iff.1 hth).1
    have hold := hi.2 t th hth
    split at h
    · rename_i hnow
      split at h
      · cases h
      · rename_i c rest htodo
        cases h
        refine ⟨by simp [hi.1], fun t' th' h' => ?_⟩
        by_cases he : t' = t
        · subst he
          simp only [List.getElem?_set_self hlt, Option.some.injEq] at h'
          subst h'
          rw [hold]
          simp [BThread.left, hnow, htodo]
        · simp only [List.getElem?_set_ne (Ne.symm he)] at h'
          exact hi.2 t' th' h'
    · rename_i c pc hnow
      simp only [Option.some.injEq] at h
      rcases hp : pc.next s.doc with ⟨f, pc' | m⟩
      · rw [hp] at h
        subst h
        refine ⟨by simp [Busy.after, hi.1], fun t' th' h' => ?_⟩
        simp only [Busy.after] at h' ⊢
        by_cases he : t' = t
        · subst he
          simp only [List.getElem?_set_self hlt, Option.some.injEq] at h'
          subst h'
          rw [hold]
          simp [BThread.left, hnow]
        · simp only [List.getElem?_set_ne (Ne.symm he)] at h'
          exact hi.2 t' th' h'
      · rw [hp] at h
        subst h
        refine ⟨by simp [Busy.after, hi.1], fun t' th' h' => ?_⟩
        simp only [Busy.after] at h' ⊢
        by_cases he : t' = t
        · subst he
          simp only [List.getElem?_set_self hlt, Option.some.injEq] at h'
          subst h'
          rw [hold]
          simp [BThread.left, hnow, List.filter_append]
        · simp only [List.getElem?_set_ne (Ne.symm he)] at h'
          have hne : (t == t') = false := by simpa using Ne.symm he
          simp only [List.filter_append, List.filter_cons, hne, List.filter_nil, Bool.false_eq_true, if_false, List.append_nil]
          exact hi.2 t' th' h'

theorem ownOrder_start (f : Doc) (calls : List (List BCall)) : OwnOrder calls (busyStart f calls) := by
  refine ⟨by simp [busyStart], fun t th h => ?_⟩
  simp only [busyStart, List.getElem?_map] at h ⊢
  cases hc : calls[t]? with
  | none => rw [hc] at h; cases h
  | some c =>
    rw [hc] at h
    simp only [Option.map_some, Option.some.injEq] at h
    subst h
    simp [BThread.left]

/-- **C83.** However goroutines are interleaved, with or without a mutex, the calls of each of them are
made in its own order. -/
theorem C83_own_order (f : Doc) (calls : List (List BCall)) (sched : List Nat) :
    OwnOrder calls (busyRun (busyStart f calls) sched) ∧
    OwnOrder calls (guardedRun ⟨busyStart f calls, none⟩ sched).s := by
  refine ⟨busyRun_inv (P := OwnOrder calls) (fun s s' t h hs => ownOrder_step h hs) (ownOrder_start f calls) sched, ?_⟩
  have : ∀ (sched : List Nat) (g : Guarded), OwnOrder calls g.s → OwnOrder calls (guardedRun g sched).s := by
    intro sched
    induction sched with
    | nil => exact fun g h => h
    | cons t ts ih =>
      intro g h
      refine ih _ ?_
      cases he : guardedStep g t with
      | none => exact h
      | some g' => exact ownOrder_step h (guarded_busy he)
  exact this sched ⟨busyStart f calls, none⟩ (ownOrder_start f calls)

/-- With a mutex, too, every call is made once. -/
theorem guarded_calls (f : Doc) (calls : List (List BCall)) (sched : List Nat) :
    (((guardedRun ⟨busyStart f calls, none⟩ sched).s.done.map fun e => e.2.1) ++
      (guardedRun ⟨busyStart f calls, none⟩ sched).s.threads.flatMap BThread.left).Perm calls.flatten := by
  have : ∀ (sched : List Nat) (g : Guarded),
      ((g.s.done.map fun e => e.2.1) ++ g.s.threads.flatMap BThread.left).Perm calls.flatten →
      (((guardedRun g sched).s.done.map fun e => e.2.1) ++
        (guardedRun g sched).s.threads.flatMap BThread.left).Perm calls.flatten := by
    intro sched
    induction sched with
    | nil => exact fun g h => h
    | cons t ts ih =>
      intro g h
      refine ih _ ?_
      cases he : guardedStep g t with
      | none => exact h
      | some g' => exact (calls_step (guarded_busy he)).trans h
  exact this sched ⟨busyStart f calls, none⟩ (C83_calls f calls [])

/-! ## Work left -/

/-- How many steps a call has still to do -/
def BPc.steps : BPc → Nat
  | .item _ => 2
  | .itemRead _ _ => 1
  | .link _ => 3
  | .linkNo _ _ => 2
  | .linkRead _ _ _ => 1
  | .pic _ _ => 11
  | .picDoc _ _ _ => 10
  | .picNo _ _ _ _ => 9
  | .picImg _ _ _ _ _ => 8
  | .picLen _ _ _ _ _ _ => 7
  | .picIdx _ _ _ _ _ => 6
  | .picMedia _ _ _ _ _ _ => 5
  | .picPut _ _ _ _ _ => 4
  | .picRid _ _ _ _ _ _ => 3
  | .picRels _ _ _ _ _ _ _ => 2

theorem next_steps {f f' : Doc} {pc pc' : BPc} (h : pc.next f = (f', .inl pc')) : pc'.steps < pc.steps := by
  cases pc <;> simp only [BPc.next, Prod.mk.injEq, Sum.inl.injEq, reduceCtorEq, and_false] at h <;>
    (obtain ⟨_, rfl⟩ := h; simp [BPc.steps])

theorem steps_pos (pc : BPc) : 0 < pc.steps := by cases pc <;> simp [BPc.steps]

theorem enter_steps (c : BCall) : c.enter.steps < 12 := by cases c <;> simp [BCall.enter, BPc.steps]

/-- How many steps a goroutine has still to do, at most -/
def BThread.work (th : BThread) : Nat :=
  12 * th.todo.length + match th.now with
    | none => 0
    | some (_, pc) => pc.steps

def Busy.work (s : Busy) : Nat := (s.threads.map BThread.work).sum

theorem sum_set {ths : List BThread} {t : Nat} {th th' : BThread} (h : ths[t]? = some th) (hw : th'.work < th.work) :
    ((ths.set t th').map BThread.work).sum < (ths.map BThread.work).sum := by
  induction ths generalizing t with
  | nil => simp at h
  | cons a ths ih =>
    cases t with
    | zero =>
      simp only [List.getElem?_cons_zero, Option.some.injEq] at h
      subst h
      simp; omega
    | succ t =>
      simp only [List.getElem?_cons_succ] at h
      have := ih h
      simp only [List.set_cons_succ, List.map_cons, List.sum_cons]; omega

theorem busy_work {s s' : Busy} {t : Nat} (h : busyStep s t = some s') : s'.work < s.work := by
  unfold busyStep at h
  split at h
  · cases h
  · rename_i th hth
    split at h
    · rename_i hnow
      split at h
      · cases h
      · rename_i c rest htodo
        cases h
        refine sum_set hth ?_
        have := enter_steps c
        simp only [BThread.work, hnow, htodo, List.length_cons]
        omega
    · rename_i c pc hnow
      simp only [Option.some.injEq] at h
      rcases hp : pc.next s.doc with ⟨f, pc' | m⟩
      · rw [hp] at h
        subst h
        refine sum_set hth ?_
        have := next_steps hp
        simp only [BThread.work, hnow]
        omega
      · rw [hp] at h
        subst h
        refine sum_set hth ?_
        have := steps_pos pc
        simp only [BThread.work, hnow]
        omega

/-- If the mutex is kept, some goroutine can go on as long as there are calls left. -/
theorem guarded_enabled {f : Doc} {g : Guarded} (hi : GInv f g) (hn : ¬ g.s.finished) :
    ∃ t, t < g.s.threads.length ∧ (guardedStep g t).isSome = true := by
  unfold GInv at hi
  split at hi
  · rename_i ho
    have : ∃ th ∈ g.s.threads, ¬ (th.todo = [] ∧ th.now = none) := by
      apply Classical.byContradiction
      intro hc
      exact hn fun th hth => Classical.byContradiction fun h => hc ⟨th, hth, h⟩
    obtain ⟨th, hth, hne⟩ := this
    obtain ⟨t, ht, rfl⟩ := List.getElem_of_mem hth
    refine ⟨t, ht, ?_⟩
    have hq := hi.1 _ hth
    unfold guardedStep
    rw [List.getElem?_eq_getElem ht]
    simp only [hq, ho, busyStep, List.getElem?_eq_getElem ht]
    cases htd : g.s.threads[t].todo with
    | nil => exact absurd ⟨htd, hq⟩ hne
    | cons c rest => rfl
  · rename_i t ho
    obtain ⟨⟨th, c, p, h1, h2, _⟩, _⟩ := hi
    refine ⟨t, (List.getElem?_eq_some_iff.1 h1).1, ?_⟩
    unfold guardedStep
    simp only [h1, h2]
    split <;> rfl

/-- After a round in which every goroutine gets its turn there is less to do. -/
theorem round_work {f : Doc} : ∀ (r : List Nat) (g : Guarded), GInv f g →
    GInv f (guardedRun g r) ∧ (guardedRun g r).s.work ≤ g.s.work ∧
    (guardedRun g r).s.threads.length = g.s.threads.length ∧
    (∀ t ∈ r, (guardedStep g t).isSome = true → (guardedRun g r).s.work < g.s.work) := by
  intro r
  induction r with
  | nil => intro g h; exact ⟨h, Nat.le_refl _, rfl, by simp⟩
  | cons t ts ih =>
    intro g h
    rw [guardedRun]
    cases he : guardedStep g t with
    | none =>
      simp only [Option.getD_none]
      obtain ⟨a, b, c, d⟩ := ih g h
      refine ⟨a, b, c, ?_⟩
      intro t' ht' hs
      rcases List.mem_cons.1 ht' with rfl | ht'
      · rw [he] at hs; cases hs
      · exact d t' ht' hs
    | some g' =>
      simp only [Option.getD_some]
      obtain ⟨a, b, c, _⟩ := ih g' (gInv_step h he)
      have hw := busy_work (guarded_busy he)
      refine ⟨a, by omega, ?_, fun _ _ _ => by omega⟩
      rw [c]
      have hb := guarded_busy he
      unfold busyStep at hb
      split at hb
      · cases hb
      · split at hb
        · split at hb
          · cases hb
          · simp only [Option.some.injEq] at hb
            rw [← hb]; simp
        · rename_i pc _
          simp only [Option.some.injEq] at hb
          rw [← hb]
          unfold Busy.after
          split <;> simp

theorem guardedRun_append (g : Guarded) (a b : List Nat) :
    guardedRun g (a ++ b) = guardedRun (guardedRun g a) b := by
  induction a generalizing g with
  | nil => rfl
  | cons t ts ih => rw [List.cons_append, guardedRun, guardedRun, ih]

theorem finished_stays {g : Guarded} (h : g.s.finished) (sched : List Nat) : guardedRun g sched = g := by
  induction sched with
  | nil => rfl
  | cons t ts ih =>
    have : guardedStep g t = none := by
      unfold guardedStep
      split
      · rfl
      · rename_i th hth
        obtain ⟨h1, h2⟩ := h th (List.mem_of_getElem? hth)
        rw [h2]
        simp only
        split
        · rfl
        · simp [busyStep, hth, h1, h2]
    rw [guardedRun, this]
    exact ih

theorem work_start (f : Doc) (calls : List (List BCall)) : (busyStart f calls).work = 12 * calls.flatten.length := by
  unfold Busy.work busyStart
  induction calls with
  | nil => rfl
  | cons c cs ih =>
    simp only [List.map_map] at ih
    simp only [List.map_cons, List.map_map, List.sum_cons, List.flatten_cons, List.length_append, ih, BThread.work]
    omega

theorem rounds_finish {f : Doc} : ∀ (rounds : List (List Nat)) (g : Guarded), GInv f g →
    (∀ r ∈ rounds, ∀ t < g.s.threads.length, t ∈ r) → g.s.work ≤ rounds.length →
    (guardedRun g rounds.flatten).s.finished ∧ GInv f (guardedRun g rounds.flatten) := by
  intro rounds
  induction rounds with
  | nil =>
    intro g h _ hw
    refine ⟨Classical.byContradiction fun hn => ?_, h⟩
    obtain ⟨t, _, hs⟩ := guarded_enabled h hn
    obtain ⟨g', hg'⟩ := Option.isSome_iff_exists.1 hs
    have := busy_work (guarded_busy hg')
    simp at hw; omega
  | cons r rounds ih =>
    intro g h hr hw
    by_cases hf : g.s.finished
    · rw [finished_stays hf]; exact ⟨hf, h⟩
    · obtain ⟨t, ht, hs⟩ := guarded_enabled h hf
      obtain ⟨a, _, c, d⟩ := round_work r g h
      have hlt := d t (hr r (by simp) t ht) hs
      rw [List.flatten_cons, guardedRun_append]
      refine ih _ a ?_ ?_
      · rw [c]; exact fun r' h' => hr r' (by simp [h'])
      · simp at hw; omega

/-- **C83, with a mutex all calls return.** Whatever the goroutines do: if each of them gets its turn often
enough (in each of 12 rounds for every call, in any order and any number of times), then all calls have
returned, and the document and the results are those of the calls one after the other, in some order in
which each goroutine makes its calls in its own order. -/
theorem C83_all_return (f : Doc) (calls : List (List BCall)) (rounds : List (List Nat))
    (hr : ∀ r ∈ rounds, ∀ t < calls.length, t ∈ r) (hn : 12 * calls.flatten.length ≤ rounds.length) :
    (guardedRun ⟨busyStart f calls, none⟩ rounds.flatten).s.finished ∧
    ∃ order : List (Nat × BCall), (order.map (·.2)).Perm calls.flatten ∧
      (∀ t c, calls[t]? = some c → (order.filter fun e => e.1 == t).map (·.2) = c) ∧
      oneByOne f (order.map (·.2)) = ((guardedRun ⟨busyStart f calls, none⟩ rounds.flatten).s.doc,
        (guardedRun ⟨busyStart f calls, none⟩ rounds.flatten).s.made) := by
  have h0 : GInv f ⟨busyStart f calls, none⟩ := ⟨by
    intro th hth
    simp only [busyStart, List.mem_map] at hth
    obtain ⟨c, _, rfl⟩ := hth; rfl, rfl⟩
  obtain ⟨hf, hi⟩ := rounds_finish rounds ⟨busyStart f calls, none⟩ h0
    (by simpa [busyStart] using hr) (by rw [work_start]; exact hn)
  have ho := (C83_own_order f calls rounds.flatten).2
  have hp := guarded_calls f calls rounds.flatten
  generalize guardedRun ⟨busyStart f calls, none⟩ rounds.flatten = g at *
  refine ⟨hf, g.s.done.map (fun e => (e.1, e.2.1)), ?_, ?_, ?_⟩
  · have hl : g.s.threads.flatMap BThread.left = [] := by
      rw [List.flatMap_eq_nil_iff]
      intro th hth
      obtain ⟨h1, h2⟩ := hf th hth
      simp [BThread.left, h1, h2]
    rw [hl, List.append_nil] at hp
    rw [List.map_map]
    exact hp
  · intro t c hc
    have hlt : t < g.s.threads.length := by rw [ho.1]; exact (List.getElem?_eq_some_iff.1 hc).1
    have := ho.2 t _ (List.getElem?_eq_getElem hlt)
    obtain ⟨h1, h2⟩ := hf _ (List.getElem_mem hlt)
    rw [hc] at this
    simp only [BThread.left, h2, h1, List.append_nil, Option.some.injEq] at this
    rw [this, List.filter_map, List.map_map]; rfl
  · rw [List.map_map]
    unfold GInv at hi
    split at hi
    · exact hi.2
    · obtain ⟨⟨th, c, p, h1, h2, _⟩, _⟩ := hi
      rw [(hf th (List.mem_of_getElem? h1)).2] at h2
      cases h2

/-- Three goroutines with five calls of all kinds: sixty rounds, the goroutines in turn -/
example : ∀ r ∈ List.replicate 60 [2, 0, 1], ∀ t < busyMix.length, t ∈ r := by
  intro r hr t ht
  rw [(List.mem_replicate.1 hr).2]
  have : t = 0 ∨ t = 1 ∨ t = 2 := by simp [busyMix] at ht; omega
  rcases this with rfl | rfl | rfl <;> decide

example : 12 * busyMix.flatten.length ≤ (List.replicate 60 [2, 0, 1]).length := by decide

example : (guardedRun ⟨busyStart Doc.new busyMix, none⟩ (List.replicate 60 [2, 0, 1]).flatten).s.done.length = 5 := by
  decide +kernel

end Docx
