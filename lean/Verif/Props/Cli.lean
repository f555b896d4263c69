import Verif.SpecCli
import Verif.Lemmas.Num
import Verif.Lemmas.Str
import Verif.Lemmas.KeepTheme
import Verif.Props.Split

/-!
# C72: the command-line tool
-/

namespace Docx

set_option linter.unusedSectionVars false

section

variable [CliEnv] [HashEnv]

/-! ## Names -/

omit [CliEnv] [HashEnv] in
theorem lastIndex_some {c : Char} : ∀ {cs : List Char} {i : Nat}, lastIndex c cs = some i →
    ∃ xs ys, cs = xs ++ c :: ys ∧ xs.length = i ∧ c ∉ ys
  | [], i, h => by simp [lastIndex] at h
  | x :: cs, i, h => by
    simp only [lastIndex] at h
    cases hl : lastIndex c cs with
    | some j =>
      rw [hl] at h
      obtain rfl := Option.some.inj h
      obtain ⟨xs, ys, e1, e2, e3⟩ := lastIndex_some hl
      exact ⟨x :: xs, ys, by rw [e1]; rfl, by simp [e2], e3⟩
    | none =>
      rw [hl] at h
      simp only at h
      split at h
      · rename_i hx
        obtain rfl := Option.some.inj h
        refine ⟨[], cs, by simp [hx], rfl, ?_⟩
        exact lastIndex_none hl
      · simp at h
where
  lastIndex_none {c : Char} : ∀ {cs : List Char}, lastIndex c cs = none → c ∉ cs
    | [], _ => by simp
    | x :: cs, h => by
      simp only [lastIndex] at h
      split at h
      · simp at h
      · rename_i hl
        split at h
        · simp at h
        · rename_i hx
          have := lastIndex_none hl
          simp only [List.mem_cons, not_or]
          exact ⟨fun e => hx e.symm, this⟩

omit [CliEnv] [HashEnv] in
theorem lastIndex_lacks {c : Char} : ∀ {cs : List Char}, c ∉ cs → lastIndex c cs = none
  | [], _ => rfl
  | x :: cs, h => by
    simp only [List.mem_cons, not_or] at h
    simp only [lastIndex, lastIndex_lacks h.2]
    rw [if_neg fun e => h.1 e.symm]

omit [CliEnv] [HashEnv] in
theorem lastIndex_at {c : Char} {ys : List Char} (h : c ∉ ys) : ∀ xs : List Char,
    lastIndex c (xs ++ c :: ys) = some xs.length
  | [] => by simp [lastIndex, lastIndex_lacks h]
  | x :: xs => by simp [lastIndex, lastIndex_at h xs]

omit [CliEnv] [HashEnv] in
theorem length_unmName (f : String) : (unmName f).toList.length = f.toList.length + 10 := by
  simp only [unmName, String.toList_ofList, List.length_append]
  rw [show ("unmarshal_".toList).length = 10 from rfl, List.length_take, List.length_drop]
  omega

omit [CliEnv] [HashEnv] in
theorem length_pieceName {f : String} {n : Nat} {s : String} (h : pieceName f n = some s) :
    s.toList.length = f.toList.length + 16 + (natRep n).length := by
  simp only [pieceName] at h
  split at h
  · simp at h
  · rename_i b hb
    split at h
    · rename_i hab
      obtain rfl := Option.some.inj h
      obtain ⟨xs, ys, e, el, _⟩ := lastIndex_some hb
      have hlen : b < f.toList.length := by rw [e]; simp; omega
      simp only [String.toList_ofList, List.length_append, List.length_take, List.length_drop]
      rw [show ("unmarshal_".toList).length = 10 from rfl, show ("_split".toList).length = 6 from rfl]
      omega
    · simp at h

omit [CliEnv] [HashEnv] in
theorem length_dupName (f : String) : f.toList.length < (dupName f).toList.length := by
  simp only [dupName]
  split
  · simp only [String.toList_ofList, List.length_append, List.length_take, List.length_drop]
    rw [show ("dup_".toList).length = 4 from rfl]
    omega
  · rw [String.toList_append, List.length_append]
    rw [show ("dup_".toList).length = 4 from rfl]
    omega

omit [CliEnv] [HashEnv] in
theorem pieceName_inj {f s : String} {n m : Nat} (h : pieceName f n = some s) (h' : pieceName f m = some s) :
    n = m := by
  simp only [pieceName] at h h'
  split at h
  · simp at h
  · rename_i b hb
    split at h
    · rename_i hab
      rw [hb] at h'
      simp only at h'
      rw [if_pos hab] at h'
      rw [← h'] at h
      have := congrArg String.toList (Option.some.inj h)
      simp only [String.toList_ofList] at this
      exact natRep_inj (List.append_cancel_left (List.append_cancel_right this))
    · simp at h

omit [CliEnv] [HashEnv] in
/-- A name for `-u` or `-s` is not the name for `-d`. -/
theorem u_ne_dup {f : String} {r : List Char} {s : String}
    (h : s.toList = f.toList.take (after (lastIndex '/' f.toList)) ++ 'u' :: r) : s ≠ dupName f := by
  intro e
  rw [e] at h
  simp only [dupName] at h
  split at h
  · rename_i a ha
    rw [ha] at h
    simp only [String.toList_ofList, after, List.append_assoc] at h
    have := List.append_cancel_left h
    exact absurd (List.cons.inj this).1 (by decide)
  · rename_i hn
    rw [String.toList_append] at h
    cases hl : lastIndex '/' f.toList with
    | none =>
      rw [hl] at h
      simp only [after, List.take_zero, List.nil_append] at h
      exact absurd (List.cons.inj h).1 (by decide)
    | some a =>
      cases a with
      | succ a => exact absurd hl (hn a)
      | zero =>
        rw [hl] at h
        obtain ⟨xs, ys, e1, e2, _⟩ := lastIndex_some hl
        obtain rfl : xs = [] := List.length_eq_zero_iff.1 e2
        rw [e1] at h
        simp only [after, List.nil_append, Nat.zero_add, List.take_succ_cons, List.take_zero,
          List.cons_append] at h
        exact absurd (List.cons.inj h).1 (by decide)

omit [CliEnv] [HashEnv] in
theorem unm_ne_dup (f : String) : unmName f ≠ dupName f := by
  apply u_ne_dup (r := "nmarshal_".toList ++ f.toList.drop (after (lastIndex '/' f.toList)))
  simp only [unmName, String.toList_ofList, List.append_assoc]
  rfl

omit [CliEnv] [HashEnv] in
theorem split_ne_dup {f s : String} {n : Nat} (h : pieceName f n = some s) : s ≠ dupName f := by
  simp only [pieceName] at h
  split at h
  · simp at h
  · rename_i b hb
    split at h
    · obtain rfl := Option.some.inj h
      apply u_ne_dup (r := "nmarshal_".toList ++ ((f.toList.take b).drop (after (lastIndex '/' f.toList)) ++
        ("_split".toList ++ (natRep n ++ f.toList.drop b))))
      simp only [String.toList_ofList, List.append_assoc]
      rfl
    · simp at h

/-! ## Traces -/

omit [CliEnv] [HashEnv] in
theorem created_append (a b : List Ev) : created (a ++ b) = created a ++ created b := by
  induction a with
  | nil => rfl
  | cons e a ih => cases e <;> simp [created, ih]

omit [CliEnv] [HashEnv] in
theorem writtenDocs_append (a b : List Ev) : writtenDocs (a ++ b) = writtenDocs a ++ writtenDocs b := by
  induction a with
  | nil => rfl
  | cons e a ih => cases e <;> simp [writtenDocs, ih]

omit [CliEnv] [HashEnv] in
theorem printed_append (a b : List Ev) : printed (a ++ b) = printed a ++ printed b := by
  induction a with
  | nil => rfl
  | cons e a ih => cases e <;> simp [printed, ih]

omit [CliEnv] [HashEnv] in
theorem bind_sub {α β : Type} {x : Cli α} {f : α → Cli β} {l1 l2 : List String}
    (h1 : (created x.1).Sublist l1) (h2 : ∀ a, x.2 = some a → (created (f a).1).Sublist l2) :
    (created (x >>= f).1).Sublist (l1 ++ l2) := by
  obtain ⟨es, o⟩ := x
  cases o with
  | none => exact h1.trans (List.sublist_append_left _ _)
  | some a =>
    show (created (es ++ (f a).1)).Sublist _
    rw [created_append]
    exact h1.append (h2 a rfl)

omit [CliEnv] [HashEnv] in
theorem bind_done {α β : Type} {x : Cli α} {f : α → Cli β} {b : β} (h : (x >>= f).2 = some b) :
    ∃ a, x.2 = some a ∧ (f a).2 = some b ∧ (x >>= f).1 = x.1 ++ (f a).1 := by
  obtain ⟨es, o⟩ := x
  cases o with
  | none => simp [bind, Cli.bind] at h
  | some a => exact ⟨a, rfl, h, rfl⟩

omit [HashEnv] in
theorem create_sub (n : String) : (created (Cli.create n).1).Sublist [n] := by
  unfold Cli.create
  split
  · exact .refl _
  · exact List.nil_sublist _

omit [HashEnv] in
theorem write_sub (n : String) (d : Doc) : created (Cli.write n d).1 = [] := by
  unfold Cli.write
  split <;> rfl

omit [CliEnv] [HashEnv] in
theorem call_ev {α : Type} (r : Res α) : (Cli.call r).1 = [] := by cases r <;> rfl

omit [CliEnv] [HashEnv] in
theorem call_done {α : Type} {r : Res α} {a : α} (h : (Cli.call r).2 = some a) : r = .ok a := by
  cases r with
  | ok b => exact congrArg _ (Option.some.inj h)
  | err e => simp [Cli.call, Cli.panic] at h
  | panic => simp [Cli.call, Cli.panic] at h

omit [HashEnv] in
theorem save_sub (n : String) (d : Doc) :
    (created (Cli.create n >>= fun _ => Cli.write n d).1).Sublist [n] := by
  have := bind_sub (create_sub n) (f := fun _ => Cli.write n d) (l2 := []) fun _ _ => by
    rw [write_sub]; exact .refl _
  simpa using this

omit [CliEnv] in
theorem printItems_sub (w : World) : ∀ is : List BItem, created (printItems w is).1 = []
  | [] => rfl
  | .sect _ :: is => printItems_sub w is
  | .para p :: is => by
    unfold printItems
    cases p.str w with
    | ok s => exact printItems_sub w is
    | err e => rfl
    | panic => rfl
  | .table t :: is => by
    unfold printItems
    cases t.str w with
    | ok s => exact printItems_sub w is
    | err e => rfl
    | panic => rfl

omit [HashEnv] in
theorem writePieces_sub (f : String) (w : World) : ∀ (ids : List DocId) (n : Nat),
    (created (writePieces f w n ids).1).Sublist ((List.range' n ids.length).filterMap (pieceName f))
  | [], n => List.nil_sublist _
  | i :: ids, n => by
    unfold writePieces
    simp only [List.length_cons, List.range'_succ]
    split
    · rename_i name d hn hd
      rw [List.filterMap_cons_some hn]
      have h2 := bind_sub (create_sub name) (f := fun _ => Cli.write name d >>= fun _ =>
        writePieces f w (n + 1) ids) (l2 := (List.range' (n + 1) ids.length).filterMap (pieceName f))
        (fun _ _ => by
          have := bind_sub (x := Cli.write name d) (f := fun _ => writePieces f w (n + 1) ids) (l1 := [])
            (by rw [write_sub]; exact .refl _) fun _ _ => writePieces_sub f w ids (n + 1)
          simpa using this)
      simpa using h2
    · exact List.nil_sublist _

/-- The names a run creates files under, at most and in this order -/
def allNames (fl : Flags) (k : Nat) : List String :=
  (if fl.analyze then [] else [fl.file]) ++ ([unmName fl.file] ++
    ((List.range' 0 k).filterMap (pieceName fl.file) ++ [dupName fl.file]))

theorem cliMain_sub (fl : Flags) (demo parsed : Option Doc) :
    ∃ k, (created (cliMain fl demo parsed).1).Sublist (allNames fl k) := by
  have hdemo : (created (demoPart fl demo).1).Sublist (if fl.analyze then [] else [fl.file]) := by
    unfold demoPart
    by_cases ha : fl.analyze = true
    · rw [if_pos ha, if_pos ha]; exact .refl _
    · rw [if_neg ha, if_neg ha]
      have := bind_sub (x := Cli.emit (.print ("Preparing new document to write at " ++ fl.file ++ "\n")))
        (l1 := []) (l2 := [fl.file]) (.refl _) (f := fun _ => match demo with
          | none => Cli.panic
          | some d => do
            Cli.create fl.file
            Cli.write fl.file d
            Cli.emit (.print "Document writen. \nNow trying to read it\n")) (fun _ _ => by
          cases demo with
          | none => exact List.nil_sublist _
          | some d =>
            have h := bind_sub (create_sub fl.file) (l2 := []) (f := fun _ => Cli.write fl.file d >>=
              fun _ => Cli.emit (.print "Document writen. \nNow trying to read it\n")) (fun _ _ => by
              have := bind_sub (x := Cli.write fl.file d) (l1 := []) (l2 := [])
                (f := fun _ => Cli.emit (.print "Document writen. \nNow trying to read it\n"))
                (by rw [write_sub]; exact .refl _) (fun _ _ => .refl _)
              simpa using this)
            simpa using h)
      rw [List.nil_append] at this; exact this
  have hunm : ∀ d, (created (unmPart fl d).1).Sublist [unmName fl.file] := by
    intro d
    unfold unmPart
    split
    · exact save_sub _ _
    · exact List.nil_sublist _
  have hsplit : ∀ d, ∃ k, (created (splitPart fl d).1).Sublist
      ((List.range' 0 k).filterMap (pieceName fl.file)) := by
    intro d
    unfold splitPart
    split
    · exact ⟨0, .refl _⟩
    · split
      · exact ⟨0, .refl _⟩
      · rename_i re _
        cases hs : World.splitByParagraph [d] 0 (splitByText re) with
        | panic => exact ⟨0, .refl _⟩
        | err e => exact ⟨0, .refl _⟩
        | ok r =>
          obtain ⟨w, ids⟩ := r
          refine ⟨ids.length, ?_⟩
          have := bind_sub (writePieces_sub fl.file w ids 0) (l2 := [])
            (f := fun _ => (pure w : Cli World)) (fun _ _ => .refl _)
          rw [List.append_nil] at this; exact this
  have hdup : ∀ w, (created (dupPart fl w).1).Sublist [dupName fl.file] := by
    intro w
    unfold dupPart
    split
    · have := bind_sub (create_sub (dupName fl.file)) (l2 := []) (f := fun _ =>
        Cli.call (appendTimes w.length 0 fl.dup.toInt64.toInt.toNat (w ++ [themedDoc])) >>= fun w' =>
          match w'[w.length]? with
          | some d => Cli.write (dupName fl.file) d
          | none => Cli.panic) (fun _ _ => by
        have := bind_sub (x := Cli.call (appendTimes w.length 0 fl.dup.toInt64.toInt.toNat (w ++ [themedDoc])))
          (l1 := []) (l2 := []) (f := fun w' => match w'[w.length]? with
            | some d => Cli.write (dupName fl.file) d
            | none => Cli.panic) (by rw [call_ev]; exact .refl _) (fun w' _ => by
            cases w'[w.length]? with
            | none => exact .refl _
            | some d => simp only; rw [write_sub]; exact .refl _)
        simpa using this)
      rw [List.append_nil] at this; exact this
    · exact List.nil_sublist _
  cases parsed with
  | none =>
    refine ⟨0, ?_⟩
    have := bind_sub hdemo (f := fun _ => (Cli.panic : Cli Unit)) (l2 := []) (fun _ _ => .refl _)
    exact (this.trans (by simp)).trans (List.sublist_append_left _ _)
  | some d =>
    obtain ⟨k, hk⟩ := hsplit (fl.tidy d)
    refine ⟨k, bind_sub hdemo fun _ _ => bind_sub (hunm _) fun _ _ => ?_⟩
    have h3 := bind_sub hk (f := fun w => dupPart fl w >>= fun _ => Cli.emit (.print "End of main\n"))
      (l2 := [dupName fl.file]) (fun w _ => by
        have := bind_sub (hdup w) (l2 := []) (f := fun _ => Cli.emit (.print "End of main\n"))
          (fun _ _ => .refl _)
        simpa using this)
    have h2 := bind_sub (x := printItems [fl.tidy d] (fl.tidy d).items) (l1 := [])
      (by rw [printItems_sub]; exact .refl _) (fun _ _ => h3)
    have h1 := bind_sub (x := Cli.emit (.print "Plain text:\n")) (l1 := []) (.refl _) (fun _ _ => h2)
    simpa using h1

omit [CliEnv] [HashEnv] in
theorem names_nodup (fl : Flags) (k : Nat) : (allNames fl k).Nodup := by
  have hs : ∀ n, ((List.range' n k).filterMap (pieceName fl.file)).Nodup := by
    induction k with
    | zero => intro n; simp
    | succ k ih =>
      intro n
      rw [List.range'_succ]
      cases hn : pieceName fl.file n with
      | none => rw [List.filterMap_cons_none hn]; exact ih _
      | some s =>
        rw [List.filterMap_cons_some hn, List.nodup_cons]
        refine ⟨?_, ih _⟩
        intro hm
        obtain ⟨m, hm, e⟩ := List.mem_filterMap.1 hm
        have := pieceName_inj hn e
        have := List.mem_range'_1.1 hm
        omega
  have hmem : ∀ {s}, s ∈ (List.range' 0 k).filterMap (pieceName fl.file) → ∃ n, pieceName fl.file n = some s :=
    fun h => let ⟨n, _, e⟩ := List.mem_filterMap.1 h; ⟨n, e⟩
  have h1 : ((List.range' 0 k).filterMap (pieceName fl.file) ++ [dupName fl.file]).Nodup := by
    rw [List.nodup_append]
    refine ⟨hs 0, by simp, ?_⟩
    intro a ha b hb
    obtain ⟨n, e⟩ := hmem ha
    simp only [List.mem_singleton] at hb
    rw [hb]
    exact split_ne_dup e
  have h2 : ([unmName fl.file] ++ ((List.range' 0 k).filterMap (pieceName fl.file) ++ [dupName fl.file])).Nodup := by
    rw [List.singleton_append, List.nodup_cons]
    refine ⟨?_, h1⟩
    intro hm
    rcases List.mem_append.1 hm with h | h
    · obtain ⟨n, e⟩ := hmem h
      have := length_pieceName e
      rw [length_unmName] at this
      omega
    · exact unm_ne_dup _ (List.mem_singleton.1 h)
  unfold allNames
  split
  · exact h2
  · rw [List.singleton_append, List.nodup_cons]
    exact ⟨fun hm => notIn fl k hm, h2⟩
where
  notIn (fl : Flags) (k : Nat) : fl.file ∈ [unmName fl.file] ++
      ((List.range' 0 k).filterMap (pieceName fl.file) ++ [dupName fl.file]) → False := by
    intro hm
    simp only [List.singleton_append, List.mem_cons, List.mem_append, List.not_mem_nil, or_false] at hm
    rcases hm with h | h | h
    · have := length_unmName fl.file; rw [← h] at this; omega
    · obtain ⟨n, _, e⟩ := List.mem_filterMap.1 h
      have := length_pieceName e
      omega
    · have := length_dupName fl.file; rw [← h] at this; omega

/-- **C72.** No file is created twice in a run, whatever the flags, the documents, and the point at which
the run may fail; so no result overwrites another one. -/
theorem C72_no_overwriting (fl : Flags) (demo parsed : Option Doc) :
    (created (cliMain fl demo parsed).1).Nodup := by
  obtain ⟨k, h⟩ := cliMain_sub fl demo parsed
  exact h.nodup (names_nodup fl k)

/-- **C72.** With `-a` the file that is read is never created, so never changed. -/
theorem C72_input_kept (fl : Flags) (demo parsed : Option Doc) (ha : fl.analyze = true) :
    fl.file ∉ created (cliMain fl demo parsed).1 := by
  obtain ⟨k, h⟩ := cliMain_sub fl demo parsed
  intro hm
  have := h.subset hm
  unfold allNames at this
  rw [if_pos ha, List.nil_append] at this
  exact names_nodup.notIn fl k this

/-! ## What the names look like -/

omit [CliEnv] [HashEnv] in
theorem slash_at {dir base : String} (hd : IsDir dir) (hb : Lacks '/' base) :
    after (lastIndex '/' (dir ++ base).toList) = dir.toList.length := by
  rcases hd with rfl | ⟨d, rfl⟩
  · rw [String.empty_append, lastIndex_lacks hb]
    rfl
  · rw [String.toList_append, String.toList_append, List.append_assoc]
    show after (lastIndex '/' (d.toList ++ '/' :: base.toList)) = _
    rw [lastIndex_at hb]
    simp [after]

omit [CliEnv] [HashEnv] in
theorem unmName_eq {dir base : String} (hd : IsDir dir) (hb : Lacks '/' base) :
    unmName (dir ++ base) = dir ++ "unmarshal_" ++ base := by
  apply String.toList_inj.1
  unfold unmName
  simp only [slash_at hd hb]
  simp

omit [CliEnv] [HashEnv] in
theorem lacks_append {c : Char} {a b : String} (ha : Lacks c a) (hb : Lacks c b) : Lacks c (a ++ b) := by
  simp only [Lacks, String.toList_append, List.mem_append, not_or] at *
  exact ⟨ha, hb⟩

omit [CliEnv] [HashEnv] in
theorem pieceName_eq {dir stem ext : String} (hd : IsDir dir) (h1 : Lacks '/' stem) (h2 : Lacks '/' ext)
    (h3 : Lacks '.' ext) (n : Nat) :
    pieceName (dir ++ stem ++ "." ++ ext) n =
      some (dir ++ "unmarshal_" ++ stem ++ "_split" ++ String.ofList (natRep n) ++ "." ++ ext) := by
  have ha := slash_at (base := stem ++ ("." ++ ext)) hd
    (lacks_append h1 (lacks_append (by unfold Lacks; decide) h2))
  rw [← String.append_assoc, ← String.append_assoc] at ha
  have hb : lastIndex '.' (dir ++ stem ++ "." ++ ext).toList = some (dir.toList.length + stem.toList.length) := by
    have := lastIndex_at (c := '.') (ys := ext.toList) h3 (dir.toList ++ stem.toList)
    rw [List.length_append] at this
    rw [← this]
    congr 1
    simp
  simp only [pieceName, ha, hb]
  rw [if_pos (Nat.le_add_right _ _)]
  congr 1
  apply String.toList_inj.1
  have e : (dir ++ stem ++ "." ++ ext).toList = (dir.toList ++ stem.toList) ++ '.' :: ext.toList := by simp
  have el : dir.toList.length + stem.toList.length = (dir.toList ++ stem.toList).length := by simp
  rw [e, el]
  simp only [List.take_left', List.drop_left', String.toList_append, String.toList_ofList]
  simp

/-! ## Complete runs -/

omit [HashEnv] in
theorem create_done {n : String} {u : Unit} (h : (Cli.create n).2 = some u) :
    (Cli.create n).1 = [.create n] := by
  unfold Cli.create at h ⊢
  split
  · rfl
  · rename_i hc; rw [if_neg hc] at h; simp [Cli.panic] at h

omit [HashEnv] in
theorem write_done {n : String} {d : Doc} {u : Unit} (h : (Cli.write n d).2 = some u) :
    (Cli.write n d).1 = [.wrote n d] := by
  unfold Cli.write at h ⊢
  split
  · rfl
  · rename_i hc; rw [if_neg hc] at h; simp [Cli.panic] at h

omit [HashEnv] in
theorem save_done {n : String} {d : Doc} {u : Unit}
    (h : (Cli.create n >>= fun _ => Cli.write n d).2 = some u) :
    (Cli.create n >>= fun _ => Cli.write n d).1 = [.create n, .wrote n d] := by
  obtain ⟨_, h1, h2, e⟩ := bind_done h
  rw [e, create_done h1, write_done h2]
  rfl

omit [CliEnv] in
theorem printItems_done (w : World) : ∀ {is : List BItem} {u : Unit}, (printItems w is).2 = some u →
    Lines w is (printed (printItems w is).1) ∧ writtenDocs (printItems w is).1 = []
  | [], _, _ => ⟨.nil, rfl⟩
  | .sect _ :: is, _, h => ⟨.sect (printItems_done w (is := is) h).1, (printItems_done w (is := is) h).2⟩
  | .para p :: is, _, h => by
    unfold printItems at h ⊢
    cases hs : p.str w with
    | ok s =>
      rw [hs] at h
      have := printItems_done w (is := is) h
      exact ⟨.para hs this.1, this.2⟩
    | err e => rw [hs] at h; simp [bind, Cli.bind, Cli.call, Cli.panic] at h
    | panic => rw [hs] at h; simp [bind, Cli.bind, Cli.call, Cli.panic] at h
  | .table t :: is, _, h => by
    unfold printItems at h ⊢
    cases hs : t.str w with
    | ok s =>
      rw [hs] at h
      have := printItems_done w (is := is) h
      exact ⟨.table hs this.1, this.2⟩
    | err e => rw [hs] at h; simp [bind, Cli.bind, Cli.call, Cli.panic] at h
    | panic => rw [hs] at h; simp [bind, Cli.bind, Cli.call, Cli.panic] at h

omit [HashEnv] in
theorem writePieces_done {dir stem ext : String} (hd : IsDir dir) (h1 : Lacks '/' stem) (h2 : Lacks '/' ext)
    (h3 : Lacks '.' ext) (w : World) : ∀ {ids : List DocId} {n : Nat} {u : Unit},
    (writePieces (dir ++ stem ++ "." ++ ext) w n ids).2 = some u →
    (writtenDocs (writePieces (dir ++ stem ++ "." ++ ext) w n ids).1).map (·.1) = pieceNames dir stem ext n ids.length ∧
    (writtenDocs (writePieces (dir ++ stem ++ "." ++ ext) w n ids).1).map (fun p => some p.2) = ids.map (w[·]?) ∧
    created (writePieces (dir ++ stem ++ "." ++ ext) w n ids).1 =
      (writtenDocs (writePieces (dir ++ stem ++ "." ++ ext) w n ids).1).map (·.1) ∧
    printed (writePieces (dir ++ stem ++ "." ++ ext) w n ids).1 = []
  | [], n, _, _ => ⟨rfl, rfl, rfl, rfl⟩
  | i :: ids, n, u, h => by
    unfold writePieces at h ⊢
    rw [pieceName_eq hd h1 h2 h3] at h ⊢
    cases hw : w[i]? with
    | none => rw [hw] at h; simp [Cli.panic] at h
    | some d =>
      rw [hw] at h
      simp only at h ⊢
      obtain ⟨_, a1, a2, e⟩ := bind_done h
      obtain ⟨_, b1, b2, e'⟩ := bind_done a2
      obtain ⟨i1, i2, i3, i4⟩ := writePieces_done hd h1 h2 h3 w b2
      rw [e, e', create_done a1, write_done b1]
      simp only [List.cons_append, List.nil_append, writtenDocs, created, printed, List.map_cons, i1, i2, i3, i4,
        pieceNames, List.length_cons, hw, and_self]

theorem appendTimes_spec {to src : DocId} {s : Doc} (hne : src ≠ to) : ∀ {n : Nat} {w w' : World} {t : Doc},
    w[to]? = some t → w[src]? = some s → appendTimes to src n w = .ok w' →
    ∃ (t' : Doc) (cs : List (List BItem)), w'[to]? = some t' ∧ cs.length = n ∧ t'.items = t.items ++ cs.flatten ∧
      SameTheme t t' ∧ ∀ c ∈ cs, ∃ wk : World, (∀ d, d ≠ to → wk[d]? = w[d]?) ∧ Each (ItemCopied (shapeRules wk) to) s.items c
  | 0, w, w', t, ht, hs, h => by
    obtain rfl : w = w' := by simpa [appendTimes] using h
    exact ⟨t, [], ht, rfl, by simp, .refl t, by simp⟩
  | n + 1, w, w', t, ht, hs, h => by
    unfold appendTimes at h
    cases ha : w.appendFile to src with
    | err e => rw [ha] at h; simp [bind, Res.bind] at h
    | panic => rw [ha] at h; simp [bind, Res.bind] at h
    | ok w1 =>
      rw [ha] at h
      obtain ⟨t1, c, h1, h2, h3, _, _, _, _, h4⟩ := C37_append w w1 to src t s ht hs ha
      obtain ⟨t', cs, g1, g2, g3, gt, g4⟩ := appendTimes_spec hne h1 (by rw [h4 src hne]; exact hs) h
      have hk : SameTheme t t1 := by
        unfold World.appendFile at ha
        simp only [hs] at ha
        obtain ⟨t2, k1, k2⟩ := appendItems_keep (d := to) ha t ht
        rw [h1] at k1; cases k1; exact k2
      refine ⟨t', c :: cs, g1, by simp [g2], by rw [g3, h2]; simp, hk.trans gt, ?_⟩
      intro x hx
      rcases List.mem_cons.1 hx with rfl | hx
      · exact ⟨w, fun _ _ => rfl, h3⟩
      · obtain ⟨wk, k1, k2⟩ := g4 x hx
        exact ⟨wk, fun d hd => (k1 d hd).trans (h4 d hd), k2⟩

/-- What a complete run did, part by part -/
theorem cliMain_done {fl : Flags} {demo parsed : Option Doc} {u : Unit}
    (h : (cliMain fl demo parsed).2 = some u) : ∃ d w, parsed = some d ∧
    (demoPart fl demo).2 = some () ∧ (unmPart fl (fl.tidy d)).2 = some () ∧
    (printItems [fl.tidy d] (fl.tidy d).items).2 = some () ∧ (splitPart fl (fl.tidy d)).2 = some w ∧
    (dupPart fl w).2 = some () ∧
    (cliMain fl demo parsed).1 = (demoPart fl demo).1 ++ ((unmPart fl (fl.tidy d)).1 ++
      ([.print "Plain text:\n"] ++ ((printItems [fl.tidy d] (fl.tidy d).items).1 ++
        ((splitPart fl (fl.tidy d)).1 ++ ((dupPart fl w).1 ++ [.print "End of main\n"]))))) := by
  obtain ⟨_, a1, a2, a3⟩ := bind_done h
  cases parsed with
  | none => simp [Cli.panic] at a2
  | some d =>
    simp only at a2 a3
    unfold mainRead at a2 a3
    obtain ⟨_, b1, b2, b3⟩ := bind_done a2
    obtain ⟨_, c1, c2, c3⟩ := bind_done b2
    obtain ⟨_, d1, d2, d3⟩ := bind_done c2
    obtain ⟨w, e1, e2, e3⟩ := bind_done d2
    obtain ⟨_, f1, f2, f3⟩ := bind_done e2
    refine ⟨d, w, rfl, a1, b1, d1, e1, f1, ?_⟩
    unfold cliMain mainRead
    simp only
    rw [a3, b3, c3, d3, e3, f3]
    rfl

theorem demoPart_done {fl : Flags} {demo : Option Doc} {u : Unit} (h : (demoPart fl demo).2 = some u) :
    writtenDocs (demoPart fl demo).1 = (if fl.analyze then [] else demo.toList.map fun d => (fl.file, d)) ∧
    created (demoPart fl demo).1 = (writtenDocs (demoPart fl demo).1).map (·.1) ∧
    printed (demoPart fl demo).1 = (if fl.analyze then [] else
      ["Preparing new document to write at " ++ fl.file ++ "\n",
       "Document writen. \nNow trying to read it\n"]) := by
  unfold demoPart at h ⊢
  by_cases ha : fl.analyze = true
  · simp only [if_pos ha]; exact ⟨rfl, rfl, rfl⟩
  · simp only [if_neg ha] at h ⊢
    obtain ⟨_, a1, a2, a3⟩ := bind_done h
    rw [a3]
    cases demo with
    | none => simp [Cli.panic] at a2
    | some d =>
      simp only at a2 ⊢
      obtain ⟨_, b1, b2, b3⟩ := bind_done a2
      obtain ⟨_, c1, c2, c3⟩ := bind_done b2
      rw [b3, c3, create_done b1, write_done c1]
      exact ⟨rfl, rfl, rfl⟩

theorem unmPart_done {fl : Flags} {d : Doc} {u : Unit} (h : (unmPart fl d).2 = some u) :
    writtenDocs (unmPart fl d).1 = (if fl.unm then [(unmName fl.file, d)] else []) ∧
    created (unmPart fl d).1 = (writtenDocs (unmPart fl d).1).map (·.1) ∧ printed (unmPart fl d).1 = [] := by
  unfold unmPart at h ⊢
  by_cases ha : fl.unm = true
  · simp only [if_pos ha] at h ⊢
    rw [save_done h]
    exact ⟨rfl, rfl, rfl⟩
  · simp only [if_neg ha]; exact ⟨rfl, rfl, rfl⟩

/-- The page set by `WithA4Page` -/
theorem themed_items : themedDoc.items = [.sect { pgSz := some { w := 11906, h := 16838 } }] := rfl

theorem splitPart_done {fl : Flags} {doc : Doc} {w : World} {dir stem ext : String}
    (hf : fl.file = dir ++ stem ++ "." ++ ext) (hd : IsDir dir)
    (h1 : Lacks '/' stem) (h2 : Lacks '/' ext) (h3 : Lacks '.' ext) (h : (splitPart fl doc).2 = some w) :
    w[0]? = some doc ∧ created (splitPart fl doc).1 = (writtenDocs (splitPart fl doc).1).map (·.1) ∧
    printed (splitPart fl doc).1 = [] ∧
    (fl.splitre = "" → writtenDocs (splitPart fl doc).1 = []) ∧
    (fl.splitre ≠ "" → ∃ re ids, CliEnv.compile fl.splitre = some re ∧
      World.splitByParagraph [doc] 0 (splitByText re) = .ok (w, ids) ∧
      (writtenDocs (splitPart fl doc).1).map (·.1) = pieceNames dir stem ext 0 ids.length ∧
      (writtenDocs (splitPart fl doc).1).map (fun p => some p.2) = ids.map (w[·]?)) := by
  unfold splitPart at h ⊢
  by_cases he : fl.splitre = ""
  · simp only [if_pos he] at h ⊢
    obtain rfl : [doc] = w := Option.some.inj h
    exact ⟨rfl, rfl, rfl, fun _ => rfl, fun hn => absurd he hn⟩
  · simp only [if_neg he] at h ⊢
    cases hc : CliEnv.compile fl.splitre with
    | none => rw [hc] at h; simp [Cli.panic] at h
    | some re =>
      rw [hc] at h
      simp only at h ⊢
      obtain ⟨⟨w1, ids⟩, a1, a2, a3⟩ := bind_done h
      obtain ⟨_, b1, b2, b3⟩ := bind_done a2
      obtain rfl : w1 = w := Option.some.inj b2
      have hs := call_done a1
      obtain ⟨_, _, _, _, hk⟩ := C32_partition [doc] w1 0 doc _ ids rfl hs
      rw [hf] at b1
      obtain ⟨i1, i2, i3, i4⟩ := writePieces_done hd h1 h2 h3 w1 b1
      have e : ([] : List Ev) ++ ((writePieces (dir ++ stem ++ "." ++ ext) w1 0 ids).1 ++ []) =
          (writePieces (dir ++ stem ++ "." ++ ext) w1 0 ids).1 := by simp
      rw [a3, call_ev]
      simp only
      rw [b3, hf]
      have e' : ([] : List Ev) ++ ((writePieces (dir ++ stem ++ "." ++ ext) (w1, ids).fst 0 (w1, ids).snd).1 ++
          (pure (w1, ids).fst : Cli World).1) = (writePieces (dir ++ stem ++ "." ++ ext) w1 0 ids).1 := e
      rw [e']
      exact ⟨hk 0 doc rfl, i3, i4, fun h => absurd h he, fun _ => ⟨re, ids, rfl, hs, i1, i2⟩⟩

theorem dupPart_done {fl : Flags} {w : World} {doc : Doc} {u : Unit} (hw : w[0]? = some doc)
    (h : (dupPart fl w).2 = some u) :
    created (dupPart fl w).1 = (writtenDocs (dupPart fl w).1).map (·.1) ∧ printed (dupPart fl w).1 = [] ∧
    (fl.dup ≤ 1 → writtenDocs (dupPart fl w).1 = []) ∧
    (1 < fl.dup → ∃ t cs, writtenDocs (dupPart fl w).1 = [(dupName fl.file, t)] ∧
      List.length cs = fl.dup.toInt64.toInt.toNat ∧
      t.items = .sect { pgSz := some { w := 11906, h := 16838 } } :: List.flatten cs ∧
      (t.template = "default" ∧ t.tmplfs = some CliEnv.theme ∧ t.tmpfslst = defaultTemplateFiles) ∧
      ∀ c ∈ cs, ∃ wk : World, wk[0]? = some doc ∧
        Each (ItemCopied (shapeRules wk) w.length) doc.items c) := by
  have hpos : 0 < w.length := lt_of_getElem? hw
  unfold dupPart at h ⊢
  by_cases he : 1 < fl.dup
  · simp only [if_pos he] at h ⊢
    obtain ⟨_, a1, a2, a3⟩ := bind_done h
    obtain ⟨w', b1, b2, b3⟩ := bind_done a2
    have ha := call_done b1
    obtain ⟨t', cs, g1, g2, g3, gt, g4⟩ := appendTimes_spec (s := doc) (t := themedDoc) (Nat.ne_of_lt hpos)
      (by rw [List.getElem?_append_right (Nat.le_refl _)]; simp)
      (by rw [List.getElem?_append_left hpos]; exact hw) ha
    rw [a3, b3, create_done a1, call_ev]
    rw [g1] at b2 ⊢
    simp only at b2 ⊢
    rw [write_done b2]
    refine ⟨rfl, rfl, fun hle => absurd he (by simpa using hle), fun _ => ⟨t', cs, rfl, g2, ?_, gt, ?_⟩⟩
    · rw [g3, themed_items]; rfl
    · intro c hc
      obtain ⟨wk, k1, k2⟩ := g4 c hc
      refine ⟨wk, ?_, k2⟩
      rw [k1 0 (Nat.ne_of_lt hpos), List.getElem?_append_left hpos]
      exact hw
  · simp only [if_neg he]
    exact ⟨rfl, rfl, fun _ => rfl, fun h => absurd h he⟩

/-- **C72.** What a complete run has written, for a file `dir/stem.ext`: without `-a` the demonstration
document; with `-u` the document that was read, as `unmarshal_stem.ext` beside the file; with `-s` the
pieces `SplitByParagraph` gives, each under its own number; with `-d n` (n > 1) one document with the
default theme, the A4 page and `n` copies of the body.  No other file is created. -/
theorem C72_files {fl : Flags} {demo parsed : Option Doc} {dir stem ext : String}
    (h : (cliMain fl demo parsed).2 = some ())
    (hf : fl.file = dir ++ stem ++ "." ++ ext) (hd : IsDir dir)
    (h1 : Lacks '/' stem) (h2 : Lacks '/' ext) (h3 : Lacks '.' ext) :
    ∃ d w pieces copies, parsed = some d ∧ w[0]? = some (fl.tidy d) ∧
      writtenDocs (cliMain fl demo parsed).1 =
        (if fl.analyze then [] else demo.toList.map fun x => (fl.file, x)) ++
        (if fl.unm then [(dir ++ "unmarshal_" ++ stem ++ "." ++ ext, fl.tidy d)] else []) ++
        pieces ++ copies ∧
      created (cliMain fl demo parsed).1 = (writtenDocs (cliMain fl demo parsed).1).map (·.1) ∧
      (fl.splitre = "" → pieces = []) ∧
      (fl.splitre ≠ "" → ∃ re ids, CliEnv.compile fl.splitre = some re ∧
        World.splitByParagraph [fl.tidy d] 0 (splitByText re) = .ok (w, ids) ∧
        pieces.map (·.1) = pieceNames dir stem ext 0 ids.length ∧
        pieces.map (fun p => some p.2) = ids.map (w[·]?)) ∧
      (fl.dup ≤ 1 → copies = []) ∧
      (1 < fl.dup → ∃ t cs, copies = [(dupName fl.file, t)] ∧
        List.length cs = fl.dup.toInt64.toInt.toNat ∧
        t.items = .sect { pgSz := some { w := 11906, h := 16838 } } :: List.flatten cs ∧
        (t.template = "default" ∧ t.tmplfs = some CliEnv.theme ∧ t.tmpfslst = defaultTemplateFiles) ∧
        ∀ c ∈ cs, ∃ wk : World, wk[0]? = some (fl.tidy d) ∧
          Each (ItemCopied (shapeRules wk) w.length) (fl.tidy d).items c) := by
  obtain ⟨d, w, rfl, p1, p2, p3, p4, p5, e⟩ := cliMain_done h
  obtain ⟨a1, a2, a3⟩ := demoPart_done p1
  obtain ⟨b1, b2, b3⟩ := unmPart_done p2
  obtain ⟨c1, c2⟩ := printItems_done _ p3
  obtain ⟨s1, s2, s3, s4, s5⟩ := splitPart_done hf hd h1 h2 h3 p4
  obtain ⟨q1, q2, q3, q4⟩ := dupPart_done s1 p5
  have hun : unmName fl.file = dir ++ "unmarshal_" ++ stem ++ "." ++ ext := by
    rw [hf, String.append_assoc, String.append_assoc, unmName_eq hd
      (lacks_append h1 (lacks_append (by unfold Lacks; decide) h2))]
    simp only [String.append_assoc]
  refine ⟨d, w, writtenDocs (splitPart fl (fl.tidy d)).1, writtenDocs (dupPart fl w).1, rfl, s1, ?_, ?_, s4, s5, q3, q4⟩
  · rw [e, ← hun, ← a1, ← b1]
    simp only [writtenDocs_append, c2, List.append_assoc]
    simp [writtenDocs]
  · rw [e]
    simp only [writtenDocs_append, created_append, List.map_append, a2, b2, s2, q1, c2, printItems_sub]
    rfl

omit [CliEnv] in
theorem Lines.unique {w : World} {is : List BItem} {a b : List String} (h : Lines w is a)
    (h' : Lines w is b) : a = b := by
  induction h generalizing b with
  | nil => cases h'; rfl
  | para hs _ ih =>
    cases h' with
    | para hs' h' => rw [hs] at hs'; cases hs'; rw [ih h']
  | table hs _ ih =>
    cases h' with
    | table hs' h' => rw [hs] at hs'; cases hs'; rw [ih h']
  | sect _ ih => cases h' with | sect h' => exact ih h'

/-- **C72.** A complete run prints the text of each paragraph and table of the document in order. -/
theorem C72_printed {fl : Flags} {demo parsed : Option Doc} {dir stem ext : String}
    (h : (cliMain fl demo parsed).2 = some ())
    (hf : fl.file = dir ++ stem ++ "." ++ ext) (hd : IsDir dir)
    (h1 : Lacks '/' stem) (h2 : Lacks '/' ext) (h3 : Lacks '.' ext) :
    ∃ d ls, parsed = some d ∧ Lines [fl.tidy d] (fl.tidy d).items ls ∧
      printed (cliMain fl demo parsed).1 = (if fl.analyze then [] else
        ["Preparing new document to write at " ++ fl.file ++ "\n",
         "Document writen. \nNow trying to read it\n"]) ++
        "Plain text:\n" :: ls ++ ["End of main\n"] := by
  obtain ⟨d, w, rfl, p1, p2, p3, p4, p5, e⟩ := cliMain_done h
  obtain ⟨a1, a2, a3⟩ := demoPart_done p1
  obtain ⟨b1, b2, b3⟩ := unmPart_done p2
  obtain ⟨c1, c2⟩ := printItems_done _ p3
  obtain ⟨s1, s2, s3, s4, s5⟩ := splitPart_done hf hd h1 h2 h3 p4
  obtain ⟨q1, q2, q3, q4⟩ := dupPart_done s1 p5
  refine ⟨d, _, rfl, c1, ?_⟩
  rw [e]
  simp only [printed_append, a3, b3, s3, q2]
  simp [printed]

/-! ## The text with `-p` -/

omit [CliEnv] in
theorem view_items (ids : List String) (d : Doc) (is : List BItem) : ViewEq ids [d] [{ d with items := is }] := by
  intro k
  cases k with
  | zero => exact ⟨fun _ _ => rfl, fun _ => rfl⟩
  | succ k => exact trivial

omit [CliEnv] in
theorem noProps_str (d : Doc) (is : List BItem) (p : Para) :
    p.noProps.str [{ d with items := is }] = p.str [d] :=
  (str_congr p (view_items _ d is)).symm

omit [CliEnv] in
theorem noProps_table (d : Doc) (is : List BItem) (t : Table) :
    Table.str [{ d with items := is }] { t with rows := t.rows.map fun r =>
        { r with cells := r.cells.map fun c => { c with paras := c.paras.map Para.noProps } } } = t.str [d] := by
  have hc : ∀ c : Cell, Cell.str [{ d with items := is }] { c with paras := c.paras.map Para.noProps } =
      c.str [d] := by
    intro c
    unfold Cell.str
    cases c.paras with
    | nil => rfl
    | cons p ps =>
      simp only [List.map_cons, noProps_str]
      rfl
  have hcs : ∀ cs : List Cell, cellsStr [{ d with items := is }]
      (cs.map fun c => { c with paras := c.paras.map Para.noProps }) = cellsStr [d] cs := by
    intro cs
    induction cs with
    | nil => rfl
    | cons c cs ih => simp only [List.map_cons, cellsStr, hc, ih]
  have hrs : ∀ rs : List Row, rowsStr [{ d with items := is }] (rs.map fun r =>
      { r with cells := r.cells.map fun c => { c with paras := c.paras.map Para.noProps } }) = rowsStr [d] rs := by
    intro rs
    induction rs with
    | nil => rfl
    | cons r rs ih => simp only [List.map_cons, rowsStr, hcs, ih]
  have := hrs t.rows
  unfold Table.str
  simp only
  generalize t.rows = rs at *
  cases rs with
  | nil => rfl
  | cons r rs =>
    simp only [List.map_cons, List.length_map] at this ⊢
    rw [this]

omit [CliEnv] in
theorem noProps_lines {d : Doc} {all is : List BItem} {ls : List String} (h : Lines [d] is ls) :
    Lines [{ d with items := all }] (dropParaProps is) ls := by
  induction h with
  | nil => exact .nil
  | para hs _ ih => exact .para ((noProps_str d all _).trans hs) ih
  | table hs _ ih => exact .table ((noProps_table d all _).trans hs) ih
  | sect _ ih => exact .sect ih

/-- **C72.** `-p` does not change the printed text: complete runs on the same file with and without it
print the same. -/
theorem C72_props_text {fl : Flags} {b : Bool} {demo parsed : Option Doc} {dir stem ext : String}
    (h : (cliMain fl demo parsed).2 = some ())
    (h' : (cliMain { fl with dropProps := b } demo parsed).2 = some ())
    (hf : fl.file = dir ++ stem ++ "." ++ ext) (hd : IsDir dir)
    (h1 : Lacks '/' stem) (h2 : Lacks '/' ext) (h3 : Lacks '.' ext) :
    printed (cliMain { fl with dropProps := b } demo parsed).1 = printed (cliMain fl demo parsed).1 := by
  have key : ∀ {fl : Flags} {d : Doc} {ls ls' : List String}, fl.dropProps = false →
      Lines [fl.tidy d] (fl.tidy d).items ls →
      Lines [({ fl with dropProps := true } : Flags).tidy d] (({ fl with dropProps := true } : Flags).tidy d).items ls' →
      ls = ls' := by
    intro fl d ls ls' hp hl hl'
    have e : ({ fl with dropProps := true } : Flags).tidy d =
        { fl.tidy d with items := dropParaProps (fl.tidy d).items } := by
      simp [Flags.tidy, hp]
    rw [e] at hl'
    exact (noProps_lines hl).unique hl'
  obtain ⟨d, ls, rfl, l1, e1⟩ := C72_printed h hf hd h1 h2 h3
  obtain ⟨d', ls', hd', l2, e2⟩ := C72_printed h' hf hd h1 h2 h3
  obtain rfl := Option.some.inj hd'
  have : ls = ls' := by
    cases hp : fl.dropProps <;> cases b
    · have e : ({ fl with dropProps := false } : Flags) = fl := by cases fl; cases hp; rfl
      rw [e] at l2
      exact l1.unique l2
    · exact key hp l1 l2
    · have e : ({ ({ fl with dropProps := false } : Flags) with dropProps := true } : Flags) = fl := by
        cases fl; cases hp; rfl
      exact (key (fl := { fl with dropProps := false }) rfl l2 (by rw [e]; exact l1)).symm
    · have e : ({ fl with dropProps := true } : Flags) = fl := by cases fl; cases hp; rfl
      rw [e] at l2
      exact l1.unique l2
  rw [e1, e2, this]

/-! ## What does not work -/

/-- **C72 is false for `-d` on a file in a directory**: the flag promises `dup_filename`, but the copies
go into a file of the old name in a directory called `dup_` (the slash is taken twice). -/
theorem C72_dup_elsewhere (d base : String) (hd : d ≠ "") (hb : Lacks '/' base) :
    dupName (d ++ "/" ++ base) = d ++ "/dup_/" ++ base := by
  have hl : lastIndex '/' (d ++ "/" ++ base).toList = some d.toList.length := by
    have := lastIndex_at (c := '/') hb d.toList
    rw [← this]
    congr 1
    simp
  cases hc : d.toList with
  | nil => exact absurd (String.toList_inj.1 (by rw [hc]; rfl)) hd
  | cons c cs =>
    unfold dupName
    rw [hc] at hl
    simp only [hl, List.length_cons]
    apply String.toList_inj.1
    simp only [String.toList_append, String.toList_ofList, hc]
    rw [List.take_left' (by simp)]
    simp

/-- Without a directory the name is as promised. -/
theorem C72_dup_name (base : String) (hb : Lacks '/' base) : dupName base = "dup_" ++ base := by
  unfold dupName
  simp only [lastIndex_lacks hb]

/-- **C72 is false for `-d` on a file in the root**: the copies go to a relative path. -/
theorem C72_dup_root (base : String) (hb : Lacks '/' base) : dupName ("/" ++ base) = "dup_/" ++ base := by
  have hl : lastIndex '/' ("/" ++ base).toList = some 0 := by
    have := lastIndex_at (c := '/') hb []
    rw [String.toList_append]
    exact this
  unfold dupName
  simp only [hl]
  rw [← String.append_assoc]
  rfl

/-- `-d 1` does the same as no `-d` at all. -/
theorem C72_dup_once (fl : Flags) (demo parsed : Option Doc) :
    cliMain { fl with dup := 1 } demo parsed = cliMain { fl with dup := 0 } demo parsed := by
  cases parsed with
  | none => rfl
  | some d => rfl

omit [CliEnv] [HashEnv] in
theorem dot_none {dir base : String} (hd : IsDir dir) (hs : Lacks '/' base) (hb : Lacks '.' base) (n : Nat) :
    pieceName (dir ++ base) n = none := by
  unfold pieceName
  simp only [slash_at hd hs]
  split
  · rfl
  · rename_i b hl
    rw [if_neg]
    intro hle
    obtain ⟨xs, ys, e, el, _⟩ := lastIndex_some hl
    rw [String.toList_append] at e
    have hm : (dir.toList ++ base.toList)[b]? = some '.' := by rw [e, ← el]; simp
    rw [List.getElem?_append_right hle] at hm
    exact hb (List.mem_of_getElem? hm)

/-- **C72 is false for `-s` on a file whose name has no dot**: whatever the document, the run panics
before anything of it is written, unless the document is empty. -/
theorem C72_split_panics {fl : Flags} {demo : Option Doc} {d : Doc} {dir base : String}
    (hf : fl.file = dir ++ base) (hd : IsDir dir) (hb : Lacks '/' base) (hdot : Lacks '.' base)
    (hs : fl.splitre ≠ "") (hne : (fl.tidy d).items ≠ []) :
    (cliMain fl demo (some d)).2 = none := by
  cases hr : (cliMain fl demo (some d)).2 with
  | none => rfl
  | some u =>
    obtain ⟨d', w, hd', _, _, _, p4, _, _⟩ := cliMain_done hr
    obtain rfl := Option.some.inj hd'
    unfold splitPart at p4
    rw [if_neg hs] at p4
    cases hc : CliEnv.compile fl.splitre with
    | none => rw [hc] at p4; simp [Cli.panic] at p4
    | some re =>
      rw [hc] at p4
      simp only at p4
      obtain ⟨⟨w1, ids⟩, a1, a2, _⟩ := bind_done p4
      obtain ⟨_, b1, _, _⟩ := bind_done a2
      have hsp := call_done a1
      cases ids with
      | nil => exact absurd ((C32_empty _ _ _ _ _ _ rfl hsp).1 rfl) hne
      | cons i ids =>
        unfold writePieces at b1
        rw [hf, dot_none hd hb hdot] at b1
        simp [Cli.panic] at b1

end

/-! ## Examples -/

/-- Everything can be created and written; expressions match everything -/
local instance cliOk : CliEnv := ⟨fun _ => true, fun _ _ => true, fun _ => some fun _ => true, fun _ => .error .notExist⟩
local instance cliHash : HashEnv := ⟨fun _ => ""⟩

/-- A document with two paragraphs -/
def cliDoc : Doc := ((Doc.new.addParagraph 0).addParagraph 0).withA4Page

/-- A run with all flags -/
def cliFlags : Flags :=
  { file := "a/b.docx", analyze := true, unm := true, splitre := "x", dropProps := true, dup := 2 }

example : (cliMain cliFlags none (some cliDoc)).2 = some () := by decide +kernel
example : created (cliMain cliFlags none (some cliDoc)).1 =
    ["a/unmarshal_b.docx", "a/unmarshal_b_split0.docx", "a/unmarshal_b_split1.docx", "a/dup_/b.docx"] := by
  decide +kernel
example : printed (cliMain cliFlags none (some cliDoc)).1 =
    ["Plain text:\n", "\n", "\n", "End of main\n"] := by decide +kernel
example : cliFlags.file = "a/" ++ "b" ++ "." ++ "docx" ∧ IsDir "a/" ∧ Lacks '/' "b" ∧ Lacks '/' "docx" ∧
    Lacks '.' "docx" := ⟨rfl, .inr ⟨"a", rfl⟩, by unfold Lacks; decide, by unfold Lacks; decide, by unfold Lacks; decide⟩
example : (cliMain { cliFlags with file := "a.b/c" } none (some cliDoc)).2 = none := by decide +kernel
example : (cliMain { cliFlags with analyze := false } (some Doc.new) (some cliDoc)).2 = some () := by
  decide +kernel

end Docx
