import Verif.Proofs.Subgoals
/-
C75 Subgoals are justified.
-/
namespace ONA
variable [Arith] {n : Narsese}

theorem executes_iff {d : Decision} : (d.execute && decide (d.operationID > 0)) = true ↔ d.execute = true ∧ 0 < d.operationID := by
  rw [Bool.and_eq_true, decide_eq_true_eq]

/-- **C75 (goals).** Processing the selected goals derives goals by valid links of concepts they match, and from the
sequences among them, and nothing else changes the waiting goals; or an operation is chosen, and no goal is left when it is
executed. -/
theorem C75_goals {fuel : Nat} {add : Term → M Unit} {now : Int} {layer : Nat} {s s' : Sys}
    (hg : ∀ i < s.goalsSelectedCnt, (s.selectedGoals i).type = .goal)
    (e : Cycle_ProcessAndInferGoalEvents n fuel add now layer s = .ok ((), s')) :
    DerivesGoals n now layer s.chosen s s' ∨
      ∃ s1 d, DerivesGoals n now layer s.chosen s s1 ∧ d.execute = true ∧ 0 < d.operationID ∧
        Decision_Execute n add now d s1.withoutGoals = .ok ((), s') := by
  have key : WP (Cycle_ProcessAndInferGoalEvents n fuel add now layer) (fun _ s' =>
      DerivesGoals n now layer s.chosen s s' ∨
      ∃ s1 d, DerivesGoals n now layer s.chosen s s1 ∧ d.execute = true ∧ 0 < d.operationID ∧
        Decision_Execute n add now d s1.withoutGoals = .ok ((), s')) s := by
    unfold Cycle_ProcessAndInferGoalEvents
    refine WP.get ?_
    have h0 : Deriving n now layer s.chosen s s s := ⟨.refl, rfl, rfl, rfl⟩
    refine WP.bind (((processSelected_deriving hg fuel _ Decision.zero fun i hi => List.mem_range.1 hi).wp h0).mono
      fun d s1 h1 => ?_)
    have h1 := h1.1
    extract_lets
    refine WP.ite (fun hd => ?_) fun hd => ?_
    · obtain ⟨hd1, hd2⟩ := executes_iff.1 hd
      refine WP.bind (WP.modify ?_)
      refine WP.bind (fun u s2 e2 => ?_)
      refine WP.ite (fun hx => ?_) fun _ => WP.pure ?_
      · rw [hd1] at hx; cases hx
      · exact .inr ⟨s1, d, h1.derives, hd1, hd2, e2⟩
    · refine WP.ite (fun hx => ?_) fun _ => WP.pure (.inl h1.derives)
      refine WP.get ?_
      refine WP.mono ((Keeps.forM (I := Deriving n now layer s.chosen s s) (l := List.range s1.goalsSelectedCnt) fun i hi => ?_).wp h1)
        fun _ s2 h2 => .inl h2.1.derives
      refine Keeps.of_wp fun s3 h3 => ?_
      have hi : i < s.goalsSelectedCnt := by rw [← h1.count]; exact List.mem_range.1 hi
      refine WP.get ?_
      refine WP.bind (WP.modify ?_)
      have hm : (s3.selectedGoals i, s3.selectedGoalsPriority i) ∈ s.chosen := by
        rw [h3.events, h3.priorities]
        exact mem_chosen hi
      exact (relatedSubgoals_deriving hm fuel _).wp (h3.other rfl rfl rfl rfl)
  exact key _ _ e

/-- The goal taken is the selected one. -/
theorem popGoals_takes {layer : Nat} {s s' : Sys} (h : Good n s) (e : popGoalEvents layer s = .ok ((), s')) :
    TakesGoal layer s s'.chosen s' ∧ ∀ i < s'.goalsSelectedCnt, (s'.selectedGoals i).type = .goal := by
  have key : WP (popGoalEvents layer) (fun _ s' => TakesGoal layer s s'.chosen s' ∧
      ∀ i < s'.goalsSelectedCnt, (s'.selectedGoals i).type = .goal) s := by
    unfold popGoalEvents
    refine WP.get ?_
    refine WP.bind (WP.lift fun r hr => ?_)
    have hq := h.goals layer
    obtain ⟨out, q', e1, -, -, -, hs⟩ := PriorityQueue.popMax_spec hq.queue
    rw [hr] at e1
    cases e1
    cases out with
    | none =>
      obtain ⟨h1, h2⟩ := hs
      refine WP.bind (WP.lift fun _ _ => ?_)
      refine WP.set ⟨⟨rfl, fun l hl => upd_other _ _ hl, .inl ⟨rfl, h1, ?_⟩⟩, fun i hi => absurd hi (Nat.not_lt_zero _)⟩
      show (upd _ _ _ _ : PriorityQueue ℚ Nat).contents = _
      rw [upd_same]
      exact h2
    | some x =>
      obtain ⟨⟨-, h1⟩, h2⟩ := hs
      have hx : x ∈ (s.cycling_goal_events layer).contents := (h2.mem_iff).2 (List.mem_cons_self ..)
      refine WP.set ⟨⟨rfl, fun l hl => upd_other _ _ hl, .inr ⟨x, h1, ?_, ?_⟩⟩, ?_⟩
      · show List.Perm _ (x :: (upd _ _ _ _ : PriorityQueue ℚ Nat).contents)
        rw [upd_same]
        exact h2
      · show (List.range 1).map (fun i => (upd _ _ _ i, upd _ _ _ i)) = _
        rw [List.range_one, List.map_singleton, upd_same, upd_same]
      · intro i hi
        have hi : i < 1 := hi
        obtain rfl : i = 0 := by omega
        show (upd _ _ _ _ : Event).type = _
        rw [upd_same]
        exact hq.type x hx
  exact key _ _ e

/-- **C75 (a layer).** In each cycle the goal of the highest priority in a layer is taken out, and goals are derived from it
by valid links, or a goal for the first component which is not fulfilled if it is a sequence; or an operation is chosen and
executed after all goals are dropped. Nothing else changes the waiting goals. -/
theorem C75_layer {fuel : Nat} {add : Term → M Unit} {now : Int} {layer : Nat} {s s' : Sys} (h : Good n s)
    (e : processGoalLayer n fuel add now layer s = .ok ((), s')) :
    ∃ goals s1, TakesGoal layer s goals s1 ∧ (DerivesGoals n now layer goals s1 s' ∨
      ∃ s2 d, DerivesGoals n now layer goals s1 s2 ∧ d.execute = true ∧ 0 < d.operationID ∧
        Decision_Execute n add now d s2.withoutGoals = .ok ((), s')) := by
  unfold processGoalLayer at e
  by_cases hlay : layer < CYCLING_GOAL_EVENTS_LAYERS
  swap
  · rw [if_neg hlay] at e; cases e
  rw [if_pos hlay] at e
  obtain ⟨u, s1, e1, e2⟩ := M.bind_ok.1 e
  obtain ⟨h1, h2⟩ := popGoals_takes h e1
  exact ⟨s1.chosen, s1, h1, C75_goals h2 e2⟩

/-! ### Every link is used -/

/-- What stays while a table is searched. -/
structure SameBut (c : Nat) (table : LinkTable) (s s' : Sys) : Prop where
  id : ∀ k, (s'.concept_storage k).id = (s.concept_storage k).id
  spike : (s'.concept_storage c).goal_spike = (s.concept_storage c).goal_spike
  term : (s'.concept_storage c).term = (s.concept_storage c).term
  tables : ∀ table', table' ≠ table → table'.get (s'.concept_storage c) = table'.get (s.concept_storage c)

omit [Arith] in
theorem SameBut.refl (c : Nat) (table : LinkTable) (s : Sys) : SameBut c table s s := ⟨fun _ => rfl, rfl, rfl, fun _ _ => rfl⟩

omit [Arith] in
theorem SameBut.trans {c : Nat} {table : LinkTable} {s s1 s' : Sys} (h : SameBut c table s s1) (h' : SameBut c table s1 s') :
    SameBut c table s s' :=
  ⟨fun k => (h'.id k).trans (h.id k), h'.spike.trans h.spike, h'.term.trans h.term,
    fun t ht => (h'.tables t ht).trans (h.tables t ht)⟩

omit [Arith] in
theorem OnlyGoals.same {c : Nat} {table : LinkTable} {s s' : Sys} (h : OnlyGoals s s') : SameBut c table s s' := by
  have : s'.concept_storage = s.concept_storage := by rw [h]
  refine ⟨fun k => ?_, ?_, ?_, fun t _ => ?_⟩ <;> rw [this]

omit [Arith] in
theorem LinkTable.get_set_same (t : Table) (table : LinkTable) (c : Concept) : table.get (table.set t c) = t := by
  cases table with
  | op i => exact upd_same _ _ _
  | declarative => rfl

omit [Arith] in
theorem LinkTable.get_set_other (t : Table) (table table' : LinkTable) (c : Concept) (h : table' ≠ table) :
    table'.get (table.set t c) = table'.get c := by
  cases table with
  | op i =>
    cases table' with
    | op j => exact upd_other _ _ fun hx => h (by rw [hx])
    | declarative => rfl
  | declarative =>
    cases table' with
    | op j => rfl
    | declarative => exact absurd rfl h

omit [Arith] in
theorem LinkTable.set_id (t : Table) (table : LinkTable) (c : Concept) : (table.set t c).id = c.id := by
  cases table <;> rfl

omit [Arith] in
theorem removed_same {c : Nat} {table : LinkTable} (t : Table) (s : Sys) :
    SameBut c table s { s with concept_storage := upd s.concept_storage c (table.set t (s.concept_storage c)) } := by
  refine ⟨fun k => ?_, ?_, ?_, fun table' h => ?_⟩
  · show (upd _ _ _ _ : Concept).id = _
    rw [upd_apply]
    split
    · next hk => subst hk; exact LinkTable.set_id _ _ _
    · rfl
  · show (upd _ _ _ _ : Concept).goal_spike = _
    rw [upd_same, LinkTable.set_spike]
  · show (upd _ _ _ _ : Concept).term = _
    rw [upd_same, LinkTable.set_term]
  · show table'.get (upd _ _ _ _ : Concept) = _
    rw [upd_same, LinkTable.get_set_other _ _ _ _ h]

omit [Arith] in
theorem LinkValid.same {s s' : Sys} (h : ∀ k, (s'.concept_storage k).id = (s.concept_storage k).id) (imp : Implication) :
    s'.LinkValid imp ↔ s.LinkValid imp := by
  unfold Sys.LinkValid
  simp only [h]

variable {now : Int} {p : ℚ} {layer : Nat} {g : Event}

theorem LinksUsed.trans {l l' : List Implication} {s s1 s' : Sys} (h : LinksUsed n now p layer g l s s1)
    (h' : LinksUsed n now p layer g l' s1 s') : LinksUsed n now p layer g (l ++ l') s s' := by
  induction h with
  | nil => exact h'
  | other hb _ ih => exact .other hb (ih h')
  | use hu _ ih => exact .use hu (ih h')

theorem deriveSubgoal_used {imp : Implication} (s : Sys) :
    WP (deriveSubgoal n imp g now p layer) (fun _ s' => LinkUsed n now p layer g imp s s' ∧ OnlyGoals s s') s := by
  unfold deriveSubgoal
  refine WP.bind (WP.lift fun subs h1 => ?_)
  refine WP.ite (fun h2 => ?_) fun h2 => WP.pure ⟨.different ?_, .refl s⟩
  · refine WP.bind (WP.lift fun r h3 => ?_)
    refine WP.ite (fun h4 => ?_) fun h4 => WP.pure ⟨.different ?_, .refl s⟩
    · refine WP.bind (WP.lift fun d h5 => ?_)
      dsimp only
      have he : (Inference_EventUpdate d now).type = .goal := (goalDeduction_type h5 : d.type = .goal)
      have h6 : Variable_ApplySubstitute n imp.term subs = .ok (r.1, true) := by rw [h3, ← h4]
      generalize hev : Inference_EventUpdate d now = ev at *
      intro u s' e
      have k := addGoal_only he now (fmul p (Truth_Expectation ev.truth)) layer s u s' e
      exact ⟨.subgoal ⟨subs, h1, h2, h6⟩ h5 hev.symm e, k⟩
    · rintro ⟨t, subs', k1, k2, k3⟩
      rw [h1] at k1
      cases k1
      rw [h3] at k3
      cases k3
      exact h4 rfl
  · rintro ⟨t, subs', k1, k2, k3⟩
    rw [h1] at k1
    cases k1
    exact h2 k2

open Classical in
theorem subgoalsLoop_used (c : Nat) (table : LinkTable) : ∀ (fuel : Nat) (pre rest : List Implication) (s : Sys),
    (table.get (s.concept_storage c)).entries = pre ++ rest → (s.concept_storage c).goal_spike = g →
    WP (loopM (fun j => do
      let s ← get
      let concept := s.concept_storage c
      let t := table.get concept
      if j < t.itemsAmount then
        if (← s.implicationValid (t.array j)) then
          deriveSubgoal n (t.array j) concept.goal_spike now p layer
          pure (true, j + 1)
        else
          modifyConcept c (table.set (Table_Remove t j))
          pure (true, j)
      else pure (false, j)) fuel pre.length) (fun _ s' =>
        LinksUsed n now p layer g (rest.filter fun imp => s.LinkValid imp) s s' ∧ SameBut c table s s' ∧
        (table.get (s'.concept_storage c)).entries = pre ++ rest.filter fun imp => s.LinkValid imp) s := by
  intro fuel
  induction fuel with
  | zero => intro pre rest s _ _; exact WP.throw
  | succ fuel ih =>
    intro pre rest s he hs
    unfold loopM
    refine WP.bind (WP.get ?_)
    dsimp only
    have hlen : (table.get (s.concept_storage c)).itemsAmount = pre.length + rest.length := by
      rw [← Table.entries_length, he, List.length_append]
    rw [hlen]
    cases rest with
    | nil =>
      refine WP.ite (fun h => absurd h (by simp)) fun _ => WP.pure ?_
      refine WP.ite (fun h => by cases h) fun _ => WP.pure ⟨.nil, .refl _ _ _, he⟩
    | cons imp rest =>
      have hi : (table.get (s.concept_storage c)).array pre.length = imp := by
        have h1 := Table.entries_getElem (table.get (s.concept_storage c)) pre.length
          (by rw [Table.entries_length, hlen, List.length_cons]; omega)
        rw [← h1]
        simp [he]
      rw [hi]
      refine WP.ite (fun h => ?_) fun h => absurd (by simp) h
      refine WP.bind (WP.lift fun b hb => ?_)
      refine WP.ite (fun hx => ?_) fun hx => ?_
      · subst hx
        have hv := valid_iff.1 hb
        rw [hs]
        refine WP.bind ((deriveSubgoal_used s).mono fun _ s1 h1 => ?_)
        refine WP.pure ?_
        refine WP.ite (fun _ => ?_) fun h => absurd rfl h
        have hc : s1.concept_storage = s.concept_storage := by rw [h1.2]
        have := ih (pre ++ [imp]) rest s1 (by rw [hc, he, List.append_assoc]; rfl) (by rw [hc]; exact hs)
        rw [List.length_append] at this
        refine this.mono fun _ s' h2 => ?_
        have hf : ((imp :: rest).filter fun imp => s.LinkValid imp) = imp :: rest.filter fun imp => s1.LinkValid imp := by
          rw [List.filter_cons_of_pos (by simpa using hv)]
          congr 1
          exact List.filter_congr fun x _ => by rw [decide_eq_decide]; unfold Sys.LinkValid; rw [hc]
        rw [hf]
        refine ⟨.use h1.1 h2.1, h1.2.same.trans h2.2.1, ?_⟩
        rw [h2.2.2, List.append_assoc]
        rfl
      · have hv : ¬ s.LinkValid imp := fun hv => hx (by rw [valid_iff.2 hv] at hb; cases hb; rfl)
        refine WP.bind (WP.modify ?_)
        refine WP.pure ?_
        refine WP.ite (fun _ => ?_) fun h => absurd rfl h
        have hsame := removed_same (c := c) (table := table) (Table_Remove (table.get (s.concept_storage c)) pre.length) s
        have := ih pre rest { s with concept_storage := upd s.concept_storage c (table.set
            (Table_Remove (table.get (s.concept_storage c)) pre.length) (s.concept_storage c)) }
          (by
            show (table.get (upd _ _ _ _ : Concept)).entries = _
            rw [upd_same, LinkTable.get_set_same, Table.remove_entries _ _ (by rw [hlen, List.length_cons]; omega), he,
              List.eraseIdx_append_of_length_le (Nat.le_refl _), Nat.sub_self]
            rfl) (hsame.spike.trans hs)
        refine this.mono fun _ s' h2 => ?_
        have hf : ((imp :: rest).filter fun imp => s.LinkValid imp) = rest.filter fun imp => Sys.LinkValid
            { s with concept_storage := upd s.concept_storage c (table.set
              (Table_Remove (table.get (s.concept_storage c)) pre.length) (s.concept_storage c)) } imp := by
          rw [List.filter_cons_of_neg (by simpa using hv)]
          exact List.filter_congr fun x _ => by rw [decide_eq_decide]; exact (LinkValid.same hsame.id x).symm
        rw [hf]
        exact ⟨.other (by rfl) h2.1, hsame.trans h2.2.1, h2.2.2⟩

open Classical in
theorem subgoalsOfTable_used (c : Nat) (table : LinkTable) {s : Sys} (hs : (s.concept_storage c).goal_spike = g) :
    WP (subgoalsOfTable n c table now p layer) (fun _ s' =>
        LinksUsed n now p layer g ((table.get (s.concept_storage c)).entries.filter fun imp => s.LinkValid imp) s s' ∧
        SameBut c table s s' ∧ (table.get (s'.concept_storage c)).entries =
          (table.get (s.concept_storage c)).entries.filter fun imp => s.LinkValid imp) s := by
  unfold subgoalsOfTable
  refine WP.bind ((subgoalsLoop_used c table (TABLE_SIZE + 1) [] _ s rfl hs).mono fun _ s' h => ?_)
  exact WP.pure h

open Classical in
theorem subgoalTables_used (c : Nat) : ∀ (l : List LinkTable), l.Nodup → ∀ (s : Sys), (s.concept_storage c).goal_spike = g →
    WP (l.forM fun table => subgoalsOfTable n c table now p layer) (fun _ s' =>
        LinksUsed n now p layer g ((l.flatMap fun table => (table.get (s.concept_storage c)).entries).filter fun imp => s.LinkValid imp) s s' ∧
        (s'.concept_storage c).goal_spike = g ∧ (∀ k, (s'.concept_storage k).id = (s.concept_storage k).id) ∧
        (s'.concept_storage c).term = (s.concept_storage c).term ∧
        (∀ table ∉ l, table.get (s'.concept_storage c) = table.get (s.concept_storage c)) ∧
        ∀ table ∈ l, (table.get (s'.concept_storage c)).entries =
          (table.get (s.concept_storage c)).entries.filter fun imp => s.LinkValid imp) s := by
  intro l
  induction l with
  | nil =>
    intro _ s hs
    exact WP.pure ⟨.nil, hs, fun _ => rfl, rfl, fun _ _ => rfl, fun _ h => by cases h⟩
  | cons t l ih =>
    intro hn s hs
    have hn := List.nodup_cons.1 hn
    refine WP.bind ((subgoalsOfTable_used c t hs).mono fun _ s1 h1 => ?_)
    obtain ⟨h1, h2, h3⟩ := h1
    refine (ih hn.2 s1 (h2.spike.trans hs)).mono fun _ s' h4 => ?_
    obtain ⟨k1, k2, k3, k4, k5, k6⟩ := h4
    have hv : (fun imp => decide (s1.LinkValid imp)) = fun imp => decide (s.LinkValid imp) := by
      funext imp
      rw [decide_eq_decide]
      exact LinkValid.same h2.id imp
    have hl : (l.flatMap fun table => (table.get (s1.concept_storage c)).entries) =
        l.flatMap fun table => (table.get (s.concept_storage c)).entries := by
      unfold List.flatMap
      congr 1
      exact List.map_congr_left fun table ht => by rw [h2.tables table fun hx => hn.1 (hx ▸ ht)]
    rw [hv, hl] at k1
    rw [hv] at k6
    refine ⟨?_, k2, fun k => (k3 k).trans (h2.id k), k4.trans h2.term, ?_, ?_⟩
    · rw [List.flatMap_cons, List.filter_append]
      exact h1.trans k1
    · intro table ht
      rw [k5 table fun hx => ht (List.mem_cons_of_mem _ hx), h2.tables table fun hx => ht (hx ▸ List.mem_cons_self ..)]
    · intro table ht
      obtain rfl | ht := List.mem_cons.1 ht
      · rw [k5 _ hn.1, h3]
      · rw [k6 table ht, h2.tables table fun hx => hn.1 (hx ▸ ht)]

omit [Arith] in
theorem subgoalTables_nodup : subgoalTables.Nodup := by
  unfold subgoalTables
  refine List.Nodup.append ?_ (List.nodup_singleton _) ?_
  · exact List.nodup_range.map fun a b h => by cases h; rfl
  · intro x hx hy
    rw [List.mem_singleton] at hy
    subst hy
    obtain ⟨a, _, h⟩ := List.mem_map.1 hx
    cases h

omit [Arith] in
theorem links_tables (c : Concept) : c.links = subgoalTables.flatMap fun table => (table.get c).entries := by
  unfold Concept.links subgoalTables
  rw [List.flatMap_append, List.flatMap_map]
  simp [LinkTable.get]

/-- The concept gets the goal. -/
def Sys.spiked (s : Sys) (c : Nat) (g : Event) : Sys :=
  { s with concept_storage := upd s.concept_storage c { s.concept_storage c with goal_spike := g } }

open Classical in
/-- **C75 (every link is used).** When a concept is visited for a goal, the goal competes with the goal the concept has, if
it matches the concept. Every valid link of the concept is then used for the goal which wins: its condition becomes a goal,
if its consequence matches. The invalid links are removed. -/
theorem C75_visit {goal : Event} {c : Nat} {s s' : Sys} {r : Bool × Unit}
    (e : deriveSubgoals n goal p now layer c () s = .ok (r, s')) :
    ((¬ ∃ subs, Variable_Unify n (s.concept_storage c).term goal.term = .ok subs ∧ subs.success = true) ∧ s' = s) ∨
    ∃ subs g wins, Variable_Unify n (s.concept_storage c).term goal.term = .ok subs ∧ subs.success = true ∧
      Inference_RevisionAndChoice n (s.concept_storage c).goal_spike goal = .ok (g, wins) ∧
      (s'.concept_storage c).goal_spike = g ∧
      LinksUsed n now p layer g ((s.concept_storage c).links.filter fun imp => s.LinkValid imp) s s' ∧
      (s'.concept_storage c).links = (s.concept_storage c).links.filter fun imp => s.LinkValid imp := by
  have key : WP (deriveSubgoals n goal p now layer c ()) (fun _ s' =>
      ((¬ ∃ subs, Variable_Unify n (s.concept_storage c).term goal.term = .ok subs ∧ subs.success = true) ∧ s' = s) ∨
      ∃ subs g wins, Variable_Unify n (s.concept_storage c).term goal.term = .ok subs ∧ subs.success = true ∧
      Inference_RevisionAndChoice n (s.concept_storage c).goal_spike goal = .ok (g, wins) ∧
      (s'.concept_storage c).goal_spike = g ∧
      LinksUsed n now p layer g ((s.concept_storage c).links.filter fun imp => s.LinkValid imp) s s' ∧
      (s'.concept_storage c).links = (s.concept_storage c).links.filter fun imp => s.LinkValid imp) s := by
    unfold deriveSubgoals
    refine WP.get ?_
    dsimp only
    refine WP.bind (WP.lift fun subs h1 => ?_)
    refine WP.ite (fun h2 => ?_) fun h2 => WP.pure (.inl ⟨?_, rfl⟩)
    · refine WP.bind (WP.lift fun r h3 => ?_)
      refine WP.bind (WP.modify ?_)
      have hid : ∀ k, ((upd s.concept_storage c { s.concept_storage c with goal_spike := r.1 }) k).id = (s.concept_storage k).id := by
        intro k
        rw [upd_apply]
        split
        · next hk => subst hk; rfl
        · rfl
      refine WP.bind ((subgoalTables_used (n := n) (now := now) (p := p) (layer := layer) (g := r.1) c subgoalTables
        subgoalTables_nodup (s.spiked c r.1)
        (by show (upd _ _ _ _ : Concept).goal_spike = _; rw [upd_same])).mono fun _ s1 h4 => ?_)
      obtain ⟨k1, k2, -, -, -, k6⟩ := h4
      have hv : (fun imp => decide ((s.spiked c r.1).LinkValid imp)) = fun imp => decide (s.LinkValid imp) := by
        funext imp
        rw [decide_eq_decide]
        exact LinkValid.same hid imp
      have hc : (s.spiked c r.1).concept_storage c =
          { s.concept_storage c with goal_spike := r.1 } := upd_same _ _ _
      rw [hv] at k1 k6
      rw [hc, ← links_tables] at k1
      rw [hc] at k6
      refine WP.pure (.inr ⟨subs, r.1, r.2, h1, h2, h3, k2, .other (by rfl) k1, ?_⟩)
      rw [links_tables, links_tables, List.filter_flatMap]
      unfold List.flatMap
      congr 1
      refine List.map_congr_left fun table ht => (k6 table ht).trans ?_
      cases table <;> rfl
    · rintro ⟨subs', k1, k2⟩
      rw [h1] at k1
      cases k1
      exact h2 k2
  exact key _ _ e

end ONA
