import Verif.Spec.Reports
/-
The reports about a good state succeed, but for the statistics at time 0.
-/
namespace ONA
variable [Arith] {n : Narsese} {s : Sys}

theorem fdiv_places {a : ℚ} {k : Nat} (hk : 0 < k) : fdiv a (rnd k) = .ok (rnd (a / rnd k)) := by
  unfold fdiv
  rw [if_neg]
  have h1 : (1 : ℚ) ≤ rnd (k : ℚ) := le_rnd isRepr_one (by exact_mod_cast hk)
  intro h
  rw [h] at h1
  norm_num at h1

theorem sumUp_append (l : List ℚ) (x : ℚ) : sumUp (l ++ [x]) = fadd (sumUp l) x := by
  unfold sumUp
  rw [List.foldl_append]
  rfl

theorem sumUp_le {l : List ℚ} (h : ∀ x ∈ l, x ≤ 1) (hl : l.length ≤ 2 ^ 53) : sumUp l ≤ l.length := by
  induction l using List.reverseRecOn with
  | nil => exact le_refl _
  | append_singleton l x ih =>
    rw [sumUp_append, List.length_append, List.length_singleton]
    rw [List.length_append, List.length_singleton] at hl
    have h1 := ih (fun y hy => h y (List.mem_append_left _ hy)) (by omega)
    have h2 := h x (List.mem_append_right _ List.mem_cons_self)
    unfold fadd
    refine rnd_le (rnd_nat _ hl) ?_
    push_cast
    linarith

theorem sumUp_nonneg {l : List ℚ} (h : ∀ x ∈ l, 0 ≤ x) : 0 ≤ sumUp l := by
  induction l using List.reverseRecOn with
  | nil => exact le_refl _
  | append_singleton l x ih =>
    rw [sumUp_append]
    have h1 := ih (fun y hy => h y (List.mem_append_left _ hy))
    have h2 := h x (List.mem_append_right _ List.mem_cons_self)
    unfold fadd
    exact rnd_nonneg (by linarith)

theorem average_le {l : List ℚ} {k : Nat} (hk : 0 < k) (hl : l.length ≤ k) (h : ∀ x ∈ l, x ≤ 1) (hk2 : k ≤ 2 ^ 53) :
    rnd (sumUp l / rnd k) ≤ 1 := by
  refine rnd_le_one ?_
  rw [rnd_nat k hk2]
  have hk' : (0 : ℚ) < k := by exact_mod_cast hk
  rw [div_le_one hk']
  exact (sumUp_le h (le_trans hl hk2)).trans (by exact_mod_cast hl)

theorem average_nonneg {l : List ℚ} {k : Nat} (hk : 0 < k) (h : ∀ x ∈ l, 0 ≤ x) : 0 ≤ rnd (sumUp l / rnd k) := by
  refine rnd_nonneg (div_nonneg (sumUp_nonneg h) (rnd_nonneg ?_))
  exact_mod_cast hk.le

omit [Arith] in
theorem inOrder_eq {α β : Type} (q : PriorityQueue α β) : q.inOrder = q.contents := rfl

omit [Arith] in
theorem contents_length {α β : Type} (q : PriorityQueue α β) : q.contents.length = q.itemsAmount := by
  unfold PriorityQueue.contents
  rw [List.length_map, List.length_range]

omit [Arith] in
theorem contents_nodup {β : Type} {q : PriorityQueue ℚ β} (h : q.Inv) : (q.contents.map (·.address)).Nodup := by
  have h1 := h.nodup
  unfold PriorityQueue.slots at h1
  unfold PriorityQueue.contents
  rw [List.map_map]
  exact h1.sublist ((List.range_sublist.2 h.bound).map _)

omit [Arith] in
theorem goals_length (s : Sys) : (s.goalQueues.map (·.itemsAmount)).sum =
    ((List.range CYCLING_GOAL_EVENTS_LAYERS).map fun layer => (s.cycling_goal_events layer).contents.length).sum := by
  unfold Sys.goalQueues
  rw [List.map_map]
  exact congrArg _ (List.map_congr_left fun l _ => (contents_length _).symm)

/-- The statistics. -/
theorem stats_ok (hg : Good n s) (hn : n.Ok) (ht : s.currentTime ≠ 0) : ∃ x, Stats_Print n s = .ok x ∧ StatsOf n s x := by
  obtain ⟨ns, hr⟩ := hn
  obtain ⟨k1, e1, h1⟩ := hg.mem.table.maximum
  obtain ⟨k2, e2, h2⟩ := hr.table.maximum
  have hlen : s.concepts.contents.length ≤ s.concepts.maxElements := by
    unfold PriorityQueue.contents
    rw [List.length_map, List.length_range]
    exact hg.mem.queue.bound
  have hlen2 : s.cycling_belief_events.contents.length ≤ s.cycling_belief_events.maxElements := by
    unfold PriorityQueue.contents
    rw [List.length_map, List.length_range]
    exact hg.beliefs.queue.bound
  unfold Stats_Print
  rw [fdiv_places hg.beliefs.pos, R.ok_bind, fdiv_places (hg.goals 0).pos, R.ok_bind, fdiv_places (k := s.concepts.maxElements) hg.mem.pos,
    R.ok_bind, fdiv_places (k := s.concepts.maxElements) hg.mem.pos, R.ok_bind]
  dsimp only
  rw [if_neg ht]
  rw [e1, R.ok_bind, e2, R.ok_bind]
  refine ⟨_, rfl, ?_⟩
  constructor
  · rfl
  · rfl
  · rfl
  · rfl
  · exact ((List.length_map _).trans (contents_length _)).symm
  · exact (contents_length _).symm
  · exact goals_length s
  · exact h1
  · exact ⟨ns, hr, h2⟩
  · intro hk
    refine ⟨average_nonneg hg.mem.pos ?_, average_le hg.mem.pos ?_ ?_ hk⟩
    · intro x hx
      obtain ⟨i, _, rfl⟩ := List.mem_map.1 hx
      exact (hg.concepts _).priority.1
    · rw [List.length_map]
      exact hlen
    · intro x hx
      obtain ⟨i, _, rfl⟩ := List.mem_map.1 hx
      exact (hg.concepts _).priority.2
  · intro hk
    refine average_le hg.mem.pos ?_ ?_ hk
    · rw [List.length_map]
      exact hlen
    · intro x hx
      obtain ⟨i, hi, rfl⟩ := List.mem_map.1 hx
      exact hg.prios i hi
  · intro hk
    refine ⟨average_nonneg hg.beliefs.pos ?_, average_le hg.beliefs.pos ?_ ?_ hk⟩
    · intro x hx
      obtain ⟨i, hi, rfl⟩ := List.mem_map.1 hx
      exact (hg.beliefs.priority i hi).1
    · rw [List.length_map]
      exact hlen2
    · intro x hx
      obtain ⟨i, hi, rfl⟩ := List.mem_map.1 hx
      exact (hg.beliefs.priority i hi).2

/-- At time 0 there are no statistics. -/
theorem stats_zero (hg : Good n s) (ht : s.currentTime = 0) : Stats_Print n s = .error (.ub "division by zero") := by
  unfold Stats_Print
  rw [fdiv_places hg.beliefs.pos, R.ok_bind, fdiv_places (hg.goals 0).pos, R.ok_bind, fdiv_places (k := s.concepts.maxElements) hg.mem.pos,
    R.ok_bind, fdiv_places (k := s.concepts.maxElements) hg.mem.pos, R.ok_bind]
  dsimp only
  rw [if_pos ht]
  rfl

omit [Arith] in
theorem mapM_ok {α β : Type} {f : α → R β} {g : α → β} : ∀ {l : List α}, (∀ x ∈ l, f x = .ok (g x)) → l.mapM f = .ok (l.map g)
  | [], _ => rfl
  | a :: l, h => by
    rw [List.mapM_cons, h a List.mem_cons_self, R.ok_bind, mapM_ok fun x hx => h x (List.mem_cons_of_mem _ hx)]
    rfl

omit [Arith] in
theorem mapM_ok' {α β : Type} {f : α → R β} {P : α → β → Prop} : ∀ {l : List α}, (∀ x ∈ l, ∃ y, f x = .ok y ∧ P x y) →
    ∃ l', l.mapM f = .ok l' ∧ List.Forall₂ P l l'
  | [], _ => ⟨[], rfl, .nil⟩
  | a :: l, h => by
    obtain ⟨y, e, hp⟩ := h a List.mem_cons_self
    obtain ⟨l', e', hp'⟩ := mapM_ok' fun x hx => h x (List.mem_cons_of_mem _ hx)
    exact ⟨y :: l', by rw [List.mapM_cons, e, R.ok_bind, e']; rfl, .cons hp hp'⟩

/-- The terms listed for an atom. -/
theorem atomLines_ok (hg : Good n s) {atom : Atom} (ha : Narsese_IsSimpleAtom n atom = true) :
    ∃ L : List Nat, atomLines s atom = .ok (L.map fun c => (atom, s.termOf c)) ∧ L.Nodup ∧
      ∀ c, c ∈ L ↔ c ∈ s.live ∧ IndexSpec.Lists n (s.termOf c) atom := by
  obtain ⟨L, h1, h2, h3⟩ := hg.mem.index.chain atom
  have h0 : atom ≠ 0 := by
    rintro rfl
    simp [Narsese_IsSimpleAtom] at ha
  refine ⟨L, ?_, h2, ?_⟩
  · unfold InvertedAtomIndex_GetConceptChain at h1
    rw [if_pos h0] at h1
    unfold atomLines
    rw [h1, R.ok_bind, List.mapM_map]
    exact mapM_ok fun c _ => rfl
  · intro c
    rw [h3]
    constructor
    · rintro ⟨t, ht, hl⟩
      obtain ⟨d, hd, he⟩ := List.mem_map.1 ht
      cases he
      exact ⟨hd, hl⟩
    · rintro ⟨hc, hl⟩
      exact ⟨_, List.mem_map.2 ⟨c, hc, rfl⟩, hl⟩

/-- The inverted atom index. -/
theorem index_ok (hg : Good n s) : ∃ l, InvertedAtomIndex_Print n s = .ok l ∧ l.Nodup ∧
    ∀ a t, (a, t) ∈ l ↔ ∃ c ∈ s.live, s.termOf c = t ∧ IndexSpec.Lists n t a := by
  let P : Nat → List (Atom × Term) → Prop := fun i l => l.Nodup ∧
    ∀ a t, (a, t) ∈ l ↔ a = toAtom i ∧ ∃ c ∈ s.live, s.termOf c = t ∧ IndexSpec.Lists n t a
  have key : ∀ i ∈ List.range ATOMS_MAX, ∃ l, (if Narsese_IsSimpleAtom n (toAtom i) then atomLines s (toAtom i) else .ok []) =
      .ok l ∧ P i l := by
    intro i _
    by_cases ha : Narsese_IsSimpleAtom n (toAtom i) = true
    · rw [if_pos ha]
      obtain ⟨L, h1, h2, h3⟩ := atomLines_ok hg ha
      refine ⟨_, h1, ?_, ?_⟩
      · refine List.Nodup.map_on ?_ h2
        intro c hc d hd he
        exact hg.mem.term_inj ((h3 c).1 hc).1 ((h3 d).1 hd).1 (Prod.mk.inj he).2
      · intro a t
        constructor
        · intro h
          obtain ⟨c, hc, he⟩ := List.mem_map.1 h
          cases he
          exact ⟨rfl, c, ((h3 c).1 hc).1, rfl, ((h3 c).1 hc).2⟩
        · rintro ⟨rfl, c, hc, rfl, hl⟩
          exact List.mem_map.2 ⟨c, (h3 c).2 ⟨hc, hl⟩, rfl⟩
    · rw [if_neg ha]
      refine ⟨_, rfl, List.nodup_nil, ?_⟩
      intro a t
      constructor
      · intro h; cases h
      · rintro ⟨rfl, c, hc, rfl, hl⟩
        exact absurd hl.1 ha
  obtain ⟨l', e, hp⟩ := mapM_ok' key
  refine ⟨l'.flatten, ?_, ?_⟩
  · unfold InvertedAtomIndex_Print
    rw [e]
    rfl
  have hlt : ∀ i ∈ List.range ATOMS_MAX, (toAtom i).toNat = i := by
    intro i hi
    have := List.mem_range.1 hi
    unfold toAtom
    rw [BitVec.toNat_ofNat]
    exact Nat.mod_eq_of_lt this
  have gen : ∀ {L : List Nat} {M : List (List (Atom × Term))}, List.Forall₂ P L M → L.Nodup → (∀ i ∈ L, (toAtom i).toNat = i) →
      M.flatten.Nodup ∧ ∀ a t, (a, t) ∈ M.flatten ↔ a.toNat ∈ L ∧ ∃ c ∈ s.live, s.termOf c = t ∧ IndexSpec.Lists n t a := by
    intro L M h
    induction h with
    | nil => exact fun _ _ => ⟨List.nodup_nil, fun a t => ⟨fun h => (by cases h), fun h => (by cases h.1)⟩⟩
    | @cons i l L M hp _ ih =>
      intro hd hL
      obtain ⟨h1, h2⟩ := ih (List.nodup_cons.1 hd).2 fun j hj => hL j (List.mem_cons_of_mem _ hj)
      have hi := hL i List.mem_cons_self
      constructor
      · rw [List.flatten_cons]
        refine List.Nodup.append hp.1 h1 ?_
        rintro ⟨a, t⟩ hx hy
        obtain ⟨rfl, -⟩ := (hp.2 a t).1 hx
        have := ((h2 _ t).1 hy).1
        rw [hi] at this
        exact (List.nodup_cons.1 hd).1 this
      · intro a t
        rw [List.flatten_cons, List.mem_append, hp.2, h2]
        constructor
        · rintro (⟨rfl, h⟩ | ⟨h, h'⟩)
          · exact ⟨by rw [hi]; exact List.mem_cons_self, h⟩
          · exact ⟨List.mem_cons_of_mem _ h, h'⟩
        · rintro ⟨h, h'⟩
          rcases List.mem_cons.1 h with h | h
          · refine .inl ⟨?_, h'⟩
            apply BitVec.eq_of_toNat_eq
            rw [hi, h]
          · exact .inr ⟨h, h'⟩
  obtain ⟨h1, h2⟩ := gen hp List.nodup_range hlt
  refine ⟨h1, fun a t => ?_⟩
  rw [h2]
  exact ⟨fun h => h.2, fun h => ⟨List.mem_range.2 (InvertedAtomIndex.atom_lt a), h⟩⟩

/-- Every report about a good state succeeds, but for the statistics at time 0. -/
theorem report_ok (hg : Good n s) (hn : n.Ok) {r : Report} {e : Err} (h : r.print n s = .error e) :
    e = .ub "division by zero" ∧ s.currentTime = 0 := by
  cases r with
  | stats =>
    unfold Report.print at h
    by_cases ht : s.currentTime = 0
    · rw [stats_zero hg ht] at h
      cases h
      exact ⟨rfl, ht⟩
    · obtain ⟨x, hx, _⟩ := stats_ok hg hn ht
      rw [hx] at h
      cases h
  | invertedAtomIndex =>
    unfold Report.print at h
    obtain ⟨l, hl, _⟩ := index_ok hg
    dsimp only at h
    rw [hl] at h
    cases h
  | _ => cases h

end ONA
