import Verif.Spec.PriorityQueue
import Verif.Proofs.PriorityQueue
/-
Every operation keeps the queue invariant and refines the bag specification.
-/
namespace ONA
namespace PriorityQueue
open PQSpec
variable {α β : Type} [LinearOrder α]

/-- Queue invariant: bounded, heap ordered, slots pairwise distinct. -/
structure Inv (q : PriorityQueue α β) : Prop where
  bound : q.itemsAmount ≤ q.maxElements
  heap : Heap q.items q.itemsAmount
  nodup : q.slots.Nodup

omit [LinearOrder α] in
theorem slots_perm {q q' : PriorityQueue α β} {n : Nat} (hm : q'.maxElements = q.maxElements)
    (hn : n ≤ q.maxElements) (h : PermBelow n q.items q'.items) : q'.slots.Perm q.slots := by
  have := (h.perm hn).map (·.address)
  unfold slots
  rw [hm]
  simpa [List.map_map, Function.comp_def] using this

omit [LinearOrder α] in
theorem mem_contents {q : PriorityQueue α β} {x : Item α β} :
    x ∈ q.contents ↔ ∃ i, i < q.itemsAmount ∧ q.items i = x := by
  simp [contents]

omit [LinearOrder α] in
theorem contents_length (q : PriorityQueue α β) : q.contents.length = q.itemsAmount := by
  simp [contents]

omit [LinearOrder α] in
theorem contents_nil {q : PriorityQueue α β} (h : q.itemsAmount = 0) : q.contents = [] := by
  simp [contents, h]

omit [LinearOrder α] in
/-- Moving cell `p` to the end and cutting it off removes exactly that item. -/
theorem swap_last_perm (f : Nat → Item α β) (n p : Nat) (hp : p ≤ n) :
    ((List.range (n + 1)).map f).Perm (f p :: (List.range n).map (swap f p n)) := by
  have h1 := (swap_permBelow (n := n + 1) f (a := p) (b := n) (by omega) (by omega)).perm (Nat.le_refl _)
  refine h1.symm.trans ?_
  rw [List.range_succ, List.map_append, List.map_singleton, swap_right]
  exact List.perm_append_singleton _ _

theorem popMin_spec {q : PriorityQueue α β} (h : Inv q) :
    ∃ out q', q.popMin = .ok (out, q') ∧ Inv q' ∧ q'.maxElements = q.maxElements ∧ q'.slots.Perm q.slots ∧
      Step q.maxElements q.slots q.contents .popMin (.popped out) q'.contents ∧
      (q.itemsAmount ≠ 0 → q'.itemsAmount + 1 = q.itemsAmount ∧ out = some (q.items 0) ∧
        (q'.items q'.itemsAmount).address = (q.items 0).address) := by
  unfold popMin
  by_cases h0 : q.itemsAmount = 0
  · rw [if_pos h0]
    refine ⟨none, q, rfl, h, rfl, List.Perm.refl _, ?_, fun hc => absurd h0 hc⟩
    exact ⟨contents_nil h0, contents_nil h0⟩
  · rw [if_neg h0, if_neg (by have := h.bound; omega)]
    obtain ⟨n, hn⟩ : ∃ n, q.itemsAmount = n + 1 := ⟨q.itemsAmount - 1, by omega⟩
    have hh := h.heap
    rw [hn] at hh
    have hhole := hh.hole_top (i := 0) (by omega) (by omega)
    obtain ⟨g, hg1, hg2, hg3⟩ := trickleDown_spec n (n + 1) _ 0 hhole (by omega) (by omega)
    rw [isOnMaxLevel_zero] at hg1
    simp only [hn, Nat.add_sub_cancel, hg1, R.ok_bind]
    have hb := h.bound
    have hpb : PermBelow (n + 1) q.items g :=
      (swap_permBelow q.items (by omega) (by omega)).trans (hg3.mono (by omega))
    have hsl : PriorityQueue.slots { q with items := g, itemsAmount := n } |>.Perm q.slots :=
      slots_perm (q := q) (n := n + 1) rfl (by omega) hpb
    refine ⟨_, _, rfl, ⟨by show n ≤ q.maxElements; omega, hg2, hsl.nodup_iff.2 h.nodup⟩, rfl, hsl, ?_, ?_⟩
    · refine ⟨⟨?_, ?_⟩, ?_⟩
      · exact mem_contents.2 ⟨0, by omega, rfl⟩
      · intro x hx
        obtain ⟨i, hi, rfl⟩ := mem_contents.1 hx
        exact h.heap.min i hi
      · show ((List.range q.itemsAmount).map q.items).Perm _
        rw [hn]
        refine (swap_last_perm q.items n 0 (by omega)).trans (List.Perm.cons _ ?_)
        exact (hg3.perm (Nat.le_refl _)).symm
    · intro _
      refine ⟨rfl, rfl, ?_⟩
      show (g n).address = _
      rw [hg3.above (Nat.le_refl _), swap_right]

theorem popMax_spec {q : PriorityQueue α β} (h : Inv q) :
    ∃ out q', q.popMax = .ok (out, q') ∧ Inv q' ∧ q'.maxElements = q.maxElements ∧ q'.slots.Perm q.slots ∧
      Step q.maxElements q.slots q.contents .popMax (.popped out) q'.contents := by
  unfold popMax
  by_cases h0 : q.itemsAmount = 0
  · rw [if_pos h0]
    refine ⟨none, q, rfl, h, rfl, List.Perm.refl _, ?_⟩
    exact ⟨contents_nil h0, contents_nil h0⟩
  · rw [if_neg h0, if_neg (by have := h.bound; omega)]
    have hmax := h.heap.max (by omega)
    have hsc := smallestChild_spec q.items q.itemsAmount 0 true
    dsimp only
    generalize smallestChild q.items q.itemsAmount 0 true = p at *
    obtain ⟨n, hn⟩ : ∃ n, q.itemsAmount = n + 1 := ⟨q.itemsAmount - 1, by omega⟩
    have hp : p < n + 1 ∧ p < 3 ∧ (p = 0 → n = 0) := by
      rcases hsc with ⟨a, b⟩ | ⟨a, b, -⟩
      · omega
      · unfold IsC at a; omega
    have hh := h.heap
    rw [hn] at hh
    have hhole := hh.hole_top (i := p) (by omega) (by omega)
    obtain ⟨g, hg1, hg2, hg3⟩ : ∃ g, trickleDown n true (n + 1) (swap q.items p n) p = .ok g ∧ Heap g n ∧
        PermBelow n (swap q.items p n) g := by
      by_cases hp0 : p = 0
      · obtain rfl := hp.2.2 hp0
        obtain ⟨g, hg1, hg3⟩ := trickleDown_perm 0 true 1 (swap q.items p 0) p (by omega) (by omega)
        exact ⟨g, hg1, heap_zero g, hg3⟩
      · obtain ⟨g, hg1, hg2, hg3⟩ := trickleDown_spec n (n + 1) _ p hhole (by omega) (by omega)
        have : isOnMaxLevel p = true := by
          have hc : IsC 0 p := by unfold IsC; omega
          rw [lev_child hc, isOnMaxLevel_zero]; rfl
        rw [this] at hg1
        exact ⟨g, hg1, hg2, hg3⟩
    simp only [hn, Nat.add_sub_cancel, hg1, R.ok_bind]
    have hb := h.bound
    have hpb : PermBelow (n + 1) q.items g :=
      (swap_permBelow q.items (by omega) (by omega)).trans (hg3.mono (by omega))
    have hsl : PriorityQueue.slots { q with items := g, itemsAmount := n } |>.Perm q.slots :=
      slots_perm (q := q) (n := n + 1) rfl (by omega) hpb
    refine ⟨_, _, rfl, ⟨by show n ≤ q.maxElements; omega, hg2, hsl.nodup_iff.2 h.nodup⟩, rfl, hsl, ?_⟩
    refine ⟨⟨?_, ?_⟩, ?_⟩
    · exact mem_contents.2 ⟨p, by omega, rfl⟩
    · intro x hx
      obtain ⟨i, hi, rfl⟩ := mem_contents.1 hx
      exact hmax i hi
    · show ((List.range q.itemsAmount).map q.items).Perm _
      rw [hn]
      refine (swap_last_perm q.items n p (by omega)).trans (List.Perm.cons _ ?_)
      exact (hg3.perm (Nat.le_refl _)).symm

omit [LinearOrder α] in
theorem range_map_upd_last (f : Nat → Item α β) (n : Nat) (x : Item α β) :
    ((List.range (n + 1)).map (upd f n x)).Perm (x :: (List.range n).map f) := by
  rw [List.range_succ, List.map_append, List.map_singleton, upd_same]
  have : (List.range n).map (upd f n x) = (List.range n).map f := by
    apply List.map_congr_left
    intro i hi
    exact upd_other _ _ (by have := List.mem_range.1 hi; omega)
  rw [this]
  exact List.perm_append_singleton _ _

theorem pushInsert_spec {q : PriorityQueue α β} (h : Inv q) (hroom : q.itemsAmount < q.maxElements) (p : α)
    (ev : Option (Item α β)) (hev : ∀ e, ev = some e → e.address = (q.items q.itemsAmount).address) :
    ∃ q', q.pushInsert p ev = .ok (⟨some ⟨p, (q.items q.itemsAmount).address⟩, ev⟩, q') ∧ Inv q' ∧
      q'.maxElements = q.maxElements ∧ q'.slots.Perm q.slots ∧
      q'.contents.Perm (⟨p, (q.items q.itemsAmount).address⟩ :: q.contents) := by
  unfold pushInsert
  rw [if_neg (by omega)]
  have hadr : reusedAddress ev (q.items q.itemsAmount).address =
      (q.items q.itemsAmount).address := by
    cases ev with
    | none => rfl
    | some e => exact hev e rfl
  dsimp only
  rw [hadr]
  generalize hit : (⟨p, (q.items q.itemsAmount).address⟩ : Item α β) = it
  have hheap : Heap (upd q.items q.itemsAmount it) q.itemsAmount :=
    h.heap.congr (fun i hi => upd_other _ _ (by omega))
  obtain ⟨g, hg1, hg2, hg3⟩ := bubbleUp_spec _ _ hheap
  rw [hg1]
  simp only [R.ok_bind]
  have hsl0 : PriorityQueue.slots { q with items := upd q.items q.itemsAmount it } = q.slots := by
    unfold slots
    apply List.map_congr_left
    intro i _
    show (upd q.items q.itemsAmount it i).address = _
    by_cases hi : i = q.itemsAmount
    · subst hi; rw [upd_same, ← hit]
    · rw [upd_other _ _ hi]
  have hsl : PriorityQueue.slots { q with items := g, itemsAmount := q.itemsAmount + 1 } |>.Perm q.slots := by
    have := slots_perm (q := { q with items := upd q.items q.itemsAmount it })
      (q' := { q with items := g, itemsAmount := q.itemsAmount + 1 }) (n := q.itemsAmount + 1) rfl
      (by show _ ≤ q.maxElements; omega) hg3
    rw [hsl0] at this; exact this
  refine ⟨_, rfl, ⟨by show q.itemsAmount + 1 ≤ q.maxElements; omega, hg2, hsl.nodup_iff.2 h.nodup⟩, rfl, hsl, ?_⟩
  exact (hg3.perm (Nat.le_refl _)).trans (range_map_upd_last _ _ _)

omit [LinearOrder α] in
/-- A free slot is not used by a queued item. -/
theorem free_slot {q : PriorityQueue α β} (h : q.slots.Nodup) {k : Nat} (hk : k < q.maxElements)
    (hkn : q.itemsAmount ≤ k) : (q.items k).address ∉ q.contents.map (·.address) := by
  intro hc
  simp only [List.mem_map] at hc
  obtain ⟨x, hx, hxa⟩ := hc
  obtain ⟨i, hi, rfl⟩ := mem_contents.1 hx
  have hinj := List.inj_on_of_nodup_map h
  have := hinj (x := i) (y := k) (List.mem_range.2 (by omega)) (List.mem_range.2 hk) hxa
  omega

theorem push_spec {q : PriorityQueue α β} (h : Inv q) (hcap : 0 < q.maxElements) (p : α) :
    ∃ fb q', q.push p = .ok (fb, q') ∧ Inv q' ∧ q'.maxElements = q.maxElements ∧ q'.slots.Perm q.slots ∧
      PushStep q.maxElements q.slots q.contents p fb q'.contents := by
  unfold push
  by_cases hfull : q.itemsAmount ≥ q.maxElements
  · rw [if_pos hfull, if_neg (by omega)]
    have hn : q.itemsAmount = q.maxElements := by have := h.bound; omega
    dsimp only
    by_cases hp : p < (q.items 0).priority
    · rw [if_pos hp]
      refine ⟨_, _, rfl, h, rfl, List.Perm.refl _, PushStep.reject _ (by rw [contents_length, hn]) ?_ (List.Perm.refl _)⟩
      intro x hx
      obtain ⟨i, hi, rfl⟩ := mem_contents.1 hx
      exact lt_of_lt_of_le hp (h.heap.min i hi)
    · rw [if_neg hp]
      obtain ⟨out, q', h1, h2, h3, h4, h5, h6⟩ := popMin_spec h
      obtain ⟨h6a, rfl, h6c⟩ := h6 (by omega)
      rw [h1]
      simp only [R.ok_bind]
      obtain ⟨q'', g1, g2, g3, g4, g5⟩ := pushInsert_spec h2 (by omega) p
        (some ⟨(q.items 0).priority, (q.items 0).address⟩) (by intro e he; cases he; exact h6c.symm)
      rw [g1, h6c] at *
      refine ⟨_, _, rfl, g2, by rw [g3, h3], g4.trans h4, ?_⟩
      exact PushStep.evict (q.items 0) q'.contents _ (by rw [contents_length, hn]) h5.1 (not_lt.1 hp) h5.2 g5
  · rw [if_neg hfull]
    obtain ⟨q', g1, g2, g3, g4, g5⟩ := pushInsert_spec h (by omega) p none (by intro e he; cases he)
    refine ⟨_, _, g1, g2, g3, g4, ?_⟩
    refine PushStep.room _ _ (by rw [contents_length]; omega) ?_ (free_slot h.nodup (by omega) (Nat.le_refl _)) g5
    exact List.mem_map.2 ⟨q.itemsAmount, List.mem_range.2 (by omega), rfl⟩

theorem rebuildLoop_spec (n : Nat) : ∀ (k : Nat) (f : Nat → Item α β), k ≤ n → Heap f (n - k) →
    ∃ g, rebuildLoop n k f = .ok g ∧ Heap g n ∧ PermBelow n f g := by
  intro k
  induction k with
  | zero => intro f _ h; exact ⟨f, rfl, h, PermBelow.refl _ _⟩
  | succ k ih =>
    intro f hk h
    unfold rebuildLoop
    obtain ⟨g, hg1, hg2, hg3⟩ := bubbleUp_spec f _ h
    rw [hg1]
    simp only [R.ok_bind]
    have e : n - (k + 1) + 1 = n - k := by omega
    rw [e] at hg2 hg3
    obtain ⟨g', a, b, c⟩ := ih g (by omega) hg2
    exact ⟨g', a, b, (hg3.mono (by omega)).trans c⟩

/-- Rebuild needs no ordering beforehand. -/
theorem rebuild_spec {q : PriorityQueue α β} (hb : q.itemsAmount ≤ q.maxElements) (hnd : q.slots.Nodup) :
    ∃ q', q.rebuild = .ok q' ∧ Inv q' ∧ q'.maxElements = q.maxElements ∧ q'.itemsAmount = q.itemsAmount ∧
      q'.slots.Perm q.slots ∧ q'.contents.Perm q.contents := by
  unfold rebuild
  rw [if_neg (by omega)]
  obtain ⟨g, a, b, c⟩ := rebuildLoop_spec q.itemsAmount q.itemsAmount q.items (Nat.le_refl _)
    (by rw [Nat.sub_self]; exact heap_zero _)
  rw [a]
  simp only [R.ok_bind]
  have hsl : PriorityQueue.slots { q with items := g } |>.Perm q.slots :=
    slots_perm (q := q) (n := q.itemsAmount) rfl hb c
  exact ⟨_, rfl, ⟨hb, b, hsl.nodup_iff.2 hnd⟩, rfl, rfl, hsl, c.perm (Nat.le_refl _)⟩

omit [LinearOrder α] in
theorem overwrite_slots (q : PriorityQueue α β) (g : Item α β → α) : (q.overwrite g).slots = q.slots := by
  unfold slots overwrite
  apply List.map_congr_left
  intro i _
  dsimp only
  split <;> rfl

omit [LinearOrder α] in
theorem overwrite_contents (q : PriorityQueue α β) (g : Item α β → α) :
    (q.overwrite g).contents = q.contents.map (fun it => ⟨g it, it.address⟩) := by
  unfold contents overwrite
  rw [List.map_map]
  apply List.map_congr_left
  intro i hi
  simp [List.mem_range.1 hi]

theorem exec_spec {q : PriorityQueue α β} (h : Inv q) (hcap : 0 < q.maxElements) (op : Op α β) :
    ∃ out q', q.exec op = .ok (out, q') ∧ Inv q' ∧ q'.maxElements = q.maxElements ∧ q'.slots.Perm q.slots ∧
      Step q.maxElements q.slots q.contents op out q'.contents := by
  cases op with
  | push p =>
    obtain ⟨fb, q', a, b, c, d, e⟩ := push_spec h hcap p
    simp only [exec, a, R.ok_bind]
    exact ⟨_, _, rfl, b, c, d, e⟩
  | popMin =>
    obtain ⟨fb, q', a, b, c, d, e, -⟩ := popMin_spec h
    simp only [exec, a, R.ok_bind]
    exact ⟨_, _, rfl, b, c, d, e⟩
  | popMax =>
    obtain ⟨fb, q', a, b, c, d, e⟩ := popMax_spec h
    simp only [exec, a, R.ok_bind]
    exact ⟨_, _, rfl, b, c, d, e⟩
  | reprioritise g =>
    obtain ⟨q', a, b, c, -, d, e⟩ := rebuild_spec (q := q.overwrite g) h.bound
      (by rw [overwrite_slots]; exact h.nodup)
    simp only [exec, a, R.ok_bind]
    rw [overwrite_slots] at d
    rw [overwrite_contents] at e
    exact ⟨_, _, rfl, b, c, d, e⟩
  | clear =>
    refine ⟨_, _, rfl, ⟨Nat.zero_le _, heap_zero _, h.nodup⟩, rfl, List.Perm.refl _, ?_⟩
    rfl

theorem PushStep.congr_slots {cap : Nat} {s s' : List β} (hs : s.Perm s') {S S' : List (Item α β)} {p : α}
    {fb : PushFeedback α β} (h : PushStep cap s S p fb S') : PushStep cap s' S p fb S' := by
  cases h with
  | room a _ h1 h2 h3 h4 => exact PushStep.room a _ h1 (hs.mem_iff.1 h2) h3 h4
  | reject _ h1 h2 h3 => exact PushStep.reject _ h1 h2 h3
  | evict e r _ h1 h2 h3 h4 h5 => exact PushStep.evict e r _ h1 h2 h3 h4 h5

theorem Step.congr_slots {cap : Nat} {s s' : List β} (hs : s.Perm s') {S S' : List (Item α β)} {op : Op α β}
    {out : Out α β} (h : Step cap s S op out S') : Step cap s' S op out S' := by
  cases op <;> cases out <;> try exact h
  · exact PushStep.congr_slots hs h
  · rename_i it; cases it <;> exact h
  · rename_i it; cases it <;> exact h

theorem run_spec (ops : List (Op α β)) : ∀ (q : PriorityQueue α β), Inv q → 0 < q.maxElements →
    ∃ outs q', q.run ops = .ok (outs, q') ∧ Inv q' ∧ q'.maxElements = q.maxElements ∧ q'.slots.Perm q.slots ∧
      Trace q.maxElements q.slots q.contents ops outs q'.contents := by
  induction ops with
  | nil => intro q h _; exact ⟨[], q, rfl, h, rfl, List.Perm.refl _, Trace.nil _⟩
  | cons op ops ih =>
    intro q h hc
    obtain ⟨out, q1, a, b, c, d, e⟩ := exec_spec h hc op
    obtain ⟨outs, q2, a2, b2, c2, d2, e2⟩ := ih q1 b (by omega)
    refine ⟨out :: outs, q2, ?_, b2, by omega, d2.trans d, ?_⟩
    · simp [run, a, a2]
    · rw [c] at e2
      refine Trace.cons e ?_
      -- the slots of `q1` are those of `q`
      clear a a2 ih e b2 c2 d2 b
      generalize q1.contents = S at e2
      generalize q2.contents = S2 at e2
      induction e2 with
      | nil => exact Trace.nil _
      | cons h1 _ ih => exact Trace.cons (Step.congr_slots d h1) ih

end PriorityQueue
end ONA
