import Verif.Proofs.PriorityQueueOps
import Mathlib.Algebra.Order.Ring.Rat
/-
Properties C06-C10: the priority queue.
-/
namespace ONA
open PQSpec
variable {α β : Type} [LinearOrder α]

/-- A queue is freshly initialised over `cap` distinct slots. -/
theorem PriorityQueue.init_inv (items : Nat → Item α β) (cap : Nat)
    (hnd : ((List.range cap).map (fun i => (items i).address)).Nodup) : (PriorityQueue.init items cap).Inv :=
  ⟨Nat.zero_le _, PriorityQueue.heap_zero _, hnd⟩

/-- **C06-C09, whole histories.** From a fresh queue with `cap > 0` distinct slots, any history of pushes, pops,
re-prioritisations with rebuild, and clears runs without error, and everything a client observes is what the
bag specification `PQSpec.Trace` allows (`PQSpec` is stated without reference to the heap). -/
theorem C06_queue_refines_bag (items : Nat → Item α β) (cap : Nat) (hcap : 0 < cap)
    (hnd : ((List.range cap).map (fun i => (items i).address)).Nodup) (ops : List (Op α β)) :
    ∃ outs q, (PriorityQueue.init items cap).run ops = .ok (outs, q) ∧
      Trace cap ((List.range cap).map (fun i => (items i).address)) [] ops outs q.contents := by
  obtain ⟨outs, q, a, -, -, -, e⟩ := PriorityQueue.run_spec ops _ (PriorityQueue.init_inv items cap hnd) hcap
  exact ⟨outs, q, a, e⟩

/-- `q` is the state after some history on a fresh queue with `cap` distinct slots. -/
def PQReachable (items : Nat → Item α β) (cap : Nat) (q : PriorityQueue α β) : Prop :=
  ((List.range cap).map (fun i => (items i).address)).Nodup ∧ 0 < cap ∧
    ∃ ops outs, (PriorityQueue.init items cap).run ops = .ok (outs, q)

theorem PQReachable.inv {items : Nat → Item α β} {cap : Nat} {q : PriorityQueue α β} (h : PQReachable items cap q) :
    q.Inv ∧ q.maxElements = cap ∧ q.slots.Perm ((List.range cap).map (fun i => (items i).address)) := by
  obtain ⟨hnd, hcap, ops, outs, hrun⟩ := h
  obtain ⟨outs', q', a, b, c, d, -⟩ := PriorityQueue.run_spec ops _ (PriorityQueue.init_inv items cap hnd) hcap
  rw [hrun] at a
  cases a
  exact ⟨b, c, d⟩

/-- **C06 (minimum).** In any reachable state popping the minimum removes exactly one item, of lowest priority;
it returns nothing iff the queue is empty. -/
theorem C06_popMin {items : Nat → Item α β} {cap : Nat} {q : PriorityQueue α β} (h : PQReachable items cap q) :
    ∃ out q', q.popMin = .ok (out, q') ∧
      match out with
      | none => q.contents = [] ∧ q'.contents = []
      | some e => (∀ x ∈ q.contents, e.priority ≤ x.priority) ∧ q.contents.Perm (e :: q'.contents) := by
  obtain ⟨out, q', a, -, -, -, e, -⟩ := PriorityQueue.popMin_spec h.inv.1
  refine ⟨out, q', a, ?_⟩
  cases out with
  | none => exact e
  | some x => exact ⟨e.1.2, e.2⟩

/-- **C06 (maximum).** -/
theorem C06_popMax {items : Nat → Item α β} {cap : Nat} {q : PriorityQueue α β} (h : PQReachable items cap q) :
    ∃ out q', q.popMax = .ok (out, q') ∧
      match out with
      | none => q.contents = [] ∧ q'.contents = []
      | some e => (∀ x ∈ q.contents, x.priority ≤ e.priority) ∧ q.contents.Perm (e :: q'.contents) := by
  obtain ⟨out, q', a, -, -, -, e⟩ := PriorityQueue.popMax_spec h.inv.1
  refine ⟨out, q', a, ?_⟩
  cases out with
  | none => exact e
  | some x => exact ⟨e.1.2, e.2⟩

/-- **C07 (capacity).** The queue never holds more than `cap` items. -/
theorem C07_bounded {items : Nat → Item α β} {cap : Nat} {q : PriorityQueue α β} (h : PQReachable items cap q) :
    q.contents.length ≤ cap := by
  rw [PriorityQueue.contents_length]
  have := h.inv.1.bound
  have := h.inv.2.1
  omega

/-- **C07 (eviction policy).** A push is rejected iff the queue is full and the priority is below everything
queued; it evicts iff the queue is full and it is not rejected, and what it evicts has lowest priority. -/
theorem C07_push {items : Nat → Item α β} {cap : Nat} {q : PriorityQueue α β} (h : PQReachable items cap q) (p : α) :
    ∃ fb q', q.push p = .ok (fb, q') ∧
      (fb.addedItem = none ↔ q.contents.length = cap ∧ ∀ x ∈ q.contents, p < x.priority) ∧
      (fb.addedItem = none → fb.evictedItem = none ∧ q'.contents.Perm q.contents) ∧
      (fb.evictedItem ≠ none ↔ q.contents.length = cap ∧ fb.addedItem ≠ none) ∧
      (∀ a, fb.addedItem = some a → a.priority = p ∧ a ∈ q'.contents) ∧
      (∀ e, fb.evictedItem = some e → IsMin q.contents e ∧ ∃ rest a, q.contents.Perm (e :: rest) ∧
        fb.addedItem = some a ∧ a.address = e.address ∧ q'.contents.Perm (a :: rest)) ∧
      (fb.evictedItem = none → ∀ a, fb.addedItem = some a → q'.contents.Perm (a :: q.contents)) := by
  obtain ⟨hI, hc, -⟩ := h.inv
  obtain ⟨fb, q', a, -, -, -, e⟩ := PriorityQueue.push_spec hI (by have := h.2.1; omega) p
  rw [hc] at e
  have hcap : 0 < cap := h.2.1
  refine ⟨fb, q', a, ?_⟩
  generalize q.contents = S at *
  generalize q'.contents = S' at *
  cases e with
  | room a _ h1 h2 h3 h4 =>
    refine ⟨⟨by simp, fun hh => by omega⟩, by simp, ⟨by simp, fun hh => by omega⟩, ?_, by simp, ?_⟩
    · intro x hx; cases hx; exact ⟨rfl, h4.mem_iff.2 (by simp)⟩
    · intro _ x hx; cases hx; exact h4
  | reject _ h1 h2 h3 => simp_all
  | evict e r _ h1 h2 h3 h4 h5 =>
    refine ⟨⟨by simp, ?_⟩, by simp, by simp [h1], ?_, ?_, by simp⟩
    · intro hh
      exact absurd (hh.2 e h2.1) (not_lt.2 h3)
    · intro x hx; cases hx; exact ⟨rfl, h5.mem_iff.2 (by simp)⟩
    · intro x hx; cases hx; exact ⟨h2, r, _, h4, rfl, rfl, h5⟩

/-- **C08.** In every reachable state the slots are a permutation of the initial ones, and no two queued items
share a slot; a pushed item gets a slot that was free, or that of the evicted item. -/
theorem C08_slots {items : Nat → Item α β} {cap : Nat} {q : PriorityQueue α β} (h : PQReachable items cap q) :
    q.slots.Perm ((List.range cap).map (fun i => (items i).address)) ∧
    (q.contents.map (·.address)).Nodup ∧
    ∀ p fb q', q.push p = .ok (fb, q') → ∀ a, fb.addedItem = some a →
      match fb.evictedItem with
      | some e => a.address = e.address ∧ e ∈ q.contents
      | none => a.address ∉ q.contents.map (·.address) ∧
          a.address ∈ (List.range cap).map (fun i => (items i).address) := by
  obtain ⟨hI, hc, hs⟩ := h.inv
  refine ⟨hs, ?_, ?_⟩
  · have : (q.contents.map (·.address)) = (List.range q.itemsAmount).map (fun i => (q.items i).address) := by
      simp [PriorityQueue.contents, Function.comp_def]
    rw [this]
    have hsub : (List.range q.itemsAmount).Sublist (List.range q.maxElements) := by
      obtain ⟨k, hk⟩ := Nat.le.dest hI.bound
      rw [← hk, List.range_add]
      exact List.sublist_append_left _ _
    exact (hsub.map _).nodup hI.nodup
  · intro p fb q' hpush a ha
    obtain ⟨fb', q'', x, -, -, -, e⟩ := PriorityQueue.push_spec hI (by have := h.2.1; omega) p
    rw [hpush] at x
    cases x
    cases e with
    | room b _ h1 h2 h3 h4 => cases ha; exact ⟨h3, hs.mem_iff.1 h2⟩
    | reject _ h1 h2 h3 => cases ha
    | evict e r _ h1 h2 h3 h4 h5 => cases ha; exact ⟨rfl, h2.1⟩

/-- **C09.** Overwriting the priorities of all queued items and rebuilding gives a reachable state (so C06-C08
apply to it) holding the same slots with the new priorities. -/
theorem C09_rebuild {items : Nat → Item α β} {cap : Nat} {q : PriorityQueue α β} (h : PQReachable items cap q)
    (g : Item α β → α) :
    ∃ q', (q.overwrite g).rebuild = .ok q' ∧ PQReachable items cap q' ∧
      q'.contents.Perm (q.contents.map (fun it => ⟨g it, it.address⟩)) := by
  obtain ⟨hI, hc, hs⟩ := h.inv
  obtain ⟨hnd, hcap, ops, outs, hrun⟩ := h
  obtain ⟨q', a, -, -, -, -, e⟩ := PriorityQueue.rebuild_spec (q := q.overwrite g) hI.bound
    (by rw [PriorityQueue.overwrite_slots]; exact hI.nodup)
  rw [PriorityQueue.overwrite_contents] at e
  refine ⟨q', a, ⟨hnd, hcap, ops ++ [.reprioritise g], outs ++ [.done], ?_⟩, e⟩
  have happ : ∀ (ops : List (Op α β)) (q0 : PriorityQueue α β) (outs : List (Out α β)),
      q0.run ops = .ok (outs, q) → q0.run (ops ++ [.reprioritise g]) = .ok (outs ++ [.done], q') := by
    intro ops
    induction ops with
    | nil =>
      intro q0 outs h0
      cases h0
      simp [PriorityQueue.run, PriorityQueue.exec, a]
    | cons op ops ih =>
      intro q0 outs h0
      simp only [PriorityQueue.run, R.bind_eq_ok] at h0
      obtain ⟨⟨o1, q1⟩, h1, ⟨os, q2⟩, h2, h3⟩ := h0
      cases h3
      have := ih q1 os h2
      simp [PriorityQueue.run, h1, this]
  exact happ ops _ outs hrun

/-! ### C10: removing an arbitrary position -/

/-- The intended meaning of `PopAt`: the queue still pops its extremes afterwards. -/
def PopAtKeepsOrder (q : PriorityQueue Rat Nat) (i : Nat) : Prop :=
  ∀ a q' e q'', q.popAt i = .ok (a, q') → q'.popMin = .ok (some e, q'') → ∀ x ∈ q'.contents, e.priority ≤ x.priority

/-- Three items pushed into a fresh queue, in the order 1, 2, 3. -/
def popAtExample : R (List (Out Rat Nat) × PriorityQueue Rat Nat) :=
  (PriorityQueue.init (fun i => ⟨0, i⟩) 8).run [.push 1, .push 2, .push 3]

/-- **C10 is false**: after removing position 0 of a reachable queue, popping the minimum returns the item of
priority 3 although one of priority 2 is queued. -/
theorem C10_popAt_breaks_order :
    ∃ q : PriorityQueue Rat Nat, PQReachable (fun i => ⟨0, i⟩) 8 q ∧ ¬ PopAtKeepsOrder q 0 := by
  have hrun : ∃ outs q, popAtExample = .ok (outs, q) := by
    obtain ⟨outs, q, a, -⟩ := C06_queue_refines_bag (fun i => (⟨0, i⟩ : Item Rat Nat)) 8 (by decide) (by decide)
      [.push 1, .push 2, .push 3]
    exact ⟨outs, q, a⟩
  obtain ⟨outs, q, hq⟩ := hrun
  have hw : (do let (_, q) ← popAtExample; let (_, q) ← q.popAt 0; let (e, _) ← q.popMin
                .ok (e.map (·.priority), q.contents.map (·.priority)) : R _) = .ok (some 3, [3, 2]) := by
    decide +kernel
  refine ⟨q, ⟨by decide, by decide, _, outs, hq⟩, ?_⟩
  intro hk
  rw [hq] at hw
  simp only [R.ok_bind, R.bind_eq_ok] at hw
  obtain ⟨⟨a, q'⟩, h1, ⟨e, q''⟩, h2, h3⟩ := hw
  simp only [Except.ok.injEq, Prod.mk.injEq, Option.map_eq_some_iff] at h3
  obtain ⟨⟨e', rfl, he⟩, hc⟩ := h3
  have h2' : (2 : Rat) ∈ q'.contents.map (·.priority) := by rw [hc]; simp
  obtain ⟨x, hx, hx2⟩ := List.mem_map.1 h2'
  have := hk a q' e' q'' h1 h2 x hx
  rw [he, hx2] at this
  exact absurd this (by decide +kernel)

/-- **C10, partial**: removing position 1 or 2 (the children of the root), or the last position, keeps the queue
correct: the result satisfies the heap invariant, holds exactly the other items and returns the removed slot.
Missing: all other positions, where it is false in general (`C10_popAt_breaks_order`). -/
theorem C10_popAt_partial {items : Nat → Item α β} {cap : Nat} {q : PriorityQueue α β} (h : PQReachable items cap q)
    (i : Nat) (hi : i < q.itemsAmount) (hpos : i = 1 ∨ i = 2 ∨ i + 1 = q.itemsAmount) :
    ∃ q', q.popAt i = .ok (some (q.items i).address, q') ∧ q'.Inv ∧
      q.contents.Perm (q.items i :: q'.contents) := by
  obtain ⟨hI, hc, hs⟩ := h.inv
  have hb := hI.bound
  unfold PriorityQueue.popAt
  rw [if_neg (by omega), if_neg (by omega)]
  obtain ⟨n, hn⟩ : ∃ n, q.itemsAmount = n + 1 := ⟨q.itemsAmount - 1, by omega⟩
  have hh := hI.heap
  rw [hn] at hh
  obtain ⟨g, hg1, hg2, hg3⟩ : ∃ g, PriorityQueue.trickleDown n true (n + 1) (PriorityQueue.swap q.items i n) i = .ok g ∧
      PriorityQueue.Heap g n ∧ PriorityQueue.PermBelow n (PriorityQueue.swap q.items i n) g := by
    by_cases hlast : i = n
    · obtain ⟨g, hg1, hg3⟩ := PriorityQueue.trickleDown_perm n true (n + 1) (PriorityQueue.swap q.items i n) i
        (by omega) (by omega)
      refine ⟨g, hg1, ?_, hg3⟩
      unfold PriorityQueue.trickleDown at hg1
      dsimp only at hg1
      rcases PriorityQueue.smallestChild_spec (PriorityQueue.swap q.items i n) n i true with ⟨a, b⟩ | ⟨a, b, c⟩
      · rw [if_pos a] at hg1
        cases hg1
        refine (hh.shrink (Nat.le_succ n)).congr ?_
        intro j hj
        exact PriorityQueue.swap_ne (by omega) (by omega)
      · unfold PriorityQueue.IsC at a; omega
    · have hi3 : i = 1 ∨ i = 2 := by omega
      have hhole := hh.hole_top (i := i) (by omega) (by omega)
      obtain ⟨g, hg1, hg2, hg3⟩ := PriorityQueue.trickleDown_spec n (n + 1) _ i hhole (by omega) (by omega)
      have : PriorityQueue.isOnMaxLevel i = true := by
        have hc : PriorityQueue.IsC 0 i := by unfold PriorityQueue.IsC; omega
        rw [PriorityQueue.lev_child hc, PriorityQueue.isOnMaxLevel_zero]; rfl
      rw [this] at hg1
      exact ⟨g, hg1, hg2, hg3⟩
  simp only [hn, Nat.add_sub_cancel, hg1, R.ok_bind]
  have hpb : PriorityQueue.PermBelow (n + 1) q.items g :=
    (PriorityQueue.swap_permBelow q.items (by omega) (by omega)).trans (hg3.mono (by omega))
  have hsl : PriorityQueue.slots { q with items := g, itemsAmount := n } |>.Perm q.slots :=
    PriorityQueue.slots_perm (q := q) (n := n + 1) rfl (by omega) hpb
  refine ⟨_, rfl, ⟨by show n ≤ q.maxElements; omega, hg2, hsl.nodup_iff.2 hI.nodup⟩, ?_⟩
  show ((List.range q.itemsAmount).map q.items).Perm _
  rw [hn]
  exact (PriorityQueue.swap_last_perm q.items n i (by omega)).trans
    (List.Perm.cons _ (hg3.perm (Nat.le_refl _)).symm)

/-! ### A concrete case -/

set_option synthInstance.maxSize 1024 in
/-- A full queue of three slots: pushing 5 evicts the item of priority 1, pushing 0 is rejected; then the maximum
is popped after halving all priorities but that of slot 1. -/
example :
    (do let (outs, q) ← (PriorityQueue.init (fun i => (⟨0, i⟩ : Item Rat Nat)) 3).run
              [.push 2, .push 1, .push 3, .push 5, .push 0,
               .reprioritise (fun it => if it.address = 1 then it.priority else it.priority / 2), .popMax]
        .ok (outs.map (fun o => match o with
          | .pushed fb => (fb.addedItem, fb.evictedItem)
          | .popped it => (it, none)
          | .done => (none, none)), q.contents) :
      R (List (Option (Item Rat Nat) × Option (Item Rat Nat)) × List (Item Rat Nat))) =
      .ok ([(some ⟨2, 0⟩, none), (some ⟨1, 1⟩, none), (some ⟨3, 2⟩, none), (some ⟨5, 1⟩, some ⟨1, 1⟩), (none, none),
            (none, none), (some ⟨5, 1⟩, none)], [⟨1, 0⟩, ⟨3 / 2, 2⟩]) := by
  decide +kernel

end ONA
