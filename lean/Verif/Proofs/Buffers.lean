import Verif.Proofs.System
/-
The buffers of events.
-/
namespace ONA

namespace PriorityQueue
variable {β : Type}

/-- The loop assigning new priorities. -/
theorem setPriorities_spec (f : Item ℚ β → R ℚ) : ∀ (k : Nat) (q q' : PriorityQueue ℚ β), k ≤ q.itemsAmount →
    setPriorities f q k = .ok q' →
    q'.itemsAmount = q.itemsAmount ∧ q'.maxElements = q.maxElements ∧
    (∀ i, i < q.itemsAmount - k ∨ q.itemsAmount ≤ i → q'.items i = q.items i) ∧
    (∀ i, q.itemsAmount - k ≤ i → i < q.itemsAmount → ∃ p, f (q.items i) = .ok p ∧ q'.items i = ⟨p, (q.items i).address⟩) := by
  intro k
  induction k with
  | zero =>
    intro q q' _ h
    cases h
    exact ⟨rfl, rfl, fun _ _ => rfl, fun i h1 h2 => by omega⟩
  | succ k ih =>
    intro q q' hk h
    unfold setPriorities at h
    rw [R.bind_eq_ok] at h
    obtain ⟨p, e1, e2⟩ := h
    obtain ⟨a, b, c, d⟩ := ih _ q' (by show k ≤ q.itemsAmount; omega) e2
    simp only at a b c d
    refine ⟨a, b, ?_, ?_⟩
    · intro i hi
      rw [c i (by omega), upd_other _ _ (by omega)]
    · intro i h1 h2
      by_cases hi : i = q.itemsAmount - (k + 1)
      · subst hi
        rw [c _ (by omega), upd_same]
        exact ⟨p, e1, rfl⟩
      · obtain ⟨p', e3, e4⟩ := d i (by omega) h2
        rw [upd_other _ _ hi] at e3 e4
        exact ⟨p', e3, e4⟩

/-- New priorities for all items are an `overwrite`. -/
theorem setPriorities_overwrite (f : Item ℚ β → R ℚ) (g : Item ℚ β → ℚ) (q q' : PriorityQueue ℚ β)
    (hg : ∀ x ∈ q.contents, ∀ p, f x = .ok p → p = g x) (h : setPriorities f q q.itemsAmount = .ok q') :
    q' = q.overwrite g := by
  obtain ⟨a, b, c, d⟩ := setPriorities_spec f q.itemsAmount q q' (Nat.le_refl _) h
  have : q'.items = (q.overwrite g).items := by
    funext i
    unfold overwrite
    simp only
    by_cases hi : i < q.itemsAmount
    · rw [if_pos hi]
      obtain ⟨p, e1, e2⟩ := d i (by omega) hi
      rw [e2, ← hg _ (mem_contents.2 ⟨i, hi, rfl⟩) p e1]
    · rw [if_neg hi, c i (by omega)]
  cases q'
  cases q
  simp only [overwrite] at *
  subst a b
  congr

theorem slots_of_contents {q : PriorityQueue ℚ β} (hb : q.itemsAmount ≤ q.maxElements) :
    (q.contents.map (·.address)).Sublist q.slots := by
  unfold contents slots
  rw [List.map_map]
  exact List.Sublist.map _ (List.range_sublist.2 hb)

theorem addr_nodup {q : PriorityQueue ℚ β} (h : q.Inv) : (q.contents.map (·.address)).Nodup :=
  (slots_of_contents h.bound).nodup h.nodup

end PriorityQueue

/-- The same event is recognised. -/
theorem Event_Equal_of_same {a b : Event} (hb : b.stamp.WF) (h : SameEvent a b) : Event_Equal a b = true := by
  unfold Event_Equal Truth_Equal
  rw [h.truth, h.occurrenceTime, h.term]
  have : Stamp_Equal a.stamp b.stamp = true := by
    rw [Stamp_Equal_iff a.stamp b.stamp hb, h.evidence]
    simp
  rw [this]
  simp

theorem not_contains {q : PriorityQueue ℚ Nat} {st : Nat → Event} {e : Event} (hw : ∀ i, (st i).stamp.WF)
    (h : Memory_containsEvent q st e = false) : ∀ x ∈ q.contents, ¬ SameEvent e (st x.address) := by
  intro x hx hs
  obtain ⟨i, hi, rfl⟩ := PriorityQueue.mem_contents.1 hx
  unfold Memory_containsEvent at h
  rw [List.any_eq_false] at h
  exact h i (List.mem_range.2 hi) (Event_Equal_of_same (hw _) hs)

variable [Arith] {n : Narsese}

/-- The contents of a buffer after an event was offered: unchanged, or one event more with the others as before except
for an evicted one. -/
theorem buffer_push {type : EventType} {q q' : PriorityQueue ℚ Nat} {st : Nat → Event} {e : Event} {p : ℚ}
    {fb : PushFeedback ℚ Nat} (h : BufferOk n type q st) (he : e.Good n) (ht : e.type = type)
    (hc : MIN_CONFIDENCE ≤ e.truth.confidence) (htime : e.type = .goal → e.occurrenceTime ≠ OCCURRENCE_ETERNAL)
    (hp : 0 < p) (hp1 : p ≤ 1) (hpush : q.push p = .ok (fb, q')) :
    match fb.addedItem with
    | none => BufferOk n type q' st ∧ q'.contents.Perm q.contents
    | some item => BufferOk n type q' (upd st item.address e) ∧ ∀ x ∈ q'.contents, x = ⟨p, item.address⟩ ∨
        (x ∈ q.contents ∧ x.address ≠ item.address) := by
  obtain ⟨fb', q'', e1, hi, hm, hs, hstep⟩ := PriorityQueue.push_spec h.queue h.pos p
  rw [hpush] at e1
  cases e1
  have fin : ∀ a, (∀ x ∈ q'.contents, x = ⟨p, a⟩ ∨ (x ∈ q.contents ∧ x.address ≠ a)) →
      BufferOk n type q' (upd st a e) := by
    intro a hx
    refine ⟨hi, by rw [hm]; exact h.pos, ?_, ?_, ?_, ?_, ?_⟩
    · intro x hxm
      rcases hx x hxm with rfl | ⟨h1, _⟩
      · exact ⟨hp.le, hp1⟩
      · exact h.priority x h1
    · intro x hxm
      rcases hx x hxm with rfl | ⟨h1, h2⟩
      · show (upd st a e a).type = type
        rw [upd_same]; exact ht
      · rw [upd_other _ _ h2]; exact h.type x h1
    · intro x hxm
      rcases hx x hxm with rfl | ⟨h1, h2⟩
      · show _ ≤ (upd st a e a).truth.confidence
        rw [upd_same]; exact hc
      · rw [upd_other _ _ h2]; exact h.confidence x h1
    · intro x hxm
      rcases hx x hxm with rfl | ⟨h1, h2⟩
      · show (upd st a e a).type = .goal → (upd st a e a).occurrenceTime ≠ _
        rw [upd_same]; exact htime
      · rw [upd_other _ _ h2]; exact h.time x h1
    · intro i
      by_cases hia : i = a
      · subst hia; rw [upd_same]; exact he
      · rw [upd_other _ _ hia]; exact h.good i
  cases hstep with
  | room a S' hlen ha hna hperm =>
    have hx : ∀ x ∈ q'.contents, x = ⟨p, a⟩ ∨ (x ∈ q.contents ∧ x.address ≠ a) := by
      intro x hxm
      rcases List.mem_cons.1 (hperm.mem_iff.1 hxm) with rfl | h1
      · exact Or.inl rfl
      · exact Or.inr ⟨h1, fun hxa => hna (List.mem_map.2 ⟨x, h1, hxa⟩)⟩
    exact ⟨fin a hx, hx⟩
  | reject S' hlen hlow hperm =>
    refine ⟨⟨hi, by rw [hm]; exact h.pos, ?_, ?_, ?_, ?_, h.good⟩, hperm⟩
    · intro x hx; exact h.priority x (hperm.mem_iff.1 hx)
    · intro x hx; exact h.type x (hperm.mem_iff.1 hx)
    · intro x hx; exact h.confidence x (hperm.mem_iff.1 hx)
    · intro x hx; exact h.time x (hperm.mem_iff.1 hx)
  | evict ev rest S' hlen hmin hle hperm hperm' =>
    have hnd := PriorityQueue.addr_nodup h.queue
    rw [(hperm.map _).nodup_iff, List.map_cons, List.nodup_cons] at hnd
    have hx : ∀ x ∈ q'.contents, x = ⟨p, ev.address⟩ ∨ (x ∈ q.contents ∧ x.address ≠ ev.address) := by
      intro x hxm
      rcases List.mem_cons.1 (hperm'.mem_iff.1 hxm) with rfl | h1
      · exact Or.inl rfl
      · exact Or.inr ⟨hperm.mem_iff.2 (List.mem_cons_of_mem _ h1),
          fun hxa => hnd.1 (List.mem_map.2 ⟨x, h1, hxa⟩)⟩
    exact ⟨fin _ hx, hx⟩

/-- A buffer whose contents are among the old ones. -/
theorem BufferOk.sub {type : EventType} {q q' : PriorityQueue ℚ Nat} {st : Nat → Event} (h : BufferOk n type q st)
    (hi : q'.Inv) (hm : q'.maxElements = q.maxElements) (hx : ∀ x ∈ q'.contents, x ∈ q.contents) : BufferOk n type q' st :=
  ⟨hi, by rw [hm]; exact h.pos, fun x h1 => h.priority x (hx x h1), fun x h1 => h.type x (hx x h1),
    fun x h1 => h.confidence x (hx x h1), fun x h1 => h.time x (hx x h1), h.good⟩

/-- Removing the event of highest priority. -/
theorem buffer_pop {type : EventType} {q q' : PriorityQueue ℚ Nat} {st : Nat → Event} {out : Option (Item ℚ Nat)}
    (h : BufferOk n type q st) (hpop : q.popMax = .ok (out, q')) :
    BufferOk n type q' st ∧ (∀ x ∈ q'.contents, x ∈ q.contents) ∧ ∀ x, out = some x → x ∈ q.contents := by
  obtain ⟨out', q'', e1, hi, hm, hs, hstep⟩ := PriorityQueue.popMax_spec h.queue
  rw [hpop] at e1
  cases e1
  have hx : (∀ x ∈ q'.contents, x ∈ q.contents) ∧ ∀ x, out = some x → x ∈ q.contents := by
    cases out with
    | none =>
      obtain ⟨a, b⟩ := hstep
      refine ⟨?_, ?_⟩
      · intro x hx
        rw [b] at hx
        cases hx
      · intro x hx
        cases hx
    | some y =>
      obtain ⟨a, b⟩ := hstep
      refine ⟨fun x hx => b.mem_iff.2 (List.mem_cons_of_mem _ hx), ?_⟩
      intro x hx
      cases hx
      exact b.mem_iff.2 List.mem_cons_self
  exact ⟨h.sub hi hm hx.1, hx⟩

theorem InUnit.mul {a b : ℚ} (ha : InUnit a) (hb : InUnit b) : InUnit (fmul a b) :=
  ⟨rnd_nonneg (mul_nonneg ha.1 hb.1), rnd_le_one (by nlinarith [ha.1, ha.2, hb.1, hb.2])⟩

/-- Decay of the priorities. -/
theorem buffer_decay {type : EventType} {q q' : PriorityQueue ℚ Nat} {st : Nat → Event} (h : BufferOk n type q st)
    (hd : decayQueue q = .ok q') :
    BufferOk n type q' st ∧ (∀ x ∈ q'.contents, ∃ y ∈ q.contents, y.address = x.address) ∧ q'.itemsAmount = q.itemsAmount := by
  unfold decayQueue at hd
  rw [R.bind_eq_ok] at hd
  obtain ⟨q1, e1, e2⟩ := hd
  have e3 := PriorityQueue.setPriorities_overwrite _ (fun item => fmul item.priority (rnd (9999 / 10000))) q q1
    (fun x _ p hp => by cases hp; rfl) e1
  subst e3
  obtain ⟨q2, e4, hi, hm, hn, hs, hperm⟩ := PriorityQueue.rebuild_spec
    (q := q.overwrite fun item => fmul item.priority (rnd (9999 / 10000))) h.queue.bound
    (by rw [PriorityQueue.overwrite_slots]; exact h.queue.nodup)
  rw [e2] at e4
  cases e4
  rw [PriorityQueue.overwrite_contents] at hperm
  have key : ∀ x ∈ q'.contents, ∃ y ∈ q.contents, x = ⟨fmul y.priority (rnd (9999 / 10000)), y.address⟩ := by
    intro x hx
    obtain ⟨y, hy, rfl⟩ := List.mem_map.1 (hperm.mem_iff.1 hx)
    exact ⟨y, hy, rfl⟩
  have hu : InUnit (rnd (9999 / 10000) : ℚ) := ⟨rnd_nonneg (by norm_num), rnd_le_one (by norm_num)⟩
  refine ⟨⟨hi, by rw [hm]; exact h.pos, ?_, ?_, ?_, ?_, h.good⟩, ?_, hn⟩
  · intro x hx
    obtain ⟨y, hy, rfl⟩ := key x hx
    exact (h.priority y hy).mul hu
  · intro x hx
    obtain ⟨y, hy, rfl⟩ := key x hx
    exact h.type y hy
  · intro x hx
    obtain ⟨y, hy, rfl⟩ := key x hx
    exact h.confidence y hy
  · intro x hx
    obtain ⟨y, hy, rfl⟩ := key x hx
    exact h.time y hy
  · intro x hx
    obtain ⟨y, hy, rfl⟩ := key x hx
    exact ⟨y, hy, rfl⟩

end ONA
