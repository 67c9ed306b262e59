import Verif.Proofs.Rest
import Verif.Props.Lifted
import Verif.Spec.Forgetting
/-
C80. Forgetting: events fade, concepts are ranked by usefulness, the least useful concept makes room.
-/
namespace ONA
variable [Arith] {n n' : Narsese} {z : Sizes} {s s' : Sys}

/-- The code computes the usefulness. -/
theorem usefulness_worth (u : Usage) (now : Int) (h : 0 ≤ u.useCount) : Usage_usefulness u now = .ok (u.worth now) := by
  unfold Usage_usefulness Usage.worth
  have r0 : (0 : ℚ) ≤ rnd ((max 0 (now - u.lastUsed) : Int) : ℚ) := rnd_nonneg_of (by exact_mod_cast le_max_left _ _)
  have d1 : (1 : ℚ) ≤ fadd (rnd ((max 0 (now - u.lastUsed) : Int) : ℚ)) 1 := by
    have := rnd_mono (show (1 : ℚ) ≤ rnd ((max 0 (now - u.lastUsed) : Int) : ℚ) + 1 by linarith)
    rwa [rnd_one] at this
  have c0 : (0 : ℚ) ≤ rnd (u.useCount : ℚ) := rnd_nonneg_of (by exact_mod_cast h)
  simp only [fdiv]
  rw [if_neg (by linarith)]
  simp only [R.ok_bind]
  have v0 : (0 : ℚ) ≤ rnd (rnd (u.useCount : ℚ) / fadd (rnd ((max 0 (now - u.lastUsed) : Int) : ℚ)) 1) :=
    rnd_nonneg_of (div_nonneg c0 (by linarith))
  have e1 : (1 : ℚ) ≤ fadd (rnd (rnd (u.useCount : ℚ) / fadd (rnd ((max 0 (now - u.lastUsed) : Int) : ℚ)) 1)) 1 := by
    have := rnd_mono (show (1 : ℚ) ≤ rnd (rnd (u.useCount : ℚ) / fadd (rnd ((max 0 (now - u.lastUsed) : Int) : ℚ)) 1) + 1 by linarith)
    rwa [rnd_one] at this
  rw [if_neg (by linarith)]

theorem decayQueue_faded {type : EventType} {q q' : PriorityQueue ℚ Nat} {st : Nat → Event} (h : BufferOk n type q st)
    (hd : decayQueue q = .ok q') : Faded q q' := by
  unfold decayQueue at hd
  rw [R.bind_eq_ok] at hd
  obtain ⟨q1, e1, e2⟩ := hd
  have e3 := PriorityQueue.setPriorities_overwrite _ (fun item => fmul item.priority (rnd (9999 / 10000))) q q1
    (fun x _ p hp => by cases hp; rfl) e1
  subst e3
  obtain ⟨q2, e4, hi, hm, hn, hs, hperm⟩ := PriorityQueue.rebuild_spec
    (q := q.overwrite fun item => fmul item.priority (rnd (9999 / 10000))) h.queue.bound
    (by rw [PriorityQueue.overwrite_slots]; exact h.queue.nodup)
  rw [e2] at e4
  cases e4
  rw [PriorityQueue.overwrite_contents] at hperm
  exact hperm

theorem decayLayers_faded {st : Nat → Nat → Event} : ∀ (ls : List Nat) (f g : Nat → PriorityQueue ℚ Nat), ls.Nodup →
    (∀ l, BufferOk n .goal (f l) (st l)) → decayLayers ls f = .ok g →
    (∀ l ∈ ls, Faded (f l) (g l)) ∧ ∀ l, l ∉ ls → g l = f l := by
  intro ls
  induction ls with
  | nil =>
    intro f g _ hf e
    cases e
    exact ⟨fun l h => absurd h (List.not_mem_nil), fun _ _ => rfl⟩
  | cons layer rest ih =>
    intro f g hnd hf e
    unfold decayLayers at e
    rw [R.bind_eq_ok] at e
    obtain ⟨q, e1, e2⟩ := e
    obtain ⟨hb, -, -⟩ := buffer_decay (hf layer) e1
    have hd := List.nodup_cons.1 hnd
    obtain ⟨a, b⟩ := ih _ g hd.2 (by
      intro l
      by_cases h : l = layer
      · subst h; rw [upd_same]; exact hb
      · rw [upd_other _ _ h]; exact hf l) e2
    refine ⟨?_, ?_⟩
    · intro l hl
      rcases List.mem_cons.1 hl with rfl | hl1
      · have := b l hd.1
        rw [upd_same] at this
        rw [this]
        exact decayQueue_faded (hf l) e1
      · have := a l hl1
        rwa [upd_other _ _ (fun h : l = layer => hd.1 (h ▸ hl1))] at this
    · intro l hl
      rw [b l fun h => hl (List.mem_cons_of_mem _ h), upd_other _ _ fun h : l = layer => hl (h ▸ List.mem_cons_self)]

theorem decayConcepts_faded (q : PriorityQueue ℚ Nat) : ∀ (ls : List Nat) (f : Nat → Concept),
    (ls.map fun i => (q.items i).address).Nodup →
    (∀ c ∈ ls.map fun i => (q.items i).address, decayConcepts q ls f c = { f c with priority := fmul (f c).priority (rnd (9 / 10)) }) ∧
    ∀ c, (c ∉ ls.map fun i => (q.items i).address) → decayConcepts q ls f c = f c := by
  intro ls
  induction ls with
  | nil => intro f _; exact ⟨fun c h => absurd h (List.not_mem_nil), fun _ _ => rfl⟩
  | cons i rest ih =>
    intro f hnd
    unfold decayConcepts
    dsimp only
    rw [List.map_cons] at hnd ⊢
    have hd := List.nodup_cons.1 hnd
    obtain ⟨a, b⟩ := ih (upd f (q.items i).address { f (q.items i).address with
        priority := fmul (f (q.items i).address).priority (rnd (9 / 10)) }) hd.2
    refine ⟨?_, ?_⟩
    · intro c hc
      by_cases h : c = (q.items i).address
      · subst h
        rw [b _ hd.1, upd_same]
      · rcases List.mem_cons.1 hc with h' | hc
        · exact absurd h' h
        · rw [a c hc, upd_other _ _ h]
    · intro c hc
      rw [b c fun h => hc (List.mem_cons_of_mem _ h), upd_other _ _ fun h : c = (q.items i).address => hc (h ▸ List.mem_cons_self)]

/-- **C80 (a round of forgetting).** -/
theorem C80_forgetting (h : Good n s) {now : Int} (e : Cycle_RelativeForgetting now s = .ok ((), s')) : Forgotten now s s' := by
  unfold Cycle_RelativeForgetting at e
  simp only [M.bind_ok] at e
  obtain ⟨s1, s2, e1, e⟩ := e
  obtain ⟨rfl, rfl⟩ := M.get_ok.1 e1
  obtain ⟨bq, s3, e1, e⟩ := e
  obtain ⟨f1, rfl⟩ := M.lift_ok.1 e1
  obtain ⟨gq, s3, e2, e⟩ := e
  obtain ⟨f2, rfl⟩ := M.lift_ok.1 e2
  obtain ⟨q1, s3, e3, e⟩ := e
  obtain ⟨f3, rfl⟩ := M.lift_ok.1 e3
  obtain ⟨q, s3, e4, e⟩ := e
  obtain ⟨f4, rfl⟩ := M.lift_ok.1 e4
  have f := M.set_ok.1 e
  subst f
  have e5 := PriorityQueue.setPriorities_overwrite _ (fun item => (s.concept_storage item.address).usage.worth now) s.concepts q1
    (fun x _ p hp => by rw [usefulness_worth _ _ (h.concepts _).useCount] at hp; cases hp; rfl) f3
  subst e5
  obtain ⟨q2, e6, hi, hm, hn, hs, hperm⟩ := PriorityQueue.rebuild_spec
    (q := s.concepts.overwrite fun item => (s.concept_storage item.address).usage.worth now)
    h.mem.queue.bound (by rw [PriorityQueue.overwrite_slots]; exact h.mem.queue.nodup)
  rw [f4] at e6
  cases e6
  rw [PriorityQueue.overwrite_contents] at hperm
  have hlive : s.live = (List.range s.concepts.itemsAmount).map fun i => (s.concepts.items i).address := by
    unfold Sys.live PriorityQueue.contents
    rw [List.map_map]
    rfl
  obtain ⟨hc, hf⟩ := decayConcepts_faded s.concepts (List.range s.concepts.itemsAmount) s.concept_storage
    (by rw [← hlive]; exact h.mem.live_nodup)
  rw [← hlive] at hc hf
  obtain ⟨hl, -⟩ := decayLayers_faded (st := s.cycling_goal_event_storage) _ _ _ List.nodup_range h.goals f2
  refine ⟨decayQueue_faded h.beliefs f1, fun l hl' => hl l (List.mem_range.2 hl'), ?_, ?_, hc, hf, rfl⟩
  · have := hperm.map (·.address)
    rw [List.map_map] at this
    exact this
  · intro x hx
    obtain ⟨y, hy, rfl⟩ := List.mem_map.1 (hperm.mem_iff.1 hx)
    show _ = Usage.worth (decayConcepts _ _ _ y.address).usage now
    rw [hc y.address (List.mem_map.2 ⟨y, hy, rfl⟩)]

theorem Sys.RankedAt.same {now : Int} (h : s.RankedAt now) (e1 : s'.concepts = s.concepts)
    (e2 : ∀ c, (s'.concept_storage c).usage = (s.concept_storage c).usage) : s'.RankedAt now := by
  intro x hx
  rw [e1] at hx
  dsimp only
  rw [e2]
  exact h x hx

theorem ranked_resting : Resting fun s => ∃ now, s.RankedAt now where
  forgets := fun now hg _ _ e => ⟨now, (C80_forgetting hg e).ranked⟩
  same := fun ⟨now, h⟩ _ _ e1 e2 => ⟨now, h.same e1 e2⟩

theorem ranked_restful (z : Sizes) : Restful z fun s => ∃ now used, s.RankedBy used now ∧
    ∀ c, (s.concept_storage c).usage = used c ∨ (used c).useCount < (s.concept_storage c).usage.useCount where
  forgets := fun now hg _ _ e => ⟨now, _, (C80_forgetting hg e).ranked, fun _ => Or.inl rfl⟩
  empty := fun {s} h => ⟨0, fun c => (s.concept_storage c).usage, fun x (hx : x ∈ s.concepts.contents) => (by rw [h.concepts] at hx; cases hx), fun _ => Or.inl rfl⟩
  same := fun ⟨now, used, h, hu⟩ _ _ e1 e2 => ⟨now, used, fun x hx => h x (by rwa [e1] at hx), fun c => by rw [e2]; exact hu c⟩
  asked := fun ⟨now, used, h, hu⟩ hq => ⟨now, used, fun x hx => h x (by rwa [hq.concepts] at hx), fun c => by
    rcases hq.usage c with e | e <;> rcases hu c with e' | e'
    · exact Or.inl (e.trans e')
    · right; rw [e]; exact e'
    · right; rw [← e']; exact e
    · exact Or.inr (e'.trans e)⟩

/-- **C80 (after a cycle).** A cycle leaves the concepts ranked by their usefulness at the time the cycle began. -/
theorem C80_cycle (chain depth : Nat) (hg : Good n s)
    (e : oneCycle n chain (addInputBeliefNested n chain depth) s = .ok ((), s')) : s'.RankedAt s.currentTime := by
  obtain ⟨-, s1, h, rfl⟩ := cycle_ends (P := fun s' => s'.RankedAt s.currentTime) chain depth hg
    (fun s1 h1 _ _ e => (C80_forgetting h1 e).ranked) _ _ e
  exact h

/-- **C80 (after input).** Every statement told leaves the concepts ranked by their usefulness. -/
theorem C80_told (hz : z.Ok) (h : Reachable z n s) {fuel : Fuel} {text : CStr} {query : Bool} {threshold : ℚ}
    (hl : ValidText n text) {se : Sentence} {n1 : Narsese} (hp : Narsese_Sentence n text = .ok (se, n1))
    (hq : se.punctuation ≠ '?') (e : NAR_AddInputNarsese2 n fuel text query threshold s = .ok (n', s')) :
    ∃ now, s'.RankedAt now := by
  obtain ⟨hg, hn⟩ := h.good hz
  unfold NAR_AddInputNarsese2 at e
  rw [hp, R.ok_bind] at e
  dsimp only at e
  rw [if_neg hq, R.bind_eq_ok] at e
  obtain ⟨⟨_, s1⟩, e2, e⟩ := e
  cases e
  obtain ⟨hok, hx, hk⟩ := Narsese.sentence_extends hn hg.base hp
  have hg1 := hg.extends hx
  unfold inputSentence at e2
  simp only [M.bind_ok] at e2
  obtain ⟨_, s2, e3, e2⟩ := e2
  obtain ⟨_, f3⟩ := M.lift_ok.1 e3
  obtain ⟨_, s3, e4, e2⟩ := e2
  obtain ⟨_, f4⟩ := M.lift_ok.1 e4
  obtain ⟨ev, s4, e5, e2⟩ := e2
  obtain ⟨_, f6⟩ := M.pure_ok.1 e2
  subst f3 f4 f6
  exact addInput_rests ranked_resting fuel (hg1.base.reduce hk) _ (hl se _ hp hq) _ _ hg1 _ _ e5

/-- **C80 (after cycles).** So do cycles. -/
theorem C80_cycles (hz : z.Ok) (h : Reachable z n s) {fuel : Fuel} (k : Nat)
    (e : NAR_Cycles n fuel (k + 1) s = .ok ((), s')) : ∃ now, s'.RankedAt now :=
  cycles_rests ranked_resting _ _ (k + 1) (h.good hz).1 (fun h => absurd h (Nat.succ_ne_zero k)) _ _ e

/-- **C80 (ranked).** After every call the concepts are ranked by the usefulness they had at one time; since then a concept
may only have been used more, for answers to questions. -/
theorem C80_ranked (hz : z.Ok) (h : Reachable z n s) : ∃ now used, s.RankedBy used now ∧
    ∀ c, (s.concept_storage c).usage = used c ∨ (used c).useCount < (s.concept_storage c).usage.useCount :=
  h.rests (ranked_restful z) hz

/-- **C80 (making room).** When the memory is full after a call and a new concept is needed, the concept given up is one of
those least useful; no other concept is touched. -/
theorem C80_evicted (hz : z.Ok) (h : Reachable z n s) (t : Term) (now : Int) (hfull : s.live.length = z.memory.concepts)
    (hnew : ∀ c ∈ s.live, s.termOf c ≠ t) {used : Nat → Usage} {before : Int} (hr : s.RankedBy used before) :
    ∃ c ∈ s.live, (∀ d ∈ s.live, (used c).worth before ≤ (used d).worth before) ∧
      ∃ s', Memory_Conceptualize n t now s = .ok (some c, s') ∧ s'.termOf c = t ∧
        ∀ d ∈ s.live, d ≠ c → d ∈ s'.live ∧ s'.concept_storage d = s.concept_storage d := by
  obtain ⟨x, hx, hmin, s', e, hp, -, hc, hd⟩ := C38_reachable hz h t now hfull hnew
  refine ⟨x.address, List.mem_map.2 ⟨x, hx, rfl⟩, ?_, s', e, ?_, ?_⟩
  · intro d hd
    obtain ⟨y, hy, rfl⟩ := List.mem_map.1 hd
    rw [← hr x hx, ← hr y hy]
    exact hmin y hy
  · unfold Sys.termOf
    rw [hc]
  · exact fun d hd' hne => ⟨hp.mem_iff.2 hd', hd d hne⟩

end ONA
