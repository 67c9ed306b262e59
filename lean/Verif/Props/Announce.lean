import Verif.Proofs.Announced
import Verif.Spec.API
import Verif.Proofs.API
import Verif.Props.Links
/-
C86: what is announced. The lines printed about added knowledge tell what was added, what it led to, and nothing else.
-/
namespace ONA
variable [Arith] {z : Sizes} {n : Narsese} {p : PrintFlags} {s s' : Sys}

omit [Arith] in
theorem mem_said {k : LineKind} {ls : List Line} {l : Line} : l ∈ said k ls ↔ l ∈ ls ∧ l.kind = k := by
  unfold said
  rw [List.mem_filter, decide_eq_true_eq]

omit [Arith] in
theorem said_append {k : LineKind} (a b : List Line) : said k (a ++ b) = said k a ++ said k b := List.filter_append ..

omit [Arith] in
theorem said_all {k : LineKind} {ls : List Line} (h : ∀ l ∈ ls, l.kind = k) : said k ls = ls :=
  List.filter_eq_self.2 fun l hl => decide_eq_true (h l hl)

omit [Arith] in
theorem said_none {k k' : LineKind} (hk : k' ≠ k) {ls : List Line} (h : ∀ l ∈ ls, l.kind = k') : said k ls = [] :=
  List.filter_eq_nil_iff.2 fun l hl => by rw [decide_eq_true_eq, h l hl]; exact hk

/-- **C86.** Printing does not influence what is done: with whatever is printed, the memory changes as if nothing was. -/
theorem C86_same (e : Event) (now : Int) (priority : ℚ) (input revised : Bool) (layer : Nat) :
    (∃ ls, Memory_AddEventP' n p e now priority input revised layer s = .ok (ls, s')) ↔
      Memory_AddEvent' n e now priority input revised layer s = .ok ((), s') := by
  have h : (Memory_AddEventP' n p e now priority input revised layer >>= fun _ => pure ()) =
      Memory_AddEvent' n e now priority input revised layer := by
    unfold Memory_AddEventP' Memory_AddEvent'
    rw [bind_assoc]
    congr 1
    funext s
    exact Memory_AddEventP_erase _ _ _ _ _ _ _
  rw [← h, M.bind_ok]
  exact ⟨fun ⟨ls, e⟩ => ⟨ls, s', e, M.pure_ok.2 ⟨rfl, rfl⟩⟩, fun ⟨ls, s1, e, h⟩ => ⟨ls, by obtain ⟨-, rfl⟩ := M.pure_ok.1 h; exact e⟩⟩

theorem addEventP'_wp {e : Event} {now : Int} {priority : ℚ} {input revised : Bool} {layer : Nat} {ls : List Line} {Q : List Line → Sys → Prop}
    (h : ∀ k, WP (Memory_AddEventP n p k (.val e) now priority input revised layer) Q s)
    (r : Memory_AddEventP' n p e now priority input revised layer s = .ok (ls, s')) : Q ls s' := by
  unfold Memory_AddEventP' at r
  rw [M.bind_ok] at r
  obtain ⟨_, _, e1, r⟩ := r
  obtain ⟨rfl, rfl⟩ := M.get_ok.1 e1
  exact h _ _ _ r

theorem effective_input {e : Event} {priority q : ℚ} {revised : Bool} (h : effectivePriority e priority true revised = .ok q) : q = priority := by
  unfold effectivePriority at h
  simp at h
  exact h.symm

theorem unit_one : InUnit (1 : ℚ) := ⟨zero_le_one, le_refl _⟩

/-- **C86.** A told event or eternal belief is announced, once, with its content, and besides only the beliefs revised by it are. -/
theorem C86_told_partial (hg : Good n s) {e : Event} (he : e.Good n) (hb : e.type = .belief) (himp : ¬ IsImplication n e.term)
    (hc : MIN_CONFIDENCE ≤ e.truth.confidence) (hp : p.PRINT_INPUT = true) {now : Int} {ls : List Line}
    (r : Memory_AddInputEventP n p e now s = .ok (ls, s')) (room : s'.HasRoom) :
    ∃ l, said .input ls = [l] ∧ l.Tells e ∧ l.priority = 1 ∧ ∀ x ∈ ls, x ≠ l → x.kind = .revised ∧ s'.Believes e.term x := by
  have hnf : ¬ s'.full := by rw [full_iff]; exact not_not.2 room
  rcases addEventP'_wp (fun k => addP_ordinary (p := p) he hb himp k now unit_one true 0 hg) r with ⟨-, -, h⟩ | ⟨q, hq, -, -, h⟩
  · rcases h rfl with h | h
    · exact absurd hc (not_le.2 h)
    · exact absurd h (by norm_num)
  · obtain ⟨revs, news, rfl, h1, h2⟩ := (h.resolve_left hnf).shape
    have hn : news = [] := by
      rcases h2 with ⟨h2, -⟩ | ⟨h2, -⟩
      · rw [h2, if_pos rfl]
      · exact h2
    subst hn
    have := effective_input hq
    subst this
    obtain ⟨l, hl, h3, h4, h5⟩ := printed_told (n := n) (p := p) (e := e) (priority := 1) hp
    rw [if_pos rfl, hl, List.append_nil]
    refine ⟨l, ?_, h3, h4, fun x hx hne => ?_⟩
    · rw [said_append, said_all (by simp [h5]), said_none (k' := .revised) (by decide) fun l hl => (h1 l hl).1, List.append_nil]
    · rw [List.singleton_append, List.mem_cons] at hx
      exact h1 x (hx.resolve_left hne)

/-- **C86.** What is too uncertain to be believed is not announced, and has no effect. -/
theorem C86_refused (hg : Good n s) {e : Event} (he : e.Good n) (hk : e.type = .goal ∨ e.type = .belief ∧ ¬ IsImplication n e.term)
    (hc : e.truth.confidence < MIN_CONFIDENCE) {now : Int} {priority : ℚ} (hu : InUnit priority) {input : Bool} {layer : Nat} {ls : List Line}
    (r : Memory_AddEventP' n p e now priority input false layer s = .ok (ls, s')) : ls = [] ∧ s' = s := by
  rcases hk with hb | ⟨hb, himp⟩
  · rcases addEventP'_wp (fun k => addP_goal (p := p) hb k now input layer hg) r with h | ⟨q, -, -, h, -⟩
    · exact ⟨h.1, h.2.1⟩
    · exact absurd h (not_le.2 hc)
  · rcases addEventP'_wp (fun k => addP_ordinary (p := p) he hb himp k now hu input layer hg) r with h | ⟨q, -, -, h, -⟩
    · exact ⟨h.1, h.2.1⟩
    · exact absurd h (not_le.2 hc)

/-- **C86.** A told goal is announced, once, and nothing else is. -/
theorem C86_goal (hg : Good n s) {e : Event} (hb : e.type = .goal) (hc : MIN_CONFIDENCE ≤ e.truth.confidence) (hp : p.PRINT_INPUT = true)
    {now : Int} {ls : List Line} (r : Memory_AddInputEventP n p e now s = .ok (ls, s')) :
    ∃ l, ls = [l] ∧ l.kind = .input ∧ l.Tells e ∧ l.priority = 1 := by
  rcases addEventP'_wp (fun k => addP_goal (p := p) hb k now true 0 hg) r with ⟨-, -, h⟩ | ⟨q, hq, -, -, h⟩
  · rcases h rfl with h | h
    · exact absurd hc (not_le.2 h)
    · exact absurd h (by norm_num)
  · have := effective_input hq
    subst this
    obtain ⟨l, hl, h3, h4, h5⟩ := printed_told (n := n) (p := p) (e := e) (priority := 1) hp
    rw [if_pos rfl, hl] at h
    exact ⟨l, h.elim And.left And.left, h5, h3, h4⟩

/-- **C86.** A derived event or belief is announced as derived exactly if it was put into the attention buffer (and derivations of its
priority are shown): then there is one such line, with its content and the priority it is attended with. -/
theorem C86_derived (hg : Good n s) {e : Event} (he : e.Good n) (hb : e.type = .belief) (himp : ¬ IsImplication n e.term)
    {now : Int} {priority : ℚ} (hu : InUnit priority) {layer : Nat} {ls : List Line}
    (r : Memory_AddEventP' n p e now priority false false layer s = .ok (ls, s')) (room : s'.HasRoom) :
    (∃ l, said .derived ls = [l] ∧ l.Tells e ∧ effectivePriority e priority false false = .ok l.priority ∧ s'.Buffered e) ∨
    (said .derived ls = [] ∧ ((∀ x, s'.Buffered x → s.Buffered x) ∨
      ∃ q, effectivePriority e priority false false = .ok q ∧ ¬ p.Shows q)) := by
  have hnf : ¬ s'.full := by rw [full_iff]; exact not_not.2 room
  rcases addEventP'_wp (fun k => addP_ordinary (p := p) he hb himp k now hu false layer hg) r with ⟨rfl, rfl, -⟩ | ⟨q, hq, -, -, h⟩
  · exact .inr ⟨rfl, .inl fun _ h => h⟩
  · obtain ⟨revs, news, rfl, h1, h2⟩ := (h.resolve_left hnf).shape
    have hr : said .derived revs = [] := said_none (k' := .revised) (by decide) fun l hl => (h1 l hl).1
    rw [if_neg (by decide), List.nil_append, said_append, hr, List.nil_append]
    rcases h2 with ⟨rfl, h3⟩ | ⟨rfl, h3⟩
    · rw [if_neg (by decide)]
      by_cases hs : p.Shows q
      · obtain ⟨l, hl, h4, h5, h6⟩ := printed_derived (n := n) (p := p) (e := e) (priority := q) hs
        rw [hl]
        exact .inl ⟨l, said_all (by simp [h6]), h4, by rw [h5]; exact hq, h3⟩
      · refine .inr ⟨?_, .inr ⟨q, hq, hs⟩⟩
        refine List.filter_eq_nil_iff.2 fun l hl => ?_
        exact absurd ((printed_event hl).2.1.shown rfl) hs
    · exact .inr ⟨rfl, .inl h3⟩

/-- **C86.** The same for subgoals, with the buffer of the next layer. -/
theorem C86_subgoal (hg : Good n s) {e : Event} (hb : e.type = .goal) {now : Int} {priority : ℚ} {layer : Nat} {ls : List Line}
    (r : Memory_AddEventP' n p e now priority false false layer s = .ok (ls, s')) :
    (∃ l, ls = [l] ∧ l.kind = .derived ∧ l.Tells e ∧ effectivePriority e priority false false = .ok l.priority ∧
      s'.BufferedGoal (nextLayer layer) e) ∨
    (ls = [] ∧ ((∀ x, s'.BufferedGoal (nextLayer layer) x → s.BufferedGoal (nextLayer layer) x) ∨
      ∃ q, effectivePriority e priority false false = .ok q ∧ ¬ p.Shows q)) := by
  rcases addEventP'_wp (fun k => addP_goal (p := p) hb k now false layer hg) r with ⟨rfl, rfl, -⟩ | ⟨q, hq, -, -, h⟩
  · exact .inr ⟨rfl, .inl fun _ h => h⟩
  · rcases h with ⟨rfl, h3⟩ | ⟨rfl, h3⟩
    · by_cases hs : p.Shows q
      · obtain ⟨l, hl, h4, h5, h6⟩ := printed_derived (n := n) (p := p) (e := e) (priority := q) hs
        exact .inl ⟨l, hl, h6, h4, by rw [h5]; exact hq, h3⟩
      · refine .inr ⟨?_, .inr ⟨q, hq, hs⟩⟩
        refine List.eq_nil_iff_forall_not_mem.2 fun l hl => ?_
        exact hs ((printed_event hl).2.1.shown rfl)
    · exact .inr ⟨by simp, .inl h3⟩

/-- **C86.** A line about a revision tells what is believed afterwards. -/
theorem C86_revised (hg : Good n s) {e : Event} (he : e.Good n) (hb : e.type = .belief) (himp : ¬ IsImplication n e.term)
    {now : Int} {priority : ℚ} (hu : InUnit priority) {input : Bool} {layer : Nat} {ls : List Line}
    (r : Memory_AddEventP' n p e now priority input false layer s = .ok (ls, s')) (room : s'.HasRoom)
    {l : Line} (hl : l ∈ said .revised ls) : s'.Believes e.term l := by
  have hnf : ¬ s'.full := by rw [full_iff]; exact not_not.2 room
  obtain ⟨hl, hk⟩ := mem_said.1 hl
  rcases addEventP'_wp (fun k => addP_ordinary (p := p) he hb himp k now hu input layer hg) r with ⟨rfl, rfl, -⟩ | ⟨q, hq, -, -, h⟩
  · cases hl
  · obtain ⟨revs, news, rfl, h1, h2⟩ := (h.resolve_left hnf).shape
    rw [List.mem_append, List.mem_append] at hl
    rcases hl with (hl | hl) | hl
    · split at hl
      · rw [(printed_event hl).2.2] at hk; simp at hk
      · cases hl
    · exact (h1 l hl).2
    · rcases h2 with ⟨rfl, -⟩ | ⟨rfl, -⟩
      · split at hl
        · cases hl
        · rw [(printed_event hl).2.2] at hk; simp at hk
      · cases hl

/-- **C86.** A temporal link is announced only when it was stored: first what was added, and then, if that says more, the link it has
become part of, as it is in the memory now. -/
theorem C86_link {e : Event} (hb : e.type = .belief) (htmp : Narsese_copulaEquals n (e.term.get 0) TEMPORAL_IMPLICATION = true)
    {now : Int} {priority : ℚ} {input : Bool} {layer : Nat} {ls : List Line}
    (r : Memory_AddEventP' n p e now priority input false layer s = .ok (ls, s')) :
    ls = [] ∨ ∃ x eternal, s'.Links e.term x ∧ Event_Eternalized e = .ok eternal ∧ (said .revised ls).length + 1 ≥ ls.length ∧
      ∀ l ∈ ls, (l.kind = .revised ∧ l.TellsLink x) ∨
        (l.kind = (if input then .input else .derived) ∧ l.term = e.term ∧ l.isBelief = true ∧ l.truth = eternal.truth ∧
          l.stamp = e.stamp ∧ l.occurrenceTime = none) := by
  rcases addEventP'_wp (fun k => addP_link (p := p) hb htmp k now priority input layer s) r with h | ⟨q, eternal, -, heq, h⟩
  · exact .inl h
  · rcases h with h | ⟨x, hx, revs, rfl, h⟩
    · exact .inl h
    refine .inr ⟨x, eternal, hx, heq, ?_, fun l hl => ?_⟩
    · have hlen : (Memory_printAddedImplication n p e.stamp e.term eternal.truth e.occurrenceTimeOffset q input false).length ≤ 1 := by
        unfold Memory_printAddedImplication Memory_printAddedKnowledge
        split <;> simp
      rw [said_append, said_all (ls := revs) fun l hl => (h l hl).1, List.length_append, List.length_append]
      omega
    · rw [List.mem_append] at hl
      rcases hl with hl | hl
      · obtain ⟨h1, h2, h3, h4, h5, -, h6⟩ := printed_link hl
        exact .inr ⟨h6, h1, h2, h3, h4, h5⟩
      · exact .inl (h l hl)

/-- **C86.** With `*volume=0`, nothing which is not told is announced. -/
theorem C86_silent (hp : 1 ≤ p.PRINT_EVENTS_PRIORITY_THRESHOLD) {e : Event} {now : Int} {priority : ℚ} (hu : InUnit priority) {revised : Bool}
    {layer : Nat} {ls : List Line} (r : Memory_AddEventP' n p e now priority false revised layer s = .ok (ls, s')) : ls = [] := by
  refine List.eq_nil_iff_forall_not_mem.2 fun l hl => ?_
  obtain ⟨e', q, hq, h⟩ := addEventP'_wp (fun k => addEventP_from (p := p) k (.val e) now priority false revised layer s) r l hl
  have hs := (h.elim id id).shown rfl
  exact absurd (lt_of_lt_of_le hs.2 (Closed.effectivePriority_le hu.2 hq)) (not_lt.2 hp)

omit [Arith] in
/-- **C86.** With `*volume=100`, every priority an event can be added with is shown. -/
theorem C86_loud (hp : p.PRINT_EVENTS_PRIORITY_THRESHOLD = 0) (hd : p.PRINT_DERIVATIONS = true) {q : ℚ} (hq : 0 < q) : p.Shows q :=
  ⟨hd, by rw [hp]; exact hq⟩

/-- **C86.** The threshold belonging to a volume: 1 for volume 0, 0 for volume 100, and lower for a higher volume. -/
theorem C86_volume (v : Int) : ∃ t, volumeThreshold v = .ok t ∧ (v = 0 → t = 1) ∧ (v = 100 → t = 0) ∧
    (∀ w u, v ≤ w → volumeThreshold w = .ok u → u ≤ t) := by
  have key : ∀ w : Int, volumeThreshold w = .ok (rnd (1 - rnd ((w : ℚ) / 100))) := by
    intro w
    unfold volumeThreshold
    split
    · rename_i h
      subst h
      simp [rnd_zero, rnd_one]
    · split
      · rename_i h
        subst h
        norm_num [rnd_zero, rnd_one]
      · unfold fdiv fsub
        rw [if_neg (by norm_num)]
        rfl
  refine ⟨_, key v, ?_, ?_, fun w u hw hu => ?_⟩
  · rintro rfl; simp [rnd_zero, rnd_one]
  · rintro rfl; norm_num [rnd_zero, rnd_one]
  · rw [key w] at hu
    injection hu with hu
    rw [← hu]
    refine rnd_mono (sub_le_sub_left (rnd_mono ?_) _)
    have : (v : ℚ) ≤ w := by exact_mod_cast hw
    linarith

/-- **C86.** The selected event is announced, with the priority it was selected with, and selecting it is not influenced by that. -/
theorem C86_selected {ls : List Line} (r : popBeliefEventsP n p s = .ok (ls, s')) : popBeliefEvents s = .ok ((), s') ∧
    (s'.beliefsSelectedCnt = 0 → ls = []) ∧
    (s'.beliefsSelectedCnt = 1 → p.Shows (s'.selectedBeliefsPriority 0) → ∃ l, ls = [l] ∧ l.kind = .selected ∧
      l.Tells (s'.selectedBeliefs 0) ∧ l.priority = s'.selectedBeliefsPriority 0) := by
  unfold popBeliefEventsP at r
  unfold popBeliefEvents
  simp only [M.bind_ok] at r ⊢
  obtain ⟨s1, s2, e1, r⟩ := r
  obtain ⟨rfl, rfl⟩ := M.get_ok.1 e1
  obtain ⟨⟨out, q⟩, s3, e2, r⟩ := r
  obtain ⟨h2, rfl⟩ := M.lift_ok.1 e2
  cases out with
  | none =>
    dsimp only at r
    simp only [M.bind_ok] at r
    obtain ⟨_, s4, e3, _, s5, e4, e5⟩ := r
    obtain ⟨hl, rfl⟩ := M.pure_ok.1 e5
    refine ⟨⟨_, _, e1, _, _, e2, ?_⟩, fun _ => hl.symm, fun h => ?_⟩
    · exact M.bind_ok.2 ⟨_, _, e3, e4⟩
    · have e4 := M.set_ok.1 e4
      rw [← e4] at h
      simp at h
  | some item =>
    dsimp only at r
    simp only [M.bind_ok] at r
    obtain ⟨_, s4, e3, e4⟩ := r
    obtain ⟨hl, rfl⟩ := M.pure_ok.1 e4
    refine ⟨⟨_, _, e1, _, _, e2, e3⟩, fun h => ?_, fun _ hs => ?_⟩
    · have e3 := M.set_ok.1 e3
      rw [← e3] at h
      simp at h
    · have e3 := M.set_ok.1 e3
      have hsel : s4.selectedBeliefs 0 = s.cycling_belief_event_storage item.address := by
        rw [← e3]; dsimp only; rw [upd_same]
      have hpr : s4.selectedBeliefsPriority 0 = item.priority := by
        rw [← e3]; dsimp only; rw [upd_same]
      rw [hpr] at hs
      rw [hsel, hpr]
      have hx : ((false && p.PRINT_INPUT) || (!false && p.PRINT_DERIVATIONS && decide (item.priority > p.PRINT_EVENTS_PRIORITY_THRESHOLD))) = true := by
        simp [hs.1, hs.2]
      have h : ∃ l, Memory_printAddedEvent n p (s.cycling_belief_event_storage item.address) item.priority false false true = [l] := by
        unfold Memory_printAddedEvent Memory_printAddedKnowledge
        rw [if_pos hx]
        exact ⟨_, rfl⟩
      obtain ⟨l, h⟩ := h
      obtain ⟨h1, h2, h3⟩ := printed_event (l := l) (by rw [h]; exact List.mem_singleton_self _)
      exact ⟨l, by rw [← h]; exact hl.symm, h3, h1, h2.prio⟩

end ONA
