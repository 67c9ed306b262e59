import Verif.Proofs.Links
import Verif.Spec.Learning
import Verif.Proofs.Introduce
/-
Deriving a temporal implication changes nothing but links and usage: the history, and the spikes of the concepts, stay.
-/
namespace ONA
variable [Arith] {n : Narsese}

/-! ### Variable introduction keeps the copula -/

omit [Arith] in
theorem relOverride_root (fuel : Nat) : ∀ {t : Term} (i : Nat) {u : Term} (j : Nat), i ≠ 0 →
    (Term_RelativeOverride fuel t i u j).2.get 0 = t.get 0 := by
  induction fuel with
  | zero => intro t i u j _; rfl
  | succ fuel ih =>
    intro t i u j hi
    unfold Term_RelativeOverride
    by_cases h1 : i ≥ COMPOUND_TERM_SIZE_MAX
    · rw [if_pos h1]
    rw [if_neg h1]
    by_cases h2 : j < COMPOUND_TERM_SIZE_MAX
    · rw [if_pos h2]
      have hp : (t.put i (u.get j)).get 0 = t.get 0 := Term.get_put_ne _ _ (by omega)
      have hl : (if (j + 1) * 2 - 1 < COMPOUND_TERM_SIZE_MAX ∧ u.get ((j + 1) * 2 - 1) ≠ 0 then
          Term_RelativeOverride fuel (t.put i (u.get j)) ((i + 1) * 2 - 1) u ((j + 1) * 2 - 1)
        else (true, t.put i (u.get j))).2.get 0 = t.get 0 := by
        split
        · exact (ih _ _ (by omega)).trans hp
        · exact hp
      dsimp only
      revert hl
      generalize (if (j + 1) * 2 - 1 < COMPOUND_TERM_SIZE_MAX ∧ u.get ((j + 1) * 2 - 1) ≠ 0 then
          Term_RelativeOverride fuel (t.put i (u.get j)) ((i + 1) * 2 - 1) u ((j + 1) * 2 - 1)
        else (true, t.put i (u.get j))) = r
      intro hl
      obtain ⟨b, t'⟩ := r
      dsimp only at hl ⊢
      split
      · exact hl
      · split
        · exact (ih _ _ (by omega)).trans hl
        · exact hl
    · rw [if_neg h2]

omit [Arith] in
theorem introduceAt_root (s : IntroState) {i : Nat} (hi : i ≠ 0) (a : Atom) (b : Bool) :
    (introduceAt s i a b).2.term.get 0 = s.term.get 0 := by
  have h : (takeVarID s a b).2.term = s.term := by
    unfold takeVarID
    split <;> (try split) <;> rfl
  unfold introduceAt
  generalize takeVarID s a b = r at h ⊢
  dsimp only
  split
  · show (Term_RelativeOverride 7 _ _ _ _).2.get 0 = _
    rw [relOverride_root 7 i 0 hi, h]
  · rw [h]

omit [Arith] in
theorem chooseLoop_root {copy : Term} {choice : Atom → Option Bool} (h : choice (copy.get 0) = none) : ∀ (k : Nat) (s : IntroState),
    (chooseLoop copy choice k s).2.get 0 = s.term.get 0 := by
  intro k
  induction k with
  | zero => intro s; rfl
  | succ k ih =>
    intro s
    rw [chooseLoop]
    dsimp only
    by_cases hi : COMPOUND_TERM_SIZE_MAX - (k + 1) = 0
    · rw [hi, h]
      exact ih s
    · cases choice (copy.get (COMPOUND_TERM_SIZE_MAX - (k + 1))) with
      | none => exact ih s
      | some b =>
        dsimp only
        split
        · rw [ih, introduceAt_root s hi]
        · rw [introduceAt_root s hi]

omit [Arith] in
theorem introduce_root {t : Term} {b : Bool} {r : Bool × Term} (e : Variable_IntroduceImplicationVariables n t b = .ok r)
    (hs : Narsese_IsSimpleAtom n (t.get 0) = false) : r.2.get 0 = t.get 0 := by
  unfold Variable_IntroduceImplicationVariables Variable_IntroduceImplicationVariables2 at e
  obtain ⟨_, -, e⟩ := R.bind_eq_ok.1 e
  dsimp only at e
  split at e
  · rw [← Except.ok.inj e]
  · rw [introduceLoop_choose] at e
    rw [← Except.ok.inj e]
    refine chooseLoop_root ?_ _ _
    have hz : ∀ u, countHigherOrderStatementAtoms n b 0 termDepth u (fun _ => 0) (t.get 0).toNat = 0 := by
      intro u
      by_contra hne
      rcases countHigherOrder_in n b 0 termDepth u (fun _ => 0) (t.get 0) hne with h1 | h1
      · exact h1 rfl
      · rw [hs] at h1
        cases h1.1
    unfold implChoice
    rw [if_neg]
    rw [hz, hz]
    omega


omit [Arith] in
theorem compound_root (c : Atom) (a b : Term) : (buildCompound c a b).2.get 0 = c := by
  unfold buildCompound
  have h1 := relOverride_root 7 (t := Term.zero.put 0 c) 1 (u := a) 0 (by decide)
  have h0 : (Term.zero.put 0 c).get 0 = c := Term.get_put_same _ _ (by decide)
  dsimp only
  split
  · exact (relOverride_root 7 2 0 (by decide)).trans (h1.trans h0)
  · exact h1.trans h0

/-- The term of a temporal implication. -/
def Temporal (n : Narsese) (t : Term) : Prop := Narsese_copulaEquals n (t.get 0) TEMPORAL_IMPLICATION = true

omit [Arith] in
theorem Temporal.name {t : Term} (h : Temporal n t) : n.nameOf (t.get 0) = [TEMPORAL_IMPLICATION] := by
  unfold Temporal Narsese_copulaEquals at h
  rw [Bool.and_eq_true, decide_eq_true_eq, decide_eq_true_eq] at h
  exact h.2

omit [Arith] in
theorem Temporal.other {t : Term} (h : Temporal n t) {c : Char} (hc : c ≠ TEMPORAL_IMPLICATION) :
    Narsese_copulaEquals n (t.get 0) c = false := by
  unfold Narsese_copulaEquals
  rw [h.name, Bool.and_eq_false_iff]
  right
  rw [decide_eq_false_iff_not]
  intro hx
  exact hc (List.cons.inj hx).1.symm

omit [Arith] in
theorem Temporal.simple {t : Term} (h : Temporal n t) : Narsese_IsSimpleAtom n (t.get 0) = false := by
  unfold Narsese_IsSimpleAtom
  rw [h.name, Bool.and_eq_false_iff]
  right
  decide

omit [Arith] in
theorem Temporal.introduce {t : Term} (h : Temporal n t) {b : Bool} {r : Bool × Term}
    (e : Variable_IntroduceImplicationVariables n t b = .ok r) : Temporal n r.2 := by
  unfold Temporal
  rw [introduce_root e h.simple]
  exact h

theorem Temporal.induction (hn : n.Base) {a b : Event} {imp : Implication} (e : Inference_BeliefInduction a b = .ok (some imp)) :
    Temporal n imp.term := by
  unfold Inference_BeliefInduction at e
  obtain ⟨_, -, e⟩ := R.bind_eq_ok.1 e
  dsimp only at e
  split at e
  · obtain ⟨tr, -, e⟩ := R.bind_eq_ok.1 e
    have h := Option.some.inj (Except.ok.inj e)
    rw [← h]
    show Narsese_copulaEquals n ((buildCompound _ _ _).2.get 0) _ = true
    rw [compound_root]
    exact hn.copulaEquals (by decide)
  · cases Except.ok.inj e

/-! ### Scenes -/

/-- What the loops over the history look at. -/
structure SameView (x y : Concept) : Prop where
  term : y.term = x.term
  id : y.id = x.id
  second : y.processID2 = x.processID2
  third : y.processID3 = x.processID3
  spike : y.belief_spike = x.belief_spike
  selected : y.lastSelectionTime = x.lastSelectionTime

/-- The same history, of the same concepts. -/
structure Scene (v s : Sys) : Prop where
  history : s.occurrenceTimeIndex = v.occurrenceTimeIndex
  second : s.conceptProcessID2 = v.conceptProcessID2
  third : s.conceptProcessID3 = v.conceptProcessID3
  time : s.currentTime = v.currentTime
  operations : s.operations = v.operations
  live : ∀ c ∈ v.live, c ∈ s.live
  concepts : ∀ c ∈ v.live, SameView (v.concept_storage c) (s.concept_storage c)

/-- The scene is as given, unless the memory is full. -/
def Staged (n : Narsese) (v s : Sys) : Prop := MemInv n s ∧ (s.full ∨ Scene v s)

omit [Arith] in
theorem SameView.refl (x : Concept) : SameView x x := ⟨rfl, rfl, rfl, rfl, rfl, rfl⟩

omit [Arith] in
theorem SameView.trans {x y z : Concept} (h : SameView x y) (h' : SameView y z) : SameView x z :=
  ⟨h'.term.trans h.term, h'.id.trans h.id, h'.second.trans h.second, h'.third.trans h.third, h'.spike.trans h.spike,
    h'.selected.trans h.selected⟩

omit [Arith] in
theorem Scene.refl (s : Sys) : Scene s s := ⟨rfl, rfl, rfl, rfl, rfl, fun _ h => h, fun _ _ => .refl _⟩

omit [Arith] in
theorem Scene.trans {u v s : Sys} (h : Scene u v) (h' : Scene v s) : Scene u s :=
  ⟨h'.history.trans h.history, h'.second.trans h.second, h'.third.trans h.third, h'.time.trans h.time,
    h'.operations.trans h.operations, fun c hc => h'.live c (h.live c hc),
    fun c hc => (h.concepts c hc).trans (h'.concepts c (h.live c hc))⟩

omit [Arith] in
theorem Staged.start {s : Sys} (h : MemInv n s) : Staged n s s := ⟨h, .inr (.refl s)⟩

namespace Staged

omit [Arith] in
theorem conceptualize {v : Sys} (t : Term) (now : Int) : Keeps (Staged n v) (Memory_Conceptualize n t now) fun _ => True := by
  intro s r s' hs e
  obtain ⟨hc, hm⟩ := conceptualize_cases hs.1 e
  refine ⟨⟨hm, ?_⟩, trivial⟩
  cases hc with
  | known => exact hs.2
  | room c q ht idx h1 h2 h3 h4 h5 h6 =>
    refine hs.2.elim (fun hf => ?_) fun h => .inr (h.trans ?_)
    · exfalso
      unfold Sys.full at hf
      unfold Sys.live Sys.capacity at h2
      rw [List.length_map] at h2
      omega
    · refine ⟨rfl, rfl, rfl, rfl, rfl, fun d hd => ?_, fun d hd => ?_⟩
      · obtain ⟨x, hx, rfl⟩ := List.mem_map.1 hd
        exact List.mem_map.2 ⟨x, h5.mem_iff.2 (List.mem_cons_of_mem _ hx), rfl⟩
      · rw [show ({ s with concepts := q, HTconcepts := ht, index := idx, concept_storage := upd s.concept_storage c (s.newConcept t now), concept_id := s.concept_id + 1 } : Sys).concept_storage d = s.concept_storage d from
          upd_other _ _ fun hx => h3 (hx ▸ hd)]
        exact .refl _
  | evict x rest q ht idx h1 h2 h3 h4 h5 h6 =>
    left
    have := h5.length_eq
    have h7 := h4.length_eq
    unfold Sys.full
    show q.maxElements ≤ q.contents.length
    unfold Sys.live at h2
    rw [List.length_map] at h2
    rw [List.length_cons] at this h7
    rw [h6]
    omega
  | refused => exact hs.2

omit [Arith] in
theorem modifyConcept {v : Sys} (c : Nat) {f : Concept → Concept} (hf : ∀ x, SameView x (f x)) :
    Keeps (Staged n v) (ONA.modifyConcept c f) fun _ => True := by
  refine Keeps.modify fun s hs => ?_
  have hcell : ∀ d, SameView (s.concept_storage d) (upd s.concept_storage c (f (s.concept_storage c)) d) := by
    intro d
    rw [upd_apply]
    split
    · next h => subst h; exact hf _
    · exact .refl _
  refine ⟨hs.1.congr rfl rfl rfl rfl (fun d _ => (hcell d).term) fun d _ => (hcell d).id, hs.2.imp id fun h => h.trans ?_⟩
  exact ⟨rfl, rfl, rfl, rfl, rfl, fun _ h => h, fun d _ => hcell d⟩

theorem addLink {v : Sys} (c opi : Nat) (imp : Implication) : Keeps (Staged n v) (ONA.addLink n c opi imp) fun _ => True := by
  unfold ONA.addLink
  refine Keeps.bind_get fun s _ => ?_
  dsimp only
  refine Keeps.ite (fun _ => ?_) fun _ => ?_ <;> refine Keeps.bind_lift fun t _ => ?_
  · exact modifyConcept c fun x => ⟨rfl, rfl, rfl, rfl, rfl, rfl⟩
  · exact modifyConcept c fun x => ⟨rfl, rfl, rfl, rfl, rfl, rfl⟩

omit [Arith] in
theorem linkSource {v : Sys} (a b : Term) : Keeps (Staged n v) (ONA.linkSource n a b) fun _ => True := by
  unfold ONA.linkSource
  refine Keeps.ite (fun _ => ?_) fun _ => Keeps.pure trivial
  dsimp only
  refine Keeps.ite (fun _ => ?_) fun _ => Keeps.pure trivial
  refine Keeps.ite (fun _ => Keeps.pure trivial) fun _ => ?_
  exact Keeps.seq (Q := fun _ => True) (Keeps.bind_get fun _ _ => Keeps.pure trivial) fun _ => Keeps.pure trivial

theorem processImplication {v : Sys} (ev : Event) (now : Int) (b : Bool) (e : Event) :
    Keeps (Staged n v) (ONA.processImplication n (.val ev) now b e) fun _ => True := by
  unfold ONA.processImplication
  refine Keeps.seq (Q := fun _ => True) (Keeps.pure trivial) fun ev1 => ?_
  refine Keeps.ite (fun _ => ?_) fun _ => Keeps.pure trivial
  dsimp only
  refine Keeps.seq (conceptualize _ _) fun target => ?_
  cases target with
  | none => exact Keeps.pure trivial
  | some target =>
    refine Keeps.seq (modifyConcept _ fun x => ⟨rfl, rfl, rfl, rfl, rfl, rfl⟩) fun _ => ?_
    refine Keeps.seq (Q := fun _ => True) (Keeps.pure trivial) fun ev2 => ?_
    refine Keeps.seq (linkSource _ _) fun src => ?_
    cases src with
    | none => exact Keeps.pure trivial
    | some src =>
      refine Keeps.seq (conceptualize _ _) fun source => ?_
      cases source with
      | none => exact Keeps.pure trivial
      | some source =>
        refine Keeps.seq (modifyConcept _ fun x => ⟨rfl, rfl, rfl, rfl, rfl, rfl⟩) fun _ => ?_
        refine Keeps.seq (Q := fun _ => True) (Keeps.pure trivial) fun ev3 => ?_
        refine Keeps.bind_get fun s _ => ?_
        exact Keeps.seq (addLink _ _ _) fun _ => Keeps.pure trivial

omit [Arith] in
theorem find {v : Sys} (t : Term) : Keeps (Staged n v) (Memory_FindConceptByTerm t) fun _ => True := by
  unfold Memory_FindConceptByTerm
  exact Keeps.bind_get fun _ _ => Keeps.lift fun _ _ => trivial

theorem addEvent' {v : Sys} {ev : Event} (hb : ev.type = .belief) (ht : Temporal n ev.term) (now : Int) (p : ℚ) (input revised : Bool)
    (layer : Nat) : Keeps (Staged n v) (Memory_AddEvent' n ev now p input revised layer) fun _ => True := by
  unfold Memory_AddEvent'
  refine Keeps.bind_get fun s _ => ?_
  unfold Memory_AddEvent
  have ht' : Narsese_copulaEquals n (ev.term.get 0) TEMPORAL_IMPLICATION = true := ht
  refine Keeps.bind (Q := fun x => ev = x) (Keeps.pure rfl) ?_
  rintro _ rfl
  refine Keeps.bind_get fun s1 _ => ?_
  refine Keeps.seq (find _) fun r => ?_
  refine Keeps.ite (fun _ => Keeps.pure trivial) fun _ => ?_
  refine Keeps.bind_lift fun q _ => ?_
  refine Keeps.ite (fun _ => Keeps.pure trivial) fun _ => ?_
  extract_lets jp1 jp2
  have k1 : ∀ u, Keeps (Staged n v) (jp1 u) fun _ => True := by
    intro u
    dsimp only [jp1]
    refine Keeps.bind (Q := fun x => ev = x) (Keeps.pure rfl) ?_
    rintro _ rfl
    refine Keeps.ite (fun hx => ?_) fun _ => Keeps.lift fun _ _ => trivial
    rw [hb] at hx
    cases hx
  have k2 : ∀ u, Keeps (Staged n v) (jp2 u) fun _ => True := by
    intro u
    dsimp only [jp2]
    refine Keeps.seq (Q := fun _ => True) ?_ fun u => k1 u
    unfold Memory_ProcessNewBeliefEvent
    refine Keeps.bind (Q := fun x => ev = x) (Keeps.pure rfl) ?_
    rintro _ rfl
    extract_lets
    refine Keeps.bind_lift fun eternal _ => ?_
    refine Keeps.seq (processImplication _ _ _ _) fun b => ?_
    refine Keeps.ite (fun _ => ?_) fun _ => Keeps.pure trivial
    refine Keeps.bind (Q := fun x => ev = x) (Keeps.pure rfl) ?_
    rintro _ rfl
    refine Keeps.ite (fun hx => ?_) fun _ => Keeps.pure trivial
    rw [ht'] at hx
    cases hx
  refine Keeps.ite (fun _ => ?_) fun hx => absurd hb hx
  refine Keeps.ite (fun hx => ?_) fun _ => k2 ()
  rw [ht'] at hx
  cases hx

theorem addDerived {v : Sys} (d : Derivation) {t : Term} (ht : Temporal n t) : Keeps (Staged n v) (ONA.addDerived n d t) fun _ => True := by
  unfold ONA.addDerived
  refine Keeps.seq (Q := fun _ => True) ?_ fun b => ?_
  · unfold Derivation.stillValid
    split
    · exact Keeps.pure trivial
    · exact Keeps.bind_get fun s _ => Keeps.pure trivial
  refine Keeps.ite (fun _ => ?_) fun _ => Keeps.pure trivial
  refine Keeps.bind_lift fun b _ => ?_
  refine Keeps.ite (fun _ => ?_) fun _ => Keeps.pure trivial
  exact addEvent' (ev := d.event t) rfl ht _ _ _ _ _

theorem addWithVars {v : Sys} (d : Derivation) (t : Term) (a b : Bool) {r : Bool × Term} (hr : Temporal n r.2) :
    Keeps (Staged n v) (ONA.addWithVars n d t a b r) fun _ => True := by
  unfold ONA.addWithVars
  refine Keeps.ite (fun _ => ?_) fun _ => Keeps.pure trivial
  exact Keeps.ite (fun _ => addDerived d hr) fun _ => Keeps.pure trivial

theorem derived {v : Sys} (d : Derivation) {t : Term} (ht : Temporal n t) :
    Keeps (Staged n v) (NAL_DerivedEvent n d t true false) fun _ => True := by
  unfold NAL_DerivedEvent
  have last : Keeps (Staged n v) (if (true && Narsese_copulaEquals n (t.get 0) CONJUNCTION) = true then do
        let ext ← Variable_IntroduceConjunctionVariables n t true
        ONA.addWithVars n d t false false ext
        let int ← Variable_IntroduceConjunctionVariables n t false
        ONA.addWithVars n d t false false int
        pure ()
      else ONA.addDerived n d t) fun _ => True := by
    refine Keeps.ite (fun hx => ?_) fun _ => addDerived d ht
    rw [ht.other (by decide)] at hx
    cases hx
  refine Keeps.ite (fun _ => ?_) fun hx => ?_
  · refine Keeps.bind_lift fun ext he => ?_
    refine Keeps.seq (addWithVars d t _ _ (ht.introduce he)) fun _ => ?_
    refine Keeps.ite (fun _ => ?_) fun hx => absurd rfl hx
    refine Keeps.bind_lift fun int hi => ?_
    refine Keeps.seq (addWithVars d t _ _ (ht.introduce hi)) fun _ => ?_
    refine Keeps.ite (fun hx => ?_) fun _ => last
    rw [ht.other (by decide), ht.other (by decide)] at hx
    cases hx
  · exact last

theorem reinforce {v : Sys} (hn : n.Base) (a b : Event) : Keeps (Staged n v) (Cycle_ReinforceLink n a b) fun _ => True := by
  unfold Cycle_ReinforceLink
  refine Keeps.ite (fun _ => ?_) fun _ => Keeps.pure trivial
  refine Keeps.seq (find _) fun A => Keeps.seq (find _) fun B => ?_
  refine Keeps.ite (fun _ => ?_) fun _ => Keeps.pure trivial
  refine Keeps.bind_lift fun imp e => ?_
  cases imp with
  | none => exact Keeps.pure trivial
  | some imp =>
    dsimp only
    refine Keeps.ite (fun _ => ?_) fun _ => Keeps.pure trivial
    refine Keeps.bind_get fun s hs => ?_
    exact derived _ (.induction hn e)

theorem condition {v : Sys} (hn : n.Base) (opc prec : Nat) (post : Event) (now : Int) :
    Keeps (Staged n v) (conditionOperation n opc prec post now) fun _ => True := by
  unfold conditionOperation
  refine Keeps.bind_get fun s hs => ?_
  refine Keeps.ite (fun _ => ?_) fun _ => Keeps.pure trivial
  refine Keeps.bind_lift fun x e => ?_
  cases x with
  | none => exact Keeps.pure trivial
  | some seq =>
    dsimp only
    refine Keeps.ite (fun _ => ?_) fun _ => Keeps.pure trivial
    refine Keeps.ite (fun _ => ?_) fun _ => Keeps.pure trivial
    exact reinforce hn _ _

end Staged
end ONA

namespace ONA
variable [Arith] {n : Narsese} {I : Sys → Prop}

/-- The loop rule which uses why the loop stopped. -/
theorem WP.loop_exit {σ : Type} {body : σ → M (Bool × σ)} {J Q : σ → Sys → Prop}
    (h : ∀ st s, J st s → WP (body st) (fun r s' => if r.1 then J r.2 s' else Q r.2 s') s) :
    ∀ fuel st s, J st s → WP (loopM body fuel st) Q s := by
  intro fuel
  induction fuel with
  | zero => intro st s _; exact throw
  | succ k ih =>
    intro st s hst
    unfold loopM
    refine bind ((h st s hst).mono ?_)
    intro r s' hr
    split
    · next hx => rw [if_pos hx] at hr; exact ih r.2 s' hr
    · next hx => rw [if_neg hx] at hr; exact pure hr

theorem expectation_once (t : Truth) : fmul (fmul 1 1) (Truth_Expectation t) = Truth_Expectation t := by
  have h1 : fmul (1 : ℚ) 1 = 1 := by
    unfold fmul
    rw [one_mul]
    exact rnd_one
  rw [h1]
  unfold fmul
  rw [one_mul]
  unfold Truth_Expectation fadd
  exact Arith.rnd_idem _

namespace Closed

/-- A memory which is full stays full. -/
theorem whenFull (h : Closed n I) : Closed n fun s => I s ∧ s.full :=
  h.and fun hs hl st => (st.stable (h.good hs)).full hl

theorem addDerived_stored (h : Closed n I) {ops : Nat → Operation} (hop : ∀ {s}, I s → s.operations = ops)
    {d : Derivation} (hd : d.Good) (ht : d.conclusionTruth.Valid) {t : Term} (hk : n.Knows t)
    (hv : d.validation = none) (hc : MIN_CONFIDENCE ≤ d.conclusionTruth.confidence) (hadm : NAL_Admissible n t = .ok true)
    (htemp : Temporal n t) (hnf : ¬ Foreign n t) (h1 : d.conceptPriority = 1) (h2 : d.parentPriority = 1)
    (hpos : ∀ w, fdiv 1 (Arith.log2 (fadd 1 (Term_Complexity t : ℚ))) = .ok w → 0 < fmul (Truth_Expectation d.conclusionTruth) w)
    {s0 : Sys} (h0 : I s0) :
    WP (ONA.addDerived n d t) (fun _ s' => I s' ∧ Stored n (s0.linkIndex n t) t s') s0 := by
  unfold ONA.addDerived
  have hsv : d.stillValid = Pure.pure true := by
    unfold Derivation.stillValid
    rw [hv]
  rw [hsv]
  refine WP.bind (WP.pure ?_)
  refine WP.ite (fun _ => ?_) fun hx => absurd rfl hx
  rw [hadm]
  refine WP.bind (WP.lift fun b hb => ?_)
  cases hb
  refine WP.ite (fun _ => ?_) fun hx => absurd rfl hx
  unfold Memory_AddEvent'
  refine WP.get ?_
  rw [h1, h2, expectation_once]
  refine h.addEvent_stored' _ hop (ev := d.event t) ⟨hk, ht, hd.stamp⟩ rfl hc (.inl htemp) hnf _ (.inr htemp) ?_ h0
  intro q hq
  have hq1 : q ≤ 1 := effectivePriority_le (expectation_unit ht).2 hq
  refine ⟨?_, hq1⟩
  unfold effectivePriority at hq
  rw [if_pos (by rfl)] at hq
  obtain ⟨w, hw, hq⟩ := R.bind_eq_ok.1 hq
  rw [← Except.ok.inj hq]
  exact hpos w hw

theorem derived_stored (h : Closed n I) {ops : Nat → Operation} (hop : ∀ {s}, I s → s.operations = ops)
    {d : Derivation} (hd : d.Good) (ht : d.conclusionTruth.Valid) {t : Term} (hk : n.Knows t)
    (hv : d.validation = none) (hc : MIN_CONFIDENCE ≤ d.conclusionTruth.confidence) (hadm : NAL_Admissible n t = .ok true)
    (htemp : Temporal n t) (hnf : ¬ Foreign n t) (h1 : d.conceptPriority = 1) (h2 : d.parentPriority = 1)
    (hpos : ∀ w, fdiv 1 (Arith.log2 (fadd 1 (Term_Complexity t : ℚ))) = .ok w → 0 < fmul (Truth_Expectation d.conclusionTruth) w)
    {s0 : Sys} (h0 : I s0) :
    WP (NAL_DerivedEvent n d t true false) (fun _ s' => I s' ∧ Stored n (s0.linkIndex n t) t s') s0 := by
  have hn := (h.good h0).base
  have hidx : ∀ {s}, I s → s.linkIndex n t = s0.linkIndex n t := by
    intro s hs
    unfold Sys.linkIndex
    dsimp only
    rw [operationID_congr ((hop hs).trans (hop h0).symm)]
  unfold NAL_DerivedEvent
  have last : ∀ {s}, I s → WP (if (true && Narsese_copulaEquals n (t.get 0) CONJUNCTION) = true then do
        let ext ← Variable_IntroduceConjunctionVariables n t true
        ONA.addWithVars n d t false false ext
        let int ← Variable_IntroduceConjunctionVariables n t false
        ONA.addWithVars n d t false false int
        pure ()
      else ONA.addDerived n d t) (fun _ s' => I s' ∧ Stored n (s0.linkIndex n t) t s') s := by
    intro s hs
    refine WP.ite (fun hx => ?_) fun _ => ?_
    · rw [htemp.other (by decide)] at hx
      cases hx
    · rw [← hidx hs]
      exact h.addDerived_stored hop hd ht hk hv hc hadm htemp hnf h1 h2 hpos hs
  refine WP.ite (fun _ => ?_) fun hx => last h0
  refine WP.bind (WP.lift fun ext he => ?_)
  refine WP.bind (((h.addWithVars hd ht t _ _ (hn.introduceImplication hk he)).wp h0).mono ?_)
  rintro _ s1 ⟨hs1, -⟩
  refine WP.ite (fun _ => ?_) fun hx => absurd rfl hx
  refine WP.bind (WP.lift fun int hi => ?_)
  refine WP.bind (((h.addWithVars hd ht t _ _ (hn.introduceImplication hk hi)).wp hs1).mono ?_)
  rintro _ s2 ⟨hs2, -⟩
  refine WP.ite (fun hx => ?_) fun _ => last hs2
  rw [htemp.other (by decide), htemp.other (by decide)] at hx
  cases hx

theorem find_some {s : Sys} (h : MemInv n s) {t : Term} (ht : s.HasConcept t) :
    WP (Memory_FindConceptByTerm t) (fun r s' => s' = s ∧ ∃ c, r = some c ∧ s.termOf c = t) s := by
  obtain ⟨r, e, hr⟩ := h.find_eq t
  intro r' s' e'
  rw [e] at e'
  cases e'
  refine ⟨rfl, ?_⟩
  cases r with
  | none =>
    obtain ⟨c, hc, hct⟩ := ht
    exact absurd hct (hr c hc)
  | some c => exact ⟨c, rfl, hr.2⟩

theorem reinforce_stored (h : Closed n I) {ops : Nat → Operation} (hop : ∀ {s}, I s → s.operations = ops)
    {a b : Event} (ha : a.Good n) (hb : b.Good n) (hta : a.type = .belief) (htb : b.type = .belief)
    (hov : Stamp_checkOverlap a.stamp b.stamp = false) {link : Implication} (hl : Induces n a b link)
    (hnf : ¬ Foreign n link.term) {s0 : Sys} (h0 : I s0)
    (hca : s0.HasConcept (Narsese_GetPreconditionWithoutOp n termDepth a.term)) (hcb : s0.HasConcept b.term)
    (hne : Narsese_GetPreconditionWithoutOp n termDepth a.term ≠ b.term) :
    WP (Cycle_ReinforceLink n a b) (fun _ s' => I s' ∧ Stored n (s0.linkIndex n link.term) link.term s') s0 := by
  have hn := (h.good h0).base
  have hi := induction_good hn ha hb hl.induction
  unfold Cycle_ReinforceLink
  refine WP.ite (fun _ => ?_) fun hx => absurd (by rw [hta, htb]; rfl) hx
  refine WP.bind ((find_some (h.good h0).mem hca).mono ?_)
  rintro A _ ⟨rfl, cA, rfl, hA⟩
  refine WP.bind ((find_some (h.good h0).mem hcb).mono ?_)
  rintro B _ ⟨rfl, cB, rfl, hB⟩
  refine WP.ite (fun _ => ?_) fun hx => absurd ?_ hx
  · rw [hl.induction]
    refine WP.bind (WP.lift fun x hx => ?_)
    cases hx
    dsimp only
    refine WP.ite (fun _ => ?_) fun hx => absurd hl.confident hx
    refine WP.get ?_
    exact h.derived_stored hop ⟨hi.stamp, ⟨zero_le_one, le_refl _⟩, ⟨zero_le_one, le_refl _⟩⟩ hi.truth hi.term rfl
      hl.confident hl.admissible (.induction hn hl.induction) hnf rfl rfl hl.priority h0
  · rw [hov]
    have : cA ≠ cB := by
      rintro rfl
      exact hne (hA.symm.trans hB)
    simp [this]

theorem condition_stored (h : Closed n I) {ops : Nat → Operation} (hop : ∀ {s}, I s → s.operations = ops)
    {p o : Nat} {b : Event} (hb : b.Good n) (htb : b.type = .belief) {now : Int} {link : Implication} {s0 : Sys} (h0 : I s0)
    (hT : s0.Teaches n now p o b link) (hcb : s0.HasConcept b.term) :
    WP (conditionOperation n o p b now) (fun _ s' => I s' ∧ Stored n (s0.linkIndex n link.term) link.term s') s0 := by
  have hn := (h.good h0).base
  have g1 := ((h.good h0).concepts p).belief_spike
  have g2 := ((h.good h0).concepts o).belief_spike
  obtain ⟨seq, t, e1, e2, e3, e4, e5, e6, e7⟩ := hT.seq
  have hseq := Event.Good.intersection hn g1 g2 e1
  have hg : ({ seq with term := t } : Event).Good n := by
    have := hn.opSequence termDepth g1.term g2.term
    rw [e3] at this
    exact ⟨this, hseq.truth, hseq.stamp⟩
  have hty : seq.type = .belief := by
    unfold Inference_BeliefIntersection at e1
    obtain ⟨_, -, e1⟩ := R.bind_eq_ok.1 e1
    dsimp only at e1
    split at e1
    · rw [← Option.some.inj (Except.ok.inj e1)]
    · cases Except.ok.inj e1
  unfold conditionOperation
  refine WP.get ?_
  dsimp only
  refine WP.ite (fun _ => ?_) fun hx => absurd ?_ hx
  · rw [e1]
    refine WP.bind (WP.lift fun x hx => ?_)
    cases hx
    dsimp only
    refine WP.ite (fun _ => ?_) fun hx => absurd e2 hx
    rw [e3]
    refine WP.ite (fun _ => ?_) fun hx => absurd rfl hx
    exact h.reinforce_stored hop (a := { seq with term := t }) hg hb hty htb e4 e7 hT.own h0 e5 hcb e6
  · have k1 := hT.happened_before
    have k2 := hT.executed_before
    have k3 := hT.happened_near
    have n1 : near (s0.concept_storage p).belief_spike.occurrenceTime b.occurrenceTime = true := by
      unfold near
      rw [decide_eq_true_eq]
      omega
    have n2 : near (s0.concept_storage p).lastSelectionTime b.occurrenceTime = true := by
      unfold near
      rw [decide_eq_true_eq]
      exact_mod_cast hT.happened_selected
    have n3 : s0.operationID n (s0.concept_storage p).term = 0 := hT.happened
    rw [n1, n2, hT.happened_plain, hT.independent, n3]
    simp [hT.happened_type, hT.happened_known, k1]

end Closed
end ONA

namespace ONA
variable [Arith] {n : Narsese} {I : Sys → Prop}

/-! ### Outlines -/

/-- What stays of a concept while the loops mark the concepts. -/
structure SameFacts (x y : Concept) : Prop where
  term : y.term = x.term
  id : y.id = x.id
  spike : y.belief_spike = x.belief_spike
  selected : y.lastSelectionTime = x.lastSelectionTime

/-- The same history, of the same concepts, apart from the marks. -/
structure Outline (v s : Sys) : Prop where
  history : s.occurrenceTimeIndex = v.occurrenceTimeIndex
  second : s.conceptProcessID2 = v.conceptProcessID2
  operations : s.operations = v.operations
  live : ∀ c ∈ v.live, c ∈ s.live
  concepts : ∀ c ∈ v.live, SameFacts (v.concept_storage c) (s.concept_storage c)

omit [Arith] in
theorem Scene.outline {v s : Sys} (h : Scene v s) : Outline v s :=
  ⟨h.history, h.second, h.operations, h.live, fun c hc => let k := h.concepts c hc; ⟨k.term, k.id, k.spike, k.selected⟩⟩

omit [Arith] in
theorem Outline.refl (s : Sys) : Outline s s := (Scene.refl s).outline

omit [Arith] in
theorem Outline.trans {u v s : Sys} (h : Outline u v) (h' : Outline v s) : Outline u s :=
  ⟨h'.history.trans h.history, h'.second.trans h.second, h'.operations.trans h.operations,
    fun c hc => h'.live c (h.live c hc), fun c hc => let k := h.concepts c hc; let k' := h'.concepts c (h.live c hc)
      ⟨k'.term.trans k.term, k'.id.trans k.id, k'.spike.trans k.spike, k'.selected.trans k.selected⟩⟩

omit [Arith] in
theorem Outline.hasConcept {v s : Sys} (h : Outline v s) {t : Term} (hc : v.HasConcept t) : s.HasConcept t := by
  obtain ⟨c, h1, h2⟩ := hc
  exact ⟨c, h.live c h1, (h.concepts c h1).term.trans h2⟩

/-- What a lesson depends on. -/
structure Recall (v s : Sys) (p o : Nat) : Prop where
  history : s.occurrenceTimeIndex = v.occurrenceTimeIndex
  operations : s.operations = v.operations
  live : ∀ c ∈ v.live, c ∈ s.live
  terms : ∀ c ∈ v.live, s.termOf c = v.termOf c
  first : SameFacts (v.concept_storage p) (s.concept_storage p)
  second : SameFacts (v.concept_storage o) (s.concept_storage o)

omit [Arith] in
theorem Outline.recall {v s : Sys} (h : Outline v s) {p o : Nat} (hp : p ∈ v.live) (ho : o ∈ v.live) : Recall v s p o :=
  ⟨h.history, h.operations, h.live, fun c hc => (h.concepts c hc).term, h.concepts p hp, h.concepts o ho⟩

omit [Arith] in
theorem Recall.hasConcept {v s : Sys} {p o : Nat} (h : Recall v s p o) {t : Term} (hc : v.HasConcept t) : s.HasConcept t := by
  obtain ⟨c, h1, h2⟩ := hc
  exact ⟨c, h.live c h1, (h.terms c h1).trans h2⟩

theorem Recall.teaches {v s : Sys} {now : Int} {p o : Nat} (h : Recall v s p o) {b : Event}
    {link : Implication} (hT : v.Teaches n now p o b link) : s.Teaches n now p o b link := by
  have kp := h.first
  have ko := h.second
  have hop : ∀ t, s.operationID n t = v.operationID n t := operationID_congr h.operations
  constructor
  all_goals first
    | (show s.operationID n (s.concept_storage _).term = 0; rw [hop, kp.term]; exact hT.happened)
    | (show s.operationID n (s.concept_storage _).term ≠ 0; rw [hop, ko.term]; exact hT.executed)
    | skip
  · rw [ko.spike]; exact hT.executed_type
  · rw [ko.spike]; exact hT.executed_known
  · rw [ko.spike]; exact hT.executed_before
  · rw [ko.spike]; exact hT.executed_near
  · rw [ko.selected]; exact hT.executed_selected
  · rw [kp.spike]; exact hT.happened_type
  · rw [kp.spike]; exact hT.happened_known
  · rw [kp.spike, ko.spike]; exact hT.happened_before
  · rw [kp.spike]; exact hT.happened_near
  · rw [kp.selected]; exact hT.happened_selected
  · rw [kp.spike]; exact hT.happened_plain
  · rw [kp.spike]; exact hT.independent
  · rw [kp.spike, ko.spike]
    obtain ⟨seq, t, e1, e2, e3, e4, e5, e6⟩ := hT.seq
    exact ⟨seq, t, e1, e2, e3, e4, h.hasConcept e5, e6⟩
  · exact hT.own

theorem Outline.teaches {v s : Sys} (h : Outline v s) {now : Int} {p o : Nat} (hp : p ∈ v.live) (ho : o ∈ v.live) {b : Event}
    {link : Implication} (hT : v.Teaches n now p o b link) : s.Teaches n now p o b link := (h.recall hp ho).teaches hT

end ONA
