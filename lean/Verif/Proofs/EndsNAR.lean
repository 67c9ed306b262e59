import Verif.Proofs.EndsHooks
import Verif.Proofs.RunFacts
/-
How the calls of src/NAR.c can end.
-/
namespace ONA
variable [Arith] [Bounds] {n : Narsese}

theorem EndsAt.addInput {I : Nat → Sys → Prop} (h : Family n I) (hi : ∀ {k s}, I k s → s.initialized = true) {k : Nat} (chain : Nat)
    (add : Term → M Unit) {t : Term} (hk : n.Knows t) (ty : EventType) {tr : Truth} (ht : tr.Valid) (eternal : Bool) (o : ℚ)
    (hcycle : ∀ {s}, I k s → EndsAt (cyclesWith n chain add 1) s) {s : Sys} (hs : I k s) :
    EndsAt (addInputWith n chain add t ty tr eternal o) s := by
  unfold addInputWith
  refine EndsAt.bind_get (EndsAt.bind_lift (Ends.assert (hi hs)) fun _ _ => EndsAt.bind_set ?_)
  have hs1 := h.input t ty tr o hs
  have hg := inputEvent_good ((h.closed k).good hs) hk ty ht o s.currentTime
  have hg2 : (if eternal then { (Event_InputEvent s.event t ty tr o s.currentTime).1 with occurrenceTime := OCCURRENCE_ETERNAL }
      else (Event_InputEvent s.event t ty tr o s.currentTime).1).Good n := by
    split
    · exact ⟨hg.term, hg.truth, hg.stamp⟩
    · exact hg
  refine EndsAt.bind (Ending.addEvent' (h.closed k) hg2 (le_refl _) _ hs1) ((((h.closed k).addEvent' hg2 _ (le_refl _) _ _ _).wp hs1).mono ?_)
  rintro _ s2 ⟨hs2, -⟩
  exact EndsAt.bind (hcycle hs2) fun _ s3 _ => EndsAt.pure

/-- Without goals, the feedback of an operation is processed without executing another one. -/
theorem EndsAt.nested {chain depth : Nat} (hd : Bounds.short ∨ depth ≠ 0) {J : Sys → Prop} (hJ : Closed n J) (hf : Enough J chain)
    (hin : ∀ {s} (t : Term) (ty : EventType) (tr : Truth) (o : ℚ), J s →
      J { s with event := (Event_InputEvent s.event t ty tr o s.currentTime).2 })
    (hi : ∀ {s}, J s → s.initialized = true) {t : Term} (hk : n.Knows t) {s : Sys} (hs : J s) (hq : Quiet s) :
    EndsAt (addInputBeliefNested n chain depth t) s := by
  cases depth with
  | zero =>
    rcases hd with hd | hd
    · exact EndsAt.short hd
    · exact absurd rfl hd
  | succ d =>
    unfold addInputBeliefNested
    refine EndsAt.bind ?_ fun _ _ _ => EndsAt.pure
    unfold addInputWith
    refine EndsAt.bind_get (EndsAt.bind_lift (Ends.assert (hi hs)) fun _ _ => EndsAt.bind_set ?_)
    have hs1 := hin t .belief NAR_DEFAULT_TRUTH 0 hs
    have hg := inputEvent_good (hJ.good hs) hk .belief NAR_DEFAULT_TRUTH_valid 0 s.currentTime
    rw [if_neg (by decide)]
    have hq1 : Quiet { s with event := (Event_InputEvent s.event t .belief NAR_DEFAULT_TRUTH 0 s.currentTime).2 } := hq
    unfold Memory_AddInputEvent
    refine EndsAt.bind (Ending.addEvent' hJ hg (le_refl _) _ hs1) ((((hJ.addEvent' hg _ (le_refl _) _ _ _).wp hs1).and
      ((Idle.of_calm fun _ => Calm.addEvent' n (fun h => (by cases h)) _ _ _ _ _).wp (hq1.idle (hJ.good hs1)))).mono ?_)
    rintro _ s2 ⟨⟨hs2, -⟩, hq2, -⟩
    refine EndsAt.bind ?_ fun _ s3 _ => EndsAt.pure
    unfold cyclesWith
    refine EndsAt.bind_get (EndsAt.bind_lift (Ends.assert (hi hs2)) fun _ _ => ?_)
    show EndsAt ((List.range 1).forM _) _
    rw [show List.range 1 = [0] from rfl]
    simp only [List.forM_eq_forM, List.forM_cons, List.forM_nil]
    refine EndsAt.bind ?_ fun _ _ _ => EndsAt.pure
    unfold oneCycle
    exact EndsAt.bind_get (EndsAt.bind (EndsAt.quietCycle hJ hf _ hs2 hq2.goals) fun _ _ _ => EndsAt.modify)

variable {I : Nat → Nat → Sys → Prop}

theorem EndsAt.oneCycle (h : Families n I) (hi : ∀ {b k s}, I b k s → s.initialized = true) {chain depth : Nat}
    (hf : Enough (fun s => ∃ b k, I b k s) chain) (hd : Bounds.short ∨ depth ≠ 0) {b : Nat} {s : Sys}
    (hs : I b 0 s) : EndsAt (ONA.oneCycle n chain (addInputBeliefNested n chain depth)) s := by
  unfold ONA.oneCycle
  refine EndsAt.bind_get (EndsAt.bind (Ending.cycle ((h.family b).closed 0) ((h.family b).hooks chain depth 0) ?_ (hf.mono fun s hs => ⟨b, 0, hs⟩) s.currentTime s hs)
    fun _ _ _ => EndsAt.modify)
  exact fun t {s} hk hs hq => EndsAt.nested hd ((h.family b).selected.closed 1) (hf.mono fun s hs => ⟨b, 1, hs.1.1⟩)
    (fun t ty tr o hs => (h.family b).selected.input t ty tr o hs) (fun h => hi h.1.1) hk hs hq

theorem EndsAt.cycles (h : Families n I) (hi : ∀ {b k s}, I b k s → s.initialized = true) {chain depth : Nat}
    (hf : Enough (fun s => ∃ b k, I b k s) chain) (hd : Bounds.short ∨ depth ≠ 0) (c : Nat) {b : Nat} {s : Sys}
    (hs : I b 0 s) : EndsAt (cyclesWith n chain (addInputBeliefNested n chain depth) c) s := by
  unfold cyclesWith
  refine EndsAt.bind_get (EndsAt.bind_lift (Ends.assert (hi hs)) fun _ _ => ?_)
  have key : ∀ (l : List Nat) (b : Nat) (s : Sys), I b 0 s →
      EndsAt (l.forM fun _ => ONA.oneCycle n chain (addInputBeliefNested n chain depth)) s := by
    intro l
    induction l with
    | nil => intro b s hs; exact EndsAt.pure
    | cons a l ih =>
      intro b s hs
      simp only [List.forM_eq_forM, List.forM_cons]
      refine EndsAt.bind (EndsAt.oneCycle h hi hf hd hs) ((h.oneCycle chain depth hs).mono ?_)
      intro _ s1 hs1
      have := ih (b + 1) s1 hs1
      simpa only [List.forM_eq_forM] using this
  exact key (List.range c) b s hs

theorem between_initialized {s0 : Sys} (hg : Good n s0) (h0 : s0.initialized = true) {b k : Nat} {s : Sys} (h : Between n s0 b k s) :
    s.initialized = true := by
  obtain ⟨-, t, x, hr, -⟩ := h
  rw [(hr.effect hg).2.2.2.2.1]
  exact h0

theorem between_enough {s0 : Sys} (hg : Good n s0) {fuel : Fuel} (h : Bounds.short ∨ fuel.Covers s0.capacity) :
    Enough (fun s => ∃ b k, Between n s0 b k s) fuel.chain := by
  refine h.imp_right fun h => ⟨s0.capacity, h.1, ?_⟩
  rintro s ⟨b, k, -, t, x, hr, -⟩
  exact (hr.sizes hg).concepts

theorem EndsAt.narCycles {s : Sys} (hg : Good n s) (h0 : s.initialized = true) {fuel : Fuel} (hf : Bounds.short ∨ fuel.Covers s.capacity) (c : Nat) : EndsAt (NAR_Cycles n fuel c) s :=
  EndsAt.cycles (between_families n s) (fun h => between_initialized hg h0 h) (between_enough hg hf) (hf.imp_right And.right) c (Between.start hg)

theorem EndsAt.narAddInput {s : Sys} (hg : Good n s) (h0 : s.initialized = true) {fuel : Fuel} (hf : Bounds.short ∨ fuel.Covers s.capacity) {t : Term} (hk : n.Knows t) (ty : EventType)
    {tr : Truth} (ht : tr.Valid) (eternal : Bool) (o : ℚ) : EndsAt (NAR_AddInput n fuel t ty tr eternal o) s :=
  EndsAt.addInput ((between_families n s).family 0) (fun h => between_initialized hg h0 h) _ _ hk ty ht eternal o
    (fun hs => EndsAt.cycles (between_families n s) (fun h => between_initialized hg h0 h) (between_enough hg hf) (hf.imp_right And.right) 1 hs) (Between.start hg)

/-! ### Questions -/

theorem Ends.questionMatches {s : Sys} {a b : Term} : Ends (s.questionMatches n a b) := Ends.bind Ends.unify2 fun _ _ => Ends.ok

theorem Ends.answerLink {s : Sys} {q : Question} {a : Answer} {imp : Implication} : Ends (ONA.answerLink n s q a imp) := by
  unfold ONA.answerLink
  exact Ends.bind Ends.questionMatches fun _ _ => Ends.ite (fun _ => Ends.ite (fun _ => Ends.ok) fun _ => Ends.ok) fun _ => Ends.ok

theorem Ends.answerTable {s : Sys} {q : Question} {a : Answer} {t : Table} : Ends (ONA.answerTable n s q a t) :=
  Ends.foldlM' _ _ fun _ _ _ => Ends.answerLink

theorem Ends.answerConcept {s : Sys} {q : Question} {c : Nat} {a : Answer} : Ends (ONA.answerConcept n s q c a) := by
  unfold ONA.answerConcept
  refine Ends.bind Ends.questionMatches fun _ _ => Ends.ite (fun _ => ?_) fun _ => Ends.ok
  exact Ends.ite (fun _ => Ends.foldlM' _ _ fun _ _ _ => Ends.answerTable) fun _ => Ends.ite (fun _ => Ends.ok) fun _ => Ends.ok

theorem Ends.bestAnswer {s : Sys} {q : Question} : Ends (ONA.bestAnswer n s q) := by
  refine Ends.foldlM' _ _ fun a i _ => ?_
  unfold answerFrom
  refine Ends.ite (fun _ => ?_) fun _ => Ends.answerConcept
  exact Ends.bind Ends.questionMatches fun _ _ => Ends.ite (fun _ => Ends.bind Ends.answerTable fun _ _ => Ends.answerConcept) fun _ => Ends.ok

theorem EndsAt.answerQuestion {q : Question} {s : Sys} : EndsAt (ONA.answerQuestion n q) s := by
  unfold ONA.answerQuestion
  refine EndsAt.bind_get (EndsAt.bind_lift Ends.bestAnswer fun a _ => EndsAt.bind_modify ?_)
  have rest : ∀ s, EndsAt (if (!q.queryCommand) = true then
      emit (printedAnswer a.best_stamp a.best_term a.best_truth a.answerOccurrenceTime a.answerCreationTime) else Pure.pure ()) s :=
    fun s => EndsAt.ite (fun _ => EndsAt.modify) fun _ => EndsAt.pure
  cases a.best_belief_concept with
  | none => exact rest _
  | some c => exact EndsAt.ite (fun _ => EndsAt.bind_modify (rest _)) fun _ => rest _

end ONA
