import Verif.Proofs.ClosedCycle
import Verif.Spec.Run
/-
From one inference cycle to the calls of src/NAR.c: executed operations add an event and run another cycle.
-/
namespace ONA
variable [Arith] {n : Narsese}

theorem NAR_DEFAULT_TRUTH_valid : NAR_DEFAULT_TRUTH.Valid :=
  Truth.Valid.mk' unit01_one ⟨isRepr_rnd _, rnd_nonneg (by norm_num), rnd_le_one (by norm_num)⟩

omit [Arith] in
theorem inputEvent_globals (g : EventGlobals) (hg : g.importstamp.WF) (t : Term) (ty : EventType) (tr : Truth) (o : ℚ) (now : Int) :
    (Event_InputEvent g t ty tr o now).2.importstamp.WF ∧ (Event_InputEvent g t ty tr o now).1.stamp.WF := by
  unfold Event_InputEvent
  dsimp only
  split
  · exact ⟨Stamp.zero_wf, hg⟩
  · exact ⟨hg, Stamp.single_wf _⟩

theorem inputEvent_good {s : Sys} (h : Good n s) {t : Term} (hk : n.Knows t) (ty : EventType) {tr : Truth} (ht : tr.Valid) (o : ℚ)
    (now : Int) : (Event_InputEvent s.event t ty tr o now).1.Good n := by
  refine ⟨?_, ?_, (inputEvent_globals _ h.importstamp _ _ _ _ _).2⟩
  · exact hk
  · exact ht

theorem Good.input {s : Sys} (h : Good n s) (t : Term) (ty : EventType) (tr : Truth) (o : ℚ) :
    Good n { s with event := (Event_InputEvent s.event t ty tr o s.currentTime).2 } :=
  { h with
    mem := h.mem.congr rfl rfl rfl rfl (fun _ _ => rfl) (fun _ _ => rfl)
    prios := h.prios
    importstamp := (inputEvent_globals s.event h.importstamp t ty tr o s.currentTime).1 }

/-- A family of predicates: `I k` leaves room for `k` more clock ticks. -/
structure Family (n : Narsese) (I : Nat → Sys → Prop) : Prop where
  closed : ∀ k, Closed n (I k)
  weaken : ∀ {k s}, I (k + 1) s → I k s
  exec : ∀ {k s} (j : Nat) (action : Term → Feedback) (args : Term), (s.operations j).action = some action → I k s →
    Justified s (j + 1) → OwnArguments n args → I (k + 1) { s with output := s.output ++ [.executed (s.operations j).term args] }
  input : ∀ {k s} (t : Term) (ty : EventType) (tr : Truth) (o : ℚ), I k s →
    I k { s with event := (Event_InputEvent s.event t ty tr o s.currentTime).2 }
  tick : ∀ {k s}, I (k + 1) s → I k { s with currentTime := s.currentTime + 1 }

namespace Family
variable {I : Nat → Sys → Prop}

theorem addInput (h : Family n I) {k : Nat} {J : Sys → Prop} (chain : Nat) (add : Term → M Unit) {t : Term} (hk : n.Knows t)
    (ty : EventType) {tr : Truth} (ht : tr.Valid) (eternal : Bool) (o : ℚ)
    (hcycle : ∀ {s}, I k s → WP (cyclesWith n chain add 1) (fun _ => J) s) {s : Sys} (hs : I k s) :
    WP (addInputWith n chain add t ty tr eternal o) (fun _ => J) s := by
  unfold addInputWith
  refine WP.get (WP.bind (WP.lift fun _ _ => WP.bind (WP.set ?_)))
  have hs1 := h.input t ty tr o hs
  have hg := inputEvent_good ((h.closed k).good hs) hk ty ht o s.currentTime
  have hg2 : (if eternal then { (Event_InputEvent s.event t ty tr o s.currentTime).1 with occurrenceTime := OCCURRENCE_ETERNAL }
      else (Event_InputEvent s.event t ty tr o s.currentTime).1).Good n := by
    split
    · exact ⟨hg.term, hg.truth, hg.stamp⟩
    · exact hg
  refine WP.bind ((((h.closed k).addEvent' hg2 _ (le_refl _) _ _ _).wp hs1).mono ?_)
  rintro _ s2 ⟨hs2, -⟩
  exact WP.bind ((hcycle hs2).mono fun _ s3 hs3 => WP.pure hs3)

/-- The selected events are known, too. -/
theorem selected (h : Family n I) : Family n fun k s => (I k s ∧ BeliefsKnown n s) ∧ GoalsKnown n s :=
  { closed := fun k => (h.closed k).beliefsKnown.goalsKnown
    weaken := fun hs => ⟨⟨h.weaken hs.1.1, hs.1.2⟩, hs.2⟩
    exec := fun j action args ha hs hj ho => ⟨⟨h.exec j action args ha hs.1.1 hj ho, hs.1.2⟩, hs.2⟩
    input := fun t ty tr o hs => ⟨⟨h.input t ty tr o hs.1.1, hs.1.2⟩, hs.2⟩
    tick := fun hs => ⟨⟨h.tick hs.1.1, hs.1.2⟩, hs.2⟩ }

/-- The concepts stay. -/
theorem stable (h : Family n I) (s0 : Sys) : Family n fun k s => I k s ∧ Stable s0 s :=
  { closed := fun k => (h.closed k).and fun hs hl st => hl.trans (st.stable ((h.closed k).good hs))
    weaken := fun hs => ⟨h.weaken hs.1, hs.2⟩
    exec := fun j action args ha hs hj ho => ⟨h.exec j action args ha hs.1 hj ho, hs.2.trans (.of_eq rfl rfl)⟩
    input := fun t ty tr o hs => ⟨h.input t ty tr o hs.1, hs.2.trans (.of_eq rfl rfl)⟩
    tick := fun hs => ⟨h.tick hs.1, hs.2.trans (.of_eq rfl rfl)⟩ }

theorem nested (chain : Nat) : ∀ (depth : Nat) {I : Nat → Sys → Prop} (_ : Family n I) (_ : ∀ {k s}, I k s → BeliefsKnown n s)
    (_ : ∀ {k s}, I k s → GoalsKnown n s) (k : Nat) (t : Term) {s : Sys}, n.Knows t → I (k + 1) s →
    WP (addInputBeliefNested n chain depth t) (fun _ => I k) s := by
  intro depth
  induction depth with
  | zero => intros; exact WP.throw
  | succ d ih =>
    intro I h hb hg k t s hk hs
    unfold addInputBeliefNested
    have hooks : Hooks n (I (k + 1)) (I (k + 2)) (addInputBeliefNested n chain d) :=
      { closed := h.closed _
        closed1 := h.closed _
        weaken := h.weaken
        exec := fun j action args ha hs hj ho => h.exec j action args ha hs hj ho
        add := fun t {s} hk hs => ih h hb hg (k + 1) t hk hs
        stable := fun t {s} hk hs => (ih (h.stable s) (fun hs => hb hs.1) (fun hs => hg hs.1) (k + 1) t hk ⟨hs, .refl s⟩).mono
          fun _ _ hs => hs.2 }
    refine WP.bind ((h.addInput (J := I k) chain _ hk .belief NAR_DEFAULT_TRUTH_valid false 0 ?_ hs).mono fun _ _ h => WP.pure h)
    intro s1 hs1
    unfold cyclesWith
    refine WP.get (WP.bind (WP.lift fun _ _ => ?_))
    show WP ((List.range 1).forM _) _ _
    rw [show List.range 1 = [0] from rfl]
    simp only [List.forM_eq_forM, List.forM_cons, List.forM_nil]
    refine WP.bind ?_
    refine WP.mono (Q := fun _ => I k) ?_ fun _ _ h => WP.pure h
    unfold oneCycle
    have eq : (fun s => (I (k + 1) s ∧ BeliefsKnown n s) ∧ GoalsKnown n s) = I (k + 1) :=
      funext fun s => propext ⟨fun h => h.1.1, fun h => ⟨⟨h, hb h⟩, hg h⟩⟩
    refine WP.get (WP.bind (((Hooks.cycle (h.closed (k + 1)) (eq ▸ hooks) chain s1.currentTime).wp hs1).mono ?_))
    rintro _ s2 ⟨hs2, -⟩
    exact WP.modify (h.tick hs2)

theorem hooks (h : Family n I) (chain depth k : Nat) : Hooks n (fun s => (I k s ∧ BeliefsKnown n s) ∧ GoalsKnown n s)
    (fun s => (I (k + 1) s ∧ BeliefsKnown n s) ∧ GoalsKnown n s) (addInputBeliefNested n chain depth) :=
  { closed := h.selected.closed k
    closed1 := h.selected.closed (k + 1)
    weaken := h.selected.weaken
    exec := fun j action args ha hs hj ho => h.selected.exec j action args ha hs hj ho
    add := fun t {s} hk hs => nested chain depth h.selected (fun h => h.1.2) (fun h => h.2) k t hk hs
    stable := fun t {s} hk hs => (nested chain depth (h.selected.stable s) (fun h => h.1.1.2) (fun h => h.1.2) k t hk ⟨hs, .refl s⟩).mono
      fun _ _ hs => hs.2 }

end Family

/-- Families indexed by the number of cycles the call has asked for so far. -/
structure Families (n : Narsese) (I : Nat → Nat → Sys → Prop) : Prop where
  family : ∀ b, Family n (I b)
  cycle : ∀ {b s}, I b 0 s → I (b + 1) 0 { s with currentTime := s.currentTime + 1 }

namespace Families
variable {I : Nat → Nat → Sys → Prop}

theorem oneCycle (h : Families n I) (chain depth : Nat) {b : Nat} {s : Sys} (hs : I b 0 s) :
    WP (ONA.oneCycle n chain (addInputBeliefNested n chain depth)) (fun _ => I (b + 1) 0) s := by
  unfold ONA.oneCycle
  refine WP.get (WP.bind (((Hooks.cycle ((h.family b).closed 0) ((h.family b).hooks chain depth 0) chain s.currentTime).wp hs).mono ?_))
  rintro _ s2 ⟨hs2, -⟩
  exact WP.modify (h.cycle hs2)

theorem cycles (h : Families n I) (chain depth : Nat) (c : Nat) {b : Nat} {s : Sys} (hs : I b 0 s) :
    WP (cyclesWith n chain (addInputBeliefNested n chain depth) c) (fun _ => I (b + c) 0) s := by
  unfold cyclesWith
  refine WP.get (WP.bind (WP.lift fun _ _ => ?_))
  have key : ∀ (l : List Nat) (b : Nat) (s : Sys), I b 0 s →
      WP (l.forM fun _ => ONA.oneCycle n chain (addInputBeliefNested n chain depth)) (fun _ => I (b + l.length) 0) s := by
    intro l
    induction l with
    | nil => intro b s hs; exact WP.pure hs
    | cons a l ih =>
      intro b s hs
      simp only [List.forM_eq_forM, List.forM_cons]
      refine WP.bind ((h.oneCycle chain depth hs).mono ?_)
      intro _ s1 hs1
      have := ih (b + 1) s1 hs1
      simp only [List.forM_eq_forM] at this
      rw [List.length_cons, show b + (l.length + 1) = b + 1 + l.length by omega]
      exact this
  have := key (List.range c) b s hs
  rw [List.length_range] at this
  exact this

theorem narCycles (h : Families n I) (fuel : Fuel) (c : Nat) {b : Nat} {s : Sys} (hs : I b 0 s) :
    WP (NAR_Cycles n fuel c) (fun _ => I (b + c) 0) s := h.cycles _ _ c hs

theorem narAddInput (h : Families n I) (fuel : Fuel) {t : Term} (hk : n.Knows t) (ty : EventType) {tr : Truth} (ht : tr.Valid)
    (eternal : Bool) (o : ℚ) {b : Nat} {s : Sys} (hs : I b 0 s) :
    WP (NAR_AddInput n fuel t ty tr eternal o) (fun _ => I (b + 1) 0) s :=
  (h.family b).addInput _ _ hk ty ht eternal o (fun hs => h.cycles _ _ 1 hs) hs

end Families

/-- The states reached from `s0` with at least `b` ticks and at least `k` fewer ticks than cycles and executions. -/
def Between (n : Narsese) (s0 : Sys) (b k : Nat) (s : Sys) : Prop :=
  Good n s ∧ ∃ t x, Run n s0 t x s ∧ b ≤ t ∧ t + k ≤ b + x

theorem between_families (n : Narsese) (s0 : Sys) : Families n (Between n s0) := by
  refine ⟨fun b => ⟨fun k => ⟨And.left, ?_⟩, ?_, ?_, ?_, ?_⟩, ?_⟩
  · rintro s s' ⟨hg, t, x, hr, h1, h2⟩ st
    exact ⟨st.good hg, t, x, hr.step st, h1, h2⟩
  · rintro k s ⟨hg, t, x, hr, h1, h2⟩
    exact ⟨hg, t, x, hr, h1, by omega⟩
  · rintro k s j action args ha ⟨hg, t, x, hr, h1, h2⟩ hj ho
    exact ⟨hg.congr rfl hg.stdin, t, x + 1, hr.execute j action args ha hj ho, h1, by omega⟩
  · rintro k s tt ty tr o ⟨hg, t, x, hr, h1, h2⟩
    exact ⟨hg.input _ _ _ _, t, x, hr.input _ _ _ _, h1, h2⟩
  · rintro k s ⟨hg, t, x, hr, h1, h2⟩
    exact ⟨hg.congr rfl hg.stdin, t + 1, x, hr.tick, by omega, by omega⟩
  · rintro b s ⟨hg, t, x, hr, h1, h2⟩
    exact ⟨hg.congr rfl hg.stdin, t + 1, x, hr.tick, by omega, by omega⟩

theorem Between.start {s : Sys} (h : Good n s) : Between n s 0 0 s := ⟨h, 0, 0, .refl, le_refl _, le_refl _⟩

end ONA
