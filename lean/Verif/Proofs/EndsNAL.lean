import Verif.Proofs.EndsMemory
import Verif.Proofs.ClosedNAL
import Verif.Proofs.Chains
/-
Abnormal ends of derivations and of the traversal of related concepts.
-/
namespace ONA
variable [Arith] [Bounds] {n : Narsese} {I : Sys → Prop}

theorem Ends.truthFunction (f : TruthFunction) {a b : Truth} : Ends (f.run a b) := by
  cases f <;> first
    | exact ok
    | exact abduction
    | exact comparison
    | exact exemplification
    | exact induction

theorem Ends.conclusionTruth (r : Rule) {a b : Truth} : Ends (r.conclusionTruth a b) := by
  unfold Rule.conclusionTruth
  exact ite (fun _ => truthFunction _) fun _ => truthFunction _

omit [Arith] in
theorem Ends.junctionLoop {t : Term} : ∀ k, Ends (ONA.junctionLoop n t k) := by
  intro k
  induction k with
  | zero => exact ok
  | succ k ih =>
    unfold ONA.junctionLoop
    refine ite (fun _ => bind ?_ fun _ _ => ite (fun _ => ok) fun _ => ih) fun _ => ih
    unfold Term.read
    split
    · exact ok
    · exact error .junction

omit [Arith] in
theorem Ends.admissible {t : Term} : Ends (NAL_Admissible n t) := by
  unfold NAL_Admissible
  exact ite (fun _ => ok) fun _ => bind (junctionLoop _) fun _ _ => ok

theorem Ending.addEvent' (h : Closed n I) {e : Event} (he : e.Good n) {now : Int} {p : ℚ} (hp : p ≤ 1)
    {input revised : Bool} {layer : Nat} : Ending I (Memory_AddEvent' n e now p input revised layer) :=
  Ending.bind_get fun _ _ => Ending.addEventRef _ h (by rintro x ⟨⟩; exact he) (fun _ => by unfold RefStays; trivial) now hp
    input revised layer

theorem Ending.addDerived (h : Closed n I) {d : Derivation} (hd : d.Good) (ht : d.conclusionTruth.Valid) {term : Term}
    (hk : n.Knows term) : Ending I (ONA.addDerived n d term) := by
  unfold ONA.addDerived
  refine Ending.seq (Q := fun _ => True) ?_ ?_ fun b => ?_
  · unfold Derivation.stillValid
    split
    · exact Ending.pure
    · exact Ending.bind_get fun s _ => Ending.pure
  · unfold Derivation.stillValid
    split
    · exact Keeps.pure trivial
    · exact Keeps.bind_get fun s _ => Keeps.pure trivial
  refine Ending.ite (fun _ => ?_) fun _ => Ending.pure
  refine Ending.bind_lift Ends.admissible fun b _ => ?_
  refine Ending.ite (fun _ => ?_) fun _ => Ending.pure
  exact Ending.addEvent' h ⟨hk, ht, hd.stamp⟩ ((hd.concept.mul hd.parent).mul (expectation_unit ht)).2

theorem Ending.addWithVars (h : Closed n I) {d : Derivation} (hd : d.Good) (ht : d.conclusionTruth.Valid) {t : Term} {a b : Bool}
    {r : Bool × Term} (hk : n.Knows r.2) : Ending I (ONA.addWithVars n d t a b r) := by
  unfold ONA.addWithVars
  refine Ending.ite (fun _ => ?_) fun _ => Ending.pure
  exact Ending.ite (fun _ => Ending.addDerived h hd ht hk) fun _ => Ending.pure

theorem Ending.base (h : Closed n I) {α : Type} {x : M α} (hx : n.Base → Ending I x) : Ending I x :=
  Ending.given fun _ hs => hx (h.good hs).base

theorem Ending.derivedEvent (h : Closed n I) {d : Derivation} (hd : d.Good) (ht : d.conclusionTruth.Valid) {t : Term} (hk : n.Knows t)
    (a b : Bool) : Ending I (NAL_DerivedEvent n d t a b) := by
  refine Ending.base h fun hn => ?_
  have hv (a b : Bool) {r : Bool × Term} (hk : n.Knows r.2) := Ending.addWithVars h hd ht (t := t) (a := a) (b := b) hk
  have kv (a b : Bool) {r : Bool × Term} (hk : n.Knows r.2) := h.addWithVars hd ht t a b hk
  have ha := Ending.addDerived h hd ht hk
  unfold NAL_DerivedEvent
  have conj : Ending I (if (a && Narsese_copulaEquals n (t.get 0) CONJUNCTION) = true then do
        let ext ← Variable_IntroduceConjunctionVariables n t true
        ONA.addWithVars n d t false false ext
        let int ← Variable_IntroduceConjunctionVariables n t false
        ONA.addWithVars n d t false false int
        Pure.pure ()
      else ONA.addDerived n d t) := by
    refine Ending.ite (fun hc => ?_) fun _ => ha
    rw [Bool.and_eq_true] at hc
    refine Ending.bind_lift (Ends.introduceConjunction hc.2) fun _ e =>
      Ending.seq (hv _ _ (hn.introduceConjunction hk e)) (kv _ _ (hn.introduceConjunction hk e)) fun _ => ?_
    exact Ending.bind_lift (Ends.introduceConjunction hc.2) fun _ e =>
      Ending.seq (hv _ _ (hn.introduceConjunction hk e)) (kv _ _ (hn.introduceConjunction hk e)) fun _ => Ending.pure
  refine Ending.ite (fun hc => ?_) fun _ => conj
  rw [Bool.and_eq_true] at hc
  refine Ending.bind_lift (Ends.introduceImplication hc.2) fun _ e =>
    Ending.seq (hv _ _ (hn.introduceImplication hk e)) (kv _ _ (hn.introduceImplication hk e)) fun _ => ?_
  refine Ending.ite (fun _ => ?_) fun _ => Ending.ite (fun _ => Ending.pure) fun _ => conj
  refine Ending.bind_lift (Ends.introduceImplication hc.2) fun _ e =>
    Ending.seq (hv _ _ (hn.introduceImplication hk e)) (kv _ _ (hn.introduceImplication hk e)) fun _ => ?_
  exact Ending.ite (fun _ => Ending.pure) fun _ => conj

theorem Ending.ruleTable (h : Closed n I) {d : Derivation} (hd : d.Good) {t1 t2 : Term} (k1 : n.Knows t1) (k2 : n.Knows t2)
    {v1 v2 : Truth} (h1 : v1.Valid) (h2 : v2.Valid) (b : Bool) :
    Ending I (RuleTable_Apply n t1 t2 v1 v2 d b) := by
  refine Ending.base h fun hn => ?_
  unfold RuleTable_Apply
  refine Ending.forM (fun r hmem => ?_) fun r hmem => ?_
  · split
    · exact Ending.pure
    · rename_i c hc
      refine Ending.bind_lift (Ends.conclusionTruth _) fun t ht => ?_
      have hv := conclusionTruth_valid r h1 h2 ht
      exact Ending.derivedEvent h (d := { d with conclusionTruth := t }) ⟨hd.stamp, hd.parent, hd.concept⟩ hv
        (hn.reduce (hn.ruleConclusion hmem k1 k2 hc)) _ _
  · split
    · exact Keeps.pure trivial
    · rename_i c hc
      refine Keeps.bind_lift fun t ht => ?_
      have hv := conclusionTruth_valid r h1 h2 ht
      exact h.derivedEvent (d := { d with conclusionTruth := t }) ⟨hd.stamp, hd.parent, hd.concept⟩ hv
        (hn.reduce (hn.ruleConclusion hmem k1 k2 hc)) _ _

section related
variable {σ : Type} {J : σ → Sys → Prop}

theorem visitConcept_ends (hJ : ∀ st, Closed n (J st)) {body : Nat → σ → M (Bool × σ)}
    (he : ∀ c st s, J st s → EndsAt (body c st) s) (c : Option Nat) (st : σ) (s : Sys) (hs : J st s) :
    EndsAt (visitConcept body c st) s := by
  unfold visitConcept
  cases c with
  | none => exact EndsAt.pure
  | some c =>
    refine EndsAt.bind_get (EndsAt.ite (fun _ => EndsAt.bind_modify ?_) fun _ => EndsAt.pure)
    refine he _ _ _ ((hJ st).concept hs ?_)
    have hg := ((hJ st).good hs).concepts c
    exact .attention _ _ _ _ _ _ hg.useCount hg.priority .first

/-- The bound on the traversal suffices for memories of the size at hand: in the worst case, after each of the
`BELIEF_CONCEPT_MATCH_TARGET` visits which may change the index, all chain elements are passed. -/
def Enough (I : Sys → Prop) (fuel : Nat) : Prop :=
  Bounds.short ∨ ∃ C, (BELIEF_CONCEPT_MATCH_TARGET + 1) * (UNIFICATION_DEPTH * C + 1) ≤ fuel ∧ ∀ s, I s → s.capacity = C

omit [Arith] in
theorem Enough.mono {I I' : Sys → Prop} {fuel : Nat} (h : Enough I fuel) (hi : ∀ s, I' s → I s) : Enough I' fuel :=
  h.imp_right fun ⟨C, h1, h2⟩ => ⟨C, h1, fun s hs => h2 s (hi s hs)⟩

theorem visitChain_short (hsh : Bounds.short) (hJ : ∀ st, Closed n (J st)) {body : Nat → σ → M (Bool × σ)}
    (hb : ∀ c st s, J st s → WP (body c st) (fun r => J r.2) s)
    (he : ∀ c st s, J st s → EndsAt (body c st) s) : ∀ (fuel : Nat) (e : Option Nat) (st : σ) (s : Sys), J st s →
    EndsAt (visitChain body fuel e st) s := by
  intro fuel
  induction fuel with
  | zero =>
    intro e st s hs
    cases e with
    | none => exact EndsAt.pure
    | some e => exact EndsAt.short hsh
  | succ k ih =>
    intro e st s hs
    cases e with
    | none => exact EndsAt.pure
    | some e =>
      unfold visitChain
      refine EndsAt.bind_get ?_
      refine EndsAt.bind (visitConcept_ends hJ he _ _ _ hs) ((visitConcept_wp hJ hb _ _ _ hs).mono ?_)
      intro r s' hr
      exact EndsAt.ite (fun _ => ih _ _ _ hr) fun _ => EndsAt.pure

theorem visitChain_ends (hJ : ∀ st, Closed n (J st)) {body : Nat → σ → M (Bool × σ)}
    (hb : ∀ c st s, J st s → WP (body c st) (fun r => J r.2) s)
    (he : ∀ c st s, J st s → EndsAt (body c st) s) {m : σ → Nat}
    (hm : ∀ c st s, J st s → WP (body c st) (fun r s' => Nearer m st s r.2 s') s) {C : Nat}
    (hC : ∀ st s, J st s → s.capacity = C) : ∀ (fuel : Nat) (e : Option Nat) (st : σ) (s : Sys) (l : List Nat), J st s →
    HashTable.Chain s.index.nx e l → InPool s.index l → l.length + m st * (UNIFICATION_DEPTH * C + 1) ≤ fuel →
    EndsAt (visitChain body fuel e st) s := by
  have pool : ∀ st s, J st s → s.index.poolSize = UNIFICATION_DEPTH * C := fun st s hs => by
    rw [((hJ st).good hs).mem.index.pool, hC st s hs]
  intro fuel
  induction fuel with
  | zero =>
    intro e st s l hs hc hl hf
    cases e with
    | none => exact EndsAt.pure
    | some e =>
      cases l with
      | nil => cases hc
      | cons a l => rw [List.length_cons] at hf; omega
  | succ k ih =>
    intro e st s l hs hc hl hf
    cases e with
    | none => exact EndsAt.pure
    | some e =>
      cases l with
      | nil => cases hc
      | cons a l =>
        obtain ⟨h1, hc⟩ := hc
        cases h1
        unfold visitChain
        refine EndsAt.bind_get ?_
        refine EndsAt.bind (visitConcept_ends hJ he _ _ _ hs)
          (((visitConcept_wp hJ hb _ _ _ hs).and (visitConcept_nearer hJ hm _ _ _ hs)).mono ?_)
        rintro r s' ⟨hr, hn⟩
        refine EndsAt.ite (fun _ => ?_) fun _ => EndsAt.pure
        rw [List.length_cons] at hf
        rcases hn with ⟨hi, hle⟩ | hlt
        · refine ih _ _ _ l hr (by rw [hi]; exact hc) (by rw [hi]; exact fun x hx => hl x (List.mem_cons_of_mem _ hx)) ?_
          have := Nat.mul_le_mul_right (UNIFICATION_DEPTH * C + 1) hle
          omega
        · obtain ⟨L, hrep, -⟩ := ((hJ _).good hr).mem.index.rep
          obtain ⟨l', h1, h2, h3⟩ := chain_from hrep (p := (s.index.conceptChainElementStorage e).next) fun x hx => by
            have hx : s.index.nx e = some x := hx
            cases l with
            | nil => rw [show s.index.nx e = none from hc] at hx; cases hx
            | cons b l =>
              rw [hc.1] at hx
              cases hx
              rw [pool _ _ hr, ← pool _ _ hs]
              exact hl x (List.mem_cons_of_mem _ List.mem_cons_self)
          refine ih _ _ _ l' hr h1 h2 ?_
          rw [pool _ _ hr] at h3
          have := Nat.mul_le_mul_right (UNIFICATION_DEPTH * C + 1) (Nat.succ_le_of_lt hlt)
          rw [Nat.succ_mul] at this
          omega

theorem related_ends (hJ : ∀ st, Closed n (J st)) {body : Nat → σ → M (Bool × σ)}
    (hb : ∀ c st s, J st s → WP (body c st) (fun r => J r.2) s)
    (he : ∀ c st s, J st s → EndsAt (body c st) s) {m : σ → Nat} (hm0 : ∀ st, m st ≤ BELIEF_CONCEPT_MATCH_TARGET)
    (hm : ∀ c st s, J st s → WP (body c st) (fun r s' => Nearer m st s r.2 s') s) (fuel : Nat) (hf : Enough (fun s => ∃ st, J st s) fuel)
    (term : Term) (st : σ) (s : Sys) (hs : J st s) :
    EndsAt (relatedConcepts fuel term body st) s := by
  unfold relatedConcepts
  generalize List.range UNIFICATION_DEPTH = l
  induction l generalizing st s with
  | nil => exact EndsAt.pure
  | cons i rest ih =>
    unfold visitRelated
    refine EndsAt.reads (Ending.find (hJ st) s hs) (Closed.reads_find term) fun c _ => ?_
    refine EndsAt.bind_get ?_
    refine EndsAt.bind (visitConcept_ends hJ he _ _ _ hs) (((visitConcept_wp hJ hb _ _ _ hs).and
      (visitConcept_nearer hJ hm _ _ _ hs)).mono ?_)
    rintro r s' ⟨hr, hn⟩
    refine EndsAt.ite (fun _ => ?_) fun _ => EndsAt.pure
    refine EndsAt.bind ?_ ((visitChain_wp hJ hb _ _ _ _ hr).mono ?_)
    · rcases hf with hf | ⟨C, hf, hC⟩
      · exact visitChain_short hf hJ hb he _ _ _ _ hr
      · have hC : ∀ st s, J st s → s.capacity = C := fun st s hs => hC s ⟨st, hs⟩
        have pool : ∀ st s, J st s → s.index.poolSize = UNIFICATION_DEPTH * C := fun st s hs => by
          rw [((hJ st).good hs).mem.index.pool, hC st s hs]
        obtain ⟨L, hrep, -⟩ := ((hJ _).good hs).mem.index.rep
        obtain ⟨l, h1, h2, h3⟩ := chain_start hrep (term.get i)
        rw [pool _ _ hs] at h3
        have hst := Nat.mul_le_mul_right (UNIFICATION_DEPTH * C + 1) (hm0 r.2)
        rw [Nat.succ_mul] at hf
        rcases hn with ⟨hi, hle⟩ | hlt
        · exact visitChain_ends hJ hb he hm hC _ _ _ _ l hr (by rw [hi]; exact h1) (by rw [hi]; exact h2) (by omega)
        · obtain ⟨L', hrep', -⟩ := ((hJ _).good hr).mem.index.rep
          obtain ⟨l', h1', h2', h3'⟩ := chain_from hrep' (p := InvertedAtomIndex_GetConceptChain s.index (term.get i)) fun x hx => by
            rw [hx] at h1
            cases l with
            | nil => cases h1
            | cons b l =>
              cases h1.1
              rw [pool _ _ hr, ← pool _ _ hs]
              exact h2 x List.mem_cons_self
          rw [pool _ _ hr] at h3'
          exact visitChain_ends hJ hb he hm hC _ _ _ _ l' hr h1' h2' (by omega)
    · intro r s' hr
      exact EndsAt.ite (fun _ => ih _ _ hr) fun _ => EndsAt.pure

/-- With facts about the local variables which do not depend on the state, for visits which leave the index alone. -/
theorem Ending.related (h : Closed n I) {P : σ → Prop} {body : Nat → σ → M (Bool × σ)}
    (hb : ∀ c st, P st → Keeps I (body c st) fun r => P r.2) (he : ∀ c st, P st → Ending I (body c st))
    (hm : ∀ c st s r s', body c st s = .ok (r, s') → s'.index = s.index)
    {fuel : Nat} (hf : Enough I fuel) {term : Term} {st : σ} (hst : P st) : Ending I (relatedConcepts fuel term body st) := by
  intro s hs
  refine related_ends (J := fun st s => I s ∧ P st) (m := fun _ => 0) (fun st => h.const (P st)) ?_ ?_ (fun _ => Nat.zero_le _) ?_ fuel
    (hf.mono fun s hs => hs.choose_spec.1) term st s ⟨hs, hst⟩
  · intro c st s hs
    exact (hb c st hs.2).wp hs.1
  · intro c st s hs
    exact he c st hs.2 s hs.1
  · intro c st s _ r s' e
    exact .inl ⟨hm c st s r s' e, Nat.le_refl _⟩

theorem Ending.related' (h : Closed n I) {body : Nat → σ → M (Bool × σ)}
    (hb : ∀ c st, Keeps I (body c st) fun _ => True) (he : ∀ c st, Ending I (body c st))
    (hm : ∀ c st s r s', body c st s = .ok (r, s') → s'.index = s.index)
    {fuel : Nat} (hf : Enough I fuel) {term : Term} {st : σ} : Ending I (relatedConcepts fuel term body st) :=
  Ending.related h (P := fun _ => True) (fun c st _ => hb c st) (fun c st _ => he c st) hm hf trivial

end related
end ONA
