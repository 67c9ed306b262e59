import Verif.Proofs.Scenes
import Verif.Proofs.ClosedCycle
/-
The loop over the operations learns the links of what was observed.
-/
namespace ONA
variable [Arith] {n : Narsese} {I : Sys → Prop}

/-- What has happened meanwhile. -/
structure Continues (I : Sys → Prop) (v s : Sys) : Prop where
  inv : I s
  stable : Stable v s
  scene : s.full ∨ Scene v s

theorem Closed.stableFrom (h : Closed n I) (v : Sys) : Closed n fun s => I s ∧ Stable v s :=
  h.and fun hs hl st => hl.trans (st.stable (h.good hs))

theorem continues_of (h : Closed n I) {α : Type} {x : M α} (hk : ∀ {J}, Closed n J → Keeps J x fun _ => True)
    (hs : ∀ {v}, Keeps (Staged n v) x fun _ => True) {v : Sys} (hv : I v) : WP x (fun _ s => Continues I v s) v := by
  intro a s e
  have h1 := (hk (h.stableFrom v) _ _ _ ⟨hv, .refl v⟩ e).1
  have h2 := (hs _ _ _ (Staged.start (h.good hv).mem) e).1
  exact ⟨h1.1, h1.2, h2.2⟩

omit [Arith] in
theorem newest_spec (j : Nat) (s : Sys) :
    WP (newestConcept j) (fun c s' => s = s' ∧ s.occurrenceTimeIndex.getKthNewestElement j = .ok (some c)) s := by
  unfold newestConcept
  refine WP.get (WP.bind (WP.lift fun x hx => ?_))
  cases x with
  | none => exact WP.throw
  | some c => exact WP.pure ⟨rfl, hx⟩

/-- What a link can be learned from. -/
structure Lesson (n : Narsese) (v : Sys) (now : Int) (p o : Nat) (b : Event) (link : Implication) : Prop where
  teaches : v.Teaches n now p o b link
  outcome : v.HasConcept b.term
  first : p ∈ v.live
  second : o ∈ v.live
  recent_first : v.Recent p
  recent_second : v.Recent o

theorem Lesson.outline {v s : Sys} (h : Outline v s) {now : Int} {p o : Nat} {b : Event} {link : Implication}
    (hL : Lesson n v now p o b link) : Lesson n s now p o b link :=
  ⟨h.teaches hL.first hL.second hL.teaches, h.hasConcept hL.outcome, h.live _ hL.first, h.live _ hL.second,
    (by unfold Sys.Recent; rw [h.history]; exact hL.recent_first), (by unfold Sys.Recent; rw [h.history]; exact hL.recent_second)⟩

omit [Arith] in
theorem Outline.linkIndex {v s : Sys} (h : Outline v s) (t : Term) : s.linkIndex n t = v.linkIndex n t := by
  unfold Sys.linkIndex
  dsimp only
  rw [operationID_congr h.operations]

/-- The state of the loop over preconditions. -/
structure InnerScene (n : Narsese) (G : Prop) (p : Nat) (opi : Nat) (t : Term) (v : Sys) (j : Nat) (s : Sys) : Prop where
  outline : Outline v s
  marks : ∀ c ∈ v.live, (s.concept_storage c).processID2 = (v.concept_storage c).processID2
  third : s.conceptProcessID3 = v.conceptProcessID3
  progress : G → Stored n opi t s ∨ (s.concept_storage p).processID3 ≠ s.conceptProcessID3 ∧
    ∀ i < j, v.occurrenceTimeIndex.getKthNewestElement i ≠ .ok (some p)

theorem preconditions_learn (h : Closed n I) {ops : Nat → Operation} (hop : ∀ {s}, I s → s.operations = ops)
    {b : Event} (hb : b.Good n) (htb : b.type = .belief) {now : Int} {link : Implication} {p o : Nat} (opc : Nat) (oid : Int)
    {v : Sys} (hv : I v) (fresh : ∀ c, (v.concept_storage c).processID3 ≠ v.conceptProcessID3) :
    WP (preconditionLoop n opc oid b now) (fun _ s => I s ∧ Stable v s ∧ (s.full ∨ Outline v s ∧
      (∀ c ∈ v.live, (s.concept_storage c).processID2 = (v.concept_storage c).processID2) ∧
      (opc = o ∧ oid = (v.concept_storage o).id ∧ Lesson n v now p o b link →
        Stored n (v.linkIndex n link.term) link.term s))) v := by
  unfold preconditionLoop
  set G := opc = o ∧ oid = (v.concept_storage o).id ∧ Lesson n v now p o b link with hG
  set k := v.linkIndex n link.term with hk
  refine WP.bind (WP.mono (WP.loop_exit (J := fun j s => (I s ∧ Stable v s) ∧ (s.full ∨ InnerScene n G p k link.term v j s))
    (Q := fun _ s => (I s ∧ Stable v s) ∧ (s.full ∨ Outline v s ∧
      (∀ c ∈ v.live, (s.concept_storage c).processID2 = (v.concept_storage c).processID2) ∧
      (G → Stored n k link.term s))) ?_ _ 0 v ⟨⟨hv, .refl v⟩, .inr ?_⟩) ?_)
  rotate_left
  · exact ⟨.refl v, fun _ _ => rfl, rfl, fun hg => .inr ⟨fresh p, fun i hi => absurd hi (Nat.not_lt_zero i)⟩⟩
  · rintro j s ⟨⟨h1, h2⟩, h3⟩
    exact WP.pure ⟨h1, h2, h3⟩
  intro j s hJ
  refine WP.get ?_
  refine WP.ite (fun hin => ?_) fun hout => WP.pure ?_
  swap
  · rw [if_neg (by simp)]
    refine ⟨hJ.1, hJ.2.imp id fun hi => ⟨hi.outline, hi.marks, fun hg => ?_⟩⟩
    refine (hi.progress hg).elim (fun h => h) fun ⟨_, hnone⟩ => ?_
    exfalso
    obtain ⟨rfl, rfl, hL⟩ := hg
    rw [Bool.and_eq_true, decide_eq_true_eq, decide_eq_true_eq] at hout
    obtain ⟨i, hi1, hi2⟩ := hL.recent_first
    refine hnone i ?_ hi2
    by_contra hlt
    exact hout ⟨(hi.outline.concepts _ hL.second).id, by rw [hi.outline.history]; omega⟩
  refine WP.bind ((newest_spec j s).mono ?_)
  rintro c _ ⟨rfl, hc⟩
  dsimp only
  have hst := h.stableFrom v
  refine WP.bind ?_
  intro u s1 e1
  have h1 := (hst.mark3 hJ.1 c _ _ e1).1
  have e1' := M.modify_ok.1 e1
  have rest : WP (if (!decide ((s.concept_storage c).processID3 = s.conceptProcessID3)) = true then
      conditionOperation n opc c b now else Pure.pure ()) (fun _ s2 => Continues I s1 s2 ∧
        ((s.concept_storage c).processID3 ≠ s.conceptProcessID3 → G → c = p → s1.full ∨ Outline v s1 → Stored n k link.term s2)) s1 := by
    refine WP.ite (fun hx => ?_) fun hx => WP.pure ⟨⟨h1.1, .refl _, .inr (.refl _)⟩, fun hne => ?_⟩
    · refine (continues_of h (fun hJ => hJ.condition opc c hb now) (Staged.condition (h.good hJ.1.1).base _ _ _ _) h1.1).and ?_
      intro a s2 e2 hne hg hcp ho
      obtain ⟨rfl, -, hL⟩ := hg
      subst hcp
      refine ho.elim (fun hf => ?_) fun ho => ?_
      · exact .inl (((h.stableFrom s1).condition _ _ hb now _ _ _ ⟨h1.1, .refl _⟩ e2).1.2.full hf)
      · have hL' := hL.outline ho
        have := (h.condition_stored hop hb htb h1.1 hL'.teaches hL'.outcome _ _ e2).2
        rw [ho.linkIndex] at this
        exact this
    · rw [Bool.not_eq_true', decide_eq_false_iff_not] at hx
      exact absurd hne hx
  have fin : ∀ s2, Continues I s1 s2 ∧
        ((s.concept_storage c).processID3 ≠ s.conceptProcessID3 → G → c = p → s1.full ∨ Outline v s1 → Stored n k link.term s2) →
      (I s2 ∧ Stable v s2) ∧ (s2.full ∨ InnerScene n G p k link.term v (j + 1) s2) := by
    rintro s2 ⟨hf, htr⟩
    refine ⟨⟨hf.inv, h1.2.trans hf.stable⟩, ?_⟩
    refine hJ.2.elim (fun hfull => .inl (hf.stable.full (by rw [← e1']; exact hfull))) fun hi => ?_
    refine hf.scene.imp id fun hs => ?_
    have ho1 : Outline s s1 := by
      rw [← e1']
      refine ⟨rfl, rfl, rfl, fun _ h => h, fun d _ => ?_⟩
      dsimp only
      rw [upd_apply]
      split
      · next hd => subst hd; exact ⟨rfl, rfl, rfl, rfl⟩
      · exact ⟨rfl, rfl, rfl, rfl⟩
    have ho := hi.outline.trans ho1
    have hl1 : ∀ d ∈ v.live, d ∈ s1.live := fun d hd => ho.live d hd
    refine ⟨ho.trans hs.outline, fun d hd => ?_, ?_, fun hg => ?_⟩
    · rw [(hs.concepts d (hl1 d hd)).second, ← hi.marks d hd, ← e1']
      dsimp only
      rw [upd_apply]
      split
      · next hd => subst hd; rfl
      · rfl
    · rw [hs.third, ← hi.third, ← e1']
    · refine (hi.progress hg).elim (fun hst => .inl ?_) fun ⟨hun, hno⟩ => ?_
      · refine Stored.stable hf.stable ?_
        exact Stored.stable ((h.stableFrom s).mark3 ⟨hJ.1.1, .refl s⟩ c _ _ e1).1.2 hst
      · by_cases hcp : c = p
        · exact .inl (htr (by rw [hcp]; exact hun) hg hcp (.inr ho))
        · right
          refine ⟨?_, fun i hij => ?_⟩
          · have hp := hg.2.2.first
            rw [(hs.concepts p (hl1 p hp)).third, hs.third, ← e1']
            dsimp only
            rw [upd_other _ _ fun hx => hcp hx.symm]
            exact hun
          · rcases Nat.lt_succ_iff_lt_or_eq.1 hij with hlt | rfl
            · exact hno i hlt
            · rw [← hi.outline.history, hc]
              intro hx
              exact hcp (Option.some.inj (Except.ok.inj hx))
  refine WP.ite (fun hx => ?_) fun hx => ?_
  · rw [if_pos hx] at rest
    refine WP.bind (rest.mono fun _ s2 hs2 => WP.pure ?_)
    rw [if_pos rfl]
    exact fin s2 hs2
  · rw [if_neg hx] at rest
    refine WP.pure ?_
    rw [if_pos rfl]
    exact fin s1 (rest _ _ rfl)

/-- The state of the loop over operations. -/
structure OuterScene (n : Narsese) (G : Prop) (o : Nat) (opi : Nat) (t : Term) (v : Sys) (j : Nat) (s : Sys) : Prop where
  outline : Outline v s
  progress : G → Stored n opi t s ∨ (s.concept_storage o).processID2 ≠ s.conceptProcessID2 ∧
    ∀ i < j, v.occurrenceTimeIndex.getKthNewestElement i ≠ .ok (some o)

omit [Arith] in
theorem Outline.marked2 (s : Sys) (c : Nat) :
    Outline s { s with concept_storage := upd s.concept_storage c { s.concept_storage c with processID2 := s.conceptProcessID2 } } := by
  refine ⟨rfl, rfl, rfl, fun _ h => h, fun d _ => ?_⟩
  dsimp only
  rw [upd_apply]
  split
  · next hd => subst hd; exact ⟨rfl, rfl, rfl, rfl⟩
  · exact ⟨rfl, rfl, rfl, rfl⟩

theorem operations_learn (h : Closed n I) {ops : Nat → Operation} (hop : ∀ {s}, I s → s.operations = ops)
    {b : Event} (hb : b.Good n) (htb : b.type = .belief) {now : Int} {link : Implication} {p o : Nat}
    {v : Sys} (hv : I v) (fresh : ∀ c, (v.concept_storage c).processID2 ≠ v.conceptProcessID2) :
    WP (operationLoop n b now) (fun _ s => I s ∧ Stable v s ∧ (s.full ∨ Outline v s ∧
      (Lesson n v now p o b link → Stored n (v.linkIndex n link.term) link.term s))) v := by
  unfold operationLoop
  set G := Lesson n v now p o b link with hG
  set k := v.linkIndex n link.term with hk
  refine WP.bind (WP.mono (WP.loop_exit (J := fun j s => (I s ∧ Stable v s) ∧ (s.full ∨ OuterScene n G o k link.term v j s))
    (Q := fun _ s => (I s ∧ Stable v s) ∧ (s.full ∨ Outline v s ∧ (G → Stored n k link.term s))) ?_ _ 0 v ⟨⟨hv, .refl v⟩, .inr ?_⟩) ?_)
  rotate_left
  · exact ⟨.refl v, fun hg => .inr ⟨fresh o, fun i hi => absurd hi (Nat.not_lt_zero i)⟩⟩
  · rintro j s ⟨⟨h1, h2⟩, h3⟩
    exact WP.pure ⟨h1, h2, h3⟩
  intro j s hJ
  refine WP.get ?_
  refine WP.ite (fun hin => ?_) fun hout => WP.pure ?_
  swap
  · rw [if_neg (by simp)]
    refine ⟨hJ.1, hJ.2.imp id fun hi => ⟨hi.outline, fun hg => ?_⟩⟩
    refine (hi.progress hg).elim (fun h => h) fun ⟨_, hnone⟩ => ?_
    exfalso
    obtain ⟨i, hi1, hi2⟩ := hg.recent_second
    refine hnone i ?_ hi2
    by_contra hlt
    exact hout (by rw [hi.outline.history]; omega)
  refine WP.bind ((newest_spec j s).mono ?_)
  rintro c _ ⟨rfl, hc⟩
  dsimp only
  refine WP.bind ?_
  intro u s1 e1
  have h1 := ((h.stableFrom s).mark2 ⟨hJ.1.1, .refl s⟩ c _ _ e1).1
  have e1' := M.modify_ok.1 e1
  have ho1 : Outline s s1 := by rw [← e1']; exact .marked2 s c
  have hm1 : ∀ d, d ≠ c → (s1.concept_storage d).processID2 = (s.concept_storage d).processID2 := by
    intro d hd
    rw [← e1']
    dsimp only
    rw [upd_other _ _ hd]
  -- what is left of this round
  have fin : ∀ s3, I s3 ∧ Stable s1 s3 ∧ (s3.full ∨ Outline s1 s3 ∧
        (∀ d ∈ s1.live, (s3.concept_storage d).processID2 = (s1.concept_storage d).processID2)) →
      ((s.concept_storage c).processID2 ≠ s.conceptProcessID2 → G → c = o → Outline v s → s3.full ∨ Stored n k link.term s3) →
      (I s3 ∧ Stable v s3) ∧ (s3.full ∨ OuterScene n G o k link.term v (j + 1) s3) := by
    rintro s3 ⟨hI3, hst3, hsc⟩ htr
    refine ⟨⟨hI3, hJ.1.2.trans (h1.2.trans hst3)⟩, ?_⟩
    by_cases hfull : s3.full
    · exact .inl hfull
    right
    have hi := hJ.2.resolve_left fun hf => hfull (hst3.full (h1.2.full hf))
    obtain ⟨ho3, hm3⟩ := hsc.resolve_left hfull
    have ho := hi.outline.trans (ho1.trans ho3)
    refine ⟨ho, fun hg => ?_⟩
    refine (hi.progress hg).elim (fun hst => .inl (hst.stable (h1.2.trans hst3))) fun ⟨hun, hno⟩ => ?_
    by_cases hco : c = o
    · exact .inl ((htr (by rw [hco]; exact hun) hg hco hi.outline).resolve_left hfull)
    · right
      refine ⟨?_, fun i hij => ?_⟩
      · rw [hm3 o ((hi.outline.trans ho1).live o hg.second), hm1 o fun hx => hco hx.symm, (ho1.trans ho3).second]
        exact hun
      · rcases Nat.lt_succ_iff_lt_or_eq.1 hij with hlt | rfl
        · exact hno i hlt
        · rw [← hi.outline.history, hc]
          intro hx
          exact hco (Option.some.inj (Except.ok.inj hx))
  refine WP.ite (fun hx => ?_) fun hx => WP.pure ?_
  · refine WP.bind (WP.modify ?_)
    have hI2 : I { s1 with conceptProcessID3 := s1.conceptProcessID3 + 1 } :=
      h.processIDs h1.1 s1.conceptProcessID s1.conceptProcessID2 (s1.conceptProcessID3 + 1) (Int.le_refl _) (Int.le_refl _) (by omega)
    have hf2 : ∀ d, (s1.concept_storage d).processID3 ≠ s1.conceptProcessID3 + 1 := by
      intro d
      have := (h.good h1.1).marks3.2 d
      omega
    have ho2 : Outline s1 { s1 with conceptProcessID3 := s1.conceptProcessID3 + 1 } :=
      ⟨rfl, rfl, rfl, fun _ h => h, fun d _ => ⟨rfl, rfl, rfl, rfl⟩⟩
    refine WP.bind ((preconditions_learn (p := p) (o := o) (link := link) h hop hb htb c (s.concept_storage c).id hI2 hf2).mono ?_)
    rintro _ s3 ⟨hI3, hst3, hsc⟩
    refine WP.pure ?_
    rw [if_pos rfl]
    have hst12 : Stable s1 { s1 with conceptProcessID3 := s1.conceptProcessID3 + 1 } := .of_eq rfl rfl
    refine fin s3 ⟨hI3, hst12.trans hst3, hsc.imp id fun hx => ⟨ho2.trans hx.1, hx.2.1⟩⟩ fun _ hg hco hov => ?_
    refine hsc.imp id fun hx => ?_
    have ho' := hov.trans (ho1.trans ho2)
    have := hx.2.2 ⟨hco, ?_, hg.outline ho'⟩
    · rw [ho'.linkIndex] at this
      exact this
    · subst hco
      exact ((ho1.concepts _ (hov.live _ hg.second)).id).symm
  · rw [if_pos rfl]
    refine fin s1 ⟨h1.1, .refl s1, .inr ⟨.refl s1, fun _ _ => rfl⟩⟩ fun hne hg hco hov => ?_
    exfalso
    subst hco
    have hT := (hg.outline hov).teaches
    refine hx ?_
    have k1 := hT.executed_before
    have k2 := hT.executed_near
    have n1 : near (s.concept_storage c).belief_spike.occurrenceTime b.occurrenceTime = true := by
      unfold near
      rw [decide_eq_true_eq]
      omega
    have n2 : near (s.concept_storage c).lastSelectionTime b.occurrenceTime = true := by
      unfold near
      rw [decide_eq_true_eq]
      exact_mod_cast hT.executed_selected
    have n3 : s.operationID n (s.concept_storage c).term ≠ 0 := hT.executed
    rw [n1, n2]
    simp [hne, hT.executed_type, hT.executed_known, k1, n3]

end ONA
