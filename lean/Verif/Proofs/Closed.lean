import Verif.Proofs.Stable
import Verif.Proofs.Keeps
/-
Predicates on states which imply the invariant and are kept by the elementary changes are kept by memory operations and
derivations.
-/
namespace ONA
variable [Arith]

/-- Kept by the elementary changes of state. -/
structure Closed (n : Narsese) (I : Sys → Prop) : Prop where
  good : ∀ {s}, I s → Good n s
  step : ∀ {s s'}, I s → Step n s s' → I s'

theorem good_closed (n : Narsese) : Closed n (Good n) := ⟨fun h => h, fun h st => st.good h⟩

variable {n : Narsese} {I : Sys → Prop}

/-- Joining predicates. -/
theorem Closed.and {I J : Sys → Prop} (h : Closed n I) (hj : ∀ {s s'}, I s → J s → Step n s s' → J s') :
    Closed n fun s => I s ∧ J s :=
  ⟨fun hs => h.good hs.1, fun hs st => ⟨h.step hs.1 st, hj hs.1 hs.2 st⟩⟩

/-- Facts about concepts which last can be assumed to hold from now on. -/
theorem Closed.lasting (h : Closed n I) (c : Nat) {P : Concept → Prop} (hP : ∀ {x y}, Grows x y → P x → P y) :
    Closed n fun s => I s ∧ Lasting c P s :=
  h.and fun hs hl st => hl.stable hP (st.stable (h.good hs))

theorem Closed.orFull (h : Closed n I) (P : Prop) : Closed n fun s => I s ∧ (P ∨ s.full) :=
  h.and fun hs hl st => hl.imp_right (st.stable (h.good hs)).full

omit [Arith] in
/-- A result comes with a fact about the state, which holds from now on. -/
theorem Keeps.grow {α β : Type} {x : M α} {f : α → M β} {Q : β → Prop} {J : α → Sys → Prop}
    (hx : ∀ s, I s → WP x (fun a s' => I s' ∧ J a s') s) (hf : ∀ a, Keeps (fun s => I s ∧ J a s) (f a) Q) :
    Keeps I (x >>= f) Q := by
  refine Keeps.of_wp fun s hs => WP.bind ((hx s hs).mono fun a s' h => ?_)
  exact ((hf a).wp h).mono fun b s'' h' => ⟨h'.1.1, h'.2⟩

namespace Closed

theorem concept (h : Closed n I) {s : Sys} (hs : I s) {i : Nat} {c : Concept}
    (st : ConceptChange n s i c) : I { s with concept_storage := upd s.concept_storage i c } :=
  h.step hs (.concept i c st)

/-- Assignment to members of a concept. -/
theorem modifyConcept (h : Closed n I) (i : Nat) (f : Concept → Concept)
    (hf : ∀ s, I s → ConceptChange n s i (f (s.concept_storage i))) :
    Keeps I (modifyConcept i f) fun _ => True :=
  Keeps.modify fun s hs => h.concept hs (hf s hs)

theorem modifyConcept_wp (h : Closed n I) {s : Sys} (hs : I s) {i : Nat} {f : Concept → Concept}
    (hf : ConceptChange n s i (f (s.concept_storage i))) :
    WP (ONA.modifyConcept i f) (fun _ s' => I s' ∧ True) s :=
  WP.modify ⟨h.concept hs hf, trivial⟩

theorem useConcept (h : Closed n I) {s : Sys} (hs : I s) (i : Nat) (now : Int) (b : Bool) :
    ConceptChange n s i { s.concept_storage i with usage := Usage_use (s.concept_storage i).usage now b } := by
  have hg := (h.good hs).concepts i
  refine .attention _ _ _ _ _ _ ?_ hg.priority .same
  have := hg.useCount
  unfold Usage_use ETERNAL_INPUT_USAGE_BOOST
  dsimp only
  split <;> omega

theorem find (_ : Closed n I) (t : Term) : Keeps I (Memory_FindConceptByTerm t) fun _ => True := by
  unfold Memory_FindConceptByTerm
  exact Keeps.bind_get fun s _ => Keeps.lift fun _ _ => trivial

theorem conceptualize (h : Closed n I) {t : Term} (ht : n.Knows t) (now : Int) :
    Keeps I (Memory_Conceptualize n t now) fun _ => True := by
  intro s a s' hs e
  exact ⟨h.step hs (.conceptualize t now a s' ht e), trivial⟩

/-- The concept asked for stays. -/
theorem conceptualize_lasting (h : Closed n I) {t : Term} (ht : n.Knows t) (now : Int) {s : Sys} (hs : I s) :
    WP (Memory_Conceptualize n t now) (fun r s' => I s' ∧ ∀ c, r = some c → Lasting c (fun x => x.term = t) s') s := by
  intro r s' e
  refine ⟨h.step hs (.conceptualize t now r s' ht e), ?_⟩
  rintro c rfl
  right
  have hc := (conceptualize_cases (h.good hs).mem e).1
  cases hc with
  | known c h1 h2 => exact ⟨h1, h2⟩
  | room c q ht idx h1 h2 h3 h4 h5 h6 =>
    refine ⟨?_, ?_⟩
    · unfold Sys.live
      refine ((h5.map (·.address)).mem_iff).2 ?_
      rw [List.map_cons]
      exact List.mem_cons_self
    · dsimp only; rw [upd_same]; rfl
  | evict x rest q ht idx h1 h2 h3 h4 h5 h6 =>
    refine ⟨?_, ?_⟩
    · unfold Sys.live
      refine ((h5.map (·.address)).mem_iff).2 ?_
      rw [List.map_cons]
      exact List.mem_cons_self
    · dsimp only; rw [upd_same]; rfl

theorem lastingOf (h : Closed n I) (r : Option Nat) {P : Concept → Prop} (hP : ∀ {x y}, Grows x y → P x → P y) :
    Closed n fun s => I s ∧ ∀ c, r = some c → Lasting c P s :=
  h.and fun hs hl st c hc => (hl c hc).stable hP (st.stable (h.good hs))

theorem base (h : Closed n I) {α : Type} {x : M α} {Q : α → Prop} (hx : n.Base → Keeps I x Q) : Keeps I x Q :=
  Keeps.given fun _ hs => hx (h.good hs).base

theorem load (h : Closed n I) {ref : EventRef} (hr : ∀ e, ref = .val e → e.Good n) : Keeps I ref.load fun x =>
    x.Good n ∧ (∀ e, ref = .val e → x = e) ∧ ∀ c, ref = .belief c → x.type ≠ .goal := by
  cases ref with
  | val e =>
    refine Keeps.pure ⟨hr e rfl, ?_, ?_⟩
    · rintro _ ⟨⟩; rfl
    · rintro _ ⟨⟩
  | belief c =>
    refine Keeps.bind_get fun s hs => Keeps.pure ⟨((h.good hs).concepts c).belief, ?_, ?_⟩
    · rintro _ ⟨⟩
    · rintro _ _; exact ((h.good hs).concepts c).belief_type

/-- Reading through a pointer to a belief. -/
theorem loadBelief (h : Closed n I) {ref : EventRef} (hr : ∀ e, ref = .val e → e.Good n ∧ e.type ≠ .goal) :
    Keeps I ref.load fun x => x.Good n ∧ x.type ≠ .goal := by
  refine (h.load fun e he => (hr e he).1).mono ?_
  rintro x ⟨h1, h2, h3⟩
  refine ⟨h1, ?_⟩
  cases ref with
  | val e => rw [h2 e rfl]; exact (hr e rfl).2
  | belief c => exact h3 c rfl

theorem internal (h : Closed n I) {s : Sys} (hs : I s) {c : Nat} (hc : s.full ∨ c ∈ s.live) :
    I { s with occurrenceTimeIndex := s.occurrenceTimeIndex.add c } := h.step hs (.remember c hc)

theorem linkSource (_ : Closed n I) (a : Term) {b : Term} (hb : n.Knows b) :
    Keeps I (ONA.linkSource n a b) fun r => ∀ x, r = some x → n.Knows x.2 := by
  unfold ONA.linkSource
  have hs : Keeps I (pure (some (0, b)) : M (Option (Nat × Term))) fun r => ∀ x, r = some x → n.Knows x.2 :=
    Keeps.pure (by rintro x ⟨⟩; exact hb)
  refine Keeps.ite (fun _ => ?_) fun _ => hs
  dsimp only
  refine Keeps.ite (fun _ => ?_) fun _ => hs
  refine Keeps.ite (fun _ => Keeps.pure (by rintro x ⟨⟩)) fun _ => ?_
  refine Keeps.seq (Q := fun _ => True) ?_ fun _ => Keeps.pure (by rintro x ⟨⟩; exact hb.withoutOp _)
  unfold Memory_getOperationID
  exact Keeps.bind_get fun s _ => Keeps.pure trivial

theorem addLink (h : Closed n I) (target opi : Nat) {imp : Implication} (hi : imp.Good n) {s : Sys} (hs : I s)
    (hf : s.full ∨ LinkFits s.concepts s.concept_storage (s.concept_storage target).term imp) :
    WP (ONA.addLink n target opi imp) (fun _ s' => I s' ∧ True) s := by
  unfold ONA.addLink
  refine WP.get ?_
  refine WP.ite (fun _ => ?_) fun _ => ?_
  · refine WP.bind (WP.lift fun a e => ?_)
    exact h.modifyConcept_wp hs (.implication_links _ (.step .refl (.add _ _ imp a.1 hi hf e)))
  · refine WP.bind (WP.lift fun a e => ?_)
    exact h.modifyConcept_wp hs (.precondition_beliefs _ _ (.step .refl (.add _ _ imp a.1 hi hf e)))

/-- The pointer is to a concept in memory which has a belief. -/
def _root_.ONA.RefStays (ref : EventRef) (s : Sys) : Prop :=
  match ref with
  | .val _ => True
  | .belief c => Lasting c (fun x => x.belief.type ≠ .deleted) s

/-- The event read through the pointer is about a term. -/
def _root_.ONA.RefTerm (ref : EventRef) (t : Term) (s : Sys) : Prop :=
  match ref with
  | .val e => e.term = t
  | .belief c => Lasting c (fun x => x.term = t ∧ x.belief.type ≠ .deleted) s

theorem withRefTerm (h : Closed n I) (ref : EventRef) (t : Term) : Closed n fun s => I s ∧ RefTerm ref t s := by
  cases ref with
  | val e => exact h.and fun _ hl _ => hl
  | belief c => exact h.lasting c (P := fun x => x.term = t ∧ x.belief.type ≠ .deleted) fun g hx => ⟨g.term.trans hx.1, g.belief hx.2⟩

/-- The pointer goes on pointing to an event about the same term. -/
theorem load_term (h : Closed n I) {ref : EventRef} {s : Sys} (hs : I s) (hst : RefStays ref s) :
    WP ref.load (fun e s' => s' = s ∧ RefTerm ref e.term s) s := by
  intro e s' el
  cases ref with
  | val e' => cases el; exact ⟨rfl, rfl⟩
  | belief c =>
    cases el
    refine ⟨rfl, ?_⟩
    by_cases hf : s.full
    · exact .inl hf
    · obtain ⟨h1, h2⟩ := hst.resolve_left hf
      exact .inr ⟨h1, (((h.good hs).home (not_le.1 hf) c h1).belief h2).symm, h2⟩

theorem reload_term (h : Closed n I) {ref : EventRef} {t : Term} {s : Sys} (hs : I s) (hst : RefTerm ref t s) :
    WP ref.load (fun e s' => s' = s ∧ (e.term = t ∨ s.full)) s := by
  intro e s' el
  cases ref with
  | val e' => cases el; exact ⟨rfl, .inl hst⟩
  | belief c =>
    cases el
    refine ⟨rfl, ?_⟩
    by_cases hf : s.full
    · exact .inr hf
    · obtain ⟨h1, h2, h3⟩ := hst.resolve_left hf
      exact .inl ((((h.good hs).home (not_le.1 hf) c h1).belief h3).trans h2)

theorem processImplication (h : Closed n I) {ref : EventRef} (hr : ∀ e, ref = .val e → e.Good n)
    (hst : ∀ {s}, I s → RefStays ref s) (now : Int) (b : Bool)
    {e : Event} (he : e.Good n) : Keeps I (ONA.processImplication n ref now b e) fun _ => True := by
  unfold ONA.processImplication
  refine Keeps.grow (J := fun ev s => RefTerm ref ev.term s ∧ ev.Good n) ?_ fun event => ?_
  · intro s hs ev s' el
    obtain ⟨rfl, h2⟩ := h.load_term hs (hst hs) ev s' el
    exact ⟨hs, h2, ((h.load hr).wp hs _ _ el).2.1⟩
  have hI : Closed n fun s => I s ∧ RefTerm ref event.term s ∧ event.Good n :=
    h.and fun hs hl st => ⟨((h.withRefTerm ref event.term).step ⟨hs, hl.1⟩ st).2, hl.2⟩
  refine Keeps.given fun s hs => ?_
  have hev := hs.2.2
  clear hs s
  refine Keeps.ite (fun _ => ?_) fun _ => Keeps.pure trivial
  dsimp only
  refine Keeps.grow (fun s hs => hI.conceptualize_lasting (hev.term.extract 2) now hs) fun target => ?_
  have hI2 := hI.lastingOf target (P := fun x => x.term = Term_ExtractSubterm event.term 2) fun g hx => g.term.trans hx
  cases target with
  | none => exact Keeps.pure trivial
  | some target =>
    refine Keeps.seq (hI2.modifyConcept _ _ fun s hs => hI2.useConcept hs _ _ _) fun _ => ?_
    refine Keeps.grow (J := fun ev s => ev.term = event.term ∨ s.full) ?_ fun event2 => ?_
    · intro s hs ev s' el
      obtain ⟨rfl, h2⟩ := h.reload_term hs.1.1 hs.1.2.1 ev s' el
      exact ⟨hs, h2⟩
    have hI3 := hI2.orFull (event2.term = event.term)
    refine Keeps.bind (hI3.linkSource event2.term (hev.term.extract 1)) fun src hsrc => ?_
    cases src with
    | none => exact Keeps.pure trivial
    | some src =>
      have hk := hsrc src rfl
      refine Keeps.grow (fun s hs => hI3.conceptualize_lasting hk now hs) fun source => ?_
      have hI4 := hI3.lastingOf source (P := fun x => x.term = src.2) fun g hx => g.term.trans hx
      cases source with
      | none => exact Keeps.pure trivial
      | some source =>
        refine Keeps.seq (hI4.modifyConcept _ _ fun s hs => hI4.useConcept hs _ _ _) fun _ => ?_
        refine Keeps.grow (J := fun ev s => (ev.term = event.term ∨ s.full) ∧ ev.Good n) ?_ fun event3 => ?_
        · intro s hs ev s' el
          obtain ⟨rfl, h2⟩ := h.reload_term hs.1.1.1.1 hs.1.1.1.2.1 ev s' el
          exact ⟨hs, h2, ((h.load hr).wp hs.1.1.1.1 _ _ el).2.1⟩
        have hI5 := (hI4.orFull (event3.term = event.term)).and (J := fun _ => event3.Good n) fun _ hl _ => hl
        refine Keeps.of_wp fun s hs => WP.get ?_
        have hs' := hs
        obtain ⟨⟨⟨⟨⟨hs0, hrt, -⟩, htgt⟩, hev2⟩, hsrc⟩, hev3, hg3⟩ := hs'
        refine WP.bind ((hI5.addLink target _ ⟨hg3.term, he.truth, he.stamp⟩ (s := s) ⟨⟨hs.1, hev3⟩, hg3⟩ ?_).mono ?_)
        · by_cases hf : s.full
          · exact .inl hf
          · right
            have e3 := hev3.resolve_right hf
            have e2 := hev2.resolve_right hf
            obtain ⟨ht1, ht2⟩ := (htgt target rfl).resolve_left hf
            obtain ⟨hs1, hs2⟩ := (hsrc source rfl).resolve_left hf
            refine ⟨?_, source, hs1, rfl, rfl⟩
            dsimp only; rw [e3, ht2]
        · rintro _ s' ⟨h1, -⟩
          exact WP.pure ⟨⟨h1.1.1, h1.1.2, h1.2⟩, trivial⟩

theorem cMAX_unit {a b : ℚ} (ha : InUnit a) (hb : InUnit b) : InUnit (cMAX a b) := by
  unfold cMAX
  split
  · exact ha
  · exact hb

theorem updateBeliefs (h : Closed n I) {event eternal : Event} (he : event.Good n) (hee : eternal.Good n) (het : eternal.type = .belief)
    (heo : eternal.occurrenceTime = OCCURRENCE_ETERNAL) (i : Nat)
    (hown : ∀ {s}, I s → s.full ∨ i ∈ s.live ∧ eternal.term = (s.concept_storage i).term) (now : Int)
    {p : ℚ} (hp : InUnit p) (b : Bool) : Keeps I (ONA.updateBeliefs n event eternal i now p b) fun _ => True := by
  unfold ONA.updateBeliefs
  have upd_good : ∀ {e : Event}, e.Good n → ({ e with creationTime := now } : Event).Good n := fun h => ⟨h.term, h.truth, h.stamp⟩
  extract_lets jp3 jp2 jp1
  have h3 : ∀ u, Keeps I (jp3 u) fun _ => True := by
    intro u
    dsimp only [jp3]
    refine Keeps.of_wp fun s hs => WP.get ?_
    refine WP.bind (WP.lift fun a e => ?_)
    refine WP.bind ((h.modifyConcept_wp hs (.belief _ _ a.2 now hee het heo ((hown hs).imp_right fun h => h.2) e)).mono ?_)
    intro _ s' hs'
    exact WP.pure hs'
  have h2 : ∀ u, Keeps I (jp2 u) fun _ => True := by
    intro u
    dsimp only [jp2]
    refine Keeps.ite (fun _ => Keeps.of_wp fun s hs => WP.get ?_) fun _ => h3 ()
    refine WP.bind (WP.lift fun a e => WP.bind ?_)
    refine (h.modifyConcept_wp hs (.predicted_belief _ (upd_good
      (((h.good hs).concepts i).predicted_belief.revisionAndChoice he e)))).mono ?_
    exact fun u s' hs' => (h3 u).wp hs'.1
  have h1 : ∀ u, Keeps I (jp1 u) fun _ => True := by
    intro u
    dsimp only [jp1]
    refine Keeps.seq (h.modifyConcept _ _ fun s hs => ?_) fun _ => ?_
    · have hg := (h.good hs).concepts i
      refine .attention _ _ _ _ _ _ ?_ (cMAX_unit hg.priority hp) .same
      have := hg.useCount
      unfold Usage_use ETERNAL_INPUT_USAGE_BOOST
      dsimp only
      split <;> omega
    refine Keeps.ite (fun _ => Keeps.of_wp fun s hs => WP.get ?_) fun _ => h2 ()
    refine WP.bind (WP.lift fun a e => WP.bind ?_)
    refine (h.modifyConcept_wp hs (.belief_spike _ (upd_good
      (((h.good hs).concepts i).belief_spike.revisionAndChoice he e)))).mono ?_
    exact fun u s' hs' => (h2 u).wp hs'.1
  refine Keeps.ite (fun _ => ?_) fun _ => h1 ()
  exact Keeps.seq (Keeps.modify fun s hs => h.internal hs ((hown hs).imp_right fun h => h.1)) fun _ => h1 ()

theorem effectivePriority_scale {event : Event} {p q : ℚ} {input revised : Bool}
    (e : effectivePriority event p input revised = .ok q) : q = p ∨ ∃ w, InUnit w ∧ q = fmul p w := by
  unfold effectivePriority at e
  split at e
  · rw [R.bind_eq_ok] at e
    obtain ⟨w, e1, e2⟩ := e
    cases e2
    unfold fdiv at e1
    split at e1
    · cases e1
    · rename_i hne
      cases e1
      by_cases hc : Term_Complexity event.term = 0
      · exfalso
        apply hne
        rw [hc]
        have : fadd 1 ((0 : Nat) : ℚ) = 1 := by
          unfold fadd
          have := rnd_one
          simpa using this
        rw [this, Arith.log2_one]
      · have h1 : (2 : ℚ) ≤ fadd 1 (Term_Complexity event.term : ℚ) := by
          have h2 : (1 : ℚ) ≤ (Term_Complexity event.term : ℚ) := by exact_mod_cast Nat.one_le_iff_ne_zero.2 hc
          have h3 := rnd_mono (show (2 : ℚ) ≤ 1 + (Term_Complexity event.term : ℚ) by linarith)
          have h4 := rnd_nat 2 (by norm_num)
          unfold fadd
          calc (2 : ℚ) = ((2 : ℕ) : ℚ) := by norm_num
            _ = rnd ((2 : ℕ) : ℚ) := h4.symm
            _ = rnd 2 := by norm_num
            _ ≤ _ := h3
        have h2 := Arith.log2_ge_one h1
        have h5 : rnd (1 / Arith.log2 (fadd 1 (Term_Complexity event.term : ℚ))) ≤ 1 := by
          apply rnd_le_one
          rw [div_le_one (by linarith)]
          exact h2
        have h6 : 0 ≤ rnd (1 / Arith.log2 (fadd 1 (Term_Complexity event.term : ℚ))) := rnd_nonneg (by positivity)
        exact .inr ⟨_, ⟨h6, h5⟩, rfl⟩
  · cases e; exact .inl rfl

theorem effectivePriority_le {event : Event} {p q : ℚ} {input revised : Bool} (hp : p ≤ 1)
    (e : effectivePriority event p input revised = .ok q) : q ≤ 1 := by
  rcases effectivePriority_scale e with rfl | ⟨w, hw, rfl⟩
  · exact hp
  · obtain ⟨h5, h6⟩ := hw
    apply rnd_le_one
    nlinarith

/-- Functions which only read. -/
def Reads {α : Type} (x : M α) : Prop := ∀ s a s', x s = .ok (a, s') → s' = s

theorem reads_find (t : Term) : Reads (Memory_FindConceptByTerm t) := by
  intro s a s' h
  unfold Memory_FindConceptByTerm at h
  rw [M.bind_ok] at h
  obtain ⟨_, _, e2, e3⟩ := h
  obtain ⟨rfl, rfl⟩ := M.get_ok.1 e2
  exact (M.lift_ok.1 e3).2.symm

theorem reads_containsBeliefOrGoal (e : Event) : Reads (Memory_containsBeliefOrGoal e) := by
  intro s a s' h
  unfold Memory_containsBeliefOrGoal at h
  rw [M.bind_ok] at h
  obtain ⟨r, s1, e1, h⟩ := h
  have := reads_find _ _ _ _ e1
  subst this
  cases r with
  | none => exact (M.pure_ok.1 h).2.symm
  | some i =>
    dsimp only at h
    rw [M.bind_ok] at h
    obtain ⟨_, _, e2, h⟩ := h
    obtain ⟨rfl, rfl⟩ := M.get_ok.1 e2
    split at h
    · split at h
      · exact (M.pure_ok.1 h).2.symm
      · exact (M.pure_ok.1 h).2.symm
    · exact (M.pure_ok.1 h).2.symm

theorem reads_strongerBeliefKnown (e : Event) : Reads (strongerBeliefKnown e) := by
  intro s a s' h
  unfold strongerBeliefKnown at h
  rw [M.bind_ok] at h
  obtain ⟨r, s1, e1, h⟩ := h
  have := reads_find _ _ _ _ e1
  subst this
  cases r with
  | none => exact (M.pure_ok.1 h).2.symm
  | some i =>
    dsimp only at h
    rw [M.bind_ok] at h
    obtain ⟨_, _, e2, h⟩ := h
    obtain ⟨rfl, rfl⟩ := M.get_ok.1 e2
    exact (M.pure_ok.1 h).2.symm

theorem _root_.ONA.WP.reads {α β : Type} {x : M α} {f : α → M β} {Q : β → Sys → Prop} {s : Sys} (hx : Reads x)
    (h : ∀ a, x s = .ok (a, s) → WP (f a) Q s) : WP (x >>= f) Q s := by
  refine WP.bind ?_
  intro a s' e
  have := hx _ _ _ e
  subst this
  exact h a e

theorem addCyclingEvent (h : Closed n I) {e : Event} (he : e.Good n) {p : ℚ} (layer : Nat)
    (hc : MIN_CONFIDENCE ≤ e.truth.confidence) (htime : e.type = .goal → e.occurrenceTime ≠ OCCURRENCE_ETERNAL)
    (hp : 0 < p) (hp1 : p ≤ 1) : Keeps I (Memory_addCyclingEvent e p layer) fun _ => True := by
  unfold Memory_addCyclingEvent
  refine Keeps.of_wp fun s hs => ?_
  refine WP.bind (WP.lift fun _ ha => ?_)
  have ha := cassert_eq_ok.1 ha
  refine WP.get ?_
  refine WP.ite (fun _ => WP.pure ⟨hs, trivial⟩) fun h1 => ?_
  refine WP.reads (reads_containsBeliefOrGoal e) fun b _ => ?_
  refine WP.ite (fun _ => WP.pure ⟨hs, trivial⟩) fun _ => ?_
  refine WP.ite (fun _ => WP.pure ⟨hs, trivial⟩) fun h2 => ?_
  refine WP.reads (reads_strongerBeliefKnown e) fun b _ => ?_
  refine WP.ite (fun _ => WP.pure ⟨hs, trivial⟩) fun _ => ?_
  refine WP.ite (fun ht => ?_) fun ht => ?_
  · intro b s' epush
    refine ⟨h.step hs (.pushBelief e p b s' he ht hc hp hp1 ?_ epush), trivial⟩
    rw [decide_eq_true ht, Bool.true_and] at h1
    exact Bool.not_eq_true _ ▸ h1
  · have hg : e.type = .goal := by
      rw [decide_eq_false ht, Bool.false_or] at ha
      exact of_decide_eq_true ha
    intro b s' epush
    refine ⟨h.step hs (.pushGoal e p _ b s' he hg (htime hg) hc hp hp1 ?_ ?_ epush), trivial⟩
    · unfold CYCLING_GOAL_EVENTS_LAYERS
      omega
    · rw [decide_eq_true hg, Bool.true_and] at h2
      have h2 := Bool.not_eq_true _ ▸ h2
      rw [List.any_eq_false] at h2
      intro l hl
      have := h2 l (List.mem_range.2 hl)
      exact Bool.not_eq_true _ ▸ this

/-- The event read through the pointer is a belief. -/
def RefIsBelief (ref : EventRef) (s : Sys) : Prop :=
  match ref with
  | .val e => e.type = .belief
  | .belief c => (s.concept_storage c).belief.type = .belief

omit [Arith] in
theorem load_ok {ref : EventRef} {s s' : Sys} {e : Event} (h : ref.load s = .ok (e, s')) :
    s' = s ∧ (RefIsBelief ref s ↔ e.type = .belief) := by
  cases ref with
  | val e => cases h; exact ⟨rfl, Iff.rfl⟩
  | belief c => cases h; exact ⟨rfl, Iff.rfl⟩

omit [Arith] in
theorem RefIsBelief.congr {ref : EventRef} {s s' : Sys} (h : RefIsBelief ref s) (hs : s'.concept_storage = s.concept_storage) :
    RefIsBelief ref s' := by
  cases ref with
  | val e => exact h
  | belief c => unfold RefIsBelief; rw [hs]; exact h

theorem addCyclingEvent_concepts {e : Event} {p : ℚ} {layer : Nat} {s : Sys} :
    WP (Memory_addCyclingEvent e p layer) (fun _ s' => s'.concept_storage = s.concept_storage) s := by
  unfold Memory_addCyclingEvent
  refine WP.bind (WP.lift fun _ ha => ?_)
  refine WP.get ?_
  refine WP.ite (fun _ => WP.pure rfl) fun h1 => ?_
  refine WP.reads (reads_containsBeliefOrGoal e) fun b _ => ?_
  refine WP.ite (fun _ => WP.pure rfl) fun _ => ?_
  refine WP.ite (fun _ => WP.pure rfl) fun h2 => ?_
  refine WP.reads (reads_strongerBeliefKnown e) fun b _ => ?_
  refine WP.ite (fun _ => WP.pure rfl) fun _ => ?_
  refine WP.ite (fun ht => ?_) fun ht => ?_
  · intro b s' epush
    obtain ⟨q, st, rfl⟩ := pushBelief_shape epush
    rfl
  · intro b s' epush
    obtain ⟨q, st, rfl⟩ := pushGoal_shape epush
    rfl

theorem eternalized_type {e e' : Event} (h : Event_Eternalized e = .ok e') : e'.type = e.type := by
  unfold Event_Eternalized at h
  split at h
  · rw [R.bind_eq_ok] at h
    obtain ⟨t, _, e2⟩ := h
    cases e2
    rfl
  · cases h; rfl

theorem eternalized_time {e e' : Event} (h : Event_Eternalized e = .ok e') : e'.occurrenceTime = OCCURRENCE_ETERNAL := by
  unfold Event_Eternalized at h
  split at h
  · rw [R.bind_eq_ok] at h
    obtain ⟨t, _, e2⟩ := h
    cases e2
    rfl
  · rename_i hn
    cases h
    exact not_not.1 hn

theorem eternalized_term {e e' : Event} (h : Event_Eternalized e = .ok e') : e'.term = e.term := by
  unfold Event_Eternalized at h
  split at h
  · rw [R.bind_eq_ok] at h
    obtain ⟨t, _, e2⟩ := h
    cases e2
    rfl
  · cases h; rfl

/-- Afterwards the concept has a belief. -/
theorem updateBeliefs_belief {event eternal : Event} (het : eternal.type = .belief) (i : Nat) (now : Int)
    (p : ℚ) (b : Bool) (s : Sys) :
    WP (ONA.updateBeliefs n event eternal i now p b) (fun _ s' => (s'.concept_storage i).belief.type ≠ .deleted) s := by
  unfold ONA.updateBeliefs
  extract_lets jp3 jp2 jp1
  have h3 : ∀ u s, WP (jp3 u) (fun _ s' => (s'.concept_storage i).belief.type ≠ .deleted) s := by
    intro u s
    dsimp only [jp3]
    refine WP.get ?_
    refine WP.bind (WP.lift fun a e => ?_)
    refine WP.bind (WP.modify (WP.pure ?_))
    dsimp only
    rw [upd_same]
    show a.1.type ≠ .deleted
    by_cases hd : (s.concept_storage i).belief.type = .deleted
    · have : a = (eternal, false) := by
        unfold Inference_RevisionAndChoice at e
        rw [if_pos hd] at e
        cases e
        rfl
      rw [this, het]
      exact fun h => by cases h
    · rcases revisionAndChoice_type e with h1 | h1 <;> rw [h1]
      · exact hd
      · rw [het]; exact fun h => by cases h
  have h2 : ∀ u s, WP (jp2 u) (fun _ s' => (s'.concept_storage i).belief.type ≠ .deleted) s := by
    intro u s
    dsimp only [jp2]
    refine WP.ite (fun _ => WP.get ?_) fun _ => h3 () s
    refine WP.bind (WP.lift fun a e => WP.bind (WP.modify ?_))
    exact h3 () _
  have h1 : ∀ u s, WP (jp1 u) (fun _ s' => (s'.concept_storage i).belief.type ≠ .deleted) s := by
    intro u s
    dsimp only [jp1]
    refine WP.bind (WP.modify ?_)
    refine WP.ite (fun _ => WP.get ?_) fun _ => h2 () _
    refine WP.bind (WP.lift fun a e => WP.bind (WP.modify ?_))
    exact h2 () _
  refine WP.ite (fun _ => ?_) fun _ => h1 () s
  exact WP.bind (WP.modify (h1 () _))

theorem newBeliefRest (h : Closed n I) {add : EventRef → ℚ → M Unit}
    (hadd : ∀ (c : Nat) (p : ℚ) {J : Sys → Prop}, Closed n J → InUnit p → (∀ {s}, J s → Lasting c (fun x => x.belief.type ≠ .deleted) s) →
      Keeps J (add (.belief c) p) fun _ => True)
    {ref : EventRef} (hr : ∀ e, ref = .val e → e.Good n ∧ e.type ≠ .goal) {event eternal : Event} (hee : eternal.Good n)
    (het : eternal.type = .belief) (heq : Event_Eternalized event = .ok eternal)
    (now : Int) {p : ℚ} (hp : InUnit p) (eternalInput b : Bool) :
    Keeps (fun s => I s ∧ RefTerm ref event.term s) (do
      if b then
        let event ← ref.load
        if !Narsese_copulaEquals n (event.term.get 0) TEMPORAL_IMPLICATION then
          match (← Memory_Conceptualize n event.term now) with
          | none => pure ()
          | some i =>
            let event ← ref.load
            if (← ONA.updateBeliefs n event eternal i now p eternalInput) then
              add (.belief i) p : M Unit) fun _ => True := by
  have hI := h.withRefTerm ref event.term
  have hterm := eternalized_term heq
  refine Keeps.ite (fun _ => ?_) fun _ => Keeps.pure trivial
  refine Keeps.grow (J := fun ev s => (ev.term = event.term ∨ s.full) ∧ ev.Good n) ?_ fun event2 => ?_
  · intro s hs ev s' el
    obtain ⟨rfl, h2⟩ := h.reload_term hs.1 hs.2 ev s' el
    exact ⟨hs, h2, ((h.loadBelief hr).wp hs.1 _ _ el).2.1⟩
  refine Keeps.given fun s hs => ?_
  have hev2 := hs.2.2
  clear hs s
  have hI2 : Closed n fun s => (I s ∧ RefTerm ref event.term s) ∧ (event2.term = event.term ∨ s.full) ∧ event2.Good n :=
    hI.and fun hs hl st => ⟨((hI.orFull _).step ⟨hs, hl.1⟩ st).2, hl.2⟩
  refine Keeps.ite (fun _ => ?_) fun _ => Keeps.pure trivial
  refine Keeps.grow (fun s hs => hI2.conceptualize_lasting hev2.term now hs) fun c => ?_
  have hI3 := hI2.lastingOf c (P := fun x => x.term = event2.term) fun g hx => g.term.trans hx
  cases c with
  | none => exact Keeps.pure trivial
  | some i =>
    refine Keeps.bind (hI3.loadBelief hr) fun event3 hev3 => ?_
    refine Keeps.grow (J := fun _ s => Lasting i (fun x => x.belief.type ≠ .deleted) s) ?_ fun b => ?_
    · intro s hs b s' e
      have h1 := ((hI3.updateBeliefs hev3.1 hee het (eternalized_time heq) i (fun {s} hs => ?_) now hp _).wp hs b s' e).1
      · refine ⟨h1, ?_⟩
        exact (h1.2 i rfl).imp_right fun h2 => ⟨h2.1, updateBeliefs_belief het i now p _ s b s' e⟩
      · by_cases hf : s.full
        · exact .inl hf
        · right
          obtain ⟨h1, h2⟩ := (hs.2 i rfl).resolve_left hf
          exact ⟨h1, by rw [h2, hterm, (hs.1.2.1).resolve_right hf]⟩
    · refine Keeps.ite (fun _ => ?_) fun _ => Keeps.pure trivial
      exact hadd i p (hI3.lasting i fun g hx => g.belief hx) hp fun hs => hs.2

theorem processNewBelief (h : Closed n I) {add : EventRef → ℚ → M Unit}
    (hadd : ∀ (c : Nat) (p : ℚ) {J : Sys → Prop}, Closed n J → InUnit p → (∀ {s}, J s → Lasting c (fun x => x.belief.type ≠ .deleted) s) →
      Keeps J (add (.belief c) p) fun _ => True)
    {ref : EventRef} (hr : ∀ e, ref = .val e → e.Good n ∧ e.type ≠ .goal) (hst : ∀ {s}, I s → RefStays ref s)
    (now : Int) {p : ℚ} (hp : InUnit p) (input : Bool)
    {s : Sys} (hs : I s) (hb : RefIsBelief ref s) :
    WP (Memory_ProcessNewBeliefEvent n add ref now p input) (fun _ s' => I s' ∧ True) s := by
  unfold Memory_ProcessNewBeliefEvent
  refine WP.bind fun event s1 el => ?_
  have hev := (h.loadBelief hr).wp hs _ _ el
  have hbt := (load_ok el).2.1 hb
  obtain ⟨rfl, hrt⟩ := h.load_term hs (hst hs) event s1 el
  have hI := h.withRefTerm ref event.term
  refine WP.mono (Q := fun _ s' => (I s' ∧ RefTerm ref event.term s') ∧ True) ?_ fun _ s' h' => ⟨h'.1.1, trivial⟩
  refine Keeps.wp (I := fun s => I s ∧ RefTerm ref event.term s) ?_ ⟨hs, hrt⟩
  replace hev := hev.2
  extract_lets
  refine Keeps.bind_lift fun eternal heq => ?_
  have hee := hev.1.eternalized heq
  have het : eternal.type = .belief := by rw [eternalized_type heq]; exact hbt
  exact Keeps.seq (hI.processImplication (fun e he => (hr e he).1) (fun hs => hst hs.1) _ _ hee) fun b => h.newBeliefRest hadd hr hee het heq now hp _ b

theorem addEventRef : ∀ (fuel : Nat) {I : Sys → Prop} (_ : Closed n I) {ref : EventRef}, (∀ e, ref = .val e → e.Good n) →
    (∀ {s}, I s → RefStays ref s) → ∀ (now : Int) {p : ℚ}, p ≤ 1 → ∀ (input revised : Bool) (layer : Nat),
    Keeps I (Memory_AddEvent n fuel ref now p input revised layer) fun _ => True := by
  intro fuel
  induction fuel with
  | zero => intros; exact Keeps.throw
  | succ k ih =>
    intro I h ref hr hst now p hp input revised layer
    unfold Memory_AddEvent
    refine Keeps.of_wp fun s hs => ?_
    refine WP.bind fun event s1 el => ?_
    have hev := ((h.load hr).wp hs _ _ el).2
    obtain ⟨rfl, hbel⟩ := load_ok el
    refine WP.get ?_
    refine WP.bind (WP.mono (Q := fun _ s' => s' = s1) (by
      intro r s' e
      unfold Memory_FindConceptByTerm at e
      rw [M.bind_ok] at e
      obtain ⟨_, _, e1, e2⟩ := e
      obtain ⟨rfl, rfl⟩ := M.get_ok.1 e1
      exact (M.lift_ok.1 e2).2.symm) fun r s' hs' => ?_)
    subst hs'
    refine WP.ite (fun _ => WP.pure ⟨hs, trivial⟩) fun _ => ?_
    refine WP.bind (WP.lift fun q hq => ?_)
    refine WP.ite (fun _ => WP.pure ⟨hs, trivial⟩) fun hlow => ?_
    rw [Bool.not_eq_true, Bool.or_eq_false_iff, decide_eq_false_iff_not, decide_eq_false_iff_not, not_lt, not_le] at hlow
    have hq1 : q ≤ 1 := effectivePriority_le hp hq
    have hqu : InUnit q := ⟨hlow.2.le, hq1⟩
    extract_lets jp1 jp2
    have h1 : ∀ u, Keeps I (jp1 u) fun _ => True := by
      intro u
      dsimp only [jp1]
      refine Keeps.bind (h.load hr) fun event' hev' => ?_
      refine Keeps.ite (fun hgoal => ?_) fun _ => Keeps.lift fun _ _ => trivial
      by_cases htime : event'.occurrenceTime = OCCURRENCE_ETERNAL
      · refine Keeps.of_wp fun s2 hs2 => WP.bind fun _ _ _ => WP.bind (WP.lift fun _ ha => ?_)
        exact absurd htime (of_decide_eq_true (cassert_eq_ok.1 ha))
      refine Keeps.seq (Q := fun _ => True) ?_ fun _ => ?_
      · refine h.addCyclingEvent hev'.1 _ ?_ (fun _ => htime) hlow.2 hq1
        cases ref with
        | val e => rw [hev'.2.1 e rfl, ← hev.2.1 e rfl]; exact hlow.1
        | belief c => exact absurd hgoal (hev'.2.2 c rfl)
      · exact Keeps.bind_lift fun _ _ => Keeps.lift fun _ _ => trivial
    have h2 : event.type = .belief → ∀ s, I s → RefIsBelief ref s → WP (Memory_ProcessNewBeliefEvent n
        (fun ref priority => Memory_AddEvent n k ref now priority false true 0) ref now q input) (fun _ s' => I s' ∧ True) s :=
      fun htype s hs hb => h.processNewBelief (fun c p J hJ hp hst => ih hJ (by rintro e ⟨⟩) hst now hp.2 false true 0) (fun e he => ⟨hr e he, by
        rw [← hev.2.1 e he, htype]; exact fun h => by cases h⟩) hst now hqu input hs hb
    refine WP.ite (fun htype => ?_) fun _ => (h1 ()).wp hs
    refine WP.ite (fun _ => ?_) fun _ => WP.bind ((h2 htype _ hs (hbel.2 htype)).mono fun _ s' hs' => (h1 ()).wp hs'.1)
    refine WP.bind ((((h.addCyclingEvent hev.1 _ hlow.1 (fun hg => by rw [htype] at hg; cases hg) hlow.2 hq1).wp hs).and addCyclingEvent_concepts).mono fun _ s' hs' => ?_)
    exact WP.bind ((h2 htype _ hs'.1.1 ((hbel.2 htype).congr hs'.2)).mono fun _ s' hs' => (h1 ()).wp hs'.1)

end Closed
end ONA
