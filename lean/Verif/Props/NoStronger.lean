import Verif.Props.Anticipation
import Verif.Props.Truth
/-
C79: anticipation does not make any link stronger, and adds no knowledge.
-/
namespace ONA

section
variable [Arith]
variable {n : Narsese}

/-- Negative evidence does not make more likely. -/
def Lowering : Prop :=
  ∀ (old v t : Truth), old.Valid → v.Valid → v.frequency = 0 → Truth_Revision old v = .ok t → t.frequency ≤ old.frequency

theorem NoStronger.refl (s : Sys) : NoStronger s s :=
  ⟨fun _ h => h, fun _ _ => rfl, fun _ _ _ l hl => ⟨l, hl, rfl, le_refl _⟩, fun _ _ => List.Sublist.refl _, fun _ _ => rfl,
    fun _ _ => rfl, fun _ h h' => absurd h h'⟩

theorem NoStronger.trans {s s1 s' : Sys} (h : NoStronger s s1) (h' : NoStronger s1 s') : NoStronger s s' := by
  refine ⟨fun c hc => h'.live c (h.live c hc), fun c hc => (h'.term c (h.live c hc)).trans (h.term c hc), ?_, ?_, ?_, ?_, ?_⟩
  · intro c hc op l hl
    obtain ⟨l1, h1, h2, h3⟩ := h'.links c (h.live c hc) op l hl
    obtain ⟨l0, h4, h5, h6⟩ := h.links c hc op l1 h1
    exact ⟨l0, h4, h2.trans h5, h3.trans h6⟩
  · exact fun c hc => (h'.implications c (h.live c hc)).trans (h.implications c hc)
  · exact fun c hc => (h'.belief c (h.live c hc)).trans (h.belief c hc)
  · exact fun c hc => (h'.goal c (h.live c hc)).trans (h.goal c hc)
  · intro c hc hn
    by_cases h1 : c ∈ s1.live
    · obtain ⟨k1, k2, k3, k4⟩ := h.new c h1 hn
      refine ⟨fun op => ?_, ?_, ?_, ?_⟩
      · refine List.eq_nil_iff_forall_not_mem.2 fun l hl => ?_
        obtain ⟨l0, h2, _⟩ := h'.links c h1 op l hl
        rw [k1 op] at h2
        cases h2
      · have := h'.implications c h1
        rw [k2] at this
        exact List.sublist_nil.1 this
      · rw [h'.belief c h1]; exact k3
      · rw [h'.goal c h1]; exact k4
    · exact h'.new c hc h1

/-- The links stay. -/
def SameLinks (s s' : Sys) : Prop := ∀ c ∈ s.live, ∀ op, ∀ l ∈ s.linksFor c op, ∃ x ∈ s'.linksFor c op, x.term = l.term

/-- No stronger, unless the memory is full. -/
structure Milder (s s' : Sys) : Prop where
  full : s.full → s'.full
  weaker : s'.full ∨ NoStronger s s'

theorem Milder.refl (s : Sys) : Milder s s := ⟨fun h => h, .inr (.refl s)⟩

theorem Milder.trans {s s1 s' : Sys} (h : Milder s s1) (h' : Milder s1 s') : Milder s s' := by
  refine ⟨fun hf => h'.full (h.full hf), ?_⟩
  rcases h'.weaker with hf | hw'
  · exact .inl hf
  · rcases h.weaker with hf | hw
    · exact .inl (h'.full hf)
    · exact .inr (hw.trans hw')

/-- A change of one concept. -/
theorem noStronger_concept {s : Sys} {c : Nat} {x : Concept} (ht : x.term = s.termOf c)
    (hl : ∀ op, ∀ l ∈ (x.precondition_beliefs op).entries, ∃ l0 ∈ s.linksFor c op, l.term = l0.term ∧ l.truth.frequency ≤ l0.truth.frequency)
    (hi : x.implication_links.entries.Sublist (s.concept_storage c).implication_links.entries)
    (hb : x.belief = (s.concept_storage c).belief) (hg : x.goal_spike = (s.concept_storage c).goal_spike) :
    NoStronger s (s.withConcept c x) := by
  have key : ∀ d, (s.withConcept c x).concept_storage d = if d = c then x else s.concept_storage d := fun d => upd_apply _ _ _ _
  refine ⟨fun _ h => h, fun d _ => ?_, fun d _ op l hl' => ?_, fun d _ => ?_, fun d _ => ?_, fun d _ => ?_, fun _ h h' => absurd h h'⟩
  · unfold Sys.termOf
    rw [key]
    split
    · rename_i h; subst h; exact ht
    · rfl
  · unfold Sys.linksFor at hl'
    rw [key] at hl'
    split at hl'
    · rename_i h; subst h; exact hl op l hl'
    · exact ⟨l, hl', rfl, le_refl _⟩
  · rw [key]
    split
    · rename_i h; subst h; exact hi
    · exact List.Sublist.refl _
  · rw [key]
    split
    · rename_i h; subst h; exact hb
    · rfl
  · rw [key]
    split
    · rename_i h; subst h; exact hg
    · rfl

theorem noted_milder {now : Int} {link : Implication} {p c : Nat} {e : Event} {s s' : Sys} (h : Noted n now link p c e s s') :
    Milder s s' ∧ SameLinks s s' := by
  have same : ∀ {x : Concept}, x.term = s.termOf c → x.precondition_beliefs = (s.concept_storage c).precondition_beliefs →
      x.implication_links = (s.concept_storage c).implication_links → x.belief = (s.concept_storage c).belief →
      x.goal_spike = (s.concept_storage c).goal_spike → Milder s (s.withConcept c x) ∧ SameLinks s (s.withConcept c x) := by
    intro x h1 h2 h3 h4 h5
    refine ⟨⟨fun h => h, .inr (noStronger_concept h1 ?_ (by rw [h3]) h4 h5)⟩, ?_⟩
    · intro op l hl
      rw [h2] at hl
      exact ⟨l, hl, rfl, le_refl _⟩
    · intro d _ op l hl
      refine ⟨l, ?_, rfl⟩
      unfold Sys.linksFor at hl ⊢
      show l ∈ ((upd s.concept_storage c x d).precondition_beliefs op).entries
      rw [upd_apply]
      split
      · rename_i h; subst h; rw [h2]; exact hl
      · exact hl
  cases h with
  | dependent => exact ⟨.refl _, fun _ _ _ l hl => ⟨l, hl, rfl⟩⟩
  | predicted b w _ _ _ => exact same rfl rfl rfl rfl rfl
  | known _ _ _ => exact same rfl rfl rfl rfl rfl
  | inferred b w _ _ _ _ => exact same rfl rfl rfl rfl rfl

theorem conceptualized_milder {s s' : Sys} (h : MemInv n s) {t : Term} {now : Int} {r : Option Nat}
    (e : Memory_Conceptualize n t now s = .ok (r, s')) : Milder s s' ∧ (s'.full ∨ SameLinks s s') := by
  have hlen : s.concepts.contents.length = s.live.length := by simp [Sys.live]
  cases (conceptualize_cases h e).1 with
  | known c _ _ => exact ⟨.refl _, .inr fun _ _ _ l hl => ⟨l, hl, rfl⟩⟩
  | room c q ht idx h1 h2 h3 h4 h5 h6 =>
    have hlive : ∀ d, d ∈ q.contents.map (·.address) ↔ d = c ∨ d ∈ s.live := by
      intro d
      rw [(h5.map _).mem_iff]
      simp [Sys.live]
    have key : ∀ d, upd s.concept_storage c (s.newConcept t now) d = if d = c then s.newConcept t now else s.concept_storage d :=
      fun d => upd_apply _ _ _ _
    have hne : ∀ d ∈ s.live, d ≠ c := fun d hd hdc => h3 (hdc ▸ hd)
    refine ⟨⟨?_, .inr ⟨fun d hd => (hlive d).2 (.inr hd), fun d hd => ?_, fun d hd op l hl => ?_, fun d hd => ?_, fun d hd => ?_, fun d hd => ?_,
      fun d hd hn => ?_⟩⟩, .inr fun d hd op l hl => ⟨l, ?_, rfl⟩⟩
    · intro hf
      exfalso
      unfold Sys.full at hf
      rw [hlen] at hf
      unfold Sys.capacity at h2
      omega
    · unfold Sys.termOf
      dsimp only
      rw [key, if_neg (hne d hd)]
    · refine ⟨l, ?_, rfl, le_refl _⟩
      unfold Sys.linksFor at hl ⊢
      dsimp only at hl
      rw [key, if_neg (hne d hd)] at hl
      exact hl
    · dsimp only
      rw [key, if_neg (hne d hd)]
    · dsimp only
      rw [key, if_neg (hne d hd)]
    · dsimp only
      rw [key, if_neg (hne d hd)]
    · have hdc : d = c := by
        rcases (hlive d).1 hd with h | h
        · exact h
        · exact absurd h hn
      unfold Sys.linksFor
      dsimp only
      rw [key, if_pos hdc]
      exact ⟨fun _ => rfl, rfl, rfl, rfl⟩
    · unfold Sys.linksFor at hl ⊢
      dsimp only
      rw [key, if_neg (hne d hd)]
      exact hl
  | evict e rest q ht idx h1 h2 h3 h4 h5 h6 h7 =>
    have hf : q.maxElements ≤ q.contents.length := by
      rw [h6, ← h2, ← hlen, h4.length_eq, h5.length_eq]
      simp
    exact ⟨⟨fun _ => hf, .inl hf⟩, .inl hf⟩
  | refused _ _ _ => exact ⟨.refl _, .inr fun _ _ _ l hl => ⟨l, hl, rfl⟩⟩

theorem SameLinks.trans {s s1 s' : Sys} (hl : ∀ c ∈ s.live, c ∈ s1.live) (h : SameLinks s s1) (h' : SameLinks s1 s') : SameLinks s s' := by
  intro c hc op l hx
  obtain ⟨x, h1, h2⟩ := h c hc op l hx
  obtain ⟨y, h3, h4⟩ := h' c (hl c hc) op x h1
  exact ⟨y, h3, h4.trans h2⟩

theorem foresees_milder {now : Int} {link : Implication} {p : Nat} {r : Event} {s s' : Sys} (hg : MemInv n s)
    (h : Foresees n now link p r s s') : Milder s s' ∧ (s'.full ∨ SameLinks s s') := by
  cases h with
  | different => exact ⟨.refl _, .inr fun _ _ _ l hl => ⟨l, hl, rfl⟩⟩
  | large => exact ⟨.refl _, .inr fun _ _ _ l hl => ⟨l, hl, rfl⟩⟩
  | refused subs t _ _ _ _ e => exact conceptualized_milder hg e
  | noted subs t c s1 s' _ _ _ e hn =>
    obtain ⟨h1, h2⟩ := conceptualized_milder hg e
    obtain ⟨h3, h4⟩ := noted_milder hn
    refine ⟨h1.trans h3, ?_⟩
    rcases h3.weaker with hf | hw
    · exact .inl hf
    · rcases h2 with hf | h2
      · exact .inl (h3.full hf)
      · rcases h1.weaker with hf | hw1
        · exact .inl (h3.full hf)
        · exact .inr (h2.trans hw1.live h4)

theorem disappointment_zero {s : Sys} (hg : Good n s) {e : Event} (he : e.Good n) {link : Implication} {v : Truth} (h : Disappointment s e link v) :
    v.Valid ∧ v.frequency = 0 := by
  obtain ⟨i, h1, h2⟩ := h
  have hv := Truth_Induction_valid (Truth.Valid.mk' unit01_zero hg.anticipation) (Truth_Projection_valid he.truth _ _) h1
  refine ⟨Truth_Eternalize_valid hv h2, ?_⟩
  unfold Truth_Induction Truth_Abduction at h1
  rw [R.bind_eq_ok] at h1
  obtain ⟨_, _, h1⟩ := h1
  cases h1
  unfold Truth_Eternalize at h2
  rw [R.bind_eq_ok] at h2
  obtain ⟨_, _, h2⟩ := h2
  cases h2
  rfl

theorem weakens_milder (hlow : Lowering) {op c : Nat} {link : Implication} {v : Truth} {s s' : Sys} (hg : Good n s) (hv : v.Valid) (h0 : v.frequency = 0)
    (hk : ∃ x ∈ s.linksFor c op, x.term = link.term) (h : Weakens op c link v s s') : Milder s s' ∧ SameLinks s s' := by
  obtain ⟨t, rfl, h1, _⟩ := h
  obtain ⟨old, ho, hterm⟩ := hk
  obtain ⟨l, k1, k2, _, _, k3⟩ := h1 old ho hterm
  have hlow := hlow old.truth v l.truth (((hg.concepts c).precondition_beliefs op).good old ho).truth hv h0 k2
  refine ⟨⟨fun h => h, .inr (noStronger_concept rfl ?_ (List.Sublist.refl _) rfl rfl)⟩, ?_⟩
  · intro op' x hx
    dsimp only at hx
    rw [upd_apply] at hx
    split at hx
    · rename_i h
      subst h
      rw [k3.mem_iff, List.mem_cons] at hx
      rcases hx with rfl | hx
      · exact ⟨old, ho, k1.trans hterm.symm, hlow⟩
      · exact ⟨x, (List.mem_filter.1 hx).1, rfl, le_refl _⟩
    · exact ⟨x, hx, rfl, le_refl _⟩
  · intro d _ op' x hx
    unfold Sys.linksFor at hx ⊢
    show ∃ y ∈ ((upd s.concept_storage c _ d).precondition_beliefs op').entries, _
    rw [upd_apply]
    split
    · rename_i h
      subst h
      dsimp only
      rw [upd_apply]
      split
      · rename_i h
        subst h
        by_cases hxt : x.term = link.term
        · exact ⟨l, k3.mem_iff.2 (List.mem_cons_self ..), k1.trans hxt.symm⟩
        · exact ⟨x, k3.mem_iff.2 (List.mem_cons_of_mem _ (List.mem_filter.2 ⟨hx, by simpa using hxt⟩)), rfl⟩
      · exact ⟨x, hx, rfl⟩
    · exact ⟨x, hx, rfl⟩

theorem weakens_mem {op c : Nat} {link : Implication} {v : Truth} {s s' : Sys} (hg : Good n s) (h : Weakens op c link v s s') : MemInv n s' := by
  obtain ⟨t, rfl, _⟩ := h
  have key : ∀ d x, upd s.concept_storage c x d = if d = c then x else s.concept_storage d := fun d x => upd_apply _ _ _ _
  refine hg.mem.congr rfl rfl rfl rfl (fun d _ => ?_) fun d _ => ?_
  · unfold Sys.termOf
    dsimp only
    rw [key]
    split
    · rename_i h; subst h; rfl
    · rfl
  · unfold Sys.idOf
    dsimp only
    rw [key]
    split
    · rename_i h; subst h; rfl
    · rfl

theorem handled_milder (hlow : Lowering) {op : Nat} {opTerm : Term} {now : Int} {c : Nat} {link : Implication} {s s' : Sys} (hg : Good n s)
    (hk : ∃ x ∈ s.linksFor c op, x.term = link.term)
    (h : Handled n op opTerm now c link s s') : Milder s s' ∧ (s'.full ∨ SameLinks s s') := by
  cases h with
  | nothing => exact ⟨.refl _, .inr fun _ _ _ l hl => ⟨l, hl, rfl⟩⟩
  | temporal p r v s1 s' hx _ hd hw hf =>
    obtain ⟨hv, h0⟩ := disappointment_zero hg (hg.concepts p).belief_spike hd
    obtain ⟨h1, h2⟩ := weakens_milder hlow hg hv h0 hk hw
    obtain ⟨h3, h4⟩ := foresees_milder (weakens_mem hg hw) hf
    refine ⟨h1.trans h3, ?_⟩
    rcases h4 with hf | h4
    · exact .inl hf
    · rcases h1.weaker with hf | hw1
      · exact .inl (h3.full hf)
      · exact .inr (h2.trans hw1.live h4)
  | timeless p r s' hx _ hf => exact foresees_milder hg.mem hf

theorem handled_full {op : Nat} {opTerm : Term} {now : Int} {c : Nat} {link : Implication} {s s' : Sys} (hg : Good n s)
    (h : Handled n op opTerm now c link s s') (hf : s.full) : s'.full := by
  cases h with
  | nothing => exact hf
  | temporal p r v s1 s' hx _ hd hw hn =>
    refine (foresees_milder (weakens_mem hg hw) hn).1.full ?_
    obtain ⟨t, rfl, _⟩ := hw
    exact hf
  | timeless p r s' hx _ hn => exact (foresees_milder hg.mem hn).1.full hf

theorem inTurn_full {op : Nat} {opTerm : Term} {now : Int} {c : Nat} {links : List Implication} {s s' : Sys}
    (h : InTurn (fun link s s' => Handled n op opTerm now c link s s' ∧ Good n s ∧ Good n s') links s s') (hf : s.full) : s'.full := by
  induction h with
  | nil s => exact hf
  | cons a l s s1 s' h1 _ ih => exact ih (handled_full h1.2.1 h1.1 hf)

theorem inTurn_milder (hlow : Lowering) {op : Nat} {opTerm : Term} {now : Int} {c : Nat} {links : List Implication} {s s' : Sys}
    (hk : s.full ∨ c ∈ s.live ∧ ∀ l ∈ links, ∃ x ∈ s.linksFor c op, x.term = l.term)
    (h : InTurn (fun link s s' => Handled n op opTerm now c link s s' ∧ Good n s ∧ Good n s') links s s') : Milder s s' := by
  induction h with
  | nil s => exact .refl s
  | cons a l s s1 s' h1 h2 ih =>
    obtain ⟨h1, hg, hg1⟩ := h1
    rcases hk with hf | ⟨hc, hk⟩
    · have := inTurn_full h2 (handled_full hg h1 hf)
      exact ⟨fun _ => this, .inl this⟩
    · obtain ⟨h2, h3⟩ := handled_milder hlow hg (hk a (List.mem_cons_self ..)) h1
      refine h2.trans (ih ?_)
      rcases h2.weaker with hf | hw
      · exact .inl hf
      · rcases h3 with hf | h3
        · exact .inl hf
        · refine .inr ⟨hw.live c hc, fun x hx => ?_⟩
          obtain ⟨y, h4, h5⟩ := hk x (List.mem_cons_of_mem _ hx)
          obtain ⟨z, h6, h7⟩ := h3 c hc op y h4
          exact ⟨z, h6, h7.trans h5⟩

theorem visited_milder (hlow : Lowering) {op : Nat} {opTerm : Term} {now : Int} {c : Nat} {s s' : Sys} (hc : c ∈ s.live)
    (h : VisitedIn n op opTerm now c false s s') : Milder s s' := by
  obtain ⟨links, s1, h1, hg, h2⟩ := h
  rcases h1 with ⟨_, t, ht, rfl, rfl⟩ | ⟨h, _⟩ | ⟨h, _⟩
  · refine Milder.trans (s1 := s.withConcept c { s.concept_storage c with
        precondition_beliefs := upd (s.concept_storage c).precondition_beliefs op t })
      ⟨fun h => h, .inr (noStronger_concept rfl ?_ (List.Sublist.refl _) rfl rfl)⟩
      (inTurn_milder hlow (.inr ⟨hc, fun l hl => ⟨l, ?_, rfl⟩⟩) h2)
    · intro op' l hl
      dsimp only at hl
      rw [upd_apply] at hl
      split at hl
      · rename_i h
        subst h
        rw [ht] at hl
        exact ⟨l, (List.mem_filter.1 hl).1, rfl, le_refl _⟩
      · exact ⟨l, hl, rfl, le_refl _⟩
    · unfold Sys.linksFor
      show l ∈ ((upd s.concept_storage c _ c).precondition_beliefs op).entries
      rw [upd_same]
      dsimp only
      rw [upd_same]
      exact hl
  · cases h
  · cases h

theorem anticipate_milder (hlow : Lowering) {op : Nat} {opTerm : Term} {now : Int} {s s' : Sys} (h : Good n s)
    (e : Decision_Anticipate n op opTerm false now s = .ok ((), s')) : Milder s s' :=
  anticipation_loop h () e (fun _ s s' => Milder s s') (fun _ s _ => .refl s)
    fun _ _ _ _ _ hp _ hv hr => (visited_milder hlow hp hv).trans hr

end

section
attribute [local instance] exactArith

/-- Revision with negative evidence, in exact arithmetic. -/
theorem lowering : Lowering := by
  intro old v t ho hv h0 h
  have hc : ∀ {c : ℚ} {w : ℚ}, c ≤ 1 → Truth_c2w c = .ok w → c < 1 := by
    intro c w hc h
    unfold Truth_c2w fdiv at h
    rcases lt_or_eq_of_le hc with h1 | h1
    · exact h1
    · subst h1
      rw [if_pos (by show (1 : ℚ) - 1 = 0; ring)] at h
      cases h
  have h' := h
  unfold Truth_Revision at h'
  rw [R.bind_eq_ok] at h'
  obtain ⟨w1, e1, h'⟩ := h'
  rw [R.bind_eq_ok] at h'
  obtain ⟨w2, e2, h'⟩ := h'
  have c1 := hc ho.c_le e1
  have c2 := hc hv.c_le e2
  by_cases hpos : 0 < old.confidence ∨ 0 < v.confidence
  · obtain ⟨t', k1, _, _, _, _, k2, _⟩ := C21_revision old v ho c1 hv c2 hpos
    rw [h] at k1
    cases k1
    rw [h0, max_eq_left ho.f_nonneg] at k2
    exact k2
  · exfalso
    push Not at hpos
    have z1 : old.confidence = 0 := le_antisymm hpos.1 ho.c_nonneg
    have z2 : v.confidence = 0 := le_antisymm hpos.2 hv.c_nonneg
    have zero : ∀ {c w : ℚ}, c = 0 → Truth_c2w c = .ok w → w = 0 := by
      intro c w hc h
      subst hc
      unfold Truth_c2w fdiv at h
      rw [if_neg (by show ¬ ((1 : ℚ) - 0 = 0); norm_num)] at h
      cases h
      show TRUTH_EVIDENTIAL_HORIZON * 0 / (1 - 0) = 0
      simp
    have w1z := zero z1 e1
    have w2z := zero z2 e2
    subst w1z
    subst w2z
    rw [if_neg (by rintro ⟨_, h⟩; rw [z1] at h; norm_num at h), if_neg (by rintro ⟨_, h⟩; rw [z2] at h; norm_num at h)] at h'
    rw [R.bind_eq_ok] at h'
    obtain ⟨f, e3, _⟩ := h'
    unfold fdiv at e3
    rw [if_pos (by show (0 : ℚ) + 0 = 0; ring)] at e3
    cases e3

/-- **C79.** In exact arithmetic, and unless the memory is full afterwards: anticipation adds no link, makes no link more likely, and
neither changes what is believed nor what is wanted. -/
theorem C79_weaker {n : Narsese} {op : Nat} {opTerm : Term} {now : Int} {s s' : Sys} (h : Good n s)
    (e : Decision_Anticipate n op opTerm false now s = .ok ((), s')) : s'.full ∨ NoStronger s s' :=
  (anticipate_milder lowering h e).weaker

end
end ONA
