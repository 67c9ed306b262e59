import Verif.Spec.Related
import Verif.Proofs.Closed
/-
The traversal of related concepts reaches all of them, each one once.
-/
namespace ONA
open IndexSpec (Lists)
open HashTable (Chain)

theorem SameMap.refl (s : Sys) : SameMap s s := ⟨rfl, rfl, rfl, rfl, rfl, fun _ => rfl, fun _ => rfl, fun _ => rfl⟩

theorem SameMap.trans {s s1 s2 : Sys} (h : SameMap s s1) (h' : SameMap s1 s2) : SameMap s s2 :=
  ⟨h'.concepts.trans h.concepts, h'.table.trans h.table, h'.index.trans h.index, h'.count.trans h.count, h'.mark.trans h.mark,
    fun c => (h'.term c).trans (h.term c), fun c => (h'.id c).trans (h.id c), fun c => (h'.marks c).trans (h.marks c)⟩

variable {σ : Type} {body : Nat → σ → M (Bool × σ)}

theorem Visits.append {l l' : List Nat} {st st1 st' : σ} {s s1 s' : Sys} {b b' : Bool} (h : Visits body l st s b st1 s1)
    (hb : b = true) (h' : Visits body l' st1 s1 b' st' s') : Visits body (l ++ l') st s b' st' s' := by
  induction h with
  | nil => exact h'
  | last _ => cases hb
  | cons e _ ih => exact .cons e (ih hb h')

/-- During the traversal: the memory is as in `s0`, except that the concepts in `done` are marked. -/
structure Traversing (s0 : Sys) (done : List Nat) (s : Sys) : Prop where
  concepts : s.concepts = s0.concepts
  table : s.HTconcepts = s0.HTconcepts
  index : s.index = s0.index
  count : s.concept_id = s0.concept_id
  mark : s.conceptProcessID = s0.conceptProcessID
  term : ∀ c, (s.concept_storage c).term = (s0.concept_storage c).term
  id : ∀ c, (s.concept_storage c).id = (s0.concept_storage c).id
  marks : ∀ c ∈ s0.live, ((s.concept_storage c).processID = s0.conceptProcessID ↔ c ∈ done)

/-- After a part of the traversal which reaches the concepts in `S`, unless it is broken off. -/
def Reached (body : Nat → σ → M (Bool × σ)) (s0 : Sys) (done : List Nat) (S : Nat → Prop) (st : σ) (s : Sys) (r : Bool × σ)
    (s' : Sys) (l : List Nat) : Prop :=
  Visits body l st s r.1 r.2 s' ∧ Traversing s0 (done ++ l) s' ∧ (done ++ l).Nodup ∧
    (∀ c ∈ l, S c) ∧ (r.1 = true → ∀ c, S c → c ∈ done ++ l)

variable {s0 : Sys} (hb : ∀ c st s r s', body c st s = .ok (r, s') → SameMap s s')

theorem Reached.none {done : List Nat} (hd : done.Nodup) {S : Nat → Prop} {st : σ} {s : Sys} (h : Traversing s0 done s)
    (hS : ∀ c, S c → c ∈ done) (b : Bool) (hb : b = true) : Reached body s0 done S st s (b, st) s [] := by
  subst hb
  refine ⟨.nil, ?_, ?_, fun _ h => (by cases h), fun _ c hc => ?_⟩
  · rw [List.append_nil]; exact h
  · rw [List.append_nil]; exact hd
  · rw [List.append_nil]; exact hS c hc

include hb

theorem visit_reached {done : List Nat} (hd : done.Nodup) {c : Nat} (hc : c ∈ s0.live) (st : σ) {s : Sys} (h : Traversing s0 done s) :
    WP (visitConcept body (some c) st) (fun r s' => ∃ l, Reached body s0 done (· = c) st s r s' l ∧ (c ∉ done → l = [c])) s := by
  unfold visitConcept
  refine WP.get ?_
  refine WP.ite (fun hm => ?_) fun hm => WP.pure ?_
  · have hm : c ∉ done := fun hx => hm (((h.marks c hc).2 hx).trans h.mark.symm)
    refine WP.bind (WP.modify ?_)
    intro r s' e
    obtain ⟨r1, r2⟩ := r
    have e' : body c st (s.visited c) = .ok ((r1, r2), s') := e
    have hs := hb _ _ _ _ _ e'
    refine ⟨[c], ⟨?_, ?_, ?_, fun k hk => List.mem_singleton.1 hk, fun _ k hk => ?_⟩, fun _ => rfl⟩
    · cases r1 with
      | true => exact .cons e' .nil
      | false => exact .last e'
    · have same : ∀ k, ((s.visited c).concept_storage k).term = (s.concept_storage k).term ∧
          ((s.visited c).concept_storage k).id = (s.concept_storage k).id := by
        intro k
        show (upd _ _ _ _ : Concept).term = _ ∧ (upd _ _ _ _ : Concept).id = _
        rw [upd_apply]
        split
        · next hk => subst hk; exact ⟨rfl, rfl⟩
        · exact ⟨rfl, rfl⟩
      refine ⟨hs.concepts.trans h.concepts, hs.table.trans h.table, hs.index.trans h.index, hs.count.trans h.count,
        hs.mark.trans h.mark, fun k => ?_, fun k => ?_, fun k hk => ?_⟩
      · rw [hs.term, (same k).1, h.term]
      · rw [hs.id, (same k).2, h.id]
      · rw [hs.marks]
        show (upd _ _ _ _ : Concept).processID = _ ↔ _
        rw [List.mem_append, List.mem_singleton, upd_apply]
        split
        · next hx => exact ⟨fun _ => .inr hx, fun _ => h.mark⟩
        · next hx =>
          rw [h.marks k hk]
          exact ⟨.inl, fun h => h.resolve_right hx⟩
    · exact hd.append (List.nodup_singleton _) (by simpa using hm)
    · rw [List.mem_append, List.mem_singleton]
      exact .inr hk
  · have hx : c ∈ done := (h.marks c hc).1 ((not_not.1 hm).trans h.mark)
    exact ⟨[], Reached.none hd h (fun k hk => by rw [hk]; exact hx) _ rfl, fun h => absurd hx h⟩

omit hb in
theorem Reached.then {done : List Nat} {S S' : Nat → Prop} {st : σ} {s : Sys} {r r' : Bool × σ} {s' : Sys} {s1 : Sys} {l l' : List Nat}
    (h : Reached body s0 done S st s r s1 l) (hr : r.1 = true) (h' : Reached body s0 (done ++ l) S' r.2 s1 r' s' l') :
    Reached body s0 done (fun c => S c ∨ S' c) st s r' s' (l ++ l') := by
  obtain ⟨h1, h2, h3, h4, h5⟩ := h
  obtain ⟨k1, k2, k3, k4, k5⟩ := h'
  refine ⟨h1.append hr k1, ?_, ?_, fun c hc => ?_, fun hx c hc => ?_⟩
  · rw [← List.append_assoc]; exact k2
  · rw [← List.append_assoc]; exact k3
  · obtain hc | hc := List.mem_append.1 hc
    · exact .inl (h4 c hc)
    · exact .inr (k4 c hc)
  · rw [← List.append_assoc]
    obtain hc | hc := hc
    · exact List.mem_append_left _ (h5 hr c hc)
    · exact k5 hx c hc

omit hb in
theorem Reached.stop {done : List Nat} {S S' : Nat → Prop} {st : σ} {s : Sys} {r : Bool × σ} {s' : Sys} {l : List Nat}
    (h : Reached body s0 done S st s r s' l) (hr : r.1 ≠ true) (hS : ∀ c, S c → S' c) : Reached body s0 done S' st s r s' l := by
  obtain ⟨h1, h2, h3, h4, h5⟩ := h
  exact ⟨h1, h2, h3, fun c hc => hS c (h4 c hc), fun h => absurd h hr⟩

omit hb in
theorem Reached.congr {done : List Nat} {S S' : Nat → Prop} {st : σ} {s : Sys} {r : Bool × σ} {s' : Sys} {l : List Nat}
    (h : Reached body s0 done S st s r s' l) (hS : ∀ c, S c ↔ S' c) : Reached body s0 done S' st s r s' l := by
  obtain ⟨h1, h2, h3, h4, h5⟩ := h
  exact ⟨h1, h2, h3, fun c hc => (hS c).1 (h4 c hc), fun h c hc => h5 h c ((hS c).2 hc)⟩

theorem chain_reached : ∀ (fuel : Nat) (p : Option Nat) (ch L : List Nat), Chain s0.index.nx p ch → ch.map s0.index.cc = L.map some →
    (∀ c ∈ L, c ∈ s0.live) → ∀ (done : List Nat), done.Nodup → ∀ (st : σ) {s : Sys}, Traversing s0 done s →
    WP (visitChain body fuel p st) (fun r s' => ∃ l, Reached body s0 done (· ∈ L) st s r s' l) s := by
  have empty : ∀ (ch L : List Nat), Chain s0.index.nx none ch → ch.map s0.index.cc = L.map some → L = [] := by
    intro ch L hch hL
    obtain rfl : ch = [] := by
      cases ch with
      | nil => rfl
      | cons a ch => exact absurd hch.1 (by simp)
    simpa using hL.symm
  intro fuel
  induction fuel with
  | zero =>
    intro p ch L hch hL hl done hd st s h
    cases p with
    | none =>
      obtain rfl := empty ch L hch hL
      exact WP.pure ⟨[], Reached.none hd h (fun c hc => by cases hc) _ rfl⟩
    | some e => exact WP.throw
  | succ fuel ih =>
    intro p ch L hch hL hl done hd st s h
    cases p with
    | none =>
      obtain rfl := empty ch L hch hL
      exact WP.pure ⟨[], Reached.none hd h (fun c hc => by cases hc) _ rfl⟩
    | some e =>
      cases ch with
      | nil => exact absurd hch (by simp [Chain])
      | cons a ch =>
        obtain ⟨h1, h2⟩ := hch
        cases h1
        cases L with
        | nil => simp at hL
        | cons c L =>
          rw [List.map_cons, List.map_cons, List.cons.injEq] at hL
          unfold visitChain
          refine WP.get ?_
          rw [h.index]
          have e1 : (s0.index.conceptChainElementStorage e).c = some c := hL.1
          have e2 : (s0.index.conceptChainElementStorage e).next = s0.index.nx e := rfl
          dsimp only
          rw [e1, e2]
          refine WP.bind ((visit_reached hb hd (hl c (List.mem_cons_self ..)) st h).mono ?_)
          rintro r s1 ⟨l, hr, -⟩
          refine WP.ite (fun hx => ?_) fun hx => WP.pure ⟨l, hr.stop hx fun k hk => by rw [hk]; exact List.mem_cons_self ..⟩
          intro r' s' e'
          obtain ⟨l', h3⟩ := ih _ ch L h2 hL.2 (fun c hc => hl c (List.mem_cons_of_mem _ hc)) _ hr.2.2.1 r.2 hr.2.1 _ _ e'
          exact ⟨_, (hr.then hx h3).congr fun k => List.mem_cons.symm⟩

theorem related_reached {n : Narsese} (hm : MemInv n s0) (fuel : Nat) (t : Term) : ∀ (is : List Nat), (∀ i ∈ is, i < UNIFICATION_DEPTH) →
    ∀ (done : List Nat), done.Nodup → ∀ (st : σ) {s : Sys}, Traversing s0 done s →
    WP (visitRelated fuel t body is st) (fun st' s' => ∃ b l, Reached body s0 done
      (fun c => c ∈ s0.live ∧ ((is ≠ [] ∧ s0.termOf c = t) ∨ ∃ i ∈ is, Lists n (s0.termOf c) (t.get i))) st s (b, st') s' l ∧
      (is ≠ [] → ∀ c ∈ s0.live, c ∉ done → s0.termOf c = t → l.head? = some c)) s := by
  intro is
  induction is with
  | nil =>
    intro _ done hd st s h
    exact WP.pure ⟨true, [], Reached.none hd h (fun c hc => by simp at hc) _ rfl, fun h => absurd rfl h⟩
  | cons i is ih =>
    intro hi done hd st s h
    unfold visitRelated
    have hms : MemInv n s := hm.congr h.concepts h.table h.index h.count (fun c _ => h.term c) fun c _ => h.id c
    obtain ⟨found, hf, hspec⟩ := hms.find_eq t
    refine WP.bind fun c0 s1 e1 => ?_
    rw [hf] at e1
    cases e1
    refine WP.get ?_
    have hlive : s.live = s0.live := by unfold Sys.live; rw [h.concepts]
    have hterm : ∀ c, s.termOf c = s0.termOf c := h.term
    -- the concept of the term
    have first : WP (visitConcept body found st) (fun r s' => ∃ l, Reached body s0 done (fun c => c ∈ s0.live ∧ s0.termOf c = t) st s r s' l ∧
        ∀ c ∈ s0.live, c ∉ done → s0.termOf c = t → l = [c]) s := by
      cases found with
      | none =>
        have no : ∀ c ∈ s0.live, s0.termOf c ≠ t := fun c hc hx => hspec c (hlive ▸ hc) ((hterm c).trans hx)
        exact WP.pure ⟨[], Reached.none hd h (fun c hc => absurd hc.2 (no c hc.1)) _ rfl, fun c hc _ hx => absurd hx (no c hc)⟩
      | some c =>
        obtain ⟨k1, k2⟩ := hspec
        rw [hlive] at k1
        rw [hterm] at k2
        refine (visit_reached hb hd k1 st h).mono ?_
        rintro r s' ⟨l, hr, hl⟩
        refine ⟨l, hr.congr fun k => ⟨fun hk => ?_, fun hk => ?_⟩, fun k hk hn hx => ?_⟩
        · subst hk; exact ⟨k1, k2⟩
        · exact hm.term_inj hk.1 k1 (hk.2.trans k2.symm)
        · obtain rfl := hm.term_inj hk k1 (hx.trans k2.symm)
          exact hl hn
    obtain ⟨L, ⟨chains, free, hrep⟩, hex⟩ := hm.index.rep
    have hch := hrep.chain (t.get i).toNat (InvertedAtomIndex.atom_lt _)
    have hown := hrep.own (t.get i).toNat (InvertedAtomIndex.atom_lt _)
    have hLk : ∀ k, k ∈ L (t.get i).toNat ↔ k ∈ s0.live ∧ Lists n (s0.termOf k) (t.get i) := by
      intro k
      rw [hex.mem]
      constructor
      · rintro ⟨t', h1, h2⟩
        obtain ⟨c', h3, h4⟩ := List.mem_map.1 h1
        cases h4
        exact ⟨h3, h2⟩
      · rintro ⟨h1, h2⟩
        exact ⟨_, List.mem_map.2 ⟨k, h1, rfl⟩, h2⟩
    have sub1 : ∀ k, (k ∈ s0.live ∧ s0.termOf k = t) → k ∈ s0.live ∧ ((i :: is ≠ [] ∧ s0.termOf k = t) ∨
        ∃ j ∈ i :: is, Lists n (s0.termOf k) (t.get j)) := fun k hk => ⟨hk.1, .inl ⟨List.cons_ne_nil _ _, hk.2⟩⟩
    have sub2 : ∀ k, ((k ∈ s0.live ∧ s0.termOf k = t) ∨ k ∈ L (t.get i).toNat) → k ∈ s0.live ∧ ((i :: is ≠ [] ∧ s0.termOf k = t) ∨
        ∃ j ∈ i :: is, Lists n (s0.termOf k) (t.get j)) := fun k hk => hk.elim (sub1 k) fun hk =>
      ⟨((hLk k).1 hk).1, .inr ⟨i, List.mem_cons_self .., ((hLk k).1 hk).2⟩⟩
    refine WP.bind (first.mono ?_)
    rintro r s1 ⟨l1, hr, hhead⟩
    have head : ∀ l', i :: is ≠ [] → ∀ c ∈ s0.live, c ∉ done → s0.termOf c = t → (l1 ++ l').head? = some c := by
      intro l' _ c hc hn hx
      rw [hhead c hc hn hx]
      rfl
    refine WP.ite (fun hx => ?_) fun hx => WP.pure ⟨r.1, l1, hr.stop (by simpa using hx) sub1, by simpa using head []⟩
    have hnext : InvertedAtomIndex_GetConceptChain s.index (t.get i) = s0.index.invertedAtomIndex (t.get i).toNat := by
      rw [h.index]
      unfold InvertedAtomIndex_GetConceptChain
      split
      · rfl
      · next h0 =>
        have h0 : t.get i = 0 := not_not.1 h0
        have hL : L (t.get i).toNat = [] := by
          rw [List.eq_nil_iff_forall_not_mem]
          intro k hk
          have := ((hLk k).1 hk).2.1
          rw [h0] at this
          exact absurd this (by simp [Narsese_IsSimpleAtom])
        rw [hL, List.map_nil, List.map_eq_nil_iff] at hown
        rw [hown] at hch
        cases hx : s0.index.invertedAtomIndex (t.get i).toNat with
        | none => rfl
        | some a => rw [hx] at hch; exact absurd hch (by simp [Chain])
    rw [hnext]
    refine WP.bind fun r' s2 e2 => ?_
    obtain ⟨l2, h2⟩ := chain_reached hb fuel _ _ _ hch hown (fun c hc => ((hLk c).1 hc).1) _ hr.2.2.1 r.2 hr.2.1 _ _ e2
    have h2 := hr.then hx h2
    refine WP.ite (fun hx => ?_) fun hx => WP.pure ⟨r'.1, _, h2.stop hx sub2, head l2⟩
    intro st' s' e3
    obtain ⟨b, l3, h3, -⟩ := ih (fun j hj => hi j (List.mem_cons_of_mem _ hj)) (done ++ (l1 ++ l2)) h2.2.2.1 r'.2 h2.2.1 _ _ e3
    have h4 := h2.then hx h3
    refine ⟨b, _, h4.congr fun k => ?_, by rw [List.append_assoc]; exact head (l2 ++ l3)⟩
    rw [hLk]
    simp only [List.mem_cons, ne_eq, reduceCtorEq, not_false_eq_true, true_and, exists_eq_or_imp]
    constructor
    · rintro ((⟨a, b⟩ | ⟨a, b⟩) | ⟨a, b | b⟩)
      · exact ⟨a, .inl b⟩
      · exact ⟨a, .inr (.inl b)⟩
      · exact ⟨a, .inl b.2⟩
      · exact ⟨a, .inr (.inr b)⟩
    · rintro ⟨a, b | b | b⟩
      · exact .inl (.inl ⟨a, b⟩)
      · exact .inl (.inr ⟨a, b⟩)
      · exact .inr ⟨a, .inr b⟩

/-- The traversal reaches the related concepts, each one once, if none of them is marked: first the concept of the term, and
all of them if the action does not break it off. -/
theorem relatedConcepts_visits {n : Narsese} (hm : MemInv n s0) (hmark : ∀ c ∈ s0.live, (s0.concept_storage c).processID ≠ s0.conceptProcessID)
    {fuel : Nat} {t : Term} {st st' : σ} {s' : Sys} (e : relatedConcepts fuel t body st s0 = .ok (st', s')) :
    ∃ l b, l.Nodup ∧ (∀ c ∈ l, s0.Related n t c) ∧ (b = true → ∀ c, s0.Related n t c → c ∈ l) ∧
      (∀ c ∈ s0.live, s0.termOf c = t → l.head? = some c) ∧ Visits body l st s0 b st' s' ∧ Traversing s0 l s' := by
  have h0 : Traversing s0 [] s0 := ⟨rfl, rfl, rfl, rfl, rfl, fun _ => rfl, fun _ => rfl, fun c hc =>
    ⟨fun h => absurd h (hmark c hc), fun h => by cases h⟩⟩
  obtain ⟨b, l, ⟨h1, h2, h3, h4, h5⟩, h6⟩ := related_reached hb hm fuel t (List.range UNIFICATION_DEPTH) (fun i hi => List.mem_range.1 hi) []
    List.nodup_nil st h0 _ _ e
  have key : ∀ c, (c ∈ s0.live ∧ ((List.range UNIFICATION_DEPTH ≠ [] ∧ s0.termOf c = t) ∨
      ∃ i ∈ List.range UNIFICATION_DEPTH, Lists n (s0.termOf c) (t.get i))) ↔ s0.Related n t c := by
    intro c
    unfold Sys.Related
    simp only [List.mem_range]
    refine and_congr_right fun _ => or_congr ⟨fun h => h.2, fun h => ⟨by decide, h⟩⟩ ⟨?_, ?_⟩
    · rintro ⟨i, hi, h⟩
      exact ⟨_, h, h.1, i, hi, rfl⟩
    · rintro ⟨a, h, -, i, hi, rfl⟩
      exact ⟨i, hi, h⟩
  rw [List.nil_append] at h2 h3 h5
  exact ⟨l, b, h3, fun c hc => (key c).1 (h4 c hc), fun hx c hc => h5 hx c ((key c).2 hc),
    fun c hc ht => h6 (by decide) c hc (List.not_mem_nil) ht, h1, h2⟩

end ONA
