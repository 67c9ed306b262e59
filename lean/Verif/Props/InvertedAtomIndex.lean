import Verif.Spec.InvertedAtomIndex
import Verif.Proofs.InvertedAtomIndex
import Mathlib.Data.List.Perm.Subperm
/-
C15: the inverted atom index is exact and its pool never runs out.
-/
namespace ONA
namespace InvertedAtomIndex
open IndexSpec

/-- The chains list exactly the stored concepts. -/
structure Exact (n : Narsese) (S : List (Nat × Term)) (L : Nat → List Nat) : Prop where
  nodup : ∀ a : Atom, (L a.toNat).Nodup
  mem : ∀ (a : Atom) (c : Nat), c ∈ L a.toNat ↔ ∃ t, (c, t) ∈ S ∧ Lists n t a

/-- The index holds exactly the concepts `S`. -/
structure Holds (n : Narsese) (x : InvertedAtomIndex) (max : Nat) (S : List (Nat × Term)) : Prop where
  rep : ∃ L, Rep x L ∧ Exact n S L
  pool : x.poolSize = UNIFICATION_DEPTH * max
  keys : (S.map (·.1)).Nodup

theorem atom_lt (a : Atom) : a.toNat < ATOMS_MAX := a.isLt

/-- The (concept, atom) pairs of the chains. -/
def pairs (L : Nat → List Nat) : List (Nat × Nat) :=
  (List.range ATOMS_MAX).flatMap fun a => (L a).map fun c => (c, a)

theorem length_pairs (L : Nat → List Nat) : (pairs L).length = used L := by
  have : ∀ l : List Nat, (l.flatMap fun a => (L a).map fun c => (c, a)).length = (l.flatMap L).length := by
    intro l
    induction l with
    | nil => rfl
    | cons a l ih => simp only [List.flatMap_cons, List.length_append, List.length_map, ih]
  exact this _

theorem mem_pairs {L : Nat → List Nat} {c a : Nat} : (c, a) ∈ pairs L ↔ a < ATOMS_MAX ∧ c ∈ L a := by
  simp only [pairs, List.mem_flatMap, List.mem_range, List.mem_map]
  constructor
  · rintro ⟨b, hb, d, hd, he⟩
    cases he
    exact ⟨hb, hd⟩
  · rintro ⟨h1, h2⟩
    exact ⟨a, h1, c, h2, rfl⟩

theorem nodup_pairs {L : Nat → List Nat} (h : ∀ a, a < ATOMS_MAX → (L a).Nodup) : (pairs L).Nodup := by
  have : ∀ l : List Nat, l.Nodup → (∀ a ∈ l, (L a).Nodup) →
      (l.flatMap fun a => (L a).map fun c => (c, a)).Nodup := by
    intro l
    induction l with
    | nil => intros; simp
    | cons a l ih =>
      intro h1 h2
      rw [List.nodup_cons] at h1
      rw [List.flatMap_cons, List.nodup_append]
      refine ⟨?_, ih h1.2 fun b hb => h2 b (by simp [hb]), ?_⟩
      · exact (h2 a (by simp)).map (fun _ _ e => (Prod.mk.inj e).1)
      · intro p hp q hq e
        subst e
        simp only [List.mem_map, List.mem_flatMap] at hp hq
        obtain ⟨c, _, rfl⟩ := hp
        obtain ⟨b, hb, d, _, e⟩ := hq
        cases e
        exact h1.1 hb
  exact this _ List.nodup_range fun a ha => h a (List.mem_range.1 ha)

/-- All (concept, atom) pairs that could be needed for the stored concepts. -/
def allPairs (S : List (Nat × Term)) : List (Nat × Nat) :=
  S.flatMap fun e => (List.range UNIFICATION_DEPTH).map fun i => (e.1, (e.2.get i).toNat)

theorem length_allPairs (S : List (Nat × Term)) : (allPairs S).length = UNIFICATION_DEPTH * S.length := by
  induction S with
  | nil => rfl
  | cons e S ih =>
    simp only [allPairs, List.flatMap_cons, List.length_append, List.length_map, List.length_range] at ih ⊢
    rw [ih, List.length_cons, Nat.mul_add]; omega

theorem mem_allPairs {S : List (Nat × Term)} {c : Nat} {t : Term} (h : (c, t) ∈ S) {i : Nat}
    (hi : i < UNIFICATION_DEPTH) : (c, (t.get i).toNat) ∈ allPairs S := by
  simp only [allPairs, List.mem_flatMap, List.mem_map, List.mem_range]
  exact ⟨(c, t), h, i, hi, rfl⟩

/-- State of the chains while concept `c` is being added: a part of the needed pairs, without duplicates. -/
structure Partial (S : List (Nat × Term)) (L : Nat → List Nat) : Prop where
  nodup : ∀ a, a < ATOMS_MAX → (L a).Nodup
  sub : ∀ a, a < ATOMS_MAX → ∀ c ∈ L a, (c, a) ∈ allPairs S

theorem Partial.room {S : List (Nat × Term)} {L : Nat → List Nat} (h : Partial S L) {a c : Nat}
    (hc : (c, a) ∈ allPairs S) (hn : c ∉ L a) : used L < UNIFICATION_DEPTH * S.length := by
  have h1 : ((c, a) :: pairs L).Nodup := by
    rw [List.nodup_cons]
    exact ⟨fun e => hn (mem_pairs.1 e).2, nodup_pairs h.nodup⟩
  have h2 : ((c, a) :: pairs L) ⊆ allPairs S := by
    intro p hp
    rcases List.mem_cons.1 hp with e | e
    · exact e ▸ hc
    · obtain ⟨d, b⟩ := p
      have := mem_pairs.1 e
      exact h.sub b this.1 d this.2
  have := (List.Nodup.subperm h1 h2).length_le
  rw [length_allPairs, List.length_cons, length_pairs] at this
  omega

open Classical in
/-- The chains after adding concept `c` under the atoms at positions from `j` on. -/
def Added (n : Narsese) (t : Term) (c j : Nat) (L L' : Nat → List Nat) : Prop :=
  ∀ a : Atom, L' a.toNat = if (Narsese_IsSimpleAtom n a = true ∧ ∃ i, j ≤ i ∧ i < UNIFICATION_DEPTH ∧ t.get i = a) ∧
    c ∉ L a.toNat then L a.toNat ++ [c] else L a.toNat

theorem forAtoms_succ (n : Narsese) (t : Term) (body : InvertedAtomIndex → Nat → R InvertedAtomIndex) (k : Nat)
    (x : InvertedAtomIndex) : forAtoms n t body (k + 1) x =
      ((if Narsese_IsSimpleAtom n (t.get (UNIFICATION_DEPTH - (k + 1))) = true then
          body x (t.get (UNIFICATION_DEPTH - (k + 1))).toNat else .ok x) >>= forAtoms n t body k) := by
  rw [forAtoms]
  split <;> rfl

theorem atom_of_lt {a : Nat} (h : a < ATOMS_MAX) : ∃ b : Atom, b.toNat = a :=
  ⟨BitVec.ofNat 16 a, by simp only [BitVec.toNat_ofNat]; exact Nat.mod_eq_of_lt h⟩

open Classical in
theorem addLoop_rep {n : Narsese} {t : Term} {c : Nat} {S : List (Nat × Term)} (hS : (c, t) ∈ S) :
    ∀ (k : Nat) (x : InvertedAtomIndex) (L : Nat → List Nat), k ≤ UNIFICATION_DEPTH → Rep x L → Partial S L →
    UNIFICATION_DEPTH * S.length ≤ x.poolSize →
    ∃ x' L', forAtoms n t (fun x atom => x.addAtom atom c) k x = .ok x' ∧ Rep x' L' ∧
      Added n t c (UNIFICATION_DEPTH - k) L L' ∧ x'.poolSize = x.poolSize
  | 0, x, L, _, h, _, _ => by
    refine ⟨x, L, rfl, h, ?_, rfl⟩
    intro a
    rw [if_neg]
    rintro ⟨⟨_, i, h1, h2, _⟩, _⟩
    omega
  | k + 1, x, L, hk, h, hp, hpool => by
    let i := UNIFICATION_DEPTH - (k + 1)
    have hi : i < UNIFICATION_DEPTH := by show UNIFICATION_DEPTH - (k + 1) < _; omega
    let atom := t.get i
    have hat := atom_lt atom
    have hi' : UNIFICATION_DEPTH - k = i + 1 := by show _ = UNIFICATION_DEPTH - (k + 1) + 1; omega
    have hpair : (c, atom.toNat) ∈ allPairs S := mem_allPairs hS hi
    -- range of the condition
    have hrange : ∀ a : Atom, (∃ j, i ≤ j ∧ j < UNIFICATION_DEPTH ∧ t.get j = a) ↔
        (a = atom ∨ ∃ j, i + 1 ≤ j ∧ j < UNIFICATION_DEPTH ∧ t.get j = a) := by
      intro a
      constructor
      · rintro ⟨j, h1, h2, h3⟩
        by_cases e : j = i
        · subst e; exact .inl h3.symm
        · exact .inr ⟨j, by omega, h2, h3⟩
      · rintro (e | ⟨j, h1, h2, h3⟩)
        · exact ⟨i, le_rfl, hi, e.symm⟩
        · exact ⟨j, by omega, h2, h3⟩
    by_cases hs : Narsese_IsSimpleAtom n atom = true
    · by_cases hc : c ∈ L atom.toNat
      · have hstep := addAtom_known h hat hc
        obtain ⟨x', L', h1, h2, h3, h4⟩ := addLoop_rep hS k x L (by omega) h hp hpool
        refine ⟨x', L', ?_, h2, ?_, h4⟩
        · rw [forAtoms_succ, if_pos hs, hstep]; exact h1
        · intro a
          rw [h3 a, hi']
          congr 1
          show _ = (((_ ∧ ∃ j, i ≤ j ∧ _) ∧ _) : Prop)
          rw [hrange a]
          apply propext
          constructor
          · rintro ⟨⟨h5, h6⟩, h7⟩; exact ⟨⟨h5, .inr h6⟩, h7⟩
          · rintro ⟨⟨h5, h6 | h6⟩, h7⟩
            · subst h6; exact absurd hc h7
            · exact ⟨⟨h5, h6⟩, h7⟩
      · have hroom := hp.room hpair hc
        obtain ⟨x1, hstep, hrep1, hpool1⟩ := addAtom_new h hat hc (by omega)
        have hp1 : Partial S (upd L atom.toNat (L atom.toNat ++ [c])) := by
          constructor
          · intro a ha
            by_cases e : a = atom.toNat
            · subst e
              rw [upd_same, List.nodup_append]
              refine ⟨hp.nodup _ ha, by simp, ?_⟩
              rintro p hp q hq rfl
              rw [List.mem_singleton] at hq
              exact hc (hq ▸ hp)
            · rw [upd_other _ _ e]; exact hp.nodup a ha
          · intro a ha d hd
            by_cases e : a = atom.toNat
            · subst e
              rw [upd_same, List.mem_append, List.mem_singleton] at hd
              rcases hd with hd | rfl
              · exact hp.sub _ ha d hd
              · exact hpair
            · rw [upd_other _ _ e] at hd; exact hp.sub a ha d hd
        obtain ⟨x', L', h1, h2, h3, h4⟩ := addLoop_rep hS k x1 _ (by omega) hrep1 hp1 (by omega)
        refine ⟨x', L', ?_, h2, ?_, by omega⟩
        · rw [forAtoms_succ, if_pos hs, hstep]; exact h1
        · intro a
          rw [h3 a, hi']
          show _ = if ((_ ∧ ∃ j, i ≤ j ∧ _) ∧ _) then _ else _
          by_cases e : a = atom
          · subst e
            rw [upd_same, if_neg (by simp), if_pos]
            exact ⟨⟨hs, i, le_rfl, hi, rfl⟩, hc⟩
          · have e' : a.toNat ≠ atom.toNat := fun h => e (BitVec.eq_of_toNat_eq h)
            rw [upd_other _ _ e']
            congr 1
            rw [hrange a]
            simp [e]
    · obtain ⟨x', L', h1, h2, h3, h4⟩ := addLoop_rep hS k x L (by omega) h hp hpool
      refine ⟨x', L', ?_, h2, ?_, h4⟩
      · rw [forAtoms_succ, if_neg hs]; exact h1
      · intro a
        rw [h3 a, hi']
        congr 1
        show _ = (((_ ∧ ∃ j, i ≤ j ∧ _) ∧ _) : Prop)
        rw [hrange a]
        apply propext
        constructor
        · rintro ⟨⟨h5, h6⟩, h7⟩; exact ⟨⟨h5, .inr h6⟩, h7⟩
        · rintro ⟨⟨h5, h6 | h6⟩, h7⟩
          · subst h6; exact absurd h5 hs
          · exact ⟨⟨h5, h6⟩, h7⟩

open Classical in
theorem removeLoop_rep {n : Narsese} {t : Term} {c : Nat} :
    ∀ (k : Nat) (x : InvertedAtomIndex) (L : Nat → List Nat), k ≤ UNIFICATION_DEPTH → Rep x L →
    (∀ a, a < ATOMS_MAX → (L a).Nodup) →
    ∃ x' L', forAtoms n t (fun x atom => x.removeAtom atom c) k x = .ok x' ∧ Rep x' L' ∧
      (∀ a : Atom, L' a.toNat =
        if Narsese_IsSimpleAtom n a = true ∧ ∃ i, UNIFICATION_DEPTH - k ≤ i ∧ i < UNIFICATION_DEPTH ∧ t.get i = a
        then (L a.toNat).erase c else L a.toNat) ∧ x'.poolSize = x.poolSize
  | 0, x, L, _, h, _ => by
    refine ⟨x, L, rfl, h, ?_, rfl⟩
    intro a
    rw [if_neg]
    rintro ⟨_, i, h1, h2, _⟩
    omega
  | k + 1, x, L, hk, h, hnd => by
    let i := UNIFICATION_DEPTH - (k + 1)
    have hi : i < UNIFICATION_DEPTH := by show UNIFICATION_DEPTH - (k + 1) < _; omega
    let atom := t.get i
    have hat := atom_lt atom
    have hi' : UNIFICATION_DEPTH - k = i + 1 := by show _ = UNIFICATION_DEPTH - (k + 1) + 1; omega
    have hrange : ∀ a : Atom, (∃ j, i ≤ j ∧ j < UNIFICATION_DEPTH ∧ t.get j = a) ↔
        (a = atom ∨ ∃ j, i + 1 ≤ j ∧ j < UNIFICATION_DEPTH ∧ t.get j = a) := by
      intro a
      constructor
      · rintro ⟨j, h1, h2, h3⟩
        by_cases e : j = i
        · subst e; exact .inl h3.symm
        · exact .inr ⟨j, by omega, h2, h3⟩
      · rintro (e | ⟨j, h1, h2, h3⟩)
        · exact ⟨i, le_rfl, hi, e.symm⟩
        · exact ⟨j, by omega, h2, h3⟩
    by_cases hs : Narsese_IsSimpleAtom n atom = true
    · -- one step
      obtain ⟨x1, hstep, hrep1, hpool1⟩ : ∃ x1, x.removeAtom atom.toNat c = .ok x1 ∧
          Rep x1 (upd L atom.toNat ((L atom.toNat).erase c)) ∧ x1.poolSize = x.poolSize := by
        by_cases hc : c ∈ L atom.toNat
        · exact removeAtom_present h hat hc
        · refine ⟨x, removeAtom_absent h hat hc, ?_, rfl⟩
          rw [List.erase_of_not_mem hc, HashTable.upd_self]
          exact h
      have hnd1 : ∀ a, a < ATOMS_MAX → (upd L atom.toNat ((L atom.toNat).erase c) a).Nodup := by
        intro a ha
        by_cases e : a = atom.toNat
        · subst e; rw [upd_same]; exact (hnd _ ha).erase c
        · rw [upd_other _ _ e]; exact hnd a ha
      obtain ⟨x', L', h1, h2, h3, h4⟩ := removeLoop_rep (n := n) (t := t) (c := c) k x1 _ (by omega) hrep1 hnd1
      refine ⟨x', L', ?_, h2, ?_, by omega⟩
      · rw [forAtoms_succ, if_pos hs, hstep]; exact h1
      · intro a
        rw [h3 a, hi']
        show _ = if (_ ∧ ∃ j, i ≤ j ∧ _) then _ else _
        by_cases e : a = atom
        · subst e
          have : Narsese_IsSimpleAtom n atom = true ∧ ∃ j, i ≤ j ∧ j < UNIFICATION_DEPTH ∧ t.get j = atom :=
            ⟨hs, i, le_rfl, hi, rfl⟩
          rw [upd_same, if_pos this]
          have hnm : c ∉ (L atom.toNat).erase c := (hnd _ hat).not_mem_erase
          rw [List.erase_of_not_mem hnm]
          split <;> rfl
        · have e' : a.toNat ≠ atom.toNat := fun h => e (BitVec.eq_of_toNat_eq h)
          rw [upd_other _ _ e']
          congr 1
          rw [hrange a]
          simp [e]
    · obtain ⟨x', L', h1, h2, h3, h4⟩ := removeLoop_rep (n := n) (t := t) (c := c) k x L (by omega) h hnd
      refine ⟨x', L', ?_, h2, ?_, h4⟩
      · rw [forAtoms_succ, if_neg hs]; exact h1
      · intro a
        rw [h3 a, hi']
        congr 1
        show _ = ((_ ∧ ∃ j, i ≤ j ∧ _) : Prop)
        rw [hrange a]
        apply propext
        constructor
        · rintro ⟨h5, h6⟩; exact ⟨h5, .inr h6⟩
        · rintro ⟨h5, h6 | h6⟩
          · subst h6; exact absurd h5 hs
          · exact ⟨h5, h6⟩

/-- Adding a concept. -/
theorem Holds.add {n : Narsese} {x : InvertedAtomIndex} {max : Nat} {S : List (Nat × Term)} (h : Holds n x max S)
    {t : Term} {c : Nat} (hc : ∀ e ∈ S, e.1 ≠ c) (hmax : S.length < max) :
    ∃ x', InvertedAtomIndex_AddConcept n x t c = .ok x' ∧ Holds n x' max ((c, t) :: S) := by
  obtain ⟨⟨L, hrep, hex⟩, hpool, hkeys⟩ := h
  have hpart : Partial ((c, t) :: S) L := by
    constructor
    · intro a ha
      obtain ⟨b, rfl⟩ := atom_of_lt ha
      exact hex.nodup b
    · intro a ha d hd
      obtain ⟨b, rfl⟩ := atom_of_lt ha
      obtain ⟨u, hu, _, i, hi, rfl⟩ := (hex.mem b d).1 hd
      exact mem_allPairs (List.mem_cons_of_mem _ hu) hi
  have hcap : UNIFICATION_DEPTH * ((c, t) :: S).length ≤ x.poolSize := by
    rw [hpool]; exact Nat.mul_le_mul_left _ (by simp only [List.length_cons]; omega)
  obtain ⟨x', L', h1, h2, h3, h4⟩ := addLoop_rep (n := n) (List.mem_cons_self) UNIFICATION_DEPTH x L le_rfl hrep hpart hcap
  have hcL : ∀ a : Atom, c ∉ L a.toNat := by
    intro a hm
    obtain ⟨u, hu, _⟩ := (hex.mem a c).1 hm
    exact hc _ hu rfl
  have hL' : ∀ a : Atom, (Lists n t a ∧ L' a.toNat = L a.toNat ++ [c]) ∨ (¬ Lists n t a ∧ L' a.toNat = L a.toNat) := by
    intro a
    have h3a := h3 a
    by_cases hl : Lists n t a
    · left
      refine ⟨hl, ?_⟩
      rw [h3a, if_pos]
      obtain ⟨h5, i, h6, h7⟩ := hl
      exact ⟨⟨h5, i, by omega, h6, h7⟩, hcL a⟩
    · right
      refine ⟨hl, ?_⟩
      rw [h3a, if_neg]
      rintro ⟨⟨h5, i, _, h6, h7⟩, _⟩
      exact hl ⟨h5, i, h6, h7⟩
  refine ⟨x', h1, ⟨L', h2, ?_⟩, by omega, ?_⟩
  · constructor
    · intro a
      rcases hL' a with ⟨_, e⟩ | ⟨_, e⟩
      · rw [e, List.nodup_append]
        refine ⟨hex.nodup a, by simp, ?_⟩
        rintro p hp q hq rfl
        rw [List.mem_singleton] at hq
        exact hcL a (hq ▸ hp)
      · rw [e]; exact hex.nodup a
    · intro a d
      rcases hL' a with ⟨hl, e⟩ | ⟨hl, e⟩
      · rw [e, List.mem_append, List.mem_singleton, hex.mem a d]
        constructor
        · rintro (⟨u, hu, hl'⟩ | rfl)
          · exact ⟨u, List.mem_cons_of_mem _ hu, hl'⟩
          · exact ⟨t, List.mem_cons_self, hl⟩
        · rintro ⟨u, hu, hl'⟩
          rcases List.mem_cons.1 hu with e | hu
          · cases e; exact .inr rfl
          · exact .inl ⟨u, hu, hl'⟩
      · rw [e, hex.mem a d]
        constructor
        · rintro ⟨u, hu, hl'⟩; exact ⟨u, List.mem_cons_of_mem _ hu, hl'⟩
        · rintro ⟨u, hu, hl'⟩
          rcases List.mem_cons.1 hu with e | hu
          · cases e; exact absurd hl' hl
          · exact ⟨u, hu, hl'⟩
  · rw [List.map_cons, List.nodup_cons]
    refine ⟨?_, hkeys⟩
    intro hm
    obtain ⟨e, he, he'⟩ := List.mem_map.1 hm
    exact hc e he he'

/-- Removing a stored concept. -/
theorem Holds.remove {n : Narsese} {x : InvertedAtomIndex} {max : Nat} {S : List (Nat × Term)} (h : Holds n x max S)
    {t : Term} {c : Nat} (hc : (c, t) ∈ S) :
    ∃ x', InvertedAtomIndex_RemoveConcept n x t c = .ok x' ∧
      Holds n x' max (S.filter fun e => decide (e ≠ (c, t))) := by
  obtain ⟨⟨L, hrep, hex⟩, hpool, hkeys⟩ := h
  have hnd : ∀ a, a < ATOMS_MAX → (L a).Nodup := by
    intro a ha
    obtain ⟨b, rfl⟩ := atom_of_lt ha
    exact hex.nodup b
  obtain ⟨x', L', h1, h2, h3, h4⟩ := removeLoop_rep (n := n) (t := t) (c := c) UNIFICATION_DEPTH x L le_rfl hrep hnd
  have huniq : ∀ u, (c, u) ∈ S → u = t := by
    intro u hu
    have := List.inj_on_of_nodup_map hkeys hu hc rfl
    exact (Prod.mk.inj this).2
  refine ⟨x', h1, ⟨L', h2, ?_⟩, by omega, ?_⟩
  · constructor
    · intro a
      rw [h3 a]
      split
      · exact (hex.nodup a).erase c
      · exact hex.nodup a
    · intro a d
      have hmem : (∃ u, (d, u) ∈ S.filter (fun e => decide (e ≠ (c, t))) ∧ Lists n u a) ↔
          (d ≠ c ∧ ∃ u, (d, u) ∈ S ∧ Lists n u a) := by
        constructor
        · rintro ⟨u, hu, hl⟩
          rw [List.mem_filter, decide_eq_true_eq] at hu
          refine ⟨?_, u, hu.1, hl⟩
          rintro rfl
          exact hu.2 (by rw [huniq u hu.1])
        · rintro ⟨hd, u, hu, hl⟩
          refine ⟨u, ?_, hl⟩
          rw [List.mem_filter, decide_eq_true_eq]
          exact ⟨hu, fun e => hd (Prod.mk.inj e).1⟩
      rw [hmem, h3 a]
      split
      · rw [(hex.nodup a).mem_erase_iff, hex.mem a d]
      · rename_i hno
        rw [hex.mem a d]
        constructor
        · rintro ⟨u, hu, hl⟩
          refine ⟨?_, u, hu, hl⟩
          rintro rfl
          rw [huniq u hu] at hl
          obtain ⟨h5, i, h6, h7⟩ := hl
          exact hno ⟨h5, i, by omega, h6, h7⟩
        · rintro ⟨_, h5⟩; exact h5
  · exact hkeys.sublist (List.Sublist.map _ List.filter_sublist)

/-- What the atoms are called matters only for the atoms of stored concepts. -/
theorem Holds.congr {n n' : Narsese} {x : InvertedAtomIndex} {max : Nat} {S : List (Nat × Term)} (h : Holds n x max S)
    (hn : ∀ c t, (c, t) ∈ S → ∀ i, i < UNIFICATION_DEPTH →
      Narsese_IsSimpleAtom n' (t.get i) = Narsese_IsSimpleAtom n (t.get i)) : Holds n' x max S := by
  obtain ⟨⟨L, hrep, hex⟩, hpool, hkeys⟩ := h
  refine ⟨⟨L, hrep, hex.nodup, ?_⟩, hpool, hkeys⟩
  intro a c
  rw [hex.mem a c]
  constructor <;>
  · rintro ⟨t, ht, h1, i, hi, rfl⟩
    refine ⟨t, ht, ?_, i, hi, rfl⟩
    have := hn c t ht i hi
    simp_all

theorem Holds.chain {n : Narsese} {x : InvertedAtomIndex} {max : Nat} {S : List (Nat × Term)} (h : Holds n x max S)
    (atom : Atom) : ∃ L : List Nat,
    follow x (x.poolSize + 1) (InvertedAtomIndex_GetConceptChain x atom) = .ok (L.map some) ∧ L.Nodup ∧
      ∀ c, c ∈ L ↔ ∃ t, (c, t) ∈ S ∧ Lists n t atom := by
  obtain ⟨⟨L, hrep, hex⟩, _, _⟩ := h
  by_cases ha : atom = 0
  · refine ⟨[], ?_, by simp, ?_⟩
    · simp [InvertedAtomIndex_GetConceptChain, ha, follow]
    · intro c
      simp only [List.not_mem_nil, false_iff]
      rintro ⟨t, _, h1, _⟩
      simp [Narsese_IsSimpleAtom, ha] at h1
  · refine ⟨L atom.toNat, ?_, hex.nodup atom, hex.mem atom⟩
    simp only [InvertedAtomIndex_GetConceptChain, ne_eq, ha, not_false_eq_true, if_true]
    exact follow_rep hrep (atom_lt atom)

theorem holds_init (n : Narsese) (max : Nat) :
    ∃ x, initWith (UNIFICATION_DEPTH * max) = .ok x ∧ Holds n x max [] := by
  obtain ⟨x, h1, h2, h3⟩ := init_rep (UNIFICATION_DEPTH * max)
  exact ⟨x, h1, ⟨_, h2, fun _ => by simp, fun _ _ => by simp⟩, h3, by simp⟩

theorem run_holds (n : Narsese) (max : Nat) : ∀ h : List Op, Legal max h →
    ∃ x, run n max h = .ok x ∧ Holds n x max (stored h)
  | [], _ => holds_init n max
  | .add t c :: h, hl => by
    obtain ⟨x, h1, h2⟩ := run_holds n max h hl.1
    obtain ⟨x', h3, h4⟩ := h2.add (t := t) hl.2.1 hl.2.2
    exact ⟨x', by simp [run, h1, h3], h4⟩
  | .remove t c :: h, hl => by
    obtain ⟨x, h1, h2⟩ := run_holds n max h hl.1
    obtain ⟨x', h3, h4⟩ := h2.remove hl.2
    exact ⟨x', by simp [run, h1, h3], h4⟩

end InvertedAtomIndex

open IndexSpec InvertedAtomIndex

/-- **C15.** After any legal history of adding and removing concepts (which never runs out of chain elements, whatever
the capacity `max`), following the chain of any atom visits, exactly once each, the stored concepts listed under the
atom and no other concept. -/
theorem C15_exact (n : Narsese) (max : Nat) (h : List Op) (hl : Legal max h) :
    ∃ x, run n max h = .ok x ∧ ∀ atom : Atom, ∃ L : List Nat,
      follow x (x.poolSize + 1) (InvertedAtomIndex_GetConceptChain x atom) = .ok (L.map some) ∧ L.Nodup ∧
      ∀ c, c ∈ L ↔ ∃ t, (c, t) ∈ stored h ∧ Lists n t atom := by
  obtain ⟨x, h1, h2⟩ := run_holds n max h hl
  exact ⟨x, h1, h2.chain⟩

/-- The pool of the program is the one for `CONCEPTS_MAX` concepts. -/
theorem C15_pool (n : Narsese) : run n CONCEPTS_MAX [] = InvertedAtomIndex_INIT := rfl

/-- The hypotheses of C15 are met by a non-trivial history: two concepts sharing an atom, one of them replaced. -/
example : Legal 2 [.add (Term.zero.put 0 28) 0, .remove (Term.zero.put 0 29) 0, .add (Term.zero.put 0 28) 1,
    .add (Term.zero.put 0 29) 0] := by
  simp [Legal, stored]

end ONA
