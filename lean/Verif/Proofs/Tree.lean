import Verif.Spec.Tree
import Verif.Props.Term
import Verif.Model.Narsese
import Mathlib.Tactic.Ring
namespace ONA
open Classical

theorem childPos_f (i : Nat) : childPos i false = 2 * i + 1 := rfl
theorem childPos_t (i : Nat) : childPos i true = 2 * i + 2 := rfl

namespace Tree

/-- The atom reached along a path (0 if there is none). -/
def at_ : Tree → List Bool → Atom
  | nil, _ => 0
  | node a _ _, [] => a
  | node _ l _, false :: p => l.at_ p
  | node _ _ r, true :: p => r.at_ p

theorem readAt_nil (t : Term) (fuel i : Nat) (h : t.get i = 0) : readAt t fuel i = nil := by
  cases fuel with
  | zero => rfl
  | succ f => unfold readAt; rw [if_pos h]

theorem readAt_succ (t : Term) (fuel i : Nat) (h : t.get i ≠ 0) :
    readAt t (fuel + 1) i = node (t.get i) (readAt t fuel (2 * i + 1)) (readAt t fuel (2 * i + 2)) := by
  rw [readAt, if_neg h]

/-- Enough fuel: more does not change the result. -/
theorem readAt_fuel (t : Term) : ∀ (f g i : Nat), COMPOUND_TERM_SIZE_MAX < (i + 1) * 2 ^ f →
    COMPOUND_TERM_SIZE_MAX < (i + 1) * 2 ^ g → readAt t f i = readAt t g i := by
  intro f
  induction f with
  | zero =>
    intro g i hf _
    have h0 : t.get i = 0 := t.get_out (by simp at hf; omega)
    rw [readAt_nil t _ _ h0, readAt_nil t _ _ h0]
  | succ f ih =>
    intro g i hf hg
    by_cases h0 : t.get i = 0
    · rw [readAt_nil t _ _ h0, readAt_nil t _ _ h0]
    · cases g with
      | zero =>
        have : t.get i = 0 := t.get_out (by simp at hg; omega)
        exact absurd this h0
      | succ g =>
        have e1 : (i + 1) * 2 ^ (f + 1) = (2 * i + 2) * 2 ^ f := by rw [pow_succ]; ring
        have e2 : (i + 1) * 2 ^ (g + 1) = (2 * i + 2) * 2 ^ g := by rw [pow_succ]; ring
        have hmf : (2 * i + 2) * 2 ^ f ≤ (2 * i + 3) * 2 ^ f := Nat.mul_le_mul_right _ (by omega)
        have hmg : (2 * i + 2) * 2 ^ g ≤ (2 * i + 3) * 2 ^ g := Nat.mul_le_mul_right _ (by omega)
        rw [readAt_succ t f i h0, readAt_succ t g i h0, ih g (2 * i + 1) (by rw [e1] at hf; exact hf) (by rw [e2] at hg; exact hg),
          ih g (2 * i + 2) (by rw [e1] at hf; exact Nat.lt_of_lt_of_le hf hmf) (by rw [e2] at hg; exact Nat.lt_of_lt_of_le hg hmg)]

end Tree

theorem Term.treeAt_zero (t : Term) {i : Nat} (h : t.get i = 0) : t.treeAt i = .nil := Tree.readAt_nil t 7 i h

theorem Term.treeAt_node (t : Term) {i : Nat} (h : t.get i ≠ 0) :
    t.treeAt i = .node (t.get i) (t.treeAt (2 * i + 1)) (t.treeAt (2 * i + 2)) := by
  unfold Term.treeAt
  rw [Tree.readAt_succ t 6 i h]
  have b1 : ∀ j, COMPOUND_TERM_SIZE_MAX < (j + 1) * 2 ^ 7 := bound7
  have b2 : ∀ j, 1 ≤ j → COMPOUND_TERM_SIZE_MAX < (j + 1) * 2 ^ 6 := by
    intro j hj; unfold COMPOUND_TERM_SIZE_MAX; omega
  rw [Tree.readAt_fuel t 6 7 (2 * i + 1) (b2 _ (by omega)) (b1 _), Tree.readAt_fuel t 6 7 (2 * i + 2) (b2 _ (by omega)) (b1 _)]

theorem Term.treeAt_eq_nil (t : Term) (i : Nat) : t.treeAt i = .nil ↔ t.get i = 0 := by
  constructor
  · intro h
    by_contra hc
    rw [t.treeAt_node hc] at h
    cases h
  · exact t.treeAt_zero

/-- Induction over the positions of a term. -/
theorem pos_induction {P : Nat → Prop} (h : ∀ i, (i < COMPOUND_TERM_SIZE_MAX → P (2 * i + 1) ∧ P (2 * i + 2)) → P i) :
    ∀ i, P i := by
  have : ∀ n i, COMPOUND_TERM_SIZE_MAX - i ≤ n → P i := by
    intro n
    induction n with
    | zero => intro i hi; exact h i fun hlt => by omega
    | succ n ih => intro i hi; exact h i fun hlt => ⟨ih _ (by omega), ih _ (by omega)⟩
  exact fun i => this _ i (Nat.le_refl _)

theorem Term.treeAt_nonZero (t : Term) (i : Nat) : (t.treeAt i).NonZero := by
  induction i using pos_induction with
  | h i ih =>
    by_cases h : t.get i = 0
    · rw [t.treeAt_zero h]; trivial
    · rw [t.treeAt_node h]
      obtain ⟨a, b⟩ := ih (Term.lt_of_get_ne h)
      exact ⟨h, a, b⟩

theorem Term.treeAt_fits (t : Term) (i : Nat) : (t.treeAt i).Fits i := by
  induction i using pos_induction with
  | h i ih =>
    by_cases h : t.get i = 0
    · rw [t.treeAt_zero h]; trivial
    · rw [t.treeAt_node h]
      obtain ⟨a, b⟩ := ih (Term.lt_of_get_ne h)
      exact ⟨Term.lt_of_get_ne h, a, b⟩

/-- The atoms of the tree, by path. -/
theorem Term.treeAt_at (t : Term) (i : Nat) (p : List Bool) (h0 : t.get i ≠ 0) :
    (t.treeAt i).at_ p = if Present t i p then t.get (pathPos i p) else 0 := by
  induction p generalizing i with
  | nil =>
    rw [t.treeAt_node h0]
    have : Present t i [] := Term.lt_of_get_ne h0
    rw [if_pos this]; rfl
  | cons b p ih =>
    rw [t.treeAt_node h0]
    have key : ∀ j, childPos i b = j → (t.treeAt j).at_ p = if Present t i (b :: p) then t.get (pathPos i (b :: p)) else 0 := by
      intro j hj
      by_cases hb : t.get j = 0
      · rw [t.treeAt_zero hb]
        have : ¬ Present t i (b :: p) := by
          rintro ⟨h, _⟩
          rw [hj] at h; exact h hb
        rw [if_neg this]
        cases p <;> rfl
      · rw [ih j hb]
        have : Present t i (b :: p) ↔ Present t j p := by
          constructor
          · rintro ⟨_, h⟩; rwa [hj] at h
          · intro h; exact ⟨by rw [hj]; exact hb, by rw [hj]; exact h⟩
        simp only [this]
        subst hj
        rfl
    cases b
    · exact key _ rfl
    · exact key _ rfl

/-- Trees with the same atoms along all paths are equal. -/
theorem Tree.ext_at {T S : Tree} (hT : T.NonZero) (hS : S.NonZero) (h : ∀ p, T.at_ p = S.at_ p) : T = S := by
  induction T generalizing S with
  | nil =>
    cases S with
    | nil => rfl
    | node a l r => exact absurd (h []).symm hS.1
  | node a l r ihl ihr =>
    cases S with
    | nil => exact absurd (h []) hT.1
    | node a' l' r' =>
      have e1 : a = a' := h []
      have e2 : l = l' := ihl hT.2.1 hS.2.1 fun p => h (false :: p)
      have e3 : r = r' := ihr hT.2.2 hS.2.2 fun p => h (true :: p)
      rw [e1, e2, e3]

theorem extract_get_root (t : Term) (j : Nat) : (Term_ExtractSubterm t j).get 0 = t.get j := by
  have := extract_get t j []
  simp only [pathPos] at this
  rw [this]
  by_cases h : Present t j []
  · rw [if_pos h]
  · rw [if_neg h]
    exact (t.get_out (by simpa [Present] using h)).symm

/-- **Extraction** gives the term whose tree is the one at the position. -/
theorem tree_extract (t : Term) (j : Nat) : (Term_ExtractSubterm t j).tree = t.treeAt j := by
  by_cases h : t.get j = 0
  · rw [t.treeAt_zero h]
    exact Term.treeAt_zero _ (by rw [extract_get_root]; exact h)
  · apply Tree.ext_at (Term.treeAt_nonZero _ _) (Term.treeAt_nonZero _ _)
    intro p
    have h0 : (Term_ExtractSubterm t j).get 0 ≠ 0 := by rw [extract_get_root]; exact h
    show (Term.treeAt _ 0).at_ p = _
    rw [Term.treeAt_at _ _ _ h0, Term.treeAt_at _ _ _ h]
    have hp : Present (Term_ExtractSubterm t j) 0 p ↔ Present t j p := by
      constructor
      · intro hh
        by_contra hn
        -- the last node of the path is present in the extracted term but was not copied
        have hne : (Term_ExtractSubterm t j).get (pathPos 0 p) ≠ 0 := by
          cases p with
          | nil => exact h0
          | cons b p =>
            have : ∀ (q : List Bool) (s : Term) (k : Nat) (c : Bool), Present s k (c :: q) → s.get (pathPos k (c :: q)) ≠ 0 := by
              intro q
              induction q with
              | nil => intro s k c hq; exact hq.1
              | cons d q ih => intro s k c hq; exact ih s (childPos k c) d hq.2
            exact this p _ 0 b hh
        rw [extract_get, if_neg hn] at hne
        exact hne rfl
      · intro hh
        have : ∀ (q : List Bool) (k : List Bool), Present t (pathPos j k) q → Present t j k → Present (Term_ExtractSubterm t j) (pathPos 0 k) q := by
          intro q
          induction q with
          | nil =>
            intro k _ hk
            have hle := pathPos_mono (Nat.zero_le j) k
            have hlt := hk.lt (Present.lt_root hk)
            exact Nat.lt_of_le_of_lt hle hlt
          | cons c q ih =>
            intro k hq hk
            have happ : Present t j (k ++ [c]) := by
              have : ∀ (k : List Bool) (j : Nat), Present t j k → t.get (childPos (pathPos j k) c) ≠ 0 → Present t j (k ++ [c]) := by
                intro k
                induction k with
                | nil => intro j hj hne; exact ⟨hne, Term.lt_of_get_ne hne⟩
                | cons d k ih => intro j hj hne; exact ⟨hj.1, ih _ hj.2 hne⟩
              exact this k j hk hq.1
            have e0 : pathPos 0 (k ++ [c]) = childPos (pathPos 0 k) c := by rw [pathPos_append]; rfl
            have ej : pathPos j (k ++ [c]) = childPos (pathPos j k) c := by rw [pathPos_append]; rfl
            refine ⟨?_, ?_⟩
            · rw [← e0, extract_get, if_pos happ, ej]; exact hq.1
            · have := ih (k ++ [c]) (by rw [ej]; exact hq.2) happ
              rwa [e0] at this
        exact this p [] hh (Present.lt_root hh)
    by_cases hq : Present t j p
    · rw [if_pos hq, if_pos (hp.2 hq), extract_get, if_pos hq]
    · rw [if_neg hq, if_neg (fun hh => hq (hp.1 hh))]

/-- A closed term is determined by its tree. -/
theorem Term.eq_of_tree {s t : Term} (hs : s.Closed) (ht : t.Closed) (h : s.tree = t.tree) : s = t := by
  have hz : ∀ u : Term, u.Closed → u.get 0 = 0 → ∀ i, u.get i = 0 := by
    intro u hu h0 i
    by_contra hne
    obtain ⟨p, rfl⟩ := exists_path i
    have hp := present_of_closed hu (j := 0) (by decide) hne
    have hup : ∀ (q : List Bool) (k : Nat), u.get (pathPos k q) ≠ 0 → u.get k ≠ 0 := by
      intro q
      induction q with
      | nil => intro k hk; exact hk
      | cons b q ih => intro k hk; exact hu k b (ih _ hk)
    exact hup p 0 hne h0
  by_cases h0 : s.get 0 = 0
  · have h0' : t.get 0 = 0 := by
      rw [← Term.treeAt_eq_nil]
      show t.tree = .nil
      rw [← h]
      exact (Term.treeAt_eq_nil _ _).2 h0
    apply Term.ext_get
    intro i _
    rw [hz s hs h0, hz t ht h0']
  · have h0' : t.get 0 ≠ 0 := by
      intro hc
      have : s.tree = .nil := by rw [h]; exact (Term.treeAt_eq_nil _ _).2 hc
      exact h0 ((Term.treeAt_eq_nil _ _).1 this)
    apply Term.ext_get
    intro i hi
    obtain ⟨p, rfl⟩ := exists_path i
    have key : ∀ u : Term, u.Closed → u.get 0 ≠ 0 → u.tree.at_ p = u.get (pathPos 0 p) := by
      intro u hu hu0
      show (u.treeAt 0).at_ p = _
      rw [Term.treeAt_at _ _ _ hu0]
      by_cases hp : Present u 0 p
      · rw [if_pos hp]
      · rw [if_neg hp]
        by_contra hne
        exact hp (present_of_closed hu (by decide) (fun hc => hne hc.symm))
    rw [← key s hs h0, ← key t ht h0', h]

/-- Terms extracted from closed terms are closed. -/
theorem extract_closed {t : Term} (hc : t.Closed) (j : Nat) : (Term_ExtractSubterm t j).Closed := by
  intro i b hne
  obtain ⟨p, rfl⟩ := exists_path i
  have e : ∀ k, childPos (pathPos k p) b = pathPos k (p ++ [b]) := by intro k; rw [pathPos_append]; rfl
  by_cases hj : j < COMPOUND_TERM_SIZE_MAX
  · rw [e, C28_extract_closed t hc j hj, ← e] at hne
    rw [C28_extract_closed t hc j hj]
    exact hc _ b hne
  · rw [e, extract_get, if_neg (fun h => hj (Present.lt_root h))] at hne
    exact absurd rfl hne

theorem zero_closed : Term.zero.Closed := by
  intro i b h
  rw [Term.get_zero] at h
  exact absurd rfl h

/-- Writing at a position of a tree. -/
theorem treeAt_congr {s t : Term} {i : Nat} (h : ∀ p, s.get (pathPos i p) = t.get (pathPos i p)) : s.treeAt i = t.treeAt i := by
  induction i using pos_induction with
  | h i ih =>
    have h0 : s.get i = t.get i := h []
    by_cases hz : t.get i = 0
    · rw [t.treeAt_zero hz, s.treeAt_zero (by rw [h0]; exact hz)]
    · obtain ⟨a, b⟩ := ih (Term.lt_of_get_ne hz)
      rw [t.treeAt_node hz, s.treeAt_node (by rw [h0]; exact hz), h0, a fun p => h (false :: p), b fun p => h (true :: p)]

/-- Whether a tree fits at a position only depends on the present paths. -/
theorem fits_iff {t : Term} (j i : Nat) (h0 : t.get j ≠ 0) :
    (t.treeAt j).Fits i ↔ ∀ p, Present t j p → pathPos i p < COMPOUND_TERM_SIZE_MAX := by
  induction j using pos_induction generalizing i with
  | h j ih =>
    obtain ⟨il, ir⟩ := ih (Term.lt_of_get_ne h0)
    rw [t.treeAt_node h0]
    constructor
    · rintro ⟨h1, h2, h3⟩ p hp
      cases p with
      | nil => exact h1
      | cons b p =>
        cases b with
        | false => exact (il _ hp.1).1 h2 p hp.2
        | true => exact (ir _ hp.1).1 h3 p hp.2
    · intro h
      refine ⟨h [] (Term.lt_of_get_ne h0), ?_, ?_⟩
      · by_cases hz : t.get (2 * j + 1) = 0
        · rw [t.treeAt_zero hz]; trivial
        · exact (il _ hz).2 fun p hp => h (false :: p) ⟨hz, hp⟩
      · by_cases hz : t.get (2 * j + 2) = 0
        · rw [t.treeAt_zero hz]; trivial
        · exact (ir _ hz).2 fun p hp => h (true :: p) ⟨hz, hp⟩

/-- Positions below the two children of the root are disjoint. -/
theorem pathPos_12 (p q : List Bool) : pathPos 1 p ≠ pathPos 2 q := by
  intro h
  have h1 : pathPos 0 (false :: p) = pathPos 0 (true :: q) := h
  have := pathPos_inj h1
  cases this

/-- **Compounds.** Building a compound of two (closed, non-empty) terms succeeds iff the tree fits, and then has
exactly the tree with the copula on top. -/
theorem buildCompound_spec (c : Atom) (a b : Term) (hc : c ≠ 0) (ha : a.Closed) (hb : b.Closed) (ha0 : a.get 0 ≠ 0)
    (hb0 : b.get 0 ≠ 0) :
    ((buildCompound c a b).1 = true ↔ (Tree.node c a.tree b.tree).Fits 0) ∧
    ((buildCompound c a b).1 = true → (buildCompound c a b).2.Closed ∧
      (buildCompound c a b).2.tree = .node c a.tree b.tree) := by
  set t0 := Term.zero.put 0 c with ht0
  have hget0 : ∀ n, n ≠ 0 → t0.get n = 0 := by
    intro n hn; rw [ht0, Term.get_put_ne _ _ hn, Term.get_zero]
  obtain ⟨a1, a2, a3⟩ := C28_override t0 1 a
  set r1 := Term_OverrideSubterm t0 1 a with hr1
  obtain ⟨b1, b2, b3⟩ := C28_override r1.2 2 b
  set r2 := Term_OverrideSubterm r1.2 2 b with hr2
  have hbc : buildCompound c a b = if r1.1 = true then r2 else (false, r1.2) := rfl
  have hfit : (Tree.node c a.tree b.tree).Fits 0 ↔ (r1.1 = true ∧ r2.1 = true) := by
    rw [a1, b1]
    have e1 := fits_iff 0 1 ha0
    have e2 := fits_iff 0 2 hb0
    unfold Tree.Fits
    constructor
    · rintro ⟨_, h2, h3⟩; exact ⟨e1.1 h2, e2.1 h3⟩
    · rintro ⟨h2, h3⟩; exact ⟨by decide, e1.2 h2, e2.2 h3⟩
  have hiff : (buildCompound c a b).1 = true ↔ (r1.1 = true ∧ r2.1 = true) := by
    rw [hbc]
    by_cases h : r1.1 = true
    · rw [if_pos h]; simp [h]
    · rw [if_neg h]; simp [h]
  refine ⟨by rw [hiff, hfit], ?_⟩
  intro hok
  obtain ⟨ok1, ok2⟩ := hiff.1 hok
  have hres : (buildCompound c a b).2 = r2.2 := by rw [hbc, if_pos ok1]
  rw [hres]
  -- values below the children
  have v1 : ∀ p, r2.2.get (pathPos 1 p) = a.get (pathPos 0 p) := by
    intro p
    rw [b3 _ fun q _ => pathPos_12 p q]
    by_cases hp : Present a 0 p
    · exact a2 ok1 p hp
    · rw [a3 _ fun q hq he => hp (by rw [pathPos_inj he]; exact hq)]
      have : pathPos 1 p ≠ 0 := by have := le_pathPos 1 p; omega
      rw [hget0 _ this]
      by_contra hne
      exact hp (present_of_closed ha (by decide) (fun h => hne h.symm))
  have v2 : ∀ p, r2.2.get (pathPos 2 p) = b.get (pathPos 0 p) := by
    intro p
    by_cases hp : Present b 0 p
    · exact b2 ok2 p hp
    · rw [b3 _ fun q hq he => hp (by rw [pathPos_inj he]; exact hq), a3 _ fun q _ he => pathPos_12 q p he.symm]
      have : pathPos 2 p ≠ 0 := by have := le_pathPos 2 p; omega
      rw [hget0 _ this]
      by_contra hne
      exact hp (present_of_closed hb (by decide) (fun h => hne h.symm))
  have v0 : r2.2.get 0 = c := by
    rw [b3 0 fun q _ => by have := le_pathPos 2 q; omega, a3 0 fun q _ => by have := le_pathPos 1 q; omega, ht0,
      Term.get_put_same _ _ (by decide)]
  refine ⟨?_, ?_⟩
  · intro i d hne
    obtain ⟨p, rfl⟩ := exists_path i
    cases p with
    | nil => show r2.2.get 0 ≠ 0; rw [v0]; exact hc
    | cons e p =>
      have eq : ∀ k, childPos (pathPos k p) d = pathPos k (p ++ [d]) := by intro k; rw [pathPos_append]; rfl
      cases e with
      | false =>
        have h1 : pathPos 0 (false :: p) = pathPos 1 p := rfl
        rw [h1] at hne ⊢
        rw [eq, v1, ← eq] at hne
        rw [v1]; exact ha _ d hne
      | true =>
        have h1 : pathPos 0 (true :: p) = pathPos 2 p := rfl
        rw [h1] at hne ⊢
        rw [eq, v2, ← eq] at hne
        rw [v2]; exact hb _ d hne
  · show r2.2.treeAt 0 = _
    rw [Term.treeAt_node _ (by rw [v0]; exact hc), v0]
    have t1 : ∀ (s : Term) (k j : Nat), (∀ p, r2.2.get (pathPos k p) = s.get (pathPos j p)) → r2.2.treeAt k = s.treeAt j := by
      intro s k
      induction k using pos_induction with
      | h k ih =>
        intro j h
        have h0 : r2.2.get k = s.get j := h []
        by_cases hz : s.get j = 0
        · rw [s.treeAt_zero hz, Term.treeAt_zero _ (by rw [h0]; exact hz)]
        · have hk : r2.2.get k ≠ 0 := by rw [h0]; exact hz
          obtain ⟨il, ir⟩ := ih (Term.lt_of_get_ne hk)
          rw [s.treeAt_node hz, Term.treeAt_node _ hk, h0, il _ fun p => h (false :: p), ir _ fun p => h (true :: p)]
          rfl
    rw [t1 a 1 0 v1, t1 b 2 0 v2]
    rfl

end ONA
