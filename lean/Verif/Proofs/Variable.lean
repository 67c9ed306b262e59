import Verif.Spec.Variable
import Verif.Model.Variable
import Verif.Proofs.Operation
import Verif.Props.Term
/-
Unification and substitution: the loops over positions of src/Variable.c compute the tree functions of
Spec/Variable.lean.
-/
namespace ONA
open Classical

/-! ### Trees -/
namespace Tree

theorem subst_none {isVar : Atom → Bool} {σ : Atom → Tree} : ∀ {T : Tree}, (∀ a ∈ T.atoms, isVar a = false) →
    T.subst isVar σ = T
  | nil, _ => rfl
  | node a l r, h => by
    have h0 := h a (by simp [atoms])
    rw [subst, if_neg (by rw [h0]; decide), subst_none fun b hb => h b (by simp [atoms, hb]),
      subst_none fun b hb => h b (by simp [atoms, hb])]

theorem subst_replaceAt {isVar : Atom → Bool} {σ : Atom → Tree} {v : Atom} {U : Tree} (hv : isVar v = true)
    (hU : U.subst isVar σ = σ v) : ∀ {T : Tree} {p : List Bool}, (T.sub p).root = v → (v ≠ 0) →
    (T.replaceAt p U).subst isVar σ = T.subst isVar σ
  | nil, [], h, hn => by exact absurd h.symm hn
  | node a l r, [], h, hn => by
    have : a = v := h
    subst this
    rw [replaceAt, subst, if_pos hv, hU]
  | nil, _ :: _, h, hn => rfl
  | node a l r, false :: p, h, hn => by
    rw [replaceAt, subst, subst]
    rw [subst_replaceAt hv hU (T := l) h hn]
  | node a l r, true :: p, h, hn => by
    rw [replaceAt, subst, subst]
    rw [subst_replaceAt hv hU (T := r) h hn]

theorem sub_root (T : Tree) : T.sub [] = T := by cases T <;> rfl

theorem sub_nil : ∀ p, nil.sub p = nil
  | [] => rfl
  | _ :: _ => rfl

theorem sub_subst {isVar : Atom → Bool} {σ : Atom → Tree} : ∀ {T : Tree} {p : List Bool}, T.VarLeaves isVar →
    T.sub p ≠ nil → (T.subst isVar σ).sub p = (T.sub p).subst isVar σ
  | T, [], _, _ => by rw [sub_root, sub_root]
  | nil, _ :: _, _, h => absurd rfl h
  | node a l r, b :: p, hw, h => by
    rw [VarLeaves] at hw
    by_cases ha : isVar a = true
    · rw [if_pos ha] at hw
      obtain ⟨rfl, rfl⟩ := hw
      cases b <;> exact absurd (sub_nil p) h
    · rw [if_neg ha] at hw
      rw [subst, if_neg ha]
      cases b
      · exact sub_subst hw.1 h
      · exact sub_subst hw.2 h

theorem VarLeaves.replaceAt {isVar : Atom → Bool} {U : Tree} (hU : U.VarLeaves isVar) :
    ∀ {T : Tree} {p : List Bool}, T.VarLeaves isVar → T.sub p ≠ nil → (T.replaceAt p U).VarLeaves isVar
  | _, [], _, _ => by rw [Tree.replaceAt]; exact hU
  | nil, _ :: _, _, h => absurd rfl h
  | node a l r, b :: p, hw, h => by
    rw [VarLeaves] at hw
    by_cases ha : isVar a = true
    · rw [if_pos ha] at hw
      obtain ⟨rfl, rfl⟩ := hw
      cases b <;> exact absurd (sub_nil p) h
    · rw [if_neg ha] at hw
      cases b
      · rw [Tree.replaceAt, VarLeaves, if_neg ha]; exact ⟨VarLeaves.replaceAt hU hw.1 h, hw.2⟩
      · rw [Tree.replaceAt, VarLeaves, if_neg ha]; exact ⟨hw.1, VarLeaves.replaceAt hU hw.2 h⟩

theorem varLeaves_none {isVar : Atom → Bool} : ∀ {T : Tree}, (∀ a ∈ T.atoms, isVar a = false) → T.VarLeaves isVar
  | nil, _ => trivial
  | node a l r, h => by
    have h0 := h a (by simp [atoms])
    rw [VarLeaves, if_neg (by rw [h0]; decide)]
    exact ⟨varLeaves_none fun b hb => h b (by simp [atoms, hb]), varLeaves_none fun b hb => h b (by simp [atoms, hb])⟩

theorem Regular.varLeaves {comp isVar : Atom → Bool} (hcv : ∀ a, isVar a = true → comp a = false) :
    ∀ {T : Tree}, T.Regular comp → T.VarLeaves isVar
  | nil, h => h.elim
  | node a l r, h => by
    rw [Regular] at h
    rw [VarLeaves]
    by_cases hc : comp a = true
    · rw [if_pos hc] at h
      have hv : ¬ isVar a = true := fun hv => by rw [hcv a hv] at hc; cases hc
      rw [if_neg hv]
      exact ⟨h.1.varLeaves hcv, h.2.varLeaves hcv⟩
    · rw [if_neg hc] at h
      obtain ⟨rfl, rfl⟩ := h
      split <;> exact ⟨by trivial, by trivial⟩

end Tree

/-! ### Trees of terms along paths -/

theorem treeAt_sub (t : Term) : ∀ (p : List Bool) (k : Nat), t.get k ≠ 0 ∨ p = [] → (t.Closed) →
    (t.treeAt k).sub p = t.treeAt (pathPos k p)
  | [], k, _, _ => Tree.sub_root _
  | b :: p, k, h, hc => by
    have hk : t.get k ≠ 0 := by rcases h with h | h <;> [exact h; cases h]
    rw [t.treeAt_node hk]
    by_cases hz : t.get (childPos k b) = 0
    · have e1 : t.treeAt (childPos k b) = .nil := t.treeAt_zero hz
      have e2 : t.get (pathPos (childPos k b) p) = 0 := by
        by_contra hne
        have : ∀ (p : List Bool) (k : Nat), t.get (pathPos k p) ≠ 0 → t.get k ≠ 0 := by
          intro p
          induction p with
          | nil => intro k h; exact h
          | cons c p ih => intro k h; exact hc k c (ih _ h)
        exact this p _ hne hz
      have e3 : t.treeAt (pathPos k (b :: p)) = .nil := t.treeAt_zero e2
      rw [e3]
      cases b
      · rw [Tree.sub]; rw [show t.treeAt (2 * k + 1) = .nil from e1, Tree.sub_nil]
      · rw [Tree.sub]; rw [show t.treeAt (2 * k + 2) = .nil from e1, Tree.sub_nil]
    · cases b
      · exact treeAt_sub t p (2 * k + 1) (Or.inl hz) hc
      · exact treeAt_sub t p (2 * k + 2) (Or.inl hz) hc

theorem get_up {t : Term} (hc : t.Closed) : ∀ (p : List Bool) (k : Nat), t.get (pathPos k p) ≠ 0 → t.get k ≠ 0
  | [], _, h => h
  | c :: p, k, h => hc k c (get_up hc p _ h)

theorem tree_sub {t : Term} (hc : t.Closed) (p : List Bool) : t.tree.sub p = t.treeAt (pathPos 0 p) := by
  by_cases h0 : t.get 0 = 0
  · have : t.get (pathPos 0 p) = 0 := by
      by_contra h; exact get_up hc p 0 h h0
    rw [t.treeAt_zero this, show t.tree = .nil from t.treeAt_zero h0, Tree.sub_nil]
  · exact treeAt_sub t p 0 (Or.inl h0) hc

theorem treeAt_eq_of {s t : Term} : ∀ (k j : Nat), (∀ p, s.get (pathPos k p) = t.get (pathPos j p)) →
    s.treeAt k = t.treeAt j := by
  intro k
  induction k using pos_induction with
  | h k ih =>
    intro j h
    have h0 : s.get k = t.get j := h []
    by_cases hz : t.get j = 0
    · rw [t.treeAt_zero hz, Term.treeAt_zero _ (by rw [h0]; exact hz)]
    · have hk : s.get k ≠ 0 := by rw [h0]; exact hz
      obtain ⟨il, ir⟩ := ih (Term.lt_of_get_ne hk)
      rw [t.treeAt_node hz, Term.treeAt_node _ hk, h0, il _ fun p => h (false :: p), ir _ fun p => h (true :: p)]
      rfl

theorem atoms_treeAt {t : Term} : ∀ (i : Nat) {a : Atom}, a ∈ (t.treeAt i).atoms → ∃ k, i ≤ k ∧ t.get k = a ∧ a ≠ 0 := by
  intro i
  induction i using pos_induction with
  | h i ih =>
    intro a ha
    by_cases hz : t.get i = 0
    · rw [t.treeAt_zero hz] at ha; simp [Tree.atoms] at ha
    · obtain ⟨il, ir⟩ := ih (Term.lt_of_get_ne hz)
      rw [t.treeAt_node hz, Tree.atoms] at ha
      simp only [List.mem_cons, List.mem_append] at ha
      rcases ha with ha | ha | ha
      · exact ⟨i, Nat.le_refl _, ha.symm, by rw [ha]; exact hz⟩
      · obtain ⟨k, h1, h2⟩ := il ha; exact ⟨k, by omega, h2⟩
      · obtain ⟨k, h1, h2⟩ := ir ha; exact ⟨k, by omega, h2⟩

theorem mem_atoms_treeAt {t : Term} (hc : t.Closed) : ∀ (p : List Bool) (k : Nat), t.get (pathPos k p) ≠ 0 →
    t.get (pathPos k p) ∈ (t.treeAt k).atoms
  | [], k, hk => by
    show t.get k ∈ _
    rw [t.treeAt_node (show t.get k ≠ 0 from hk)]; simp [Tree.atoms]
  | b :: p, k, hk => by
    rw [t.treeAt_node (get_up hc (b :: p) k hk), Tree.atoms]
    have := mem_atoms_treeAt hc p (childPos k b) hk
    cases b
    · exact List.mem_cons_of_mem _ (List.mem_append_left _ this)
    · exact List.mem_cons_of_mem _ (List.mem_append_right _ this)

theorem mem_atoms {t : Term} (hc : t.Closed) {i : Nat} (h : t.get i ≠ 0) : t.get i ∈ t.tree.atoms := by
  obtain ⟨p, rfl⟩ := exists_path i
  exact mem_atoms_treeAt hc p 0 h

/-- A leaf position has nothing below it. -/
theorem emptyBelow_of_leaf {t : Term} (hc : t.Closed) {i : Nat} {a : Atom} (h : t.treeAt i = .node a .nil .nil) :
    t.EmptyBelow i := by
  have h0 : t.get i ≠ 0 := by
    intro hz; rw [t.treeAt_zero hz] at h; cases h
  rw [t.treeAt_node h0] at h
  injection h with _ hl hr
  intro b p
  by_contra hne
  have := get_up hc p (childPos i b) hne
  cases b
  · exact this ((t.treeAt_eq_nil _).1 hl)
  · exact this ((t.treeAt_eq_nil _).1 hr)

/-- Two children of the same position have no common descendants. -/
theorem pathPos_sibling (k : Nat) (b : Bool) (p q : List Bool) : pathPos (childPos k b) p ≠ pathPos (childPos k (!b)) q := by
  intro h
  have : pathPos k (b :: p) = pathPos k ((!b) :: q) := h
  have := pathPos_inj this
  simp at this

/-- Overriding a leaf by a term: the tree is replaced there. -/
theorem override_leaf {t s : Term} (ht : t.Closed) (hs : s.Closed) (hs0 : s.get 0 ≠ 0) (p : List Bool) {a : Atom}
    (hleaf : t.treeAt (pathPos 0 p) = .node a .nil .nil) :
    ((Term_OverrideSubterm t (pathPos 0 p) s).1 = true ↔ s.tree.Fits (pathPos 0 p)) ∧
    ((Term_OverrideSubterm t (pathPos 0 p) s).1 = true →
      (Term_OverrideSubterm t (pathPos 0 p) s).2.Closed ∧
      (Term_OverrideSubterm t (pathPos 0 p) s).2.tree = t.tree.replaceAt p s.tree ∧
      (∀ q, (Term_OverrideSubterm t (pathPos 0 p) s).2.get (pathPos (pathPos 0 p) q) = s.get (pathPos 0 q)) ∧
      ∀ k, (∀ q, k ≠ pathPos (pathPos 0 p) q) → (Term_OverrideSubterm t (pathPos 0 p) s).2.get k = t.get k) := by
  set i := pathPos 0 p with hi
  obtain ⟨h1, h2, h3⟩ := C28_override t i s
  set t' := (Term_OverrideSubterm t i s).2 with ht'
  have hempty := emptyBelow_of_leaf ht hleaf
  have hti : t.get i ≠ 0 := by
    intro hz; rw [t.treeAt_zero hz] at hleaf; cases hleaf
  refine ⟨?_, fun hok => ?_⟩
  · rw [h1]; exact (fits_iff 0 i hs0).symm
  have vin : ∀ q, t'.get (pathPos i q) = s.get (pathPos 0 q) := by
    intro q
    by_cases hq : Present s 0 q
    · exact h2 hok q hq
    · rw [h3 _ fun r hr he => hq (by rw [pathPos_inj he]; exact hr)]
      have hsq : s.get (pathPos 0 q) = 0 := by
        by_contra hne; exact hq (present_of_closed hs (by decide) hne)
      rw [hsq]
      cases q with
      | nil => exact absurd hsq hs0
      | cons b q => exact hempty b q
  have vout : ∀ k, (∀ q, k ≠ pathPos i q) → t'.get k = t.get k := fun k hk => h3 k fun q _ => hk q
  have htree : ∀ (q : List Bool) (k : Nat), pathPos k q = i → t'.treeAt k = (t.treeAt k).replaceAt q s.tree := by
    intro q
    induction q with
    | nil =>
      intro k hk
      have hk' : k = i := hk
      rw [hk']
      have e : t'.treeAt i = s.treeAt 0 := treeAt_eq_of i 0 vin
      rw [e]
      cases t.treeAt i <;> rfl
    | cons b q ih =>
      intro k hk
      have hlt : k < i := by rw [← hk]; exact lt_pathPos k b q
      have hne : t.get k ≠ 0 := by rw [← hk] at hti; exact get_up ht (b :: q) k hti
      have hk2 : t'.get k = t.get k := vout k fun r he => by have := le_pathPos i r; omega
      have hk3 : t'.get k ≠ 0 := by rw [hk2]; exact hne
      have hb := ih (childPos k b) hk
      have ho : t'.treeAt (childPos k (!b)) = t.treeAt (childPos k (!b)) := by
        apply treeAt_congr
        intro r
        apply vout
        intro q' he
        rw [← hk] at he
        have he' : pathPos (childPos k (!b)) r = pathPos (childPos k b) (q ++ q') := by
          rw [he, pathPos_append]; rfl
        exact pathPos_sibling k b (q ++ q') r he'.symm
      rw [t'.treeAt_node hk3, t.treeAt_node hne, hk2]
      cases b
      · rw [Tree.replaceAt]
        rw [show t'.treeAt (2 * k + 1) = _ from hb, show t'.treeAt (2 * k + 2) = _ from ho]; rfl
      · rw [Tree.replaceAt]
        rw [show t'.treeAt (2 * k + 2) = _ from hb, show t'.treeAt (2 * k + 1) = _ from ho]; rfl
  refine ⟨?_, htree p 0 hi.symm, vin, vout⟩
  intro k b hne
  by_cases hk : ∃ q, k = pathPos i q
  · obtain ⟨q, rfl⟩ := hk
    have eq : ∀ k, childPos (pathPos k q) b = pathPos k (q ++ [b]) := by intro k; rw [pathPos_append]; rfl
    rw [eq, vin, ← eq] at hne
    rw [vin]
    exact hs _ b hne
  · push Not at hk
    rw [vout k hk]
    by_cases hcp : ∃ q, childPos k b = pathPos i q
    · obtain ⟨q, hq⟩ := hcp
      rcases List.eq_nil_or_concat q with rfl | ⟨q', c, rfl⟩
      · have : childPos k b = i := hq
        rw [← this] at hti
        exact ht k b hti
      · have e : childPos k b = childPos (pathPos i q') c := by
          rw [hq]; simp only [List.concat_eq_append]; rw [pathPos_append]; rfl
        exact absurd (childPos_inj e).1 (hk q')
    · push Not at hcp
      rw [vout _ hcp] at hne
      exact ht k b hne

/-! ### Unification -/

section
variable [Arith]

/-- Atoms that the unification with analogy may identify: both carry a value of the same measurement. -/
def SimilarAtoms (n : Narsese) (a b : Atom) : Prop :=
  a ≠ 0 ∧ b ≠ 0 ∧ n.atomHasValue (a.toNat - 1) = true ∧ n.atomHasValue (b.toNat - 1) = true ∧
    n.atomMeasurementNames (a.toNat - 1) = n.atomMeasurementNames (b.toNat - 1)

theorem unifyDifferent_some {n : Narsese} {d : ℚ} {truth cur t : Truth} {a b : Atom}
    (h : unifyDifferent n d truth cur a b = .ok (some t)) :
    truth.confidence ≠ 0 ∧ SimilarAtoms n a b ∧ ∃ x q, fdiv |x| d = .ok q ∧ t = Truth_Analogy cur ⟨1, cMAX 0 (fsub 1 q)⟩ ∧ t.confidence ≠ 0 := by
  unfold unifyDifferent at h
  by_cases h0 : truth.confidence = 0
  · rw [if_pos h0] at h; cases h
  · rw [if_neg h0] at h
    refine ⟨h0, ?_⟩
    simp only [R.bind_eq_ok] at h
    obtain ⟨ha, e1, h⟩ := h
    cases ha with
    | false => simp at h
    | true =>
    simp only [Bool.not_true, Bool.false_eq_true, if_false, R.bind_eq_ok] at h
    obtain ⟨hb, e2, h⟩ := h
    cases hb with
    | false => simp at h
    | true =>
    simp only [Bool.not_true, Bool.false_eq_true, if_false] at h
    by_cases hm : n.atomMeasurementNames (a.toNat - 1) ≠ n.atomMeasurementNames (b.toNat - 1)
    · rw [if_pos hm] at h; cases h
    · rw [if_neg hm] at h
      simp only [R.bind_eq_ok] at h
      obtain ⟨v1, _, v2, _, q, hq, h⟩ := h
      unfold Narsese_hasAtomValue at e1 e2
      simp only [R.bind_eq_ok, cassert_eq_ok] at e1 e2
      obtain ⟨_, a0, a1⟩ := e1
      obtain ⟨_, b0, b1⟩ := e2
      refine ⟨⟨by simpa using a0, by simpa using b0, by simpa using a1, by simpa using b1, not_not.1 hm⟩, ?_⟩
      split at h
      · cases h
      · cases h; exact ⟨_, _, hq, rfl, by assumption⟩

/-- Everything a successful run of the loop of `Variable_Unify2` has checked. -/
theorem unifyLoop_sound {n : Narsese} {d : ℚ} {truth : Truth} {G S : Term} {qo : Bool} : ∀ (k : Nat) (s s' : Substitution),
    k ≤ COMPOUND_TERM_SIZE_MAX → s.success = false → unifyLoop n d truth G S qo k s = .ok s' → s'.success = true →
    (∀ i, COMPOUND_TERM_SIZE_MAX - k ≤ i → G.get i ≠ 0 → allowedVar n qo (G.get i) = false →
      G.get i = S.get i ∨ (truth.confidence ≠ 0 ∧ SimilarAtoms n (G.get i) (S.get i))) ∧
    (∀ i, COMPOUND_TERM_SIZE_MAX - k ≤ i → G.get i ≠ 0 → allowedVar n qo (G.get i) = true →
      (G.get i).toNat ≤ 27 ∧ Narsese_copulaEquals n (S.get i) SET_TERMINATOR = false ∧
      (Variable_isQueryVariable n (G.get i) = true → Variable_isVariable n (S.get i) = false) ∧
      (S.get i ≠ 0 → s'.map (G.get i).toNat = Term_ExtractSubterm S i)) ∧
    (∀ v, (s.map v).get 0 ≠ 0 → s'.map v = s.map v) ∧
    (∀ v, (¬ ∃ i, COMPOUND_TERM_SIZE_MAX - k ≤ i ∧ G.get i ≠ 0 ∧ allowedVar n qo (G.get i) = true ∧ (G.get i).toNat = v) →
      s'.map v = s.map v) := by
  intro k
  induction k with
  | zero =>
    intro s s' _ _ h _
    rw [unifyLoop] at h
    cases h
    have out : ∀ i, COMPOUND_TERM_SIZE_MAX - 0 ≤ i → G.get i ≠ 0 → False := by
      intro i hi hne; have := Term.lt_of_get_ne hne; omega
    exact ⟨fun i hi hne _ => (out i hi hne).elim, fun i hi hne _ => (out i hi hne).elim, fun _ _ => rfl, fun _ _ => rfl⟩
  | succ k ih =>
    intro s s' hk hs h hok
    rw [unifyLoop] at h
    set i := COMPOUND_TERM_SIZE_MAX - (k + 1) with hi
    have hnext : COMPOUND_TERM_SIZE_MAX - k = i + 1 := by omega
    have split_i : ∀ j, i ≤ j → j = i ∨ COMPOUND_TERM_SIZE_MAX - k ≤ j := by intro j hj; omega
    by_cases h0 : G.get i = 0
    · rw [if_pos h0] at h
      obtain ⟨c1, c2, c3, c4⟩ := ih s s' (by omega) hs h hok
      refine ⟨?_, ?_, c3, ?_⟩
      · intro j hj hne hv
        rcases split_i j hj with rfl | hj
        · exact absurd h0 hne
        · exact c1 j hj hne hv
      · intro j hj hne hv
        rcases split_i j hj with rfl | hj
        · exact absurd h0 hne
        · exact c2 j hj hne hv
      · intro v hv
        exact c4 v fun ⟨j, hj, x⟩ => hv ⟨j, by omega, x⟩
    · rw [if_neg h0] at h
      by_cases hv : allowedVar n qo (G.get i) = true
      · simp only [hv, if_true] at h
        rw [R.bind_eq_ok] at h
        obtain ⟨_, ha, h⟩ := h
        rw [cassert_eq_ok] at ha
        have hroot : (Term_ExtractSubterm S i).get 0 = S.get i := extract_get_root S i
        rw [hroot] at h
        split at h
        · cases h; rw [hs] at hok; cases hok
        rename_i hq
        split at h
        · cases h; rw [hs] at hok; cases hok
        rename_i hcons
        split at h
        · cases h; rw [hs] at hok; cases hok
        rename_i hterm
        have ih' := ih ⟨upd s.map (G.get i).toNat (Term_ExtractSubterm S i), s.success, s.truth⟩ s' (by omega) hs h hok
        obtain ⟨c1, c2, c3, c4⟩ := ih'
        have hkeep : S.get i ≠ 0 → s'.map (G.get i).toNat = Term_ExtractSubterm S i := by
          intro hS
          have := c3 (G.get i).toNat (by simp only [upd_same]; rw [hroot]; exact hS)
          simpa using this
        refine ⟨?_, ?_, ?_, ?_⟩
        · intro j hj hne hv'
          rcases split_i j hj with rfl | hj
          · rw [hv] at hv'; cases hv'
          · exact c1 j hj hne hv'
        · intro j hj hne hv'
          rcases split_i j hj with rfl | hj
          · refine ⟨by simpa using ha, by simpa using hterm, ?_, hkeep⟩
            intro hqv
            rw [hqv] at hq
            simpa using hq
          · exact c2 j hj hne hv'
        · intro v hvv
          by_cases hveq : v = (G.get i).toNat
          · subst hveq
            have heq : s.map (G.get i).toNat = Term_ExtractSubterm S i := by
              by_contra hne
              apply hcons
              rw [decide_eq_true hvv, decide_eq_false hne]
              rfl
            have := c3 (G.get i).toNat (by simp only [upd_same]; rw [← heq]; exact hvv)
            rw [this, heq]; simp
          · have := c3 v (by simp only [upd_other _ _ hveq]; exact hvv)
            rw [this]; simp [upd_other _ _ hveq]
        · intro v hvv
          have hveq : v ≠ (G.get i).toNat := fun he => hvv ⟨i, Nat.le_refl _, h0, hv, he.symm⟩
          have := c4 v fun ⟨j, hj, x⟩ => hvv ⟨j, by omega, x⟩
          rw [this]; simp [upd_other _ _ hveq]
      · have hvf : allowedVar n qo (G.get i) = false := by simpa using hv
        simp only [hvf, Bool.false_eq_true, if_false] at h
        have fin : ∀ s1 : Substitution, s1.map = s.map → s1.success = false →
            unifyLoop n d truth G S qo k s1 = .ok s' →
            (G.get i = S.get i ∨ (truth.confidence ≠ 0 ∧ SimilarAtoms n (G.get i) (S.get i))) → _ := fun s1 hmap hs1 hrun hgs => by
          obtain ⟨c1, c2, c3, c4⟩ := ih s1 s' (by omega) hs1 hrun hok
          rw [hmap] at c3 c4
          refine (⟨?_, ?_, c3, ?_⟩ :
            (∀ j, i ≤ j → G.get j ≠ 0 → allowedVar n qo (G.get j) = false →
              G.get j = S.get j ∨ (truth.confidence ≠ 0 ∧ SimilarAtoms n (G.get j) (S.get j))) ∧
            (∀ j, i ≤ j → G.get j ≠ 0 → allowedVar n qo (G.get j) = true →
              (G.get j).toNat ≤ 27 ∧ Narsese_copulaEquals n (S.get j) SET_TERMINATOR = false ∧
              (Variable_isQueryVariable n (G.get j) = true → Variable_isVariable n (S.get j) = false) ∧
              (S.get j ≠ 0 → s'.map (G.get j).toNat = Term_ExtractSubterm S j)) ∧
            (∀ v, (s.map v).get 0 ≠ 0 → s'.map v = s.map v) ∧
            (∀ v, (¬ ∃ j, i ≤ j ∧ G.get j ≠ 0 ∧ allowedVar n qo (G.get j) = true ∧ (G.get j).toNat = v) →
              s'.map v = s.map v))
          · intro j hj hne hv'
            rcases split_i j hj with rfl | hj
            · exact hgs
            · exact c1 j hj hne hv'
          · intro j hj hne hv'
            rcases split_i j hj with rfl | hj
            · exact absurd hv' hv
            · exact c2 j hj hne hv'
          · intro v hvv
            exact c4 v fun ⟨j, hj, x⟩ => hvv ⟨j, by omega, x⟩
        by_cases hgs : G.get i ≠ S.get i
        · rw [if_pos hgs, R.bind_eq_ok] at h
          obtain ⟨o, ho, h⟩ := h
          cases o with
          | none => cases h; rw [hs] at hok; cases hok
          | some t =>
            obtain ⟨g1, g2, -⟩ := unifyDifferent_some ho
            exact fin ⟨s.map, s.success, t⟩ rfl hs h (Or.inr ⟨g1, g2⟩)
        · rw [if_neg hgs] at h
          exact fin s rfl hs h (Or.inl (not_not.1 hgs))

omit [Arith] in
/-- The trees of two regular terms that agree as checked by the loop: the specific one is an instance. -/
theorem instance_of_checks {comp isVar : Atom → Bool} {G S : Term} {σ : Atom → Tree}
    (h1 : ∀ i, G.get i ≠ 0 → isVar (G.get i) = false → G.get i = S.get i)
    (h2 : ∀ i, G.get i ≠ 0 → isVar (G.get i) = true → S.get i ≠ 0 → σ (G.get i) = S.treeAt i) :
    ∀ i, (G.treeAt i).Regular comp → (S.treeAt i).Regular comp → (G.treeAt i).subst isVar σ = S.treeAt i := by
  intro i
  induction i using pos_induction with
  | h i ih =>
    intro rG rS
    have g0 : G.get i ≠ 0 := by
      intro hz; rw [G.treeAt_zero hz] at rG; exact rG
    have s0 : S.get i ≠ 0 := by
      intro hz; rw [S.treeAt_zero hz] at rS; exact rS
    obtain ⟨il, ir⟩ := ih (Term.lt_of_get_ne g0)
    rw [G.treeAt_node g0, Tree.subst]
    by_cases hv : isVar (G.get i) = true
    · rw [if_pos hv]; exact h2 i g0 hv s0
    · rw [if_neg hv, S.treeAt_node s0]
      have he := h1 i g0 (by simpa using hv)
      rw [G.treeAt_node g0, Tree.Regular] at rG
      rw [S.treeAt_node s0, Tree.Regular] at rS
      rw [← he] at rS ⊢
      by_cases hc : comp (G.get i) = true
      · rw [if_pos hc] at rG rS
        rw [il rG.1 rS.1, ir rG.2 rS.2]
      · rw [if_neg hc] at rG rS
        rw [rG.1, rG.2, rS.1, rS.2]; rfl

end

/-- Loop of `Variable_ApplySubstitute`. -/
theorem applyLoop_spec {n : Narsese} {sub : Substitution} {S : Term} (hS : S.Closed)
    (hSv : ∀ i, Variable_isVariable n (S.get i) = false) : ∀ (k : Nat) (cur : Term),
    k ≤ COMPOUND_TERM_SIZE_MAX → cur.Closed → cur.tree.VarLeaves (Variable_isVariable n) →
    cur.tree.subst (Variable_isVariable n) (fun v => (sub.map v.toNat).tree) = S.tree →
    (∀ i, Variable_isVariable n (cur.get i) = true → (cur.get i).toNat ≤ 27 ∧ (sub.map (cur.get i).toNat).Closed ∧
      (sub.map (cur.get i).toNat).get 0 ≠ 0) →
    (∀ i, i < COMPOUND_TERM_SIZE_MAX - k → Variable_isVariable n (cur.get i) = false) →
    applyLoop n sub k cur true = .ok (S, true) := by
  intro k
  induction k with
  | zero =>
    intro cur _ hc _ hsub _ hdone
    rw [applyLoop]
    have hno : ∀ a ∈ cur.tree.atoms, Variable_isVariable n a = false := by
      intro a ha
      obtain ⟨i, -, rfl, hne⟩ := atoms_treeAt 0 ha
      exact hdone i (by have := Term.lt_of_get_ne hne; omega)
    rw [Tree.subst_none hno] at hsub
    rw [Term.eq_of_tree hc hS hsub]
  | succ k ih =>
    intro cur hk hc hvl hsub hvar hdone
    rw [applyLoop]
    set i := COMPOUND_TERM_SIZE_MAX - (k + 1) with hi
    have hnext : COMPOUND_TERM_SIZE_MAX - k = i + 1 := by omega
    by_cases hv : Variable_isVariable n (cur.get i) = true
    · obtain ⟨v1, v2, v3⟩ := hvar i hv
      rw [cassert_true (by simp [v1])]
      simp only [R.ok_bind]
      rw [if_pos (by rw [hv, decide_eq_true v3]; rfl)]
      have h0 : cur.get i ≠ 0 := by
        intro hz; rw [hz] at hv
        simp [Variable_isVariable, Variable_isIndependentVariable, Variable_isDependentVariable,
          Variable_isQueryVariable] at hv
      obtain ⟨p, hp⟩ := exists_path i
      have hsubp : cur.tree.sub p = cur.treeAt i := by rw [tree_sub hc p, hp]
      have hsne : cur.tree.sub p ≠ .nil := by
        rw [hsubp]; intro hz; exact h0 ((cur.treeAt_eq_nil i).1 hz)
      have hroot : (cur.tree.sub p).root = cur.get i := by
        rw [hsubp, cur.treeAt_node h0]; rfl
      -- a variable is a leaf
      have hleaf : cur.treeAt i = .node (cur.get i) .nil .nil := by
        have key : ∀ (T : Tree) (p : List Bool), T.VarLeaves (Variable_isVariable n) → (T.sub p).VarLeaves (Variable_isVariable n) := by
          intro T p
          induction p generalizing T with
          | nil => intro h; rw [Tree.sub_root]; exact h
          | cons b p ihp =>
            intro h
            cases T with
            | nil => trivial
            | node a l r =>
              rw [Tree.VarLeaves] at h
              by_cases ha : Variable_isVariable n a = true
              · rw [if_pos ha] at h
                obtain ⟨rfl, rfl⟩ := h
                cases b <;> exact ihp _ trivial
              · rw [if_neg ha] at h
                cases b
                · exact ihp _ h.1
                · exact ihp _ h.2
        have := key _ p hvl
        rw [hsubp, cur.treeAt_node h0, Tree.VarLeaves, if_pos hv] at this
        rw [cur.treeAt_node h0, this.1, this.2]
      -- the instance at position i
      have hSi : S.treeAt i = (sub.map (cur.get i).toNat).tree := by
        have e1 : S.tree.sub p = S.treeAt i := by rw [tree_sub hS p, hp]
        rw [← e1, ← hsub, Tree.sub_subst hvl hsne, hsubp, cur.treeAt_node h0, Tree.subst, if_pos hv]
      have hUno : ∀ a ∈ (sub.map (cur.get i).toNat).tree.atoms, Variable_isVariable n a = false := by
        intro a ha
        rw [← hSi] at ha
        obtain ⟨j, -, rfl, -⟩ := atoms_treeAt i ha
        exact hSv j
      obtain ⟨o1, o2⟩ := override_leaf hc v2 v3 p (by rw [hp]; exact hleaf)
      rw [hp] at o1 o2
      have hok := o1.2 (by rw [← hSi]; exact S.treeAt_fits i)
      obtain ⟨o3, o4, o5, o6⟩ := o2 hok
      rw [if_pos hok]
      -- atoms of the new term
      have hget : ∀ j, Variable_isVariable n ((Term_OverrideSubterm cur i (sub.map (cur.get i).toNat)).2.get j) = true →
          (Term_OverrideSubterm cur i (sub.map (cur.get i).toNat)).2.get j = cur.get j ∧ ∀ q, j ≠ pathPos i q := by
        intro j hj
        by_cases hex : ∃ q, j = pathPos i q
        · obtain ⟨q, rfl⟩ := hex
          rw [o5] at hj
          have hq : S.get (pathPos i q) = (sub.map (cur.get i).toNat).get (pathPos 0 q) := by
            have e1 := closed_at v2 q
            rw [← hSi, ← tree_extract, closed_at (extract_closed hS i)] at e1
            rw [← e1, C28_extract_closed S hS i (by omega)]
          rw [← hq, hSv] at hj; cases hj
        · push Not at hex
          exact ⟨o6 j hex, hex⟩
      apply ih _ (by omega) o3
      · rw [o4]; exact Tree.VarLeaves.replaceAt (Tree.varLeaves_none hUno) hvl hsne
      · rw [o4, Tree.subst_replaceAt hv (Tree.subst_none hUno) hroot h0]
        exact hsub
      · intro j hj
        obtain ⟨e, -⟩ := hget j hj
        rw [e] at hj ⊢
        exact hvar j hj
      · intro j hj
        by_contra hne
        obtain ⟨e, hq⟩ := hget j (by simpa using hne)
        rw [e] at hne
        rcases Nat.lt_or_ge j i with hlt | hge
        · exact hne (hdone j hlt)
        · exact hq [] (show j = i by omega)
    · have hvf : Variable_isVariable n (cur.get i) = false := by simpa using hv
      rw [hvf, cassert_true (by rfl)]
      simp only [R.ok_bind, Bool.false_and, Bool.false_eq_true, if_false]
      apply ih cur (by omega) hc hvl hsub hvar
      intro j hj
      rcases Nat.lt_or_ge j i with hlt | hge
      · exact hdone j hlt
      · rw [show j = i by omega]; exact hvf

section
variable [Arith]

/-- Unification finds every instance. -/
theorem unifyLoop_complete {n : Narsese} {d : ℚ} {truth : Truth} {G S : Term} {qo : Bool} {σ : Atom → Tree}
    (hG : G.Closed) (hS : S.Closed) (hvl : G.tree.VarLeaves (allowedVar n qo))
    (hinst : G.tree.subst (allowedVar n qo) σ = S.tree)
    (hσ : ∀ i, allowedVar n qo (G.get i) = true → (G.get i).toNat ≤ 27 ∧
      Narsese_copulaEquals n (σ (G.get i)).root SET_TERMINATOR = false ∧
      (Variable_isQueryVariable n (G.get i) = true → Variable_isVariable n (σ (G.get i)).root = false)) :
    ∀ (k : Nat) (s : Substitution), k ≤ COMPOUND_TERM_SIZE_MAX →
    (∀ a, allowedVar n qo a = true → (s.map a.toNat).get 0 ≠ 0 → (s.map a.toNat).Closed ∧ (s.map a.toNat).tree = σ a) →
    ∃ s', unifyLoop n d truth G S qo k s = .ok s' ∧ s'.success = true ∧ s'.truth = s.truth := by
  intro k
  induction k with
  | zero => intro s _ _; exact ⟨_, rfl, rfl, rfl⟩
  | succ k ih =>
    intro s hk hmap
    rw [unifyLoop]
    set i := COMPOUND_TERM_SIZE_MAX - (k + 1) with hi
    by_cases h0 : G.get i = 0
    · rw [if_pos h0]; exact ih s (by omega) hmap
    rw [if_neg h0]
    obtain ⟨p, hp⟩ := exists_path i
    have hsubp : G.tree.sub p = G.treeAt i := by rw [tree_sub hG p, hp]
    have hsne : G.tree.sub p ≠ .nil := by
      rw [hsubp]; intro hz; exact h0 ((G.treeAt_eq_nil i).1 hz)
    have hSi : S.treeAt i = (G.treeAt i).subst (allowedVar n qo) σ := by
      have e1 : S.tree.sub p = S.treeAt i := by rw [tree_sub hS p, hp]
      rw [← e1, ← hinst, Tree.sub_subst hvl hsne, hsubp]
    rw [G.treeAt_node h0, Tree.subst] at hSi
    by_cases hv : allowedVar n qo (G.get i) = true
    · rw [if_pos hv] at hSi
      simp only [hv, if_true]
      obtain ⟨c1, c2, c3⟩ := hσ i hv
      have hroot : (Term_ExtractSubterm S i).get 0 = (σ (G.get i)).root := by
        rw [← hSi, ← tree_extract, tree_root]
      have htree : (Term_ExtractSubterm S i).tree = σ (G.get i) := by rw [tree_extract, hSi]
      rw [cassert_true (by simpa using c1)]
      simp only [R.ok_bind, hroot]
      rw [if_neg, if_neg, if_neg]
      · apply ih _ (by omega)
        intro a ha hne
        by_cases hag : a = G.get i
        · subst hag
          simp only [upd_same]
          exact ⟨extract_closed hS i, htree⟩
        · have hag' : a.toNat ≠ (G.get i).toNat := fun e => hag (BitVec.eq_of_toNat_eq e)
          simp only [upd_other _ _ hag'] at hne ⊢
          exact hmap a ha hne
      · rw [c2]; decide
      · intro hc
        simp only [Bool.and_eq_true, decide_eq_true_iff, Bool.not_eq_true', decide_eq_false_iff_not] at hc
        obtain ⟨m1, m2⟩ := hmap _ hv hc.1
        exact hc.2 (Term.eq_of_tree m1 (extract_closed hS i) (by rw [m2, htree]))
      · intro hc
        rw [Bool.and_eq_true] at hc
        rw [c3 hc.1] at hc
        exact absurd hc.2 (by decide)
    · rw [if_neg hv] at hSi
      have hvf : allowedVar n qo (G.get i) = false := by simpa using hv
      simp only [hvf, Bool.false_eq_true, if_false]
      have hs0 : S.get i ≠ 0 := by
        intro hz; rw [S.treeAt_zero hz] at hSi; cases hSi
      rw [S.treeAt_node hs0] at hSi
      injection hSi with e _ _
      rw [if_neg (by rw [e]; simp)]
      exact ih s (by omega) hmap

end

end ONA
