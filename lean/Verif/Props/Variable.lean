import Verif.Proofs.Variable
import Verif.Props.Narsese
import Verif.Props.Truth
/-
Properties of unification and substitution (src/Variable.c): C29, C30, C60.
-/
namespace ONA

/-- A well-formed term: its tree is regular and nothing is outside the tree. -/
def Term.WellFormed (comp : Atom → Bool) (t : Term) : Prop := t.Closed ∧ t.tree.Regular comp

/-- The assignment of trees to variables described by a substitution. -/
def Substitution.assignment (s : Substitution) : Atom → Tree := fun v => (s.map v.toNat).tree

section
variable [Arith]

theorem unify_facts {n : Narsese} {d : ℚ} {truth : Truth} {G S : Term} {qo : Bool} {sub : Substitution}
    (h : Variable_Unify2 n d truth G S qo = .ok sub) (hok : sub.success = true) :
    (∀ i, G.get i ≠ 0 → allowedVar n qo (G.get i) = false →
      G.get i = S.get i ∨ (truth.confidence ≠ 0 ∧ SimilarAtoms n (G.get i) (S.get i))) ∧
    (∀ i, G.get i ≠ 0 → allowedVar n qo (G.get i) = true →
      (G.get i).toNat ≤ 27 ∧ Narsese_copulaEquals n (S.get i) SET_TERMINATOR = false ∧
      (Variable_isQueryVariable n (G.get i) = true → Variable_isVariable n (S.get i) = false) ∧
      (S.get i ≠ 0 → sub.map (G.get i).toNat = Term_ExtractSubterm S i)) ∧
    (∀ v, (¬ ∃ i, G.get i ≠ 0 ∧ allowedVar n qo (G.get i) = true ∧ (G.get i).toNat = v) → sub.map v = Term.zero) := by
  obtain ⟨c1, c2, -, c4⟩ := unifyLoop_sound COMPOUND_TERM_SIZE_MAX _ sub (Nat.le_refl _) rfl h hok
  rw [Nat.sub_self] at c1 c2 c4
  refine ⟨fun i => c1 i (Nat.zero_le _), fun i => c2 i (Nat.zero_le _), fun v hv => ?_⟩
  rw [c4 v fun ⟨i, _, x⟩ => hv ⟨i, x⟩]
  rfl

/-- **C29 (bindings).** If unification of two well-formed terms succeeds, the specific term is the instance of the
general one under the returned assignment - so no variable stands for two different terms -, no variable is bound
to a set terminator, query variables are not bound to variables, and nothing but variables of the general term is
bound. With `queryOnly` the variables are the query variables, else all. -/
theorem C29_instance (n : Narsese) (comp : Atom → Bool) (G S : Term) (queryOnly : Bool) (sub : Substitution) (d : ℚ)
    (hcv : ∀ a, Variable_isVariable n a = true → comp a = false)
    (hG : G.WellFormed comp) (hS : S.WellFormed comp)
    (h : Variable_Unify2 n d ⟨0, 0⟩ G S queryOnly = .ok sub) (hok : sub.success = true) :
    G.tree.subst (allowedVar n queryOnly) sub.assignment = S.tree ∧
    (∀ i p, G.get i ≠ 0 → allowedVar n queryOnly (G.get i) = true → i = pathPos 0 p →
      (sub.map (G.get i).toNat) = Term_ExtractSubterm S i ∧ S.get i ≠ 0 ∧
      Narsese_copulaEquals n (S.get i) SET_TERMINATOR = false ∧
      (Variable_isQueryVariable n (G.get i) = true → Variable_isVariable n (S.get i) = false)) ∧
    (∀ v, (∀ i, G.get i ≠ 0 → (G.get i).toNat ≠ v) → sub.map v = Term.zero) := by
  obtain ⟨f1, f2, f3⟩ := unify_facts h hok
  have hcv' : ∀ a, allowedVar n queryOnly a = true → comp a = false := by
    intro a ha
    apply hcv
    unfold allowedVar at ha
    cases queryOnly
    · exact ha
    · have : Variable_isQueryVariable n a = true := ha
      unfold Variable_isVariable; rw [this]; simp
  have e1 : ∀ i, G.get i ≠ 0 → allowedVar n queryOnly (G.get i) = false → G.get i = S.get i := by
    intro i h0 hv
    rcases f1 i h0 hv with h | h
    · exact h
    · exact absurd rfl h.1
  have hinst : G.tree.subst (allowedVar n queryOnly) sub.assignment = S.tree := by
    apply instance_of_checks e1 ?_ 0 hG.2 hS.2
    intro i h0 hv hs
    unfold Substitution.assignment
    rw [(f2 i h0 hv).2.2.2 hs, tree_extract]
  refine ⟨hinst, ?_, fun v hv => f3 v fun ⟨i, h0, _, he⟩ => hv i h0 he⟩
  intro i p h0 hv hip
  obtain ⟨-, g2, g3, g4⟩ := f2 i h0 hv
  -- the specific term has a node there
  have hs0 : S.get i ≠ 0 := by
    have key : ∀ (p : List Bool) (k : Nat), G.get (pathPos k p) ≠ 0 → (G.treeAt k).Regular comp →
        (S.treeAt k).Regular comp → S.get (pathPos k p) ≠ 0 := by
      intro p
      induction p with
      | nil =>
        intro k _ _ rS hz
        have hz' : S.get k = 0 := hz
        rw [S.treeAt_zero hz'] at rS; exact rS
      | cons b p ih =>
        intro k hne rG rS
        have g0 : G.get k ≠ 0 := get_up hG.1 (b :: p) k hne
        have s0 : S.get k ≠ 0 := by intro hz; rw [S.treeAt_zero hz] at rS; exact rS
        have gc : G.get (childPos k b) ≠ 0 := get_up hG.1 p (childPos k b) hne
        rw [G.treeAt_node g0, Tree.Regular] at rG
        rw [S.treeAt_node s0, Tree.Regular] at rS
        by_cases hc : comp (G.get k) = true
        · have hv : allowedVar n queryOnly (G.get k) = false := by
            by_contra hv
            rw [hcv' _ (by simpa using hv)] at hc; cases hc
          rw [← e1 k g0 hv, if_pos hc] at rS
          rw [if_pos hc] at rG
          cases b
          · exact ih _ hne rG.1 rS.1
          · exact ih _ hne rG.2 rS.2
        · rw [if_neg hc] at rG
          cases b
          · exact absurd ((G.treeAt_eq_nil _).1 rG.1) gc
          · exact absurd ((G.treeAt_eq_nil _).1 rG.2) gc
    rw [hip] at h0 ⊢
    exact key p 0 h0 hG.2 hS.2
  exact ⟨g4 hs0, hs0, g2, g3⟩

/-- **C29 (soundness).** If unification of a well-formed general term with a well-formed term without variables
succeeds, applying the substitution to the general term yields exactly the specific term. -/
theorem C29_sound (n : Narsese) (comp : Atom → Bool) (G S : Term) (sub : Substitution)
    (hcv : ∀ a, Variable_isVariable n a = true → comp a = false)
    (hG : G.WellFormed comp) (hS : S.WellFormed comp) (hSv : ∀ a ∈ S.tree.atoms, Variable_isVariable n a = false)
    (h : Variable_Unify n G S = .ok sub) (hok : sub.success = true) :
    Variable_ApplySubstitute n G sub = .ok (S, true) := by
  obtain ⟨i1, i2, -⟩ := C29_instance n comp G S false sub 1 hcv hG hS h hok
  have hzero : Variable_isVariable n 0 = false := by
    simp [Variable_isVariable, Variable_isIndependentVariable, Variable_isDependentVariable, Variable_isQueryVariable]
  have hSv' : ∀ i, Variable_isVariable n (S.get i) = false := by
    intro i
    by_cases h0 : S.get i = 0
    · rw [h0]; exact hzero
    · apply hSv
      exact mem_atoms hS.1 h0
  unfold Variable_ApplySubstitute
  rw [cassert_true hok]
  simp only [R.ok_bind]
  have hvar0 : ∀ i, Variable_isVariable n (G.get i) = true → G.get i ≠ 0 := by
    intro i hv hz; rw [hz, hzero] at hv; cases hv
  apply applyLoop_spec hS.1 hSv' _ G (Nat.le_refl _) hG.1 (hG.2.varLeaves hcv) i1
  · intro i hv
    obtain ⟨p, hp⟩ := exists_path i
    obtain ⟨j1, j2, -⟩ := i2 i p (hvar0 i hv) hv hp.symm
    have f2 := ((unify_facts h hok).2.1 i (hvar0 i hv) hv).1
    refine ⟨f2, ?_, ?_⟩
    · rw [j1]; exact extract_closed hS.1 i
    · rw [j1, extract_get_root]; exact j2
  · intro i hi
    rw [Nat.sub_self] at hi
    exact absurd hi (Nat.not_lt_zero _)

/-- **C30 (completeness).** If some assignment of trees to the (numbered) variables turns the general term into the
specific one - no variable standing for a set terminator, no query variable for a variable -, unification succeeds. -/
theorem C30_complete (n : Narsese) (G S : Term) (queryOnly : Bool) (σ : Atom → Tree) (d : ℚ) (truth : Truth)
    (hG : G.Closed) (hS : S.Closed) (hvl : G.tree.VarLeaves (allowedVar n queryOnly))
    (hinst : G.tree.subst (allowedVar n queryOnly) σ = S.tree)
    (hσ : ∀ v ∈ G.tree.atoms, allowedVar n queryOnly v = true → v.toNat ≤ 27 ∧
      Narsese_copulaEquals n (σ v).root SET_TERMINATOR = false ∧
      (Variable_isQueryVariable n v = true → Variable_isVariable n (σ v).root = false)) :
    ∃ sub, Variable_Unify2 n d truth G S queryOnly = .ok sub ∧ sub.success = true ∧ sub.truth = truth := by
  apply unifyLoop_complete hG hS hvl hinst
  · intro i hv
    apply hσ _ ?_ hv
    have h0 : G.get i ≠ 0 := by
      intro hz
      rw [hz] at hv
      unfold allowedVar at hv
      cases queryOnly <;>
        simp [Variable_isVariable, Variable_isIndependentVariable, Variable_isDependentVariable, Variable_isQueryVariable] at hv
    exact mem_atoms hG h0
  · exact Nat.le_refl _
  · intro a _ hne
    exact absurd (Term.get_zero 0) hne

/-! ### C60: unification by numeric similarity -/

theorem similarity_unit {d x q : ℚ} (hd : 0 < d) (h : fdiv |x| d = .ok q) : Unit01 (cMAX 0 (fsub 1 q)) := by
  have hq : 0 ≤ q := by
    unfold fdiv at h
    rw [if_neg (ne_of_gt hd)] at h
    cases h
    exact rnd_nonneg (div_nonneg (abs_nonneg x) (le_of_lt hd))
  unfold cMAX
  split
  · exact unit01_zero
  · rename_i hle
    refine ⟨Arith.rnd_idem _, by linarith, ?_⟩
    unfold fsub
    have := Arith.rnd_mono (show 1 - q ≤ 1 by linarith)
    have h1 := Arith.rnd_nat 1 (by norm_num)
    push_cast at h1
    rw [h1] at this
    exact this

theorem unifyLoop_truth {n : Narsese} {d : ℚ} {truth : Truth} {G S : Term} {qo : Bool} (hd : 0 < d) :
    ∀ (k : Nat) (s s' : Substitution), s.truth.Valid → unifyLoop n d truth G S qo k s = .ok s' →
    s'.truth.Valid ∧ s'.truth.confidence ≤ s.truth.confidence ∧
      (truth.confidence = 0 → s'.truth = s.truth) := by
  intro k
  induction k with
  | zero => intro s s' hv h; rw [unifyLoop] at h; cases h; exact ⟨hv, le_refl _, fun _ => rfl⟩
  | succ k ih =>
    intro s s' hv h
    rw [unifyLoop] at h
    simp only at h
    split at h
    · exact ih s s' hv h
    · split at h
      · rw [R.bind_eq_ok] at h
        obtain ⟨_, -, h⟩ := h
        split at h
        · cases h; exact ⟨hv, le_refl _, fun _ => rfl⟩
        split at h
        · cases h; exact ⟨hv, le_refl _, fun _ => rfl⟩
        split at h
        · cases h; exact ⟨hv, le_refl _, fun _ => rfl⟩
        exact ih ⟨upd s.map _ _, s.success, s.truth⟩ s' hv h
      · split at h
        · rw [R.bind_eq_ok] at h
          obtain ⟨o, ho, h⟩ := h
          cases o with
          | none => cases h; exact ⟨hv, le_refl _, fun _ => rfl⟩
          | some t =>
            obtain ⟨h0, -, x, q, hq, e, -⟩ := unifyDifferent_some ho
            have hu := similarity_unit hd hq
            have hc := fmul_unit hv.c hu
            have ht : t.Valid ∧ t.confidence ≤ s.truth.confidence := by
              rw [e]
              refine ⟨Truth.Valid.mk' (fmul_unit hv.f unit01_one) (fmul_unit hc unit01_one), ?_⟩
              exact le_trans (fmul_le_left hc unit01_one) (fmul_le_left hv.c hu)
            have := ih ⟨s.map, s.success, t⟩ s' ht.1 h
            exact ⟨this.1, le_trans this.2.1 ht.2, fun h1 => absurd h1 h0⟩
        · exact ih s s' hv h

/-- **C60.** Unification by numeric similarity (for a positive similarity distance) never raises the confidence, keeps the
truth value in range, and when it succeeds, every atom of the general term that is no variable either is the atom of
the specific term at the same place or has, like that one, a value of the same measurement. -/
theorem C60_analogy (n : Narsese) (d : ℚ) (hd : 0 < d) (truth : Truth) (ht : truth.Valid) (G S : Term) (sub : Substitution)
    (h : Variable_UnifyWithAnalogy n d truth G S = .ok sub) :
    sub.truth.Valid ∧ sub.truth.confidence ≤ truth.confidence ∧
    (sub.success = true → ∀ i, G.get i ≠ 0 → Variable_isVariable n (G.get i) = false →
      G.get i = S.get i ∨ (truth.confidence ≠ 0 ∧ SimilarAtoms n (G.get i) (S.get i))) := by
  obtain ⟨t1, t2, -⟩ := unifyLoop_truth hd _ _ sub ht h
  exact ⟨t1, t2, fun hok => (unify_facts h hok).1⟩

end

/-! ### Examples -/

/-- An atom table with the initial names and `cat` (64), `animal` (65), `eats` (66), `{SELF}`-like terms and two numbers
`1` (67) and `2` (68) of the measurement `size`. -/
def demoNarsese : Narsese :=
  { Narsese.blank ATOMS_MAX ⟨⟨fun _ => none, 0, 0⟩, fun _ => ⟨none, none, none⟩, fun _ => none, 0, 0⟩ with
    atomNames := fun i => (allInitialNames ++ [['c', 'a', 't'], ['a', 'n', 'i', 'm', 'a', 'l'], ['e', 'a', 't', 's'], ['1'], ['2']]).getD i []
    atomHasValue := fun i => i == 66 || i == 67
    atomValues := fun i => if i = 66 then 1 else 2
    atomMeasurementNames := fun _ => ['s', 'i', 'z', 'e']
    SELF := 63
    term_index := 68 }

/-- The copulas of the initial table, except the set terminator. -/
def demoComp (a : Atom) : Bool := decide (41 ≤ a.toNat) && decide (a.toNat ≤ 62)

/-- `<$1 --> animal>` -/
def demoGeneral : Term := (Term.zero.put 0 (copulaAtom INHERITANCE)).put 1 (nameAtom ['$', '1']) |>.put 2 65
/-- `<(cat * cat) --> animal>` -/
def demoSpecific : Term :=
  ((((Term.zero.put 0 (copulaAtom INHERITANCE)).put 1 (copulaAtom PRODUCT)).put 2 65).put 3 64).put 4 64

section
attribute [local instance] exactArith

/-- The hypotheses of the theorems above are met: the terms are well-formed and unify; the substitution yields the
specific term. -/
example : demoGeneral.tree.Regular demoComp ∧ demoSpecific.tree.Regular demoComp := by
  decide +kernel

example : (match Variable_Unify demoNarsese demoGeneral demoSpecific with
    | .ok sub => sub.success && (match Variable_ApplySubstitute demoNarsese demoGeneral sub with
        | .ok r => decide (r = (demoSpecific, true))
        | .error _ => false)
    | .error _ => false) = true := by decide +kernel

/-- **C60 (negation).** The similarity distance can be set to any number (src/Shell.c 118-121). With a negative one the
confidence grows: here from 9/10 to 9/5. -/
theorem C60_negative_distance : ∃ sub, Variable_UnifyWithAnalogy demoNarsese (-1) ⟨1, 9 / 10⟩ (Term.zero.put 0 67)
    (Term.zero.put 0 68) = .ok sub ∧ sub.success = true ∧ 1 < sub.truth.confidence := by
  have h : (match Variable_UnifyWithAnalogy demoNarsese (-1) ⟨1, 9 / 10⟩ (Term.zero.put 0 67) (Term.zero.put 0 68) with
    | .ok sub => sub.success && decide (1 < sub.truth.confidence)
    | .error _ => false) = true := by decide +kernel
  split at h
  · rename_i sub e
    exact ⟨sub, e, by simpa using h⟩
  · cases h

end

end ONA
