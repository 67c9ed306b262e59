import Verif.Proofs.Normalize
import Verif.Props.Variable
/-
Properties of the normalisation of variables (src/Variable.c 431-457): C31.
-/
namespace ONA

/-- In every session the standard variables are known. -/
theorem standardVars_of_session {h : List (CStr × Nat)} {n : Narsese} (hs : Narsese.Session h n) : StandardVars n ∧
    ∀ kind ∈ varKinds, ∀ l, 1 ≤ l → l ≤ 9 → Variable_isVariable n (nameAtom (varName kind l)) = true := by
  have key : ∀ kind ∈ varKinds, ∀ l, 1 ≤ l → l ≤ 9 →
      n.nameOf (nameAtom (varName kind l)) = varName kind l ∧ nameAtom (varName kind l) ≠ 0 := by
    intro kind hk l h1 h9
    have hm : varName kind l ∈ initialNames := by
      have : ∀ kind ∈ varKinds, ∀ l, l < 10 → 1 ≤ l → varName kind l ∈ initialNames := by decide +kernel
      exact this kind hk l (by omega) h1
    exact (C32_initial_index h n hs _ hm).2
  constructor
  · intro kind hk l h1 h9
    obtain ⟨e, hz⟩ := key kind hk l h1 h9
    simp only [varKinds, List.mem_cons, List.not_mem_nil, or_false] at hk
    unfold varType Variable_isIndependentVariable Variable_isDependentVariable
    rw [e, decide_eq_true hz]
    rcases hk with rfl | rfl | rfl <;> simp [varName]
  · intro kind hk l h1 h9
    obtain ⟨e, hz⟩ := key kind hk l h1 h9
    simp only [varKinds, List.mem_cons, List.not_mem_nil, or_false] at hk
    unfold Variable_isVariable Variable_isIndependentVariable Variable_isDependentVariable Variable_isQueryVariable
    rw [e, decide_eq_true hz]
    rcases hk with rfl | rfl | rfl <;> simp [varName]

/-- Different numbered variables are different atoms. -/
theorem nameAtom_inj {k k' : Char} (hk : k ∈ varKinds) (hk' : k' ∈ varKinds) {l l' : Nat} (h1 : 1 ≤ l) (h9 : l ≤ 9)
    (h1' : 1 ≤ l') (h9' : l' ≤ 9) (h : nameAtom (varName k l) = nameAtom (varName k' l')) : k = k' ∧ l = l' := by
  have : ∀ k ∈ varKinds, ∀ k' ∈ varKinds, ∀ l, l < 10 → ∀ l', l' < 10 → 1 ≤ l → 1 ≤ l' →
      nameAtom (varName k l) = nameAtom (varName k' l') → k = k' ∧ l = l' := by decide +kernel
  exact this k hk k' hk' l (by omega) l' (by omega) h1 h1' h

theorem varRank_bounds {n : Narsese} {t : Term} (hf : FewVars n t) {i : Nat}
    (hv : Variable_isVariable n (t.get i) = true) : 1 ≤ varRank n t (t.get i) ∧ varRank n t (t.get i) ≤ 9 ∧
      t.get i ∈ kindVars n (varType n (t.get i)) t COMPOUND_TERM_SIZE_MAX := by
  have hz : t.get i ≠ 0 := by
    intro hz; rw [hz] at hv
    simp [Variable_isVariable, Variable_isIndependentVariable, Variable_isDependentVariable,
      Variable_isQueryVariable] at hv
  have hin : t.get i ∈ kindVars n (varType n (t.get i)) t COMPOUND_TERM_SIZE_MAX :=
    mem_kindVars.2 ⟨⟨i, Term.lt_of_get_ne hz, rfl⟩, hv, rfl⟩
  have := List.idxOf_lt_length_iff.2 hin
  have := hf (varType n (t.get i))
  unfold varRank
  exact ⟨Nat.le_add_left 1 _, by omega, hin⟩

/-- **C31 (partial).** If a term has at most nine variables of each kind and no variable already named like a normalised
one gets a larger number than it has, then normalisation succeeds; it replaces each variable by the variable of the
same kind numbered by first occurrence, leaves every other atom unchanged, and is a consistent renaming: two
positions hold the same atom afterwards iff they did before. Missing: the excluded terms, for which the claim is false
(`C31_merges`). -/
theorem C31_normalize_partial (h : List (CStr × Nat)) (n : Narsese) (hs : Narsese.Session h n) (t : Term)
    (hf : FewVars n t) (hc : NoClash n t) :
    ∃ r, Variable_Normalize n t = .ok r ∧ (∀ i, r.get i = normalName n t (t.get i)) ∧
      (∀ i, Variable_isVariable n (t.get i) = false → r.get i = t.get i) ∧
      (∀ i, Variable_isVariable n (t.get i) = true →
        Variable_isVariable n (r.get i) = true ∧ varType n (r.get i) = varType n (t.get i) ∧
        ∃ l, 1 ≤ l ∧ l ≤ 9 ∧ r.get i = nameAtom (varName (varType n (t.get i)) l)) ∧
      (∀ i j, r.get i = r.get j ↔ t.get i = t.get j) := by
  obtain ⟨hn, hnv⟩ := standardVars_of_session hs
  obtain ⟨r, e, hr⟩ := normalizeLoop_spec hn hf hc COMPOUND_TERM_SIZE_MAX ⟨t, fun _ => false, fun _ => 1⟩ (Nat.le_refl _)
    (by
      intro i
      rw [if_neg]
      rintro ⟨-, i, hi, -⟩; omega)
    (by
      intro i _
      constructor
      · intro h; cases h
      · rintro ⟨-, i, hi, -⟩; omega)
    (by intro kind; rw [Nat.sub_self]; rfl)
  have hvar : ∀ i, Variable_isVariable n (t.get i) = true → Variable_isVariable n (r.get i) = true ∧
      varType n (r.get i) = varType n (t.get i) ∧ r.get i = nameAtom (varName (varType n (t.get i)) (varRank n t (t.get i))) := by
    intro i hv
    obtain ⟨b1, b9, -⟩ := varRank_bounds hf hv
    have he : r.get i = nameAtom (varName (varType n (t.get i)) (varRank n t (t.get i))) := by
      rw [hr i]; unfold normalName; rw [if_pos hv]
    exact ⟨by rw [he]; exact hnv _ (varType_mem n _) _ b1 b9, by rw [he]; exact hn _ (varType_mem n _) _ b1 b9, he⟩
  have hnon : ∀ i, Variable_isVariable n (t.get i) = false → r.get i = t.get i := by
    intro i hv; rw [hr i]; unfold normalName; rw [if_neg (by rw [hv]; exact Bool.false_ne_true)]
  refine ⟨r, e, hr, hnon, fun i hv => ?_, fun i j => ⟨fun he => ?_, fun he => by rw [hr i, hr j, he]⟩⟩
  · obtain ⟨b1, b9, -⟩ := varRank_bounds hf hv
    exact ⟨(hvar i hv).1, (hvar i hv).2.1, _, b1, b9, (hvar i hv).2.2⟩
  · cases hi : Variable_isVariable n (t.get i) <;> cases hj : Variable_isVariable n (t.get j)
    · rw [← hnon i hi, ← hnon j hj, he]
    · exfalso
      have := (hvar j hj).1
      rw [← he, hnon i hi, hi] at this; cases this
    · exfalso
      have := (hvar i hi).1
      rw [he, hnon j hj, hj] at this; cases this
    · obtain ⟨-, k1, e1⟩ := hvar i hi
      obtain ⟨-, k2, e2⟩ := hvar j hj
      obtain ⟨a1, a9, am⟩ := varRank_bounds hf hi
      obtain ⟨b1, b9, bm⟩ := varRank_bounds hf hj
      obtain ⟨hk, hl⟩ := nameAtom_inj (varType_mem n _) (varType_mem n _) a1 a9 b1 b9 (by rw [← e1, ← e2, he])
      unfold varRank at hl
      rw [hk] at hl am
      exact (List.idxOf_inj am).1 (by omega)

/-- `t'` is `t` with its variables renamed by `ρ`, which keeps the kind of each variable, keeps everything else, and
maps different atoms of `t` to different ones. -/
structure AlphaRenaming (n : Narsese) (t t' : Term) (ρ : Atom → Atom) : Prop where
  get : ∀ i, t'.get i = ρ (t.get i)
  var : ∀ i, Variable_isVariable n (ρ (t.get i)) = Variable_isVariable n (t.get i)
  kind : ∀ i, Variable_isVariable n (t.get i) = true → varType n (ρ (t.get i)) = varType n (t.get i)
  keep : ∀ i, Variable_isVariable n (t.get i) = false → ρ (t.get i) = t.get i
  inj : ∀ i j, ρ (t.get i) = ρ (t.get j) → t.get i = t.get j

theorem kindVars_map {n : Narsese} {t t' : Term} {ρ : Atom → Atom} (ha : AlphaRenaming n t t' ρ) (kind : Char) :
    ∀ j, kindVars n kind t' j = (kindVars n kind t j).map ρ := by
  intro j
  induction j with
  | zero => rfl
  | succ j ih =>
    rw [kindVars_succ, kindVars_succ, ih, ha.get j, ha.var j]
    cases hv : Variable_isVariable n (t.get j) with
    | false => simp
    | true =>
      rw [ha.kind j hv]
      have hm : ρ (t.get j) ∈ (kindVars n kind t j).map ρ ↔ t.get j ∈ kindVars n kind t j := by
        rw [List.mem_map]
        constructor
        · rintro ⟨a, hm, he⟩
          obtain ⟨⟨i, -, rfl⟩, -, -⟩ := mem_kindVars.1 hm
          rwa [← ha.inj i j he]
        · intro h; exact ⟨_, h, rfl⟩
      by_cases hk : (true && varType n (t.get j) == kind) = true
      · rw [if_pos hk, if_pos hk]
        by_cases hin : t.get j ∈ kindVars n kind t j
        · rw [if_pos hin, if_pos (hm.2 hin)]
        · rw [if_neg hin, if_neg (fun h => hin (hm.1 h)), List.map_append, List.map_singleton]
      · rw [if_neg hk, if_neg hk]

theorem idxOf_map_of {l : List Atom} {ρ : Atom → Atom} {a : Atom} (h : ∀ b ∈ l, ρ b = ρ a → b = a) :
    (l.map ρ).idxOf (ρ a) = l.idxOf a := by
  induction l with
  | nil => rfl
  | cons b l ih =>
    rw [List.map_cons, List.idxOf_cons, List.idxOf_cons, ih fun c hc => h c (List.mem_cons_of_mem _ hc)]
    by_cases hb : b = a
    · rw [hb]; simp
    · have : ρ b ≠ ρ a := fun e => hb (h b List.mem_cons_self e)
      rw [beq_false_of_ne hb, beq_false_of_ne this]

theorem normalName_alpha {n : Narsese} {t t' : Term} {ρ : Atom → Atom} (ha : AlphaRenaming n t t' ρ) (i : Nat) :
    normalName n t' (t'.get i) = normalName n t (t.get i) ∧
      (Variable_isVariable n (t.get i) = true → varRank n t' (t'.get i) = varRank n t (t.get i)) := by
  have hr : Variable_isVariable n (t.get i) = true → varRank n t' (t'.get i) = varRank n t (t.get i) := by
    intro hv
    unfold varRank
    rw [kindVars_map ha, ha.get i, ha.kind i hv, idxOf_map_of]
    intro b hb he
    obtain ⟨⟨k, -, rfl⟩, -, -⟩ := mem_kindVars.1 hb
    exact ha.inj k i he
  refine ⟨?_, hr⟩
  unfold normalName
  cases hv : Variable_isVariable n (t.get i) with
  | false =>
    rw [ha.get i, ha.var i, hv, if_neg Bool.false_ne_true, if_neg Bool.false_ne_true, ha.keep i hv]
  | true =>
    rw [hr hv, ha.get i, ha.var i, hv, if_pos rfl, if_pos rfl, ha.kind i hv]

/-- **C31 (alpha-equivalence, partial).** Two terms which differ only in the names of their variables have the same
normal form (outside the excluded terms). -/
theorem C31_alpha_partial (h : List (CStr × Nat)) (n : Narsese) (hs : Narsese.Session h n) (t t' : Term) (ρ : Atom → Atom)
    (ha : AlphaRenaming n t t' ρ) (hf : FewVars n t) (hc : NoClash n t) (hc' : NoClash n t') :
    ∃ r, Variable_Normalize n t = .ok r ∧ Variable_Normalize n t' = .ok r := by
  have hf' : FewVars n t' := by
    intro kind; rw [kindVars_map ha, List.length_map]; exact hf kind
  obtain ⟨r, e, hr, -⟩ := C31_normalize_partial h n hs t hf hc
  obtain ⟨r', e', hr', -⟩ := C31_normalize_partial h n hs t' hf' hc'
  refine ⟨r, e, ?_⟩
  rw [e']
  congr 1
  apply Term.ext_get
  intro i _
  rw [hr i, hr' i, (normalName_alpha ha i).1]

/-- **C31 (idempotence, partial).** A normal form is its own normal form. -/
theorem C31_idempotent_partial (h : List (CStr × Nat)) (n : Narsese) (hs : Narsese.Session h n) (t r : Term)
    (hf : FewVars n t) (hc : NoClash n t) (e : Variable_Normalize n t = .ok r) : Variable_Normalize n r = .ok r := by
  obtain ⟨r', e', hr, hnon, hvar, hinj⟩ := C31_normalize_partial h n hs t hf hc
  obtain rfl : r' = r := by rw [e'] at e; exact Except.ok.inj e
  have ha : AlphaRenaming n t r' (normalName n t) := by
    refine ⟨hr, fun i => ?_, fun i hv => ?_, fun i hv => ?_, fun i j he => ?_⟩
    · rw [← hr i]
      cases hv : Variable_isVariable n (t.get i)
      · rw [hnon i hv, hv]
      · exact (hvar i hv).1
    · rw [← hr i]; exact (hvar i hv).2.1
    · rw [← hr i]; exact hnon i hv
    · rw [← hr i, ← hr j] at he; exact (hinj i j).1 he
  have hcr : NoClash n r' := by
    intro i l hv he h1 h9
    have hv' : Variable_isVariable n (t.get i) = true := by rw [← ha.var i, ← hr i]; exact hv
    rw [(normalName_alpha ha i).2 hv']
    obtain ⟨b1, b9, -⟩ := varRank_bounds hf hv'
    have : r'.get i = nameAtom (varName (varType n (t.get i)) (varRank n t (t.get i))) := by
      rw [hr i]; unfold normalName; rw [if_pos hv']
    rw [(hvar i hv').2.1, this] at he
    exact Nat.le_of_eq (nameAtom_inj (varType_mem n _) (varType_mem n _) b1 b9 h1 h9 he).2
  obtain ⟨q, e1, e2⟩ := C31_alpha_partial h n hs t r' _ ha hf hc hcr
  rw [e'] at e1
  rw [e2, ← Except.ok.inj e1]

/-! ### Examples -/

/-- `($3 * (#7 * $3))` -/
def demoVars : Term :=
  ((((Term.zero.put 0 (copulaAtom PRODUCT)).put 1 (nameAtom ['$', '3'])).put 2 (copulaAtom PRODUCT)).put 5
    (nameAtom ['#', '7'])).put 6 (nameAtom ['$', '3'])

example : (match Variable_Normalize demoNarsese demoVars with
    | .ok r => decide (r.get 1 = nameAtom ['$', '1'] ∧ r.get 5 = nameAtom ['#', '1'] ∧ r.get 6 = nameAtom ['$', '1'])
    | .error _ => false) = true := by decide +kernel

/-- `($2 * ($1 * $2))` -/
def demoClash : Term :=
  ((((Term.zero.put 0 (copulaAtom PRODUCT)).put 1 (nameAtom ['$', '2'])).put 2 (copulaAtom PRODUCT)).put 5
    (nameAtom ['$', '1'])).put 6 (nameAtom ['$', '2'])

/-- The hypotheses on the term can be checked by evaluation. -/
theorem hyps_of_check {n : Narsese} {t : Term}
    (h1 : ∀ kind ∈ varKinds, (kindVars n kind t COMPOUND_TERM_SIZE_MAX).length ≤ 9)
    (h2 : ∀ i, i < COMPOUND_TERM_SIZE_MAX → ∀ l, l < 10 → Variable_isVariable n (t.get i) = true →
      t.get i = nameAtom (varName (varType n (t.get i)) l) → 1 ≤ l → varRank n t (t.get i) ≤ l) :
    FewVars n t ∧ NoClash n t := by
  constructor
  · intro kind
    by_cases hk : kind ∈ varKinds
    · exact h1 kind hk
    · have : kindVars n kind t COMPOUND_TERM_SIZE_MAX = [] := by
        rw [List.eq_nil_iff_forall_not_mem]
        intro a ha
        exact hk ((mem_kindVars.1 ha).2.2 ▸ varType_mem n a)
      rw [this]; exact Nat.zero_le _
  · intro i l hv he h1 h9
    have hz : t.get i ≠ 0 := by
      intro hz; rw [hz] at hv
      simp [Variable_isVariable, Variable_isIndependentVariable, Variable_isDependentVariable,
        Variable_isQueryVariable] at hv
    exact h2 i (Term.lt_of_get_ne hz) l (by omega) hv he h1

example : FewVars demoNarsese demoVars ∧ NoClash demoNarsese demoVars :=
  hyps_of_check (by decide +kernel) (by decide +kernel)

/-- **C31 (negation).** Normalisation does not always rename consistently: `($2 * ($1 * $2))` becomes
`($1 * ($2 * $2))`, where two different variables are identified and the two occurrences of one variable are separated. -/
theorem C31_merges : ∃ r, Variable_Normalize demoNarsese demoClash = .ok r ∧
    demoClash.get 5 ≠ demoClash.get 6 ∧ r.get 5 = r.get 6 ∧ demoClash.get 1 = demoClash.get 6 ∧ r.get 1 ≠ r.get 6 := by
  have h : (match Variable_Normalize demoNarsese demoClash with
    | .ok r => decide (demoClash.get 5 ≠ demoClash.get 6 ∧ r.get 5 = r.get 6 ∧ demoClash.get 1 = demoClash.get 6 ∧
        r.get 1 ≠ r.get 6)
    | .error _ => false) = true := by decide +kernel
  split at h
  · rename_i r e
    exact ⟨r, e, by simpa using h⟩
  · cases h

end ONA
