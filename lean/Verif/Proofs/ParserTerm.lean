import Verif.Proofs.ParserBuild
/-
`Narsese_Term` on written forms: sizes, then the whole pipeline.
-/
namespace ONA

theorem NTree.fits_size {T : NTree} : ∀ {i k : Nat}, T.Fits i → 2 ^ k ≤ i + 1 → k ≤ 7 →
    T.size + 1 ≤ 2 ^ (7 - k) ∧ T.height ≤ 7 - k := by
  induction T with
  | nil => intro i k _ _ _; exact ⟨Nat.one_le_two_pow, Nat.zero_le _⟩
  | node s l r ihl ihr =>
    intro i k hf hk h7
    obtain ⟨hi, fl, fr⟩ := hf
    have h6 : k ≤ 6 := by
      by_contra hc
      have : k = 7 := by omega
      subst this
      simp only [COMPOUND_TERM_SIZE_MAX] at hi
      omega
    have e : 2 ^ (k + 1) = 2 * 2 ^ k := by rw [Nat.pow_succ, Nat.mul_comm]
    obtain ⟨l1, l2⟩ := ihl fl (k := k + 1) (by omega) (by omega)
    obtain ⟨r1, r2⟩ := ihr fr (k := k + 1) (by omega) (by omega)
    have e7 : 7 - k = (7 - (k + 1)) + 1 := by omega
    rw [e7, Nat.pow_succ]
    simp only [NTree.size, NTree.height]
    omega

theorem Expr.size_pos (e : Expr) : 1 ≤ e.ntree.size := by
  cases e <;> simp only [Expr.ntree, NTree.leaf, NTree.size] <;> omega

theorem Expr.toks_size (e : Expr) : e.toks.length ≤ 3 * e.ntree.size := by
  induction e with
  | atom => simp [Expr.toks, Expr.ntree, NTree.leaf, NTree.size]
  | infx a l c r ihl ihr | pre c l r ihl ihr | set2 c l r ihl ihr =>
    simp only [Expr.toks, Expr.ntree, NTree.size, List.length_cons, List.length_append, List.length_nil]; omega
  | pre1 c l ihl | set1 c l ihl =>
    simp only [Expr.toks, Expr.ntree, NTree.leaf, NTree.size, List.length_cons, List.length_append, List.length_nil]; omega

/-- A term is closed when it is closed below the root. -/
theorem closed_of_paths {t : Term} (h : ∀ p b, t.get (childPos (pathPos 0 p) b) ≠ 0 → t.get (pathPos 0 p) ≠ 0) : t.Closed := by
  intro i b
  obtain ⟨p, e⟩ := exists_path i
  rw [← e]
  exact h p b

theorem term_text {e : Expr} (he : e.WellFormed) {h : List (CStr × Nat)} {n : Narsese} (hs : Narsese.Session h n)
    (hf : e.ntree.Fits 0) (hl : e.text.length + 3 ≤ NARSESE_LEN_MAX) (hr : n.Room e.ntree) :
    ∃ h' n' t, Narsese.Session h' n' ∧ Built n n' Term.zero t 0 e.ntree ∧ t.Closed ∧
      Narsese_Term n e.text = (Variable_Normalize n' t).map (·, n') := by
  obtain ⟨s1, s2⟩ := NTree.fits_size hf (k := 0) (by omega) (by omega)
  have hlen : e.toks.length ≤ NARSESE_LEN_MAX := by
    have := e.toks_size
    simp only [NARSESE_LEN_MAX]
    omega
  obtain ⟨h', n', t, eb, hs', b⟩ := build_spec he 8 h n Term.zero 0 [] hs hf (by omega) hr (fun p => Term.get_zero _)
  refine ⟨h', n', t, hs', b, closed_of_paths b.closed, ?_⟩
  have hp : Narsese_PrefixTransform (Narsese_Expand e.text) = .ok e.ptoks := by
    unfold Narsese_PrefixTransform
    simp only [strtok_text he]
    rw [if_neg (by omega)]
    have := prefix_toks he 0 []
    simp only [Nat.zero_add, List.append_nil] at this
    rw [this]
    simp [prefixLoop]
  unfold Narsese_Term
  rw [cassert_true (by simpa using hl), hp]
  simp only [R.ok_bind]
  rw [List.append_nil] at eb
  rw [eb]
  simp only [R.ok_bind]
  cases Variable_Normalize n' t <;> rfl

/-- Without variables there is nothing to normalise. -/
theorem normalize_id (n : Narsese) (t : Term) (hv : ∀ i, Variable_isVariable n (t.get i) = false) :
    Variable_Normalize n t = .ok t := by
  unfold Variable_Normalize
  suffices ∀ k f g, normalizeLoop n k ⟨t, f, g⟩ = .ok t from this _ _ _
  intro k
  induction k with
  | zero => intro f g; rfl
  | succ k ih =>
    intro f g
    rw [normalizeLoop]
    simp only [hv, Bool.and_false, Bool.false_eq_true, if_false]
    exact ih f g

end ONA
