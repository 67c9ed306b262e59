import Verif.Spec.Term
import Mathlib.Tactic.Set
import Mathlib.Tactic.ByContra
namespace ONA

theorem Term.ext_get {s t : Term} (h : ∀ i, i < COMPOUND_TERM_SIZE_MAX → s.get i = t.get i) : s = t := by
  cases s with | mk a => cases t with | mk b =>
  congr 1
  apply Vector.ext
  intro i hi
  have := h i hi
  simpa [Term.get, hi] using this

theorem Term.get_out (t : Term) {i : Nat} (h : COMPOUND_TERM_SIZE_MAX ≤ i) : t.get i = 0 := by
  unfold Term.get
  rw [Vector.getElem?_eq_none (by omega)]; rfl

theorem Term.lt_of_get_ne {t : Term} {i : Nat} (h : t.get i ≠ 0) : i < COMPOUND_TERM_SIZE_MAX := by
  by_contra hc
  exact h (t.get_out (by omega))

theorem Term.read_eq (t : Term) {i : Nat} (h : i < COMPOUND_TERM_SIZE_MAX) : t.read i = .ok (t.get i) := by
  unfold Term.read Term.get
  simp [h]

theorem Term.get_put (t : Term) (i k : Nat) (a : Atom) :
    (t.put i a).get k = if k = i ∧ i < COMPOUND_TERM_SIZE_MAX then a else t.get k := by
  unfold Term.get Term.put
  by_cases hk : k = i
  · subst hk
    by_cases hlt : k < COMPOUND_TERM_SIZE_MAX
    · simp [hlt]
    · simp [hlt]
  · simp only [hk, false_and, if_false]
    congr 1
    rw [Vector.getElem?_setIfInBounds]
    simp [Ne.symm hk]

theorem Term.get_put_same (t : Term) {i : Nat} (a : Atom) (h : i < COMPOUND_TERM_SIZE_MAX) :
    (t.put i a).get i = a := by rw [Term.get_put]; simp [h]

theorem Term.get_put_ne (t : Term) {i k : Nat} (a : Atom) (h : k ≠ i) :
    (t.put i a).get k = t.get k := by rw [Term.get_put]; simp [h]

@[simp] theorem Term.get_zero (i : Nat) : Term.zero.get i = 0 := by
  unfold Term.get Term.zero
  by_cases h : i < COMPOUND_TERM_SIZE_MAX
  · simp [h]
  · simp [h]

theorem childPos_inj {i k : Nat} {b c : Bool} (h : childPos i b = childPos k c) : i = k ∧ b = c := by
  unfold childPos at h
  cases b <;> cases c <;> simp at h <;> first | (refine ⟨?_, rfl⟩; omega) | omega

theorem lt_childPos (i : Nat) (b : Bool) : i < childPos i b := by
  unfold childPos; split <;> omega

theorem pathPos_append (i : Nat) (p q : List Bool) : pathPos i (p ++ q) = pathPos (pathPos i p) q := by
  induction p generalizing i with
  | nil => rfl
  | cons b p ih => exact ih _

theorem le_pathPos (i : Nat) (p : List Bool) : i ≤ pathPos i p := by
  induction p generalizing i with
  | nil => exact Nat.le_refl _
  | cons b p ih => exact Nat.le_trans (Nat.le_of_lt (lt_childPos i b)) (ih _)

theorem lt_pathPos (i : Nat) (b : Bool) (p : List Bool) : i < pathPos i (b :: p) :=
  Nat.lt_of_lt_of_le (lt_childPos i b) (le_pathPos _ p)

theorem pathPos_mono {i k : Nat} (h : i ≤ k) (p : List Bool) : pathPos i p ≤ pathPos k p := by
  induction p generalizing i k with
  | nil => exact h
  | cons b p ih => exact ih (by unfold childPos; split <;> omega)

theorem pathPos_inj_aux (i : Nat) : ∀ n (p q : List Bool), p.length = n → pathPos i p = pathPos i q → p = q := by
  intro n
  induction n with
  | zero =>
    intro p q hp h
    have : p = [] := List.eq_nil_of_length_eq_zero hp
    subst this
    cases q with
    | nil => rfl
    | cons b q => exact absurd h (Nat.ne_of_lt (lt_pathPos i b q))
  | succ n ih =>
    intro p q hp h
    rcases List.eq_nil_or_concat p with rfl | ⟨p', b, rfl⟩
    · simp at hp
    · rcases List.eq_nil_or_concat q with rfl | ⟨q', c, rfl⟩
      · have h1 := lt_childPos (pathPos i p') b
        have h2 := le_pathPos i p'
        rw [List.concat_eq_append, pathPos_append] at h
        simp only [pathPos] at h
        omega
      · rw [List.concat_eq_append, List.concat_eq_append, pathPos_append, pathPos_append] at h
        obtain ⟨h1, h2⟩ := childPos_inj h
        subst h2
        rw [ih p' q' (by simpa using hp) h1]

theorem pathPos_inj {i : Nat} {p q : List Bool} (h : pathPos i p = pathPos i q) : p = q :=
  pathPos_inj_aux i _ p q rfl h

/-- Every position is reached from the root by a path. -/
theorem exists_path (n : Nat) : ∃ p, pathPos 0 p = n := by
  induction n using Nat.strongRecOn with
  | ind n ih =>
    by_cases h : n = 0
    · exact ⟨[], h.symm⟩
    · obtain ⟨p, hp⟩ := ih ((n - 1) / 2) (by omega)
      refine ⟨p ++ [decide (n % 2 = 0)], ?_⟩
      rw [pathPos_append, hp]
      simp only [pathPos, childPos]
      split <;> rename_i hh <;> simp at hh <;> omega

theorem Present.lt {t : Term} {j : Nat} {p : List Bool} (hj : j < COMPOUND_TERM_SIZE_MAX) (h : Present t j p) :
    pathPos j p < COMPOUND_TERM_SIZE_MAX := by
  induction p generalizing j with
  | nil => exact h
  | cons b p ih => exact ih (Term.lt_of_get_ne h.1) h.2

theorem childPos_false (i : Nat) : (i + 1) * 2 - 1 = childPos i false := by simp [childPos]; omega
theorem childPos_true (i : Nat) : (i + 1) * 2 + 1 - 1 = childPos i true := by simp [childPos]; omega

/-- One child of `Term_RelativeOverride` (used to state the lemma once for both). -/
def overrideChild (fuel : Nat) (t : Term) (i : Nat) (s : Term) (j : Nat) (b : Bool) : Bool × Term :=
  if s.get (childPos j b) ≠ 0 then Term_RelativeOverride fuel t (childPos i b) s (childPos j b) else (true, t)

theorem relOverride_succ (fuel : Nat) (t : Term) (i : Nat) (s : Term) (j : Nat)
    (hi : i < COMPOUND_TERM_SIZE_MAX) (hj : j < COMPOUND_TERM_SIZE_MAX) :
    Term_RelativeOverride (fuel + 1) t i s j =
      (let r := overrideChild fuel (t.put i (s.get j)) i s j false
       if r.1 then overrideChild fuel r.2 i s j true else (false, r.2)) := by
  have hb : ∀ c, (c < COMPOUND_TERM_SIZE_MAX ∧ s.get c ≠ 0) ↔ s.get c ≠ 0 :=
    fun c => ⟨fun h => h.2, fun h => ⟨Term.lt_of_get_ne h, h⟩⟩
  rw [Term_RelativeOverride, if_neg (by omega), if_pos hj]
  simp only [hb, childPos_false, childPos_true, overrideChild]
  split <;> rename_i h1 <;> simp
  cases (Term_RelativeOverride fuel (t.put i (s.get j)) (childPos i false) s (childPos j false)).1 <;> simp

/-- What `Term_RelativeOverride` does. -/
theorem relOverride_spec : ∀ (fuel : Nat) (t : Term) (i : Nat) (s : Term) (j : Nat),
    COMPOUND_TERM_SIZE_MAX < (i + 1) * 2 ^ fuel → j < COMPOUND_TERM_SIZE_MAX →
    ((Term_RelativeOverride fuel t i s j).1 = true ↔ ∀ p, Present s j p → pathPos i p < COMPOUND_TERM_SIZE_MAX) ∧
    ((Term_RelativeOverride fuel t i s j).1 = true → ∀ p, Present s j p →
      (Term_RelativeOverride fuel t i s j).2.get (pathPos i p) = s.get (pathPos j p)) ∧
    (∀ n, (∀ p, Present s j p → n ≠ pathPos i p) → (Term_RelativeOverride fuel t i s j).2.get n = t.get n) := by
  intro fuel
  induction fuel with
  | zero =>
    intro t i s j hf hj
    have hi : ¬ i < COMPOUND_TERM_SIZE_MAX := by omega
    simp only [Term_RelativeOverride, Bool.false_eq_true, false_iff, false_implies, implies_true, and_true]
    intro h
    exact hi (h [] hj)
  | succ fuel ih =>
    intro t i s j hf hj
    by_cases hi : i < COMPOUND_TERM_SIZE_MAX
    · rw [relOverride_succ fuel t i s j hi hj]
      -- the children
      have hch : ∀ (t : Term) (b : Bool),
          ((overrideChild fuel t i s j b).1 = true ↔
            ∀ p, Present s j (b :: p) → pathPos i (b :: p) < COMPOUND_TERM_SIZE_MAX) ∧
          ((overrideChild fuel t i s j b).1 = true → ∀ p, Present s j (b :: p) →
            (overrideChild fuel t i s j b).2.get (pathPos i (b :: p)) = s.get (pathPos j (b :: p))) ∧
          (∀ n, (∀ p, Present s j (b :: p) → n ≠ pathPos i (b :: p)) →
            (overrideChild fuel t i s j b).2.get n = t.get n) := by
        intro t b
        unfold overrideChild
        by_cases hc : s.get (childPos j b) ≠ 0
        · rw [if_pos hc]
          have hf' : COMPOUND_TERM_SIZE_MAX < (childPos i b + 1) * 2 ^ fuel := by
            have h1 : 2 * (i + 1) ≤ childPos i b + 1 := by unfold childPos; split <;> omega
            calc COMPOUND_TERM_SIZE_MAX < (i + 1) * 2 ^ (fuel + 1) := hf
              _ = 2 * (i + 1) * 2 ^ fuel := by rw [Nat.pow_succ, Nat.mul_comm 2, Nat.mul_assoc, Nat.mul_comm 2]
              _ ≤ _ := Nat.mul_le_mul_right _ h1
          have h := ih t (childPos i b) s (childPos j b) hf' (Term.lt_of_get_ne hc)
          refine ⟨?_, ?_, ?_⟩
          · rw [h.1]
            exact ⟨fun h p hp => h p hp.2, fun h p hp => h p ⟨hc, hp⟩⟩
          · exact fun hr p hp => h.2.1 hr p hp.2
          · exact fun n hn => h.2.2 n fun p hp => hn p ⟨hc, hp⟩
        · rw [if_neg hc]
          refine ⟨?_, ?_, fun _ _ => rfl⟩
          · simp only [true_iff]
            exact fun p hp => absurd hp.1 hc
          · exact fun _ p hp => absurd hp.1 hc
      set t0 := t.put i (s.get j) with ht0
      have hl := hch t0 false
      set l := overrideChild fuel t0 i s j false with hldef
      have hr := hch l.2 true
      set r := overrideChild fuel l.2 i s j true with hrdef
      have ne_lr : ∀ p q, pathPos i (false :: p) ≠ pathPos i (true :: q) := by
        intro p q h
        have := pathPos_inj h
        simp at this
      have t0i : t0.get i = s.get j := Term.get_put_same t _ hi
      dsimp only
      by_cases hlb : l.1 = true
      · rw [if_pos hlb]
        refine ⟨?_, ?_, ?_⟩
        · rw [hr.1]
          constructor
          · intro h p hp
            cases p with
            | nil => exact hi
            | cons b p =>
              cases b with
              | false => exact hl.1.1 hlb p hp
              | true => exact h p hp
          · exact fun h p hp => h _ hp
        · intro hrb p hp
          cases p with
          | nil =>
            show r.2.get i = _
            rw [hr.2.2 i fun p _ => Nat.ne_of_lt (lt_pathPos i _ p), hl.2.2 i fun p _ => Nat.ne_of_lt (lt_pathPos i _ p)]
            exact t0i
          | cons b p =>
            cases b with
            | false =>
              rw [hr.2.2 _ fun q _ => ne_lr p q]
              exact hl.2.1 hlb p hp
            | true => exact hr.2.1 hrb p hp
        · intro n hn
          rw [hr.2.2 n fun p hp => hn _ hp, hl.2.2 n fun p hp => hn _ hp]
          exact Term.get_put_ne t _ (hn [] hj)
      · rw [if_neg hlb]
        refine ⟨?_, by simp, ?_⟩
        · simp only [Bool.false_eq_true, false_iff]
          intro h
          exact hlb (hl.1.2 fun p hp => h _ hp)
        · intro n hn
          rw [hl.2.2 n fun p hp => hn _ hp]
          exact Term.get_put_ne t _ (hn [] hj)
    · rw [Term_RelativeOverride, if_pos (by omega)]
      refine ⟨?_, by simp, fun _ _ => rfl⟩
      simp only [Bool.false_eq_true, false_iff]
      intro h
      exact hi (h [] hj)

theorem bound7 (i : Nat) : COMPOUND_TERM_SIZE_MAX < (i + 1) * 2 ^ 7 := by
  unfold COMPOUND_TERM_SIZE_MAX; omega

theorem Present.lt_root {t : Term} {j : Nat} {p : List Bool} (h : Present t j p) : j < COMPOUND_TERM_SIZE_MAX := by
  cases p with
  | nil => exact h
  | cons b p =>
    have h1 := Term.lt_of_get_ne h.1
    have h2 := lt_childPos j b
    omega

open Classical in
/-- Extraction, position by position. -/
theorem extract_get (t : Term) (j : Nat) (p : List Bool) :
    (Term_ExtractSubterm t j).get (pathPos 0 p) = if Present t j p then t.get (pathPos j p) else 0 := by
  unfold Term_ExtractSubterm
  by_cases hj : j < COMPOUND_TERM_SIZE_MAX
  · have h := relOverride_spec 7 Term.zero 0 t j (bound7 0) hj
    have hok : (Term_RelativeOverride 7 Term.zero 0 t j).1 = true :=
      h.1.2 fun p hp => Nat.lt_of_le_of_lt (pathPos_mono (Nat.zero_le j) p) (Present.lt hj hp)
    by_cases hp : Present t j p
    · rw [if_pos hp]; exact h.2.1 hok p hp
    · rw [if_neg hp, h.2.2, Term.get_zero]
      intro q hq he
      exact hp (pathPos_inj he ▸ hq)
  · rw [if_neg fun hp => hj hp.lt_root]
    have : Term_RelativeOverride 7 Term.zero 0 t j = (true, Term.zero) := by
      rw [Term_RelativeOverride, if_neg (by decide), if_neg hj]
    rw [this, Term.get_zero]

/-- In a term where every node has a parent, presence of a path is presence of its last node. -/
theorem present_of_closed {t : Term} (hc : t.Closed) {j : Nat} (hj : j < COMPOUND_TERM_SIZE_MAX) {p : List Bool}
    (h : t.get (pathPos j p) ≠ 0) : Present t j p := by
  have hup : ∀ (q : List Bool) (k : Nat), t.get (pathPos k q) ≠ 0 → t.get k ≠ 0 := by
    intro q
    induction q with
    | nil => exact fun _ h => h
    | cons b q ih => exact fun k h => hc k b (ih _ h)
  induction p generalizing j with
  | nil => exact hj
  | cons b p ih =>
    have hb : t.get (childPos j b) ≠ 0 := hup p _ h
    exact ⟨hb, ih (Term.lt_of_get_ne hb) h⟩

end ONA
