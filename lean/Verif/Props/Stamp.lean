import Verif.Spec.Stamp
import Mathlib.Data.List.Perm.Subperm
import Mathlib.Data.List.Nodup
import Mathlib.Order.Basic
import Mathlib.Data.List.TakeWhile
/-
Properties C16-C18: stamps.
-/
namespace ONA

/-- The ids from cell `STAMP_SIZE - k` on. -/
def Stamp.tail (s : Stamp) (k : Nat) : List Int :=
  ((List.range' (STAMP_SIZE - k) k).map s.evidentialBase).takeWhile (fun e => e ≠ 0)

theorem Stamp.tail_full (s : Stamp) : s.tail STAMP_SIZE = s.ids := by
  unfold tail ids
  rw [Nat.sub_self, List.range_eq_range']

theorem Stamp.tail_zero (s : Stamp) : s.tail 0 = [] := by simp [tail]

theorem Stamp.tail_succ (s : Stamp) {k : Nat} (hk : k + 1 ≤ STAMP_SIZE) :
    s.tail (k + 1) = if s.evidentialBase (STAMP_SIZE - (k + 1)) = 0 then []
      else s.evidentialBase (STAMP_SIZE - (k + 1)) :: s.tail k := by
  unfold tail
  rw [List.range'_succ, List.map_cons, List.takeWhile_cons]
  have : STAMP_SIZE - (k + 1) + 1 = STAMP_SIZE - k := by omega
  rw [this]
  by_cases h : s.evidentialBase (STAMP_SIZE - (k + 1)) = 0 <;> simp [h]

theorem Stamp.length_tail_le (s : Stamp) (k : Nat) : (s.tail k).length ≤ k := by
  unfold tail
  refine Nat.le_trans (List.takeWhile_sublist _).length_le ?_
  simp

theorem Stamp.ids_length_le (s : Stamp) : s.ids.length ≤ STAMP_SIZE := by
  rw [← s.tail_full]; exact s.length_tail_le _

theorem Stamp.zero_notin_tail (s : Stamp) (k : Nat) : (0 : Int) ∉ s.tail k := by
  unfold tail
  intro h
  have := List.mem_takeWhile_imp h
  simp at this

/-- Reading the ids of an array that starts with the non-zero list `l` followed by zeros. -/
theorem Stamp.ids_of_prefix (f : Nat → Int) (l : List Int) (hl : l.length ≤ STAMP_SIZE) (h0 : (0 : Int) ∉ l)
    (h1 : ∀ i (hi : i < l.length), f i = l[i]) (h2 : ∀ i, l.length ≤ i → f i = 0) : (Stamp.mk f).ids = l := by
  unfold ids
  obtain ⟨d, hd⟩ := Nat.le.dest hl
  have : (List.range STAMP_SIZE).map f = l ++ List.replicate d 0 := by
    apply List.ext_getElem
    · simp; omega
    · intro i hi1 hi2
      simp only [List.getElem_map, List.getElem_range]
      by_cases hi : i < l.length
      · rw [List.getElem_append_left hi, h1 i hi]
      · rw [List.getElem_append_right (by omega), List.getElem_replicate, h2 i (by omega)]
  show ((List.range STAMP_SIZE).map f).takeWhile _ = l
  rw [this, List.takeWhile_append_of_pos]
  · cases d with
    | zero => simp
    | succ d => simp [List.replicate_succ]
  · intro a ha
    simp only [ne_eq, decide_not, Bool.not_eq_eq_eq_not, Bool.not_true, decide_eq_false_iff_not]
    rintro rfl; exact h0 ha

/-- `f` holds `l` followed by zeros. -/
def HoldsPrefix (f : Nat → Int) (l : List Int) : Prop :=
  (∀ i (hi : i < l.length), f i = l[i]) ∧ (∀ i, l.length ≤ i → f i = 0)

theorem HoldsPrefix.push {f : Nat → Int} {l : List Int} (h : HoldsPrefix f l) (x : Int) :
    HoldsPrefix (upd f l.length x) (l ++ [x]) := by
  constructor
  · intro i hi
    by_cases he : i = l.length
    · subst he; simp
    · rw [upd_other _ _ he, List.getElem_append_left (by simp at hi; omega)]
      exact h.1 i _
  · intro i hi
    simp at hi
    rw [upd_other _ _ (by omega)]
    exact h.2 i (by omega)

theorem take_append_interleave_nil {α : Type} (n : Nat) (l : List α) (h : l.length ≤ n) (ys : List α) :
    (l ++ interleave [] ys).take n = l ++ ys.take (n - l.length) := by
  simp [interleave, List.take_append, List.take_of_length_le h]

theorem interleave_nil_right {α : Type} (xs : List α) : interleave xs [] = xs := by
  cases xs <;> rfl

/-- Remaining ids of a stamp that is still (`active`) being processed. -/
def Stamp.rest (s : Stamp) (active : Bool) (k : Nat) : List Int := if active then s.tail k else []

theorem makeLoop_spec (s1 s2 : Stamp) : ∀ (k : Nat) (st : StampMakeState) (l : List Int), k ≤ STAMP_SIZE →
    HoldsPrefix st.ret l → st.j = l.length → l.length < STAMP_SIZE →
    HoldsPrefix (Stamp.makeLoop s1 s2 k st)
      ((l ++ interleave (s1.rest st.processStamp1 k) (s2.rest st.processStamp2 k)).take STAMP_SIZE) := by
  intro k
  induction k with
  | zero =>
    intro st l _ hp hj hl
    have e1 : s1.rest st.processStamp1 0 = [] := by unfold Stamp.rest; split <;> simp [Stamp.tail_zero]
    have e2 : s2.rest st.processStamp2 0 = [] := by unfold Stamp.rest; split <;> simp [Stamp.tail_zero]
    rw [e1, e2]
    simp only [interleave, List.append_nil]
    rw [List.take_of_length_le (by omega)]
    exact hp
  | succ k ih =>
    intro st l hk hp hj hl
    unfold Stamp.makeLoop
    -- what the first block does
    have blk : ∀ (s : Stamp) (active : Bool) (ret : Nat → Int) (l : List Int), HoldsPrefix ret l →
        (∃ x rest, s.rest active (k + 1) = x :: rest ∧ s.rest true k = rest ∧
          Stamp.makeBlock ret l.length active (s.evidentialBase (STAMP_SIZE - (k + 1))) =
            (upd ret l.length x, l.length + 1, true, decide (l.length + 1 ≥ STAMP_SIZE))) ∨
        (s.rest active (k + 1) = [] ∧
          Stamp.makeBlock ret l.length active (s.evidentialBase (STAMP_SIZE - (k + 1))) =
            (ret, l.length, false, false)) := by
      intro s active ret l _
      unfold Stamp.rest Stamp.makeBlock STAMP_FREE
      cases active with
      | false => right; simp
      | true =>
        rw [Stamp.tail_succ s hk]
        by_cases he : s.evidentialBase (STAMP_SIZE - (k + 1)) = 0
        · right; simp [he]
        · left; exact ⟨s.evidentialBase (STAMP_SIZE - (k + 1)), s.tail k, by simp [he], by simp, by simp [he]⟩
    rw [hj]
    rcases blk s1 st.processStamp1 st.ret l hp with ⟨x, xs, hx1, hx2, hx3⟩ | ⟨hx1, hx3⟩
    · simp only [hx3]
      have hp1 := hp.push x
      by_cases hfull : l.length + 1 ≥ STAMP_SIZE
      · -- the first block fills the stamp
        simp only [hfull, decide_true, if_true]
        have e : ∃ t, interleave (s1.rest st.processStamp1 (k + 1)) (s2.rest st.processStamp2 (k + 1)) = x :: t := by
          rw [hx1]; cases s2.rest st.processStamp2 (k + 1) <;> exact ⟨_, rfl⟩
        obtain ⟨t, ht⟩ := e
        rw [ht]
        have : (l ++ x :: t).take STAMP_SIZE = l ++ [x] := by
          have hlen : STAMP_SIZE = (l ++ [x]).length := by simp; omega
          rw [show l ++ x :: t = (l ++ [x]) ++ t by simp, hlen]
          exact List.take_left' rfl
        rw [this]; exact hp1
      · simp only [hfull, decide_false, Bool.false_eq_true, if_false]
        rcases blk s2 st.processStamp2 (upd st.ret l.length x) (l ++ [x]) hp1 with ⟨y, ys, hy1, hy2, hy3⟩ | ⟨hy1, hy3⟩
        · rw [show (l ++ [x]).length = l.length + 1 by simp] at hy3
          simp only [hy3]
          have hp2 := hp1.push y
          rw [show (l ++ [x]).length = l.length + 1 by simp] at hp2
          by_cases hfull2 : l.length + 1 + 1 ≥ STAMP_SIZE
          · simp only [hfull2, decide_true, if_true]
            rw [hx1, hy1]
            have : (l ++ interleave (x :: xs) (y :: ys)).take STAMP_SIZE = l ++ [x] ++ [y] := by
              have hlen : STAMP_SIZE = (l ++ [x] ++ [y]).length := by simp; omega
              rw [show l ++ interleave (x :: xs) (y :: ys) = (l ++ [x] ++ [y]) ++ interleave xs ys by simp [interleave], hlen]
              exact List.take_left' rfl
            rw [this]; exact hp2
          · simp only [hfull2, decide_false, Bool.false_eq_true, if_false, Bool.not_true, Bool.and_self]
            have := ih ⟨upd (upd st.ret l.length x) (l.length + 1) y, l.length + 1 + 1, true, true⟩ (l ++ [x] ++ [y])
              (by omega) hp2 (by simp) (by simp; omega)
            dsimp only at this
            rw [hx2, hy2] at this
            rw [hx1, hy1]
            simpa [interleave] using this
        · rw [show (l ++ [x]).length = l.length + 1 by simp] at hy3
          simp only [hy3, Bool.false_eq_true, if_false, Bool.not_true, Bool.false_and]
          have := ih ⟨upd st.ret l.length x, l.length + 1, true, false⟩ (l ++ [x])
            (by omega) hp1 (by simp) (by simp; omega)
          dsimp only at this
          rw [hx2] at this
          rw [hx1, hy1]
          have e : s2.rest false k = [] := by simp [Stamp.rest]
          rw [e, interleave_nil_right] at this
          rw [interleave_nil_right]
          simpa using this
    · simp only [hx3, Bool.false_eq_true, if_false]
      rcases blk s2 st.processStamp2 st.ret l hp with ⟨y, ys, hy1, hy2, hy3⟩ | ⟨hy1, hy3⟩
      · simp only [hy3]
        have hp1 := hp.push y
        rw [hx1, hy1]
        by_cases hfull : l.length + 1 ≥ STAMP_SIZE
        · simp only [hfull, decide_true, if_true]
          have : (l ++ interleave [] (y :: ys)).take STAMP_SIZE = l ++ [y] := by
            have hlen : STAMP_SIZE = (l ++ [y]).length := by simp; omega
            rw [show l ++ interleave [] (y :: ys) = (l ++ [y]) ++ ys by simp [interleave], hlen]
            exact List.take_left' rfl
          rw [this]; exact hp1
        · simp only [hfull, decide_false, Bool.false_eq_true, if_false, Bool.not_true, Bool.not_false, Bool.and_false]
          have := ih ⟨upd st.ret l.length y, l.length + 1, false, true⟩ (l ++ [y])
            (by omega) hp1 (by simp) (by simp; omega)
          dsimp only at this
          rw [hy2] at this
          have e : s1.rest false k = [] := by simp [Stamp.rest]
          rw [e] at this
          simpa [interleave] using this
      · simp only [hy3, Bool.false_eq_true, if_false, Bool.not_false, Bool.and_self, if_true]
        rw [hx1, hy1]
        simp only [interleave, List.append_nil]
        rw [List.take_of_length_le (by omega)]
        exact hp

/-- **C16 (exact content).** The ids of a merged stamp are the alternation of the premises' ids, cut off at the
stamp capacity. -/
theorem C16_make (a b : Stamp) : (Stamp_make a b).ids = (interleave a.ids b.ids).take STAMP_SIZE := by
  have h := makeLoop_spec a b STAMP_SIZE ⟨fun _ => 0, 0, true, true⟩ [] (Nat.le_refl _)
    ⟨fun i hi => absurd hi (by simp), fun _ _ => rfl⟩ rfl (by decide)
  simp only [Stamp.rest, if_true, Stamp.tail_full, List.nil_append] at h
  unfold Stamp_make
  refine Stamp.ids_of_prefix _ _ (by rw [List.length_take]; exact Nat.min_le_left _ _) ?_ h.1 h.2
  intro h0
  have h1 := List.mem_of_mem_take h0
  have : ∀ (xs ys : List Int), (0 : Int) ∈ interleave xs ys → 0 ∈ xs ∨ 0 ∈ ys := by
    intro xs ys
    induction xs, ys using interleave.induct with
    | case1 ys => simp [interleave]
    | case2 x xs => simp [interleave]
    | case3 x xs y ys ih => simp only [interleave, List.mem_cons]; tauto
  rcases this _ _ h1 with h2 | h2
  · rw [← a.tail_full] at h2; exact a.zero_notin_tail _ h2
  · rw [← b.tail_full] at h2; exact b.zero_notin_tail _ h2

theorem interleave_perm {α : Type} (xs ys : List α) : (interleave xs ys).Perm (xs ++ ys) := by
  induction xs, ys using interleave.induct with
  | case1 ys => simp [interleave]
  | case2 x xs => simp [interleave]
  | case3 x xs y ys ih =>
    simp only [interleave, List.cons_append]
    refine List.Perm.cons _ ?_
    exact (List.Perm.cons y ih).trans List.perm_middle.symm

/-- **C16 (no invented evidence).** -/
theorem C16_only_premises (a b : Stamp) (e : Int) (h : e ∈ (Stamp_make a b).ids) : e ∈ a.ids ∨ e ∈ b.ids := by
  rw [C16_make] at h
  have := (interleave_perm _ _).mem_iff.1 (List.mem_of_mem_take h)
  simpa using this

/-- **C16 (complete when it fits).** -/
theorem C16_complete (a b : Stamp) (h : a.ids.length + b.ids.length ≤ STAMP_SIZE) :
    (Stamp_make a b).ids.Perm (a.ids ++ b.ids) := by
  rw [C16_make, List.take_of_length_le]
  · exact interleave_perm _ _
  · rw [(interleave_perm _ _).length_eq]; simpa using h

/-- **C16 (newest evidence kept).** If the premises have `n` resp. `m` ids, the first five of each survive;
here: every id among the first `STAMP_SIZE / 2` of a premise is in the merged stamp. -/
theorem C16_newest_kept (a b : Stamp) (i : Nat) (hi : i < STAMP_SIZE / 2) :
    (∀ h : i < a.ids.length, a.ids[i] ∈ (Stamp_make a b).ids) ∧
    (∀ h : i < b.ids.length, b.ids[i] ∈ (Stamp_make a b).ids) := by
  rw [C16_make]
  have key : ∀ (n : Nat) (xs ys : List Int) (i : Nat), 2 * i + 2 ≤ n →
      (∀ h : i < xs.length, xs[i] ∈ (interleave xs ys).take n) ∧
      (∀ h : i < ys.length, ys[i] ∈ (interleave xs ys).take n) := by
    intro n xs ys
    induction xs, ys using interleave.induct generalizing n with
    | case1 ys =>
      intro i hi
      refine ⟨fun h => absurd h (by simp), fun h => ?_⟩
      simp only [interleave]
      exact List.mem_take_iff_getElem.2 ⟨i, by omega, rfl⟩
    | case2 x xs =>
      intro i hi
      refine ⟨fun h => ?_, fun h => absurd h (by simp)⟩
      simp only [interleave]
      exact List.mem_take_iff_getElem.2 ⟨i, by omega, rfl⟩
    | case3 x xs y ys ih =>
      intro i hi
      obtain ⟨n, rfl⟩ : ∃ m, n = m + 2 := ⟨n - 2, by omega⟩
      simp only [interleave, List.take_succ_cons]
      cases i with
      | zero => simp
      | succ i =>
        obtain ⟨h1, h2⟩ := ih n i (by omega)
        constructor
        · intro h; simp only [List.getElem_cons_succ, List.mem_cons]
          right; right; exact h1 (by simpa using h)
        · intro h; simp only [List.getElem_cons_succ, List.mem_cons]
          right; right; exact h2 (by simpa using h)
  exact key STAMP_SIZE a.ids b.ids i (by have : STAMP_SIZE = 10 := rfl; omega)

/-! ### Overlap -/

theorem overlapInner_iff (x : Int) (b : Stamp) : ∀ k, k ≤ STAMP_SIZE →
    (Stamp.overlapInner x b k = true ↔ x ∈ b.tail k) := by
  intro k
  induction k with
  | zero => simp [Stamp.overlapInner, Stamp.tail_zero]
  | succ k ih =>
    intro hk
    rw [Stamp.tail_succ b hk]
    unfold Stamp.overlapInner STAMP_FREE
    dsimp only
    split
    · simp
    · split <;> rename_i h2
      · simp [h2]
      · simp [h2, ih (by omega)]

theorem overlapOuter_iff (a b : Stamp) : ∀ k, k ≤ STAMP_SIZE →
    (Stamp.overlapOuter a b k = true ↔ ∃ e ∈ a.tail k, e ∈ b.ids) := by
  intro k
  induction k with
  | zero => simp [Stamp.overlapOuter, Stamp.tail_zero]
  | succ k ih =>
    intro hk
    rw [Stamp.tail_succ a hk]
    unfold Stamp.overlapOuter STAMP_FREE
    dsimp only
    have hi := overlapInner_iff (a.evidentialBase (STAMP_SIZE - (k + 1))) b STAMP_SIZE (Nat.le_refl _)
    rw [Stamp.tail_full] at hi
    split
    · simp
    · split <;> rename_i h2
      · simp [hi.1 h2]
      · have : a.evidentialBase (STAMP_SIZE - (k + 1)) ∉ b.ids := fun hc => h2 (hi.2 hc)
        simp [this, ih (by omega)]

/-- **C17.** Overlap is reported iff the stamps share an evidence id. -/
theorem C17_overlap_iff (a b : Stamp) : Stamp_checkOverlap a b = true ↔ ∃ e, e ∈ a.ids ∧ e ∈ b.ids := by
  unfold Stamp_checkOverlap
  rw [overlapOuter_iff a b _ (Nat.le_refl _), Stamp.tail_full]

/-- **C17 (symmetry).** -/
theorem C17_overlap_symm (a b : Stamp) : Stamp_checkOverlap a b = Stamp_checkOverlap b a := by
  rw [Bool.eq_iff_iff, C17_overlap_iff, C17_overlap_iff]
  constructor <;> rintro ⟨e, h1, h2⟩ <;> exact ⟨e, h2, h1⟩

/-! ### Equality -/

theorem equalInner_spec (x : Int) (hx : x ≠ 0) (b : Stamp) : ∀ k, k ≤ STAMP_SIZE →
    (Stamp.equalInner x b k = .inr true ∧ x ∈ b.tail k) ∨
    ((Stamp.equalInner x b k = .inl false ∨ Stamp.equalInner x b k = .inr false) ∧ x ∉ b.tail k) := by
  intro k
  induction k with
  | zero => simp [Stamp.equalInner, Stamp.tail_zero]
  | succ k ih =>
    intro hk
    rw [Stamp.tail_succ b hk]
    unfold Stamp.equalInner STAMP_FREE
    dsimp only
    split
    · simp [hx]
    · split <;> rename_i h2
      · simp [h2]
      · have := ih (by omega)
        simpa [h2] using this

theorem tail_eq_nil_iff (b : Stamp) (k : Nat) (hk : k + 1 ≤ STAMP_SIZE)
    (hb : b.evidentialBase (STAMP_SIZE - (k + 1)) = 0) : b.ids.length ≤ STAMP_SIZE - (k + 1) := by
  unfold Stamp.ids
  have : (List.range STAMP_SIZE) = List.range (STAMP_SIZE - (k + 1)) ++ List.range' (STAMP_SIZE - (k + 1)) (k + 1) := by
    have h := List.range'_append (s := 0) (m := STAMP_SIZE - (k + 1)) (n := k + 1) (step := 1)
    rw [List.range_eq_range', List.range_eq_range']
    rw [show 0 + 1 * (STAMP_SIZE - (k + 1)) = STAMP_SIZE - (k + 1) by omega] at h
    rw [h]
    congr 1; omega
  rw [this, List.map_append, List.range'_succ, List.map_cons, hb, List.takeWhile_append]
  split
  · simp
  · refine Nat.le_trans (List.takeWhile_sublist _).length_le ?_
    simp

/-- The cell behind the ids is free. -/
theorem Stamp.base_at_length (b : Stamp) (hi : b.ids.length < STAMP_SIZE) : b.evidentialBase b.ids.length = 0 := by
  generalize hl : b.ids.length = i at *
  unfold Stamp.ids at hl
  by_contra hnz
  have h3 := List.takeWhile_append_dropWhile (p := fun e : Int => decide (e ≠ 0))
    (l := (List.range STAMP_SIZE).map b.evidentialBase)
  cases hd : ((List.range STAMP_SIZE).map b.evidentialBase).dropWhile (fun e : Int => decide (e ≠ 0)) with
  | nil =>
    rw [hd, List.append_nil] at h3
    rw [h3] at hl; simp at hl; omega
  | cons y ys =>
    have hy : decide (y ≠ 0) = false := by
      have := List.head?_dropWhile_not (p := fun e : Int => decide (e ≠ 0)) (l := (List.range STAMP_SIZE).map b.evidentialBase)
      rw [hd] at this; simpa using this
    have h4 : ((List.range STAMP_SIZE).map b.evidentialBase)[i]'(by simpa using hi) = y := by
      rw [hd] at h3
      have : ((List.range STAMP_SIZE).map b.evidentialBase)[i]'(by simpa using hi) =
        ((((List.range STAMP_SIZE).map b.evidentialBase).takeWhile (fun e : Int => decide (e ≠ 0))) ++ (y :: ys))[i]'(by rw [h3]; simpa using hi) := by
        congr 1; exact h3.symm
      rw [this, List.getElem_append_right (by omega)]
      simp only [hl, Nat.sub_self, List.getElem_cons_zero]
    simp at h4 hy
    rw [h4, hy] at hnz; exact hnz rfl

theorem Stamp.WF.zero_iff {b : Stamp} (h : b.WF) {i : Nat} (hi : i < STAMP_SIZE) :
    b.evidentialBase i = 0 ↔ b.ids.length ≤ i := by
  constructor
  · intro hb
    have := tail_eq_nil_iff b (STAMP_SIZE - i - 1) (by omega)
      (by rw [show STAMP_SIZE - (STAMP_SIZE - i - 1 + 1) = i by omega]; exact hb)
    omega
  · intro hl
    exact h _ _ hl hi (b.base_at_length (by omega))

theorem equalOuter_iff (a b : Stamp) (hb : b.WF) : ∀ k, k ≤ STAMP_SIZE →
    (Stamp.equalOuter a b k = true ↔ (∀ e ∈ a.tail k, e ∈ b.ids) ∧ b.ids.length ≤ (STAMP_SIZE - k) + (a.tail k).length) := by
  intro k
  induction k with
  | zero =>
    intro _
    simp [Stamp.equalOuter, Stamp.tail_zero, Stamp.ids_length_le]
  | succ k ih =>
    intro hk
    rw [Stamp.tail_succ a hk]
    unfold Stamp.equalOuter STAMP_FREE
    dsimp only
    by_cases hx : a.evidentialBase (STAMP_SIZE - (k + 1)) = 0
    · simp only [hx, if_true]
      simp only [List.not_mem_nil, false_implies, implies_true, true_and, List.length_nil, Nat.add_zero,
        decide_eq_true_eq]
      exact hb.zero_iff (by omega)
    · simp only [hx, if_false]
      have hin := equalInner_spec (a.evidentialBase (STAMP_SIZE - (k + 1))) hx b STAMP_SIZE (Nat.le_refl _)
      rw [Stamp.tail_full] at hin
      rcases hin with ⟨h1, h2⟩ | ⟨h1 | h1, h2⟩
      · rw [h1]
        simp only [Bool.not_true, Bool.false_eq_true, if_false]
        rw [ih (by omega)]
        simp only [List.mem_cons, forall_eq_or_imp, h2, true_and, List.length_cons]
        rw [show STAMP_SIZE - k + (a.tail k).length = STAMP_SIZE - (k + 1) + ((a.tail k).length + 1) by omega]
      · rw [h1]; simp [h2]
      · rw [h1]; simp [h2]

/-- What `Stamp_Equal` computes, for any stamps: inclusion of the ids plus a length comparison. -/
theorem Stamp_Equal_iff (a b : Stamp) (hb : b.WF) :
    Stamp_Equal a b = true ↔ (∀ e ∈ a.ids, e ∈ b.ids) ∧ b.ids.length ≤ a.ids.length := by
  unfold Stamp_Equal
  rw [equalOuter_iff a b hb _ (Nat.le_refl _), Stamp.tail_full]
  simp

/-- **C18.** Stamps with distinct ids compare equal iff they contain the same ids. -/
theorem C18_equal_iff (a b : Stamp) (hb : b.WF) (hda : a.ids.Nodup) (hdb : b.ids.Nodup) :
    Stamp_Equal a b = true ↔ ∀ e, e ∈ a.ids ↔ e ∈ b.ids := by
  rw [Stamp_Equal_iff a b hb]
  constructor
  · rintro ⟨h1, h2⟩ e
    have hsub : a.ids.Subperm b.ids := hda.subperm h1
    have hperm := hsub.perm_of_length_le h2
    exact hperm.mem_iff
  · intro h
    refine ⟨fun e he => (h e).1 he, ?_⟩
    exact ((List.perm_ext_iff_of_nodup hda hdb).2 h).length_eq.symm.le

/-- **C18 (symmetry).** -/
theorem C18_equal_symm (a b : Stamp) (ha : a.WF) (hb : b.WF) (hda : a.ids.Nodup) (hdb : b.ids.Nodup) :
    Stamp_Equal a b = Stamp_Equal b a := by
  rw [Bool.eq_iff_iff, C18_equal_iff a b hb hda hdb, C18_equal_iff b a ha hdb hda]
  constructor <;> intro h e <;> exact (h e).symm

/-- Merging yields a well formed stamp. -/
theorem Stamp_make_wf (a b : Stamp) : (Stamp_make a b).WF := by
  have h := makeLoop_spec a b STAMP_SIZE ⟨fun _ => 0, 0, true, true⟩ [] (Nat.le_refl _)
    ⟨fun i hi => absurd hi (by simp), fun _ _ => rfl⟩ rfl (by decide)
  simp only [Stamp.rest, if_true, Stamp.tail_full, List.nil_append] at h
  intro i j hij hj hi
  have hi' : Stamp.makeLoop a b STAMP_SIZE ⟨fun _ => 0, 0, true, true⟩ i = 0 := hi
  show Stamp.makeLoop a b STAMP_SIZE ⟨fun _ => 0, 0, true, true⟩ j = 0
  refine h.2 j ?_
  by_contra hc
  rw [Nat.not_le] at hc
  have h1 := h.1 i (by omega)
  have h2 : (0 : Int) ∈ (Stamp_make a b).ids := by
    rw [C16_make]
    rw [← hi', h1]; exact List.getElem_mem _
  rw [← Stamp.tail_full] at h2
  exact Stamp.zero_notin_tail _ _ h2

/-! ### Concrete cases -/

/-- A stamp with the given ids. -/
def Stamp.ofList (l : List Int) : Stamp := ⟨fun i => (l[i]?).getD 0⟩

example : (Stamp_make (Stamp.ofList [1, 2, 3]) (Stamp.ofList [4])).ids = [1, 4, 2, 3] := by decide +kernel

example : (Stamp_make (Stamp.ofList [1, 2, 3, 4, 5, 6, 7]) (Stamp.ofList [11, 12, 13, 14, 15, 16, 17])).ids =
    [1, 11, 2, 12, 3, 13, 4, 14, 5, 15] := by decide +kernel

example : Stamp_checkOverlap (Stamp.ofList [1, 2, 3]) (Stamp.ofList [4, 3]) = true ∧
    Stamp_checkOverlap (Stamp.ofList [1, 2, 3]) (Stamp.ofList [4, 5]) = false := by decide +kernel

example : Stamp_Equal (Stamp.ofList [1, 2, 3]) (Stamp.ofList [3, 1, 2]) = true := by decide +kernel

/-- The premise "distinct ids" of C18 is needed: with a repeated id (possible after merging overlapping stamps,
see C13) the comparison is not even symmetric. -/
theorem C18_duplicates_not_symmetric :
    Stamp_Equal (Stamp.ofList [1, 1]) (Stamp.ofList [1, 2]) = true ∧
    Stamp_Equal (Stamp.ofList [1, 2]) (Stamp.ofList [1, 1]) = false := by decide +kernel

end ONA
