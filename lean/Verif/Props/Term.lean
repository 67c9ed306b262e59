import Verif.Proofs.Term
import Verif.Props.Hash
/-
C27 (equality through the cached hash) and C28 (subterm extraction and insertion).
-/
namespace ONA

/-! ### C27 -/

/-- All ways the code base creates and edits term structs: zeroed structs, direct atom writes (which the code only
does while no hash is cached), insertion and extraction of subterms, hashing and comparing (which fill the cache),
and copying (which is the identity). -/
inductive HTerm.Built : HTerm → Prop where
  | zero : Built HTerm.zero
  | rawWrite {t : HTerm} (i : Nat) (a : Atom) : Built t → t.hashed = false → Built (t.rawWrite i a)
  | override {t s : HTerm} (i : Nat) : Built t → Built s → Built (t.Term_OverrideSubterm i s).2
  | extract {t : HTerm} (j : Nat) : Built t → Built (t.Term_ExtractSubterm j)
  | hash {t : HTerm} : Built t → Built t.Term_Hash.2
  | equalLeft {a b : HTerm} : Built a → Built b → Built (a.Term_Equal b).2.1
  | equalRight {a b : HTerm} : Built a → Built b → Built (a.Term_Equal b).2.2

/-- The cache, if filled, holds the hash of the atoms; if not filled the stale value is irrelevant. -/
def HTerm.Coherent (t : HTerm) : Prop := t.hashed = true → t.hash = t.term.hashValue

theorem HTerm.hash_fst {t : HTerm} (h : t.Coherent) : t.Term_Hash.1 = t.term.hashValue := by
  unfold Term_Hash
  split
  · exact h (by assumption)
  · rfl

theorem HTerm.hash_snd {t : HTerm} (h : t.Coherent) : t.Term_Hash.2 = ⟨true, t.term.hashValue, t.term⟩ := by
  unfold Term_Hash
  split
  · rename_i hh
    have := h hh
    cases t; simp_all
  · rfl

theorem HTerm.hash_coherent {t : HTerm} (h : t.Coherent) : t.Term_Hash.2.Coherent := by
  rw [hash_snd h]; exact fun _ => rfl

theorem relOverride_out (t : Term) {i : Nat} (s : Term) (h : ¬ i < COMPOUND_TERM_SIZE_MAX) :
    Term_OverrideSubterm t i s = (false, t) := by
  unfold Term_OverrideSubterm
  rw [Term_RelativeOverride, if_pos (by omega)]

theorem HTerm.Built.coherent {t : HTerm} (h : t.Built) : t.Coherent := by
  induction h with
  | zero => exact fun h => absurd h (by simp [HTerm.zero])
  | rawWrite i a _ hh _ => exact fun h => absurd h (by simp [HTerm.rawWrite, hh])
  | @override t s i _ _ iht _ =>
    intro h
    simp only [HTerm.Term_OverrideSubterm] at h ⊢
    by_cases hi : i < COMPOUND_TERM_SIZE_MAX
    · rw [if_pos hi] at h; simp at h
    · rw [if_neg hi] at h
      rw [relOverride_out _ _ hi]
      exact iht h
  | extract j _ _ => exact fun h => absurd h (by simp [HTerm.Term_ExtractSubterm])
  | hash _ ih => exact hash_coherent ih
  | @equalLeft a b _ _ iha _ =>
    have : (a.Term_Equal b).2.1 = a.Term_Hash.2 := by unfold HTerm.Term_Equal; dsimp only; split <;> rfl
    rw [this]; exact hash_coherent iha
  | @equalRight a b _ _ _ ihb =>
    have : (a.Term_Equal b).2.2 = b.Term_Hash.2 := by unfold HTerm.Term_Equal; dsimp only; split <;> rfl
    rw [this]; exact hash_coherent ihb

/-- **C27.** For every two terms built by any history of construction, editing, hashing and comparing,
`Term_Equal` returns true exactly when all atoms agree; comparing changes no atom, and `Term_Hash` depends on the
atoms only. -/
theorem C27_term_equal (a b : HTerm) (ha : a.Built) (hb : b.Built) :
    ((a.Term_Equal b).1 = true ↔ ∀ i, i < COMPOUND_TERM_SIZE_MAX → a.term.get i = b.term.get i) ∧
    (a.Term_Equal b).2.1.term = a.term ∧ (a.Term_Equal b).2.2.term = b.term ∧
    (a.Term_Hash.1 = a.term.hashValue ∧ a.Term_Hash.2.term = a.term) := by
  have ca := ha.coherent
  have cb := hb.coherent
  have key : a.Term_Equal b = (decide (a.term = b.term), ⟨true, a.term.hashValue, a.term⟩, ⟨true, b.term.hashValue, b.term⟩) := by
    unfold HTerm.Term_Equal
    simp only [HTerm.hash_fst ca, HTerm.hash_fst cb, HTerm.hash_snd ca, HTerm.hash_snd cb]
    by_cases h : a.term = b.term
    · simp [h]
    · split <;> simp [h]
  rw [key]
  refine ⟨?_, rfl, rfl, HTerm.hash_fst ca, by rw [HTerm.hash_snd ca]⟩
  simp only [decide_eq_true_eq]
  exact ⟨fun h i _ => by rw [h], Term.ext_get⟩

/-- The restriction of direct writes to unhashed terms matters: a direct write after hashing lets two different
terms' cached hashes go stale, and two structs with the same atoms then compare different. -/
theorem C27_stale_cache : ∃ a b : HTerm, a.term = b.term ∧ a.Built ∧ (b.Term_Equal a).1 = false :=
  ⟨HTerm.zero.rawWrite 0 5, (HTerm.zero.Term_Hash.2.rawWrite 0 5), rfl, .rawWrite 0 5 .zero rfl, by decide +kernel⟩

/-- `Term_Hash` is never negative (so bucket indices are in range, cf. C01). -/
theorem Term_hash_nonneg (t : Term) : 0 ≤ t.hashValue.toInt := Globals_Hash_nonneg _

/-- A concrete pair: the same term built in two different ways, one of them hashed in between. -/
example : ((HTerm.zero.rawWrite 0 3).rawWrite 1 4).Built ∧
    (((HTerm.zero.rawWrite 1 4).rawWrite 0 3).Term_Hash.2.Term_Equal ((HTerm.zero.rawWrite 0 3).rawWrite 1 4)).1 = true :=
  ⟨.rawWrite 1 4 (.rawWrite 0 3 .zero rfl) rfl, by decide +kernel⟩

/-! ### C28 -/

/-- **C28 (extraction).** Extracting never fails, and yields exactly the nodes below position `j` (with their
positions relative to `j`), nothing else. -/
theorem C28_extract (t : Term) (j : Nat) :
    (Term_RelativeOverride 7 Term.zero 0 t j).1 = true ∧
    (∀ p, Present t j p → (Term_ExtractSubterm t j).get (pathPos 0 p) = t.get (pathPos j p)) ∧
    (∀ p, ¬ Present t j p → (Term_ExtractSubterm t j).get (pathPos 0 p) = 0) := by
  refine ⟨?_, ?_, ?_⟩
  · by_cases hj : j < COMPOUND_TERM_SIZE_MAX
    · exact (relOverride_spec 7 Term.zero 0 t j (bound7 0) hj).1.2
        fun p hp => Nat.lt_of_le_of_lt (pathPos_mono (Nat.zero_le j) p) (Present.lt hj hp)
    · rw [Term_RelativeOverride, if_neg (by decide), if_neg hj]
  · intro p hp; rw [extract_get, if_pos hp]
  · intro p hp; rw [extract_get, if_neg hp]

/-- For terms in which every node has a parent, extraction reads off the whole subtree. -/
theorem C28_extract_closed (t : Term) (hc : t.Closed) (j : Nat) (hj : j < COMPOUND_TERM_SIZE_MAX) (p : List Bool) :
    (Term_ExtractSubterm t j).get (pathPos 0 p) = t.get (pathPos j p) := by
  by_cases hp : Present t j p
  · exact (C28_extract t j).2.1 p hp
  · rw [(C28_extract t j).2.2 p hp]
    by_contra h
    exact hp (present_of_closed hc hj (Ne.symm h))

/-- Extracting the root of such a term gives it back. -/
theorem extract_root (t : Term) (hc : t.Closed) : Term_ExtractSubterm t 0 = t := by
  apply Term.ext_get
  intro i _
  obtain ⟨p, rfl⟩ := exists_path i
  exact C28_extract_closed t hc 0 (by decide) p

/-- **C28 (insertion).** Inserting `s` at position `i` succeeds iff all nodes of `s` fit, then puts exactly the nodes
of `s` there, and never changes any other position. -/
theorem C28_override (t : Term) (i : Nat) (s : Term) :
    ((Term_OverrideSubterm t i s).1 = true ↔ ∀ p, Present s 0 p → pathPos i p < COMPOUND_TERM_SIZE_MAX) ∧
    ((Term_OverrideSubterm t i s).1 = true → ∀ p, Present s 0 p →
      (Term_OverrideSubterm t i s).2.get (pathPos i p) = s.get (pathPos 0 p)) ∧
    (∀ n, (∀ p, Present s 0 p → n ≠ pathPos i p) → (Term_OverrideSubterm t i s).2.get n = t.get n) :=
  relOverride_spec 7 t i s 0 (bound7 i) (by decide)

/-- **C28 (round trip).** Inserting a term at a position with nothing below it and extracting that position again
returns the inserted term; positions outside the subtree at `i` are unchanged. -/
theorem C28_roundtrip (t : Term) (i : Nat) (s : Term) (hs : s.Closed) (he : t.EmptyBelow i)
    (hok : (Term_OverrideSubterm t i s).1 = true) :
    Term_ExtractSubterm (Term_OverrideSubterm t i s).2 i = s ∧
    ∀ n, (∀ p, n ≠ pathPos i p) → (Term_OverrideSubterm t i s).2.get n = t.get n := by
  obtain ⟨h1, h2, h3⟩ := C28_override t i s
  set t' := (Term_OverrideSubterm t i s).2 with ht'
  have hfit := h1.1 hok
  have hi : i < COMPOUND_TERM_SIZE_MAX := hfit [] (show 0 < _ by decide)
  refine ⟨?_, fun n hn => h3 n fun p _ => hn p⟩
  -- the nodes of `t'` below `i` are those of `s`
  have hval : ∀ p, p ≠ [] → t'.get (pathPos i p) = s.get (pathPos 0 p) := by
    intro p hp
    by_cases hpr : Present s 0 p
    · exact h2 hok p hpr
    · rw [h3]
      · have hz : s.get (pathPos 0 p) = 0 := by
          by_contra h
          exact hpr (present_of_closed hs (by decide) h)
        rw [hz]
        cases p with
        | nil => exact absurd rfl hp
        | cons b p => exact he b p
      · intro q hq h
        exact hpr (pathPos_inj h ▸ hq)
  have hpres : ∀ (q r : List Bool), Present t' (pathPos i r) q → Present s (pathPos 0 r) q := by
    intro q
    induction q with
    | nil =>
      intro r h
      exact Nat.lt_of_le_of_lt (pathPos_mono (Nat.zero_le i) r) h
    | cons b q ih =>
      intro r h
      have e : ∀ k, childPos (pathPos k r) b = pathPos k (r ++ [b]) := fun k => by rw [pathPos_append]; rfl
      have hne : r ++ [b] ≠ [] := by simp
      refine ⟨?_, ?_⟩
      · rw [e, ← hval _ hne, ← e]; exact h.1
      · rw [e]; exact ih _ (by rw [← e]; exact h.2)
  apply Term.ext_get
  intro n _
  obtain ⟨p, rfl⟩ := exists_path n
  by_cases hp : Present t' i p
  · rw [(C28_extract t' i).2.1 p hp]
    exact h2 hok p (hpres p [] hp)
  · rw [(C28_extract t' i).2.2 p hp]
    by_contra h
    have hp' : Present s 0 p := present_of_closed hs (by decide) (Ne.symm h)
    apply hp
    -- presence transfers back
    have back : ∀ (q r : List Bool), (∀ u, Present s 0 (r ++ u) → True) → Present s (pathPos 0 r) q →
        pathPos i r < COMPOUND_TERM_SIZE_MAX → Present t' (pathPos i r) q := by
      intro q
      induction q with
      | nil => exact fun r _ _ h => h
      | cons b q ih =>
        intro r _ h _
        have e : ∀ k, childPos (pathPos k r) b = pathPos k (r ++ [b]) := fun k => by rw [pathPos_append]; rfl
        have hne : r ++ [b] ≠ [] := by simp
        have hb : t'.get (childPos (pathPos i r) b) ≠ 0 := by rw [e, hval _ hne, ← e]; exact h.1
        refine ⟨hb, ?_⟩
        rw [e]
        exact ih _ (fun _ _ => trivial) (by rw [← e]; exact h.2) (by rw [← e]; exact Term.lt_of_get_ne hb)
    exact back p [] (fun _ _ => trivial) hp' hi

/-- `Term_HasAtom` searches all positions; `Term_Complexity` counts the occupied ones. -/
theorem Term_HasAtom_iff (t : Term) (a : Atom) :
    Term_HasAtom t a = true ↔ ∃ i, i < COMPOUND_TERM_SIZE_MAX ∧ t.get i = a := by
  simp [Term_HasAtom]

theorem Term_Complexity_eq (t : Term) :
    Term_Complexity t = ((List.range COMPOUND_TERM_SIZE_MAX).filter fun i => decide (t.get i ≠ 0)).length := by
  unfold Term_Complexity
  have : ∀ (l : List Nat) (s : Nat), l.foldl (fun s i => if t.get i ≠ 0 then s + 1 else s) s =
      s + (l.filter fun i => decide (t.get i ≠ 0)).length := by
    intro l
    induction l with
    | nil => simp
    | cons a l ih =>
      intro s
      rw [List.foldl_cons, ih, List.filter_cons]
      by_cases h : t.get a ≠ 0
      · rw [if_pos h, if_pos (decide_eq_true h), List.length_cons]; omega
      · rw [if_neg h, if_neg (by simpa using h)]
  rw [this]; omega

/-- A concrete case of the hypotheses: insert `<5 --> 6>` (atoms 9, 5, 6) as left child of `<_ ==> 7>`. -/
example : let s := ((Term.zero.put 0 9).put 1 5).put 2 6
    let t := (Term.zero.put 0 8).put 2 7
    (Term_OverrideSubterm t 1 s).1 = true ∧ Term_ExtractSubterm (Term_OverrideSubterm t 1 s).2 1 = s ∧
      (Term_OverrideSubterm t 1 s).2.get 2 = 7 ∧ (Term_OverrideSubterm t 31 s).1 = false := by
  decide +kernel

end ONA
