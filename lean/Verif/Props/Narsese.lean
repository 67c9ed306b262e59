import Verif.Proofs.Narsese
import Mathlib.Data.Finset.Card
import Mathlib.Data.Finset.Range
/-
C32 (names and atoms correspond one to one) and C33 (atom capacity).
-/
namespace ONA

/-- A session: `Narsese_INIT` followed by any sequence of name lookups and value settings. The history records each
looked-up name with the index returned for it, newest first. -/
inductive Narsese.Session : List (CStr × Nat) → Narsese → Prop where
  | start {n : Narsese} : Narsese_INIT = .ok n → Session [] n
  | call {h : List (CStr × Nat)} {n n' : Narsese} {s : CStr} {i : Nat} :
      Session h n → Narsese_AtomicTermIndex n s = .ok (i, n') → Session ((s, i) :: h) n'
  | setValue {h : List (CStr × Nat)} {n n' : Narsese} {a : Atom} {v : ℚ} {m : CStr} :
      Session h n → Narsese_setAtomValue n a v m = .ok n' → Session h n'

/-- The names present after initialisation. -/
def allInitialNames : List CStr := initialNames ++ [['S', 'E', 'L', 'F']]

theorem setAtomValue_rep {n n' : Narsese} {ns : List CStr} {a : Atom} {v : ℚ} {m : CStr} (h : n.Rep ns)
    (e : Narsese_setAtomValue n a v m = .ok n') :
    n'.Rep ns ∧ n'.SELF = n.SELF ∧ n'.capacity = n.capacity ∧ n'.atomNames = n.atomNames ∧ n'.term_index = n.term_index := by
  unfold Narsese_setAtomValue at e
  rw [R.bind_eq_ok] at e
  obtain ⟨_, _, e⟩ := e
  cases e
  exact ⟨{ nodup := h.nodup, count := h.count, names := h.names, short := h.short, table := h.table, cap := h.cap, pos := h.pos, rest := h.rest },
    rfl, rfl, rfl, rfl⟩

theorem getD_idxOf {ns : List CStr} {s : CStr} (h : s ∈ ns) : ns.getD (ns.idxOf s) [] = s := by
  simp [List.getD, List.idxOf_lt_length_iff.2 h]

theorem idxOf_append_mem {ns l : List CStr} {s : CStr} (h : s ∈ ns) : (ns ++ l).idxOf s = ns.idxOf s :=
  List.idxOf_append_of_mem h

/-- Abstract state of a session. -/
theorem session_spec {h : List (CStr × Nat)} {n : Narsese} (hs : Narsese.Session h n) :
    ∃ ns, n.Rep (allInitialNames ++ ns) ∧ n.capacity = ATOMS_MAX ∧ n.SELF = 63 ∧
      (∀ e ∈ h, truncName e.1 ∈ allInitialNames ++ ns ∧ e.2 = (allInitialNames ++ ns).idxOf (truncName e.1) + 1) := by
  induction hs with
  | start e =>
    obtain ⟨n', e1, r, c, s, _⟩ := initWith_spec ATOMS_MAX (by decide)
    unfold Narsese_INIT at e
    rw [e1] at e; cases e
    exact ⟨[], by rw [List.append_nil]; exact r, c, s, by simp⟩
  | @call h n n' s i _ e ih =>
    obtain ⟨ns, r, c, se, hh⟩ := ih
    by_cases hm : truncName s ∈ allInitialNames ++ ns
    · rw [r.index_known hm] at e
      cases e
      refine ⟨ns, r, c, se, ?_⟩
      intro e he
      rcases List.mem_cons.1 he with rfl | he
      · exact ⟨hm, rfl⟩
      · exact hh e he
    · have hlt : (allInitialNames ++ ns).length < n.capacity := by
        rcases Nat.lt_or_ge (allInitialNames ++ ns).length n.capacity with h1 | h1
        · exact h1
        · rw [r.index_full hm h1] at e
          cases e
      obtain ⟨m, e1, r1, c1, s1, _⟩ := r.index_new hm hlt
      rw [e1] at e
      cases e
      rw [List.append_assoc] at r1
      refine ⟨ns ++ [truncName s], r1, by rw [c1, c], by rw [s1, se], ?_⟩
      intro e he
      rw [← List.append_assoc]
      rcases List.mem_cons.1 he with rfl | he
      · refine ⟨by simp, ?_⟩
        rw [List.idxOf_append_of_notMem hm]
        simp
      · obtain ⟨h1, h2⟩ := hh e he
        exact ⟨List.mem_append_left _ h1, by rw [idxOf_append_mem h1, h2]⟩
  | setValue _ e ih =>
    obtain ⟨ns, r, c, se, hh⟩ := ih
    obtain ⟨r', s', c', _⟩ := setAtomValue_rep r e
    exact ⟨ns, r', by rw [c', c], by rw [s', se], hh⟩

/-- **C32.** In every session, for any two lookups of names `a`, `b` that returned the indices `i`, `j`: the
indices are equal exactly when the names agree in their first 31 characters; indices are at least 1; and the name
stored for the index is (the first 31 characters of) the name it was returned for, at every later time. -/
theorem C32_names (h : List (CStr × Nat)) (n : Narsese) (hs : Narsese.Session h n) (a b : CStr) (i j : Nat)
    (ha : (a, i) ∈ h) (hb : (b, j) ∈ h) :
    (i = j ↔ a.take 31 = b.take 31) ∧ 1 ≤ i ∧ i ≤ 65536 ∧ n.atomNames (i - 1) = a.take 31 := by
  obtain ⟨ns, r, c, _, hh⟩ := session_spec hs
  obtain ⟨ma, ea⟩ := hh _ ha
  obtain ⟨mb, eb⟩ := hh _ hb
  simp only at ea eb ma mb
  have la := List.idxOf_lt_length_iff.2 ma
  have hlen := r.length_le
  rw [c] at hlen
  unfold ATOMS_MAX at hlen
  refine ⟨?_, by omega, by omega, ?_⟩
  · constructor
    · intro e
      have h1 : (allInitialNames ++ ns).idxOf (truncName a) = (allInitialNames ++ ns).idxOf (truncName b) := by omega
      have h2 := getD_idxOf ma
      have h3 := getD_idxOf mb
      rw [h1, h3] at h2
      exact h2.symm
    · intro e
      have : truncName a = truncName b := e
      rw [ea, eb, this]
  · rw [ea, Nat.add_sub_cancel, r.names _ la]
    exact getD_idxOf ma

/-- **C32 (queries never move).** Looking up a name that was looked up before returns the same index again and
changes nothing. -/
theorem C32_stable (h : List (CStr × Nat)) (n : Narsese) (hs : Narsese.Session h n) (a b : CStr) (i : Nat)
    (ha : (a, i) ∈ h) (hab : a.take 31 = b.take 31) : Narsese_AtomicTermIndex n b = .ok (i, n) := by
  obtain ⟨ns, r, c, _, hh⟩ := session_spec hs
  obtain ⟨ma, ea⟩ := hh _ ha
  have : truncName a = truncName b := hab
  rw [r.index_known (s := b) (this ▸ ma), ← this]
  simp only at ea
  rw [ea]

/-- Index of an initial name. -/
theorem index_initial {h : List (CStr × Nat)} {n : Narsese} (hs : Narsese.Session h n) {s : CStr}
    (hm : s ∈ allInitialNames) :
    Narsese_AtomicTermIndex n s = .ok (allInitialNames.idxOf s + 1, n) ∧
      n.atomNames (allInitialNames.idxOf s) = s := by
  obtain ⟨ns, r, c, _, _⟩ := session_spec hs
  have ht : truncName s = s := truncName_of_short (initialNames_short s hm)
  have hm' : s ∈ allInitialNames ++ ns := List.mem_append_left _ hm
  have e := r.index_known (s := s) (by rw [ht]; exact hm')
  rw [ht, idxOf_append_mem hm] at e
  refine ⟨e, ?_⟩
  have h1 := r.names ((allInitialNames ++ ns).idxOf s) (List.idxOf_lt_length_iff.2 hm')
  rw [getD_idxOf hm', idxOf_append_mem hm] at h1
  exact h1

theorem copula_mem {c : Char} (hc : c ∈ Narsese_CanonicalCopulas) : [c] ∈ initialNames := by
  unfold initialNames
  simp [hc]

/-- **C32 (copulas).** In every state of a session the atom of a canonical copula is the constant `copulaAtom`;
asking for it changes nothing. -/
theorem C32_copula_index (h : List (CStr × Nat)) (n : Narsese) (hs : Narsese.Session h n) (c : Char)
    (hc : c ∈ Narsese_CanonicalCopulas) :
    ∃ i, Narsese_CopulaIndex n c = .ok (i, n) ∧ toAtom i = copulaAtom c ∧ n.nameOf (copulaAtom c) = [c] ∧
      copulaAtom c ≠ 0 := by
  have hm : [c] ∈ initialNames := copula_mem hc
  have hm' : [c] ∈ allInitialNames := List.mem_append_left _ hm
  obtain ⟨e, en⟩ := index_initial hs hm'
  have hi : allInitialNames.idxOf [c] = initialNames.idxOf [c] := idxOf_append_mem hm
  have hlt : initialNames.idxOf [c] < 62 := by
    have := List.idxOf_lt_length_iff.2 hm
    rwa [initialNames_length] at this
  have ht : (copulaAtom c).toNat = initialNames.idxOf [c] + 1 := by
    unfold copulaAtom toAtom
    rw [BitVec.toNat_ofNat, Nat.mod_eq_of_lt (by omega)]
  refine ⟨_, e, by rw [hi]; rfl, ?_, ?_⟩
  · unfold Narsese.nameOf
    rw [ht, Nat.add_sub_cancel, ← hi]; exact en
  · intro h0
    rw [h0] at ht
    simp at ht

/-- **C32 (initial names).** The same for every name assigned by `Narsese_INIT`, e.g. the numbered variables. -/
theorem C32_initial_index (h : List (CStr × Nat)) (n : Narsese) (hs : Narsese.Session h n) (s : CStr)
    (hm : s ∈ initialNames) :
    Narsese_AtomicTermIndex n s = .ok (initialNames.idxOf s + 1, n) ∧
      n.nameOf (toAtom (initialNames.idxOf s + 1)) = s ∧ toAtom (initialNames.idxOf s + 1) ≠ 0 := by
  have hm' : s ∈ allInitialNames := List.mem_append_left _ hm
  obtain ⟨e, en⟩ := index_initial hs hm'
  have hi : allInitialNames.idxOf s = initialNames.idxOf s := idxOf_append_mem hm
  have hlt : initialNames.idxOf s < 62 := by
    have := List.idxOf_lt_length_iff.2 hm
    rwa [initialNames_length] at this
  have ht : (toAtom (initialNames.idxOf s + 1)).toNat = initialNames.idxOf s + 1 := by
    unfold toAtom
    rw [BitVec.toNat_ofNat, Nat.mod_eq_of_lt (by omega)]
  refine ⟨by rw [e, hi], ?_, ?_⟩
  · unfold Narsese.nameOf
    rw [ht, Nat.add_sub_cancel, ← hi]; exact en
  · intro h0
    rw [h0] at ht
    simp at ht

/-- **C32 (copula tests).** In every state of a session, testing an atom for a canonical copula is the same as comparing
it with the constant `copulaAtom`; so names entered by the user are never mistaken for copulas. -/
theorem C32_copulaEquals (h : List (CStr × Nat)) (n : Narsese) (hs : Narsese.Session h n) (c : Char)
    (hc : c ∈ Narsese_CanonicalCopulas) (a : Atom) : Narsese_copulaEquals n a c = true ↔ a = copulaAtom c := by
  obtain ⟨ns, r, _, _, _⟩ := session_spec hs
  obtain ⟨_, _, _, hn, h0⟩ := C32_copula_index h n hs c hc
  unfold Narsese_copulaEquals
  simp only [Bool.and_eq_true, decide_eq_true_iff]
  constructor
  · rintro ⟨ha, hname⟩
    have hm : [c] ∈ initialNames := copula_mem hc
    have hm' : [c] ∈ allInitialNames := List.mem_append_left _ hm
    have hpos : 1 ≤ a.toNat := by
      by_contra hlt
      apply ha
      apply BitVec.eq_of_toNat_eq
      simp; omega
    unfold Narsese.nameOf at hname
    by_cases hlt : a.toNat - 1 < (allInitialNames ++ ns).length
    · rw [r.names _ hlt] at hname
      have hidx : (allInitialNames ++ ns).idxOf [c] = a.toNat - 1 := by
        have hget : (allInitialNames ++ ns)[a.toNat - 1] = [c] := by
          rw [← hname]; simp [List.getD, List.getElem?_eq_getElem hlt]
        rw [← hget]
        exact r.nodup.idxOf_getElem _ hlt
      rw [idxOf_append_mem hm', show allInitialNames.idxOf [c] = initialNames.idxOf [c] from idxOf_append_mem hm] at hidx
      unfold copulaAtom toAtom
      rw [hidx, Nat.sub_add_cancel hpos]
      simp
    · rw [r.rest _ (by omega)] at hname
      cases hname
  · rintro rfl
    exact ⟨h0, hn⟩

/-- Distinct names of at most 5 characters, for `k < 2^20`. -/
def freshName (k : Nat) : CStr :=
  [k % 16, k / 16 % 16, k / 256 % 16, k / 4096 % 16, k / 65536 % 16].map fun d => Char.ofNat (97 + d)

theorem charOfNat_inj {a b : Nat} (ha : a < 16) (hb : b < 16) (h : Char.ofNat (97 + a) = Char.ofNat (97 + b)) : a = b := by
  have key : ∀ a, a < 16 → (Char.ofNat (97 + a)).toNat = 97 + a := by decide
  have := congrArg Char.toNat h
  rw [key a ha, key b hb] at this
  omega

theorem freshName_inj {a b : Nat} (ha : a < 2 ^ 20) (hb : b < 2 ^ 20) (h : freshName a = freshName b) : a = b := by
  unfold freshName at h
  simp only [List.map_cons, List.map_nil, List.cons.injEq, and_true] at h
  obtain ⟨h1, h2, h3, h4, h5⟩ := h
  have h1 := charOfNat_inj (Nat.mod_lt _ (by decide)) (Nat.mod_lt _ (by decide)) h1
  have h2 := charOfNat_inj (Nat.mod_lt _ (by decide)) (Nat.mod_lt _ (by decide)) h2
  have h3 := charOfNat_inj (Nat.mod_lt _ (by decide)) (Nat.mod_lt _ (by decide)) h3
  have h4 := charOfNat_inj (Nat.mod_lt _ (by decide)) (Nat.mod_lt _ (by decide)) h4
  have h5 := charOfNat_inj (Nat.mod_lt _ (by decide)) (Nat.mod_lt _ (by decide)) h5
  omega

/-- There is always a name not yet used. -/
theorem exists_fresh (ns : List CStr) (h : ns.length < 2 ^ 20) : ∃ k, freshName k ∉ ns := by
  by_contra hc
  push Not at hc
  have hsub : ((Finset.range (2 ^ 20)).image freshName) ⊆ ns.toFinset := by
    intro s hs
    obtain ⟨k, _, rfl⟩ := Finset.mem_image.1 hs
    exact List.mem_toFinset.2 (hc k)
  have hcard := Finset.card_le_card hsub
  rw [Finset.card_image_of_injOn, Finset.card_range] at hcard
  · have := List.toFinset_card_le ns
    omega
  · intro a ha b hb hab
    have ha := Finset.mem_range.1 (Finset.mem_coe.1 ha)
    have hb := Finset.mem_range.1 (Finset.mem_coe.1 hb)
    exact freshName_inj ha hb hab

/-- **C33 (what holds).** As long as at most 65535 names are registered, every lookup in the session has returned an
index that survives the conversion to a 16-bit atom: atoms are non-zero and equal only for names with equal first 31
characters; a new name is accepted while fewer than `ATOMS_MAX` names are registered. Missing: the property also
covers the last (65536-th) name, for which it is false (`C33_last_atom_is_zero`). -/
theorem C33_capacity_partial (h : List (CStr × Nat)) (n : Narsese) (hs : Narsese.Session h n) :
    (n.term_index ≤ 65535 → ∀ a b i j, (a, i) ∈ h → (b, j) ∈ h →
      toAtom i ≠ 0 ∧ (toAtom i = toAtom j ↔ a.take 31 = b.take 31)) ∧
    (n.term_index < ATOMS_MAX → ∀ s, ∃ i n', Narsese_AtomicTermIndex n s = .ok (i, n')) := by
  obtain ⟨ns, r, c, _, hh⟩ := session_spec hs
  constructor
  · intro hle a b i j ha hb
    have hlen : (allInitialNames ++ ns).length ≤ 65535 := by rw [← r.count]; exact hle
    have key : ∀ a i, (a, i) ∈ h → 1 ≤ i ∧ i ≤ 65535 := by
      intro a i ha
      obtain ⟨ma, ea⟩ := hh _ ha
      simp only at ea ma
      have la := List.idxOf_lt_length_iff.2 ma
      omega
    have ti : ∀ i, 1 ≤ i ∧ i ≤ 65535 → (toAtom i).toNat = i := by
      intro i hi
      unfold toAtom
      rw [BitVec.toNat_ofNat, Nat.mod_eq_of_lt (by omega)]
    have hi := key a i ha
    have hj := key b j hb
    refine ⟨?_, ?_⟩
    · intro h0
      have := ti i hi
      rw [h0] at this
      simp at this
      omega
    · rw [← (C32_names h n hs a b i j ha hb).1]
      constructor
      · intro he
        rw [← ti i hi, ← ti j hj, he]
      · rintro rfl; rfl
  · intro hlt s
    by_cases hm : truncName s ∈ allInitialNames ++ ns
    · exact ⟨_, _, r.index_known hm⟩
    · obtain ⟨m, e1, _⟩ := r.index_new hm (by rw [c, ← r.count]; exact hlt)
      exact ⟨_, _, e1⟩

/-- Sessions of every size up to the capacity exist. -/
theorem exists_session (k : Nat) (hk : 63 ≤ k) (hk' : k ≤ ATOMS_MAX) :
    ∃ h n, Narsese.Session h n ∧ n.term_index = k := by
  induction k with
  | zero => omega
  | succ k ih =>
    by_cases h63 : k + 1 = 63
    · obtain ⟨n', e1, r, c, s, _⟩ := initWith_spec ATOMS_MAX (by decide)
      refine ⟨[], n', .start e1, ?_⟩
      rw [r.count, List.length_append, initialNames_length, List.length_singleton, h63]
    · obtain ⟨h, n, hs, hn⟩ := ih (by omega) (by omega)
      obtain ⟨ns, r, c, _, _⟩ := session_spec hs
      have hlen : (allInitialNames ++ ns).length = k := by rw [← r.count, hn]
      obtain ⟨j, hj⟩ := exists_fresh (allInitialNames ++ ns) (by rw [hlen]; unfold ATOMS_MAX at hk'; omega)
      have ht : truncName (freshName j) = freshName j := rfl
      obtain ⟨m, e1, r1, _⟩ := r.index_new (s := freshName j) (by rw [ht]; exact hj) (by rw [hlen, c]; omega)
      refine ⟨_, m, .call hs e1, ?_⟩
      rw [r1.count, List.length_append, hlen]; rfl

/-- **C33 is false at the border**: the last name the table accepts gets the index 65536, which is atom 0 -- the
encoding of "no atom". -/
theorem C33_last_atom_is_zero :
    ∃ h n s i n', Narsese.Session h n ∧ Narsese_AtomicTermIndex n s = .ok (i, n') ∧ toAtom i = 0 := by
  obtain ⟨h, n, hs, hn⟩ := exists_session 65535 (by decide) (by decide)
  obtain ⟨ns, r, c, _, _⟩ := session_spec hs
  have hlen : (allInitialNames ++ ns).length = 65535 := by rw [← r.count, hn]
  obtain ⟨j, hj⟩ := exists_fresh (allInitialNames ++ ns) (by rw [hlen]; decide)
  have ht : truncName (freshName j) = freshName j := rfl
  obtain ⟨m, e1, _⟩ := r.index_new (s := freshName j) (by rw [ht]; exact hj) (by rw [hlen, c]; decide)
  rw [hlen] at e1
  exact ⟨h, n, _, _, m, hs, e1, rfl⟩

/-- One more name is refused with an assertion. -/
theorem C33_overflow (h : List (CStr × Nat)) (n : Narsese) (hs : Narsese.Session h n)
    (hfull : n.term_index = ATOMS_MAX) (s : CStr) (hnew : ∀ i, i < ATOMS_MAX → n.atomNames i ≠ s.take 31) :
    Narsese_AtomicTermIndex n s = .error (.assertFail "Too many terms for NAR") := by
  obtain ⟨ns, r, c, _, _⟩ := session_spec hs
  have hlen : (allInitialNames ++ ns).length = ATOMS_MAX := by rw [← r.count, hfull]
  refine r.index_full ?_ (by rw [hlen, c])
  intro hm
  have hl := List.idxOf_lt_length_iff.2 hm
  refine hnew _ (hlen ▸ hl) ?_
  rw [r.names _ hl, getD_idxOf hm]; rfl

/-- Names are distinguished only by 31 characters. -/
example : truncName (List.replicate 31 'a' ++ ['x']) = truncName (List.replicate 31 'a' ++ ['y']) := by decide +kernel

/-- A concrete session exists. -/
example : ∃ n, Narsese.Session [] n := by
  obtain ⟨n, e, _⟩ := initWith_spec ATOMS_MAX (by decide)
  exact ⟨n, .start e⟩

end ONA
