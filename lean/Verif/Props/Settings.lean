import Verif.Spec.Settings
import Verif.Proofs.RunFacts
/-
C67: parameters are changed by their own commands only. C47: the registry of operations.
-/
namespace ONA
variable [Arith] {z : Sizes} {n n' : Narsese} {s s' : Sys}

/-- The calls which let the reasoner work. -/
def Call.thinks : Call → Bool
  | .addInput .. => true
  | .addNarsese .. => true
  | .command (.cycles _) => true
  | .command (.query _ _) => true
  | .command (.narsese _) => true
  | _ => false

theorem Between.run {b k : Nat} (h : Between n s b k s') : ∃ t x, Run n s t x s' := by
  obtain ⟨_, t, x, r, _⟩ := h
  exact ⟨t, x, r⟩

/-- These calls are runs. -/
theorem call_runs {fuel : Fuel} {c : Call} (hg : Good n s) (hn : n.Ok) (hl : c.Legal n s) (ht : c.thinks = true)
    (e : c.run z fuel n s = .ok (n', s')) : n.Extends n' ∧ Good n' s ∧ ∃ t x, Run n' s t x s' := by
  cases c with
  | init => cases ht
  | addInput t ty tr eternal o =>
    unfold Call.run at e
    dsimp only at e
    rw [R.bind_eq_ok] at e
    obtain ⟨⟨_, s1⟩, e1, e⟩ := e
    cases e
    exact ⟨.refl _, hg, (addInput_between fuel hl.1 ty hl.2 eternal o hg e1).run⟩
  | addOperation name f => cases ht
  | addNarsese text query threshold =>
    obtain ⟨_, hx, _, _, h2⟩ := addNarsese_between fuel hg hn hl e
    exact ⟨hx, hg.extends hx, h2.run⟩
  | command c =>
    cases c with
    | cycles k =>
      unfold Call.run Command.run at e
      dsimp only at e
      rw [R.bind_eq_ok] at e
      obtain ⟨⟨_, s1⟩, e1, e⟩ := e
      cases e
      exact ⟨.refl _, hg, (cycles_between fuel k hg e1).run⟩
    | query threshold text =>
      unfold Call.run Command.run at e
      dsimp only at e
      rw [R.bind_eq_ok] at e
      obtain ⟨_, _, e⟩ := e
      obtain ⟨_, hx, _, _, h2⟩ := addNarsese_between fuel hg hn hl e
      exact ⟨hx, hg.extends hx, h2.run⟩
    | narsese text =>
      obtain ⟨_, hx, _, _, h2⟩ := addNarsese_between fuel hg hn hl e
      exact ⟨hx, hg.extends hx, h2.run⟩
    | _ => cases ht

omit [Arith] in
/-- What registering does. -/
theorem addOperation_shape {name : CStr} {f : Term → Feedback} (e : NAR_AddOperation n name f s = .ok (n', s')) :
    ∃ t, Narsese_AtomicTerm n name = .ok (t, n') ∧ name.head? = some '^' ∧
      ((s.operationID n' t = 0 ∧ s.op_k + 1 ≤ OPERATIONS_MAX ∧
        s' = { s with op_k := s.op_k + 1
                      operations := upd s.operations s.op_k ⟨t, some f, fun _ => Term.zero, false⟩ }) ∨
       (s.operationID n' t ≠ 0 ∧
        s' = { s with
          operations := upd s.operations (s.operationID n' t - 1) ⟨t, some f, fun _ => Term.zero, false⟩ })) := by
  unfold NAR_AddOperation at e
  rw [R.bind_eq_ok] at e
  obtain ⟨_, _, e⟩ := e
  rw [R.bind_eq_ok] at e
  obtain ⟨⟨t, n1⟩, e1, e⟩ := e
  dsimp only at e
  rw [R.bind_eq_ok] at e
  obtain ⟨⟨_, s1⟩, e2, e⟩ := e
  cases e
  unfold registerOperation at e2
  simp only [M.bind_ok] at e2
  obtain ⟨_, s2, e3, e2⟩ := e2
  obtain ⟨g3, f3⟩ := M.lift_ok.1 e3
  obtain ⟨s3, s4, e4, e2⟩ := e2
  obtain ⟨f4, f5⟩ := M.get_ok.1 e4
  obtain ⟨_, s5, e5, e2⟩ := e2
  obtain ⟨g6, f6⟩ := M.lift_ok.1 e5
  have f7 := M.set_ok.1 e2
  subst f3 f4 f5 f6
  refine ⟨t, e1, of_decide_eq_true (cassert_eq_ok.1 g3), ?_⟩
  have g6 := of_decide_eq_true (cassert_eq_ok.1 g6)
  by_cases h : s.operationID n' t = 0
  · simp only [h, if_true] at g6 f7
    exact .inl ⟨h, g6, f7.symm⟩
  · simp only [h, if_false] at g6 f7
    exact .inr ⟨h, f7.symm⟩

omit [Arith] in
theorem addOperation_settings {name : CStr} {f : Term → Feedback} (e : NAR_AddOperation n name f s = .ok (n', s')) :
    s'.settings = s.settings := by
  obtain ⟨t, _, _, ⟨_, _, rfl⟩ | ⟨_, rfl⟩⟩ := addOperation_shape e <;> rfl

omit [Arith] in
theorem addNops_settings (l : List CStr) : ∀ {n n' : Narsese} {s s' : Sys}, addNops l n s = .ok (n', s') →
    s'.settings = s.settings := by
  induction l with
  | nil => intro n n' s s' e; cases e; rfl
  | cons name l ih =>
    intro n n' s s' e
    unfold addNops at e
    rw [R.bind_eq_ok] at e
    obtain ⟨⟨n1, s1⟩, e1, e⟩ := e
    rw [ih e, addOperation_settings e1]

theorem Run.settings (h : Good n s) {t x : Nat} (r : Run n s t x s') : s'.settings = s.settings := by
  obtain ⟨_, _, _, _, _, h1, h2, h3, h4, h5, h6, h7, h8, h9⟩ := r.effect h
  unfold Sys.settings
  rw [h1, h2, h3, h4, h5, h6, h7, h8, h9]

/-- **C67.** Every call of the interface and every shell command changes the parameters only as documented for it: the
commands which set a parameter change just this one, nothing else changes any (in particular `*reset` restores none
of the numbers). -/
theorem C67_settings (hz : z.Ok) (h : Reachable z n s) (fuel : Fuel) (c : Call) (hl : c.Legal n s)
    (e : c.run z fuel n s = .ok (n', s')) : s'.settings = c.settings s.settings := by
  obtain ⟨hg, hn⟩ := h.good hz
  by_cases ht : c.thinks = true
  · obtain ⟨_, hg', t, x, r⟩ := call_runs hg hn hl ht e
    rw [r.settings hg']
    cases c with
    | command c => cases c <;> first | rfl | cases ht
    | addInput => rfl
    | addNarsese => rfl
    | _ => cases ht
  · cases c with
    | init =>
      obtain ⟨_, _, _, _, _, rfl⟩ := init_shape e
      rfl
    | addInput => exact absurd rfl ht
    | addOperation name f => exact addOperation_settings e
    | addNarsese => exact absurd rfl ht
    | command c =>
      unfold Call.run Command.run at e
      cases c with
      | cycles => exact absurd rfl ht
      | query => exact absurd rfl ht
      | narsese => exact absurd rfl ht
      | nothing => cases e; rfl
      | report r => obtain ⟨_, _, e⟩ := R.bind_eq_ok.1 e; cases e; rfl
      | exit => cases e; rfl
      | reset =>
        dsimp only at e
        unfold Shell_NARInit_sizes at e
        rw [R.bind_eq_ok] at e
        obtain ⟨⟨n1, s1⟩, e1, e⟩ := e
        rw [addNops_settings _ e]
        obtain ⟨_, _, _, _, _, rfl⟩ := init_shape e1
        rfl
      | restrictedConceptCreation b => cases e; rfl
      | parameter p v => cases e; cases p <;> rfl
      | babblingOps k => cases e; rfl
      | currentTime t => cases e; rfl
      | stampId b => cases e; rfl
      | stampImport ids => cases e; rfl
      | setValue v g name =>
        dsimp only at e
        rw [R.bind_eq_ok] at e
        obtain ⟨n1, e1, e⟩ := e
        cases e
        rfl
      | space g name =>
        dsimp only at e
        rw [R.bind_eq_ok] at e
        obtain ⟨_, _, e⟩ := e
        rw [R.bind_eq_ok] at e
        obtain ⟨n1, e1, e⟩ := e
        cases e
        rfl
      | setOpName k name =>
        unfold Shell_setOpName at e
        dsimp only at e
        rw [R.bind_eq_ok] at e
        obtain ⟨_, _, e⟩ := e
        rw [R.bind_eq_ok] at e
        obtain ⟨_, _, e⟩ := e
        rw [R.bind_eq_ok] at e
        obtain ⟨⟨t, n1⟩, e1, e⟩ := e
        cases e
        rfl
      | setOpArg k j text =>
        unfold Shell_setOpArg at e
        dsimp only at e
        rw [R.bind_eq_ok] at e
        obtain ⟨_, _, e⟩ := e
        rw [R.bind_eq_ok] at e
        obtain ⟨_, _, e⟩ := e
        rw [R.bind_eq_ok] at e
        obtain ⟨⟨t, n1⟩, e1, e⟩ := e
        cases e
        rfl
      | setOpStdin k =>
        dsimp only at e
        rw [R.bind_eq_ok] at e
        obtain ⟨s1, e1, e⟩ := e
        cases e
        unfold Shell_setOpStdin at e1
        split at e1
        · cases e1; rfl
        · cases e1
      | concurrent => cases e; rfl

/-! ### The registry of operations -/

/-- The state holds the registry. -/
structure Held (n : Narsese) (s : Sys) (r : Registry) : Prop where
  count : s.op_k = r.length
  slots : ∀ i (hi : i < r.length), (s.operations i).term.get 0 ≠ 0 ∧
    ((s.operations i).term.get 0).toNat ≤ n.term_index ∧ n.nameOf ((s.operations i).term.get 0) = r[i].1 ∧
    (s.operations i).action = some r[i].2
  free : ∀ i, r.length ≤ i → (s.operations i).term.get 0 = 0 ∧ (s.operations i).action = none
  nodup : (r.map Prod.fst).Nodup
  bound : r.length ≤ OPERATIONS_MAX
  names : ∀ e ∈ r, e.1.head? = some '^' ∧ 2 ≤ e.1.length
  initialized : s.initialized = true

omit [Arith] in
/-- Names tell atoms apart. -/
theorem nameOf_injective (hn : n.Ok) {a b : Atom} (ha : a ≠ 0) (hb : b ≠ 0) (hne : n.nameOf a ≠ [])
    (h : n.nameOf a = n.nameOf b) : a = b := by
  obtain ⟨ns, hr⟩ := hn
  have key : ∀ c : Atom, c ≠ 0 → n.nameOf c ≠ [] → c.toNat - 1 < ns.length ∧ n.nameOf c = ns.getD (c.toNat - 1) [] := by
    intro c _ hne
    by_cases hlt : c.toNat - 1 < ns.length
    · exact ⟨hlt, hr.names _ hlt⟩
    · exact absurd (hr.rest _ (by omega)) hne
  obtain ⟨a1, a2⟩ := key a ha hne
  obtain ⟨b1, b2⟩ := key b hb (h ▸ hne)
  rw [a2, b2] at h
  have h3 : a.toNat - 1 = b.toNat - 1 := by
    have := hr.nodup
    rw [List.getD_eq_getElem?_getD, List.getD_eq_getElem?_getD, List.getElem?_eq_getElem a1, List.getElem?_eq_getElem b1] at h
    exact (this.getElem_inj_iff).1 h
  have ha0 : a.toNat ≠ 0 := fun h0 => ha (BitVec.eq_of_toNat_eq (by simpa using h0))
  have hb0 : b.toNat ≠ 0 := fun h0 => hb (BitVec.eq_of_toNat_eq (by simpa using h0))
  exact BitVec.eq_of_toNat_eq (by omega)

omit [Arith] in
/-- The name of an operation atom has a `^` and another character. -/
theorem operationAtom_name {t : Term} (h : Narsese_getOperationAtom n t ≠ 0) :
    2 ≤ (n.nameOf (Narsese_getOperationAtom n t)).length := by
  have key : ∀ a, Narsese_isOperator n a = true → 2 ≤ (n.nameOf a).length := by
    intro a ha
    unfold Narsese_isOperator at ha
    simp only [Bool.and_eq_true, decide_eq_true_eq] at ha
    exact ha.2
  have key2 : ∀ t : Term, (if Narsese_isOperator n (t.get 0) then t.get 0
      else if Narsese_isOperation n t then t.get 2 else 0) ≠ 0 →
      2 ≤ (n.nameOf (if Narsese_isOperator n (t.get 0) then t.get 0
        else if Narsese_isOperation n t then t.get 2 else 0)).length := by
    intro t ht
    by_cases h1 : Narsese_isOperator n (t.get 0) = true
    · rw [if_pos h1]; exact key _ h1
    · rw [if_neg h1] at ht ⊢
      by_cases h2 : Narsese_isOperation n t = true
      · rw [if_pos h2]
        unfold Narsese_isOperation at h2
        simp only [Bool.or_eq_true, Bool.and_eq_true] at h2
        rcases h2 with h2 | h2
        · exact absurd h2 h1
        · exact key _ h2.1.2
      · rw [if_neg h2] at ht
        exact absurd rfl ht
  unfold Narsese_getOperationAtom at h ⊢
  dsimp only at h ⊢
  by_cases h1 : Narsese_copulaEquals n (t.get 0) SEQUENCE = true
  · rw [if_pos h1] at h ⊢
    by_cases h2 : Narsese_copulaEquals n ((Term_ExtractSubterm t 2).get 0) SEQUENCE = true
    · rw [if_pos h2] at h
      exact absurd rfl h
    · rw [if_neg h2] at h ⊢
      exact key2 _ h
  · rw [if_neg h1] at h ⊢
    exact key2 _ h

omit [Arith] in
/-- Operations which are registered have their position as id. -/
theorem Held.id (hn : n.Ok) {r : Registry} (h : Held n s r) {t : Term} {i : Nat} (hi : i < r.length)
    (ht : OperationNamed n t r[i].1) : s.operationID n t = i + 1 := by
  obtain ⟨h0, h1⟩ := ht
  obtain ⟨a1, a2, a3, a4⟩ := h.slots i hi
  have hat : (s.operations i).term.get 0 = Narsese_getOperationAtom n t := by
    refine nameOf_injective hn a1 h0 ?_ (by rw [a3, h1])
    rw [a3]
    intro he
    have := (h.names _ (List.getElem_mem hi)).2
    rw [he] at this
    exact absurd this (by decide)
  unfold Sys.operationID
  dsimp only
  rw [if_pos h0]
  have hfind : (List.range OPERATIONS_MAX).find? (fun k => (s.operations k).term.get 0 = Narsese_getOperationAtom n t) = some i := by
    rw [List.find?_eq_some_iff_append]
    have hlt : i < OPERATIONS_MAX := lt_of_lt_of_le hi h.bound
    refine ⟨by simpa using hat, List.range i, (List.range (OPERATIONS_MAX - i - 1)).map (i + 1 + ·), ?_, ?_⟩
    · have : OPERATIONS_MAX = i + (1 + (OPERATIONS_MAX - i - 1)) := by omega
      conv_lhs => rw [this]
      rw [List.range_add, List.range_add]
      simp [Nat.add_assoc]
    · intro j hj
      rw [List.mem_range] at hj
      have hjr : j < r.length := by omega
      obtain ⟨b1, _, b3, _⟩ := h.slots j hjr
      simp only [decide_eq_true_eq, Bool.not_eq_true', decide_eq_false_iff_not]
      intro he
      rw [he, ← hat, a3] at b3
      have : (r.map Prod.fst)[i]'(by simpa using hi) = (r.map Prod.fst)[j]'(by simpa using hjr) := by simpa using b3
      have := (h.nodup.getElem_inj_iff).1 this
      omega
  rw [hfind]

omit [Arith] in
/-- Others have no id. -/
theorem Held.unknown {r : Registry} (h : Held n s r) {t : Term} (ht : ∀ e ∈ r, ¬ OperationNamed n t e.1) :
    s.operationID n t = 0 := by
  unfold Sys.operationID
  dsimp only
  by_cases h0 : Narsese_getOperationAtom n t ≠ 0
  · rw [if_pos h0]
    have hfind : (List.range OPERATIONS_MAX).find? (fun k => (s.operations k).term.get 0 = Narsese_getOperationAtom n t) = none := by
      rw [List.find?_eq_none]
      intro k _ hk
      have hk : (s.operations k).term.get 0 = Narsese_getOperationAtom n t := by simpa using hk
      by_cases hkr : k < r.length
      · obtain ⟨_, _, b3, _⟩ := h.slots k hkr
        exact ht _ (List.getElem_mem hkr) ⟨h0, by rw [← hk, b3]⟩
      · rw [(h.free k (by omega)).1] at hk
        exact h0 hk.symm
    rw [hfind]
  · rw [if_neg h0]

omit [Arith] in
/-- The atom of a name. -/
theorem atomicTerm_name {name : CStr} {t : Term} (hn : n.Ok) (e : Narsese_AtomicTerm n name = .ok (t, n'))
    (hc : n'.term_index < 2 ^ 16) : t.get 0 ≠ 0 ∧ (t.get 0).toNat ≤ n'.term_index ∧ n'.nameOf (t.get 0) = truncName name := by
  unfold Narsese_AtomicTerm at e
  rw [R.bind_eq_ok] at e
  obtain ⟨⟨i, n1⟩, e1, e⟩ := e
  cases e
  obtain ⟨ns, h⟩ := hn
  have key : 0 < i ∧ i ≤ n'.term_index ∧ n'.atomNames (i - 1) = truncName name := by
    by_cases hs : truncName name ∈ ns
    · rw [h.index_known hs] at e1
      cases e1
      have hi := List.idxOf_lt_length_of_mem hs
      refine ⟨Nat.succ_pos _, by rw [h.count]; exact hi, ?_⟩
      rw [Nat.add_sub_cancel, h.names _ hi, List.getD_eq_getElem?_getD, List.getElem?_eq_getElem hi]
      simp
    · by_cases hc : ns.length < n.capacity
      · obtain ⟨m, e2, hr, _⟩ := h.index_new hs hc
        rw [e2] at e1
        cases e1
        refine ⟨Nat.succ_pos _, by rw [hr.count, List.length_append]; exact le_refl _, ?_⟩
        rw [Nat.add_sub_cancel, hr.names _ (by rw [List.length_append]; exact Nat.lt_succ_self _),
          List.getD_eq_getElem?_getD, List.getElem?_append_right (le_refl _)]
        simp
      · rw [h.index_full hs (by omega)] at e1
        cases e1
  obtain ⟨k1, k2, k3⟩ := key
  have hg : (Term.zero.put 0 (toAtom i)).get 0 = toAtom i := Term.get_put_same _ _ (by decide)
  have hto : (toAtom i).toNat = i := by
    unfold toAtom
    rw [BitVec.toNat_ofNat]
    exact Nat.mod_eq_of_lt (by omega)
  rw [hg]
  refine ⟨?_, by rw [hto]; exact k2, ?_⟩
  · intro h0
    rw [h0] at hto
    simp at hto
    omega
  · unfold Narsese.nameOf
    rw [hto, k3]

omit [Arith] in
theorem Held.extends {r : Registry} (h : Held n s r) (hx : n.Extends n') : Held n' s r :=
  { h with
    slots := fun i hi => by
      obtain ⟨a1, a2, a3, a4⟩ := h.slots i hi
      exact ⟨a1, le_trans a2 hx.more, by rw [hx.nameOf a1 a2, a3], a4⟩ }

omit [Arith] in
theorem Held.congr {r : Registry} (h : Held n s r) (ho : ∀ k, (s'.operations k).term = (s.operations k).term)
    (ha : ∀ k, (s'.operations k).action = (s.operations k).action) (hk : s'.op_k = s.op_k)
    (hi : s'.initialized = s.initialized) : Held n s' r :=
  { h with
    initialized := by rw [hi, h.initialized]
    count := by rw [hk, h.count]
    slots := fun i hi => by rw [ho, ha]; exact h.slots i hi
    free := fun i hi => by rw [ho, ha]; exact h.free i hi }

omit [Arith] in
/-- The term of an operator. -/
theorem atomicTerm_operation {name : CStr} {t : Term} (hn : n.Ok) (e : Narsese_AtomicTerm n name = .ok (t, n'))
    (hc : n'.term_index < 2 ^ 16) (h1 : name.head? = some '^') (h2 : 2 ≤ name.length) :
    OperationNamed n' t (truncName name) := by
  obtain ⟨a1, a2, a3⟩ := atomicTerm_name hn e hc
  have hh : (truncName name).head? = some '^' ∧ 2 ≤ (truncName name).length := by
    unfold truncName
    cases name with
    | nil => cases h1
    | cons c l =>
      refine ⟨h1, ?_⟩
      rw [List.length_take]
      exact le_min (by decide) h2
  have ho : Narsese_isOperator n' (t.get 0) = true := by
    unfold Narsese_isOperator
    rw [a3]
    simp only [Bool.and_eq_true, decide_eq_true_eq]
    exact ⟨⟨a1, hh.1⟩, hh.2⟩
  have hs : ¬ Narsese_copulaEquals n' (t.get 0) SEQUENCE = true := by
    unfold Narsese_copulaEquals
    rw [a3, Bool.and_eq_true, decide_eq_true_eq, decide_eq_true_eq]
    intro h
    rw [h.2] at hh
    exact absurd hh.2 (by decide)
  have hat : Narsese_getOperationAtom n' t = t.get 0 := by
    unfold Narsese_getOperationAtom
    dsimp only
    rw [if_neg hs, if_pos ho]
  exact ⟨by rw [hat]; exact a1, by rw [hat]; exact a3⟩

omit [Arith] in
/-- Registering. -/
theorem Held.register {r : Registry} (hn : n.Ok) (h : Held n s r) {name : CStr} {f : Term → Feedback}
    (h2 : 2 ≤ name.length) (hc : n'.term_index < 2 ^ 16) (e : NAR_AddOperation n name f s = .ok (n', s')) :
    Held n' s' (r.register name f) := by
  obtain ⟨t, e1, h1, hcase⟩ := addOperation_shape e
  obtain ⟨hn', hx, _⟩ := atomicTerm_extends hn e1
  have hop := atomicTerm_operation hn e1 hc h1 h2
  obtain ⟨a1, a2, a3⟩ := atomicTerm_name hn e1 hc
  have h' := h.extends hx
  have hname : (truncName name).head? = some '^' ∧ 2 ≤ (truncName name).length := by
    unfold truncName
    cases name with
    | nil => cases h1
    | cons c l =>
      refine ⟨h1, ?_⟩
      rw [List.length_take]
      exact le_min (by decide) h2
  unfold Registry.register
  by_cases hm : truncName name ∈ r.map Prod.fst
  · rw [if_pos hm]
    obtain ⟨i, hi, hri⟩ := List.getElem_of_mem hm
    rw [List.length_map] at hi
    rw [List.getElem_map] at hri
    have hid := h'.id hn' hi (t := t) (by rw [hri]; exact hop)
    rcases hcase with ⟨h0, _⟩ | ⟨_, rfl⟩
    · rw [hid] at h0
      cases h0
    · rw [hid, Nat.add_sub_cancel]
      refine ⟨by rw [List.length_map]; exact h'.count, ?_, ?_, ?_, by rw [List.length_map]; exact h'.bound, ?_, h'.initialized⟩
      · intro j hj
        rw [List.length_map] at hj
        rw [List.getElem_map]
        by_cases hji : j = i
        · subst hji
          dsimp only
          rw [upd_same, if_pos hri]
          exact ⟨a1, a2, a3, rfl⟩
        · dsimp only
          rw [upd_other _ _ hji, if_neg]
          · exact h'.slots j hj
          · intro he
            have : (r.map Prod.fst)[j]'(by simpa using hj) = (r.map Prod.fst)[i]'(by simpa using hi) := by
              simp only [List.getElem_map]; rw [he, hri]
            exact hji ((h'.nodup.getElem_inj_iff).1 this)
      · intro j hj
        rw [List.length_map] at hj
        dsimp only
        rw [upd_other _ _ (by omega)]
        exact h'.free j hj
      · rw [List.map_map]
        convert h'.nodup using 1
        apply List.map_congr_left
        intro e he
        dsimp only [Function.comp]
        by_cases hee : e.1 = truncName name
        · rw [if_pos hee, hee]
        · rw [if_neg hee]
      · intro e he
        obtain ⟨e0, he0, rfl⟩ := List.mem_map.1 he
        by_cases hee : e0.1 = truncName name
        · rw [if_pos hee]; exact hname
        · rw [if_neg hee]; exact h'.names _ he0
  · rw [if_neg hm]
    have hid : s.operationID n' t = 0 := by
      refine h'.unknown ?_
      intro e he ht
      exact hm (List.mem_map.2 ⟨e, he, ht.2.symm.trans hop.2⟩)
    rcases hcase with ⟨_, hb, rfl⟩ | ⟨h0, _⟩
    · have hcnt := h'.count
      refine ⟨by rw [List.length_append]; show s.op_k + 1 = _; rw [hcnt]; rfl, ?_, ?_, ?_, by rw [List.length_append, ← hcnt]; exact hb, ?_,
        h'.initialized⟩
      · intro j hj
        rw [List.length_append] at hj
        by_cases hjr : j < r.length
        · rw [List.getElem_append_left hjr]
          dsimp only
          rw [upd_other _ _ (by omega)]
          exact h'.slots j hjr
        · have hjr' : j = r.length := by
            have : j < r.length + 1 := hj
            omega
          subst hjr'
          rw [List.getElem_append_right (le_refl _)]
          dsimp only
          rw [hcnt, upd_same]
          simp only [Nat.sub_self, List.getElem_cons_zero]
          exact ⟨a1, a2, a3, trivial⟩
      · intro j hj
        rw [List.length_append] at hj
        have : r.length + 1 ≤ j := hj
        dsimp only
        rw [upd_other _ _ (by omega)]
        exact h'.free j (by omega)
      · rw [List.map_append, List.nodup_append]
        refine ⟨h'.nodup, by simp, ?_⟩
        intro a ha b hb hab
        simp at hb
        subst hb
        exact hm (hab ▸ ha)
      · intro e he
        rcases List.mem_append.1 he with he | he
        · exact h'.names _ he
        · rw [List.mem_singleton] at he
          subst he
          exact hname
    · exact absurd hid h0

omit [Arith] in
theorem atomicTerm_count {name : CStr} {t : Term} (hn : n.Ok) (e : Narsese_AtomicTerm n name = .ok (t, n')) :
    n'.term_index ≤ n.term_index + 1 := by
  unfold Narsese_AtomicTerm at e
  rw [R.bind_eq_ok] at e
  obtain ⟨⟨i, n1⟩, e1, e⟩ := e
  cases e
  obtain ⟨ns, h⟩ := hn
  by_cases hs : truncName name ∈ ns
  · rw [h.index_known hs] at e1
    cases e1
    exact Nat.le_succ _
  · by_cases hc : ns.length < n.capacity
    · obtain ⟨m, e2, hr, _⟩ := h.index_new hs hc
      rw [e2] at e1
      cases e1
      rw [hr.count, List.length_append, h.count]
      exact le_refl _
    · rw [h.index_full hs (by omega)] at e1
      cases e1

omit [Arith] in
theorem Held.addNops (l : List CStr) : ∀ {n n' : Narsese} {s s' : Sys} {r : Registry}, n.Ok → Held n s r →
    (∀ name ∈ l, 2 ≤ name.length) → n.term_index + l.length < 2 ^ 16 → addNops l n s = .ok (n', s') →
    Held n' s' (l.foldl (fun r name => Registry.register r name Shell_op_nop) r) := by
  induction l with
  | nil => intro n n' s s' r hn h _ _ e; cases e; exact h
  | cons name l ih =>
    intro n n' s s' r hn h hl hc e
    unfold ONA.addNops at e
    rw [R.bind_eq_ok] at e
    obtain ⟨⟨n1, s1⟩, e1, e⟩ := e
    obtain ⟨t, e2, _⟩ := addOperation_shape e1
    have hcnt := atomicTerm_count hn e2
    rw [List.length_cons] at hc
    exact ih (atomicTerm_extends hn e2).1
      (h.register hn (hl _ (List.mem_cons_self ..)) (by omega) e1) (fun x hx => hl x (List.mem_cons_of_mem _ hx)) (by omega) e

theorem Session.reachable {r : Registry} (h : Session z n s r) : Reachable z n s := by
  induction h with
  | start h e => exact .start h e
  | call fuel c _ hl _ e ih => exact .call fuel c ih hl e

theorem Held.init {s0 : Sys} (e : NAR_INIT_sizes z.memory z.atoms s0 = .ok (n, s)) : Held n s [] := by
  obtain ⟨_, _, _, _, _, rfl⟩ := init_shape e
  refine ⟨rfl, fun i hi => absurd hi (Nat.not_lt_zero _), fun i _ => ⟨Term.get_zero 0, rfl⟩, List.nodup_nil, Nat.zero_le _, ?_, rfl⟩
  intro e he
  cases he

/-- The calls which change names or procedures of operations. -/
def Call.namesOps : Call → Bool
  | .init => true
  | .addOperation .. => true
  | .command .reset => true
  | .command (.setOpName _ _) => true
  | _ => false

/-- All other calls leave them alone. -/
theorem call_sameOps {fuel : Fuel} {c : Call} (hg : Good n s) (hn : n.Ok) (hl : c.Legal n s) (hc : c.namesOps = false)
    (e : c.run z fuel n s = .ok (n', s')) : n.Extends n' ∧ (∀ k, (s'.operations k).term = (s.operations k).term) ∧
      (∀ k, (s'.operations k).action = (s.operations k).action) ∧ s'.op_k = s.op_k ∧ s'.initialized = s.initialized := by
  by_cases ht : c.thinks = true
  · obtain ⟨hx, hg', t, x, rr⟩ := call_runs hg hn hl ht e
    obtain ⟨_, _, ho, hk, hi, _⟩ := rr.effect hg'
    exact ⟨hx, fun k => by rw [ho], fun k => by rw [ho], hk, hi⟩
  · cases c with
    | init => cases hc
    | addInput => exact absurd rfl ht
    | addOperation name f => cases hc
    | addNarsese => exact absurd rfl ht
    | command c =>
      unfold Call.run Command.run at e
      cases c with
      | cycles => exact absurd rfl ht
      | query => exact absurd rfl ht
      | narsese => exact absurd rfl ht
      | nothing => cases e; exact ⟨.refl _, fun _ => rfl, fun _ => rfl, rfl, rfl⟩
      | report r => obtain ⟨_, _, e⟩ := R.bind_eq_ok.1 e; cases e; exact ⟨.refl _, fun _ => rfl, fun _ => rfl, rfl, rfl⟩
      | exit => cases e; exact ⟨.refl _, fun _ => rfl, fun _ => rfl, rfl, rfl⟩
      | reset => cases hc
      | restrictedConceptCreation b => cases e; exact ⟨.refl _, fun _ => rfl, fun _ => rfl, rfl, rfl⟩
      | parameter p v => cases e; cases p <;> exact ⟨.refl _, fun _ => rfl, fun _ => rfl, rfl, rfl⟩
      | babblingOps k => cases e; exact ⟨.refl _, fun _ => rfl, fun _ => rfl, rfl, rfl⟩
      | currentTime t => cases e; exact ⟨.refl _, fun _ => rfl, fun _ => rfl, rfl, rfl⟩
      | stampId b => cases e; exact ⟨.refl _, fun _ => rfl, fun _ => rfl, rfl, rfl⟩
      | stampImport ids => cases e; exact ⟨.refl _, fun _ => rfl, fun _ => rfl, rfl, rfl⟩
      | setValue v g name =>
        dsimp only at e
        rw [R.bind_eq_ok] at e
        obtain ⟨n1, e1, e⟩ := e
        cases e
        exact ⟨(setValue_extends hn e1).2, fun _ => rfl, fun _ => rfl, rfl, rfl⟩
      | space g name =>
        dsimp only at e
        rw [R.bind_eq_ok] at e
        obtain ⟨_, _, e⟩ := e
        rw [R.bind_eq_ok] at e
        obtain ⟨n1, e1, e⟩ := e
        cases e
        exact ⟨(setSpace_extends _ hn e1).2, fun _ => rfl, fun _ => rfl, rfl, rfl⟩
      | setOpName k name => cases hc
      | setOpArg k j text =>
        unfold Shell_setOpArg at e
        dsimp only at e
        rw [R.bind_eq_ok] at e
        obtain ⟨_, _, e⟩ := e
        rw [R.bind_eq_ok] at e
        obtain ⟨_, _, e⟩ := e
        rw [R.bind_eq_ok] at e
        obtain ⟨⟨t, n1⟩, e1, e⟩ := e
        cases e
        refine ⟨(Narsese.term_extends hn hg.base e1).2.1, ?_, ?_, rfl, rfl⟩
        · intro i
          dsimp only
          by_cases hi : i = (k - 1).toNat
          · subst hi; rw [upd_same]
          · rw [upd_other _ _ hi]
        · intro i
          dsimp only
          by_cases hi : i = (k - 1).toNat
          · subst hi; rw [upd_same]
          · rw [upd_other _ _ hi]
      | setOpStdin k =>
        dsimp only at e
        rw [R.bind_eq_ok] at e
        obtain ⟨s1, e1, e⟩ := e
        cases e
        unfold Shell_setOpStdin at e1
        split at e1
        · cases e1
          refine ⟨.refl _, ?_, ?_, rfl, rfl⟩
          · intro i
            dsimp only
            by_cases hi : i = (k - 1).toNat
            · subst hi; rw [upd_same]
            · rw [upd_other _ _ hi]
          · intro i
            dsimp only
            by_cases hi : i = (k - 1).toNat
            · subst hi; rw [upd_same]
            · rw [upd_other _ _ hi]
        · cases e1
      | concurrent => cases e; exact ⟨.refl _, fun _ => rfl, fun _ => rfl, rfl, rfl⟩

/-- A session leads to its registry. -/
theorem Session.held (hz : z.Ok) {r : Registry} (h : Session z n s r) : Held n s r := by
  induction h with
  | start _ e => exact .init e
  | @call n s n' s' r fuel c hs hl hc e ih =>
    obtain ⟨hg, hn⟩ := hs.reachable.good hz
    by_cases ht : c.namesOps = true
    · cases c with
      | init => exact .init e
      | addInput => cases ht
      | addOperation name f => exact ih.register hn hc.1 hc.2 e
      | addNarsese => cases ht
      | command c =>
        unfold Call.run Command.run at e
        cases c with
        | reset =>
          dsimp only at e
          unfold Shell_NARInit_sizes at e
          rw [R.bind_eq_ok] at e
          obtain ⟨⟨n1, s1⟩, e1, e⟩ := e
          obtain ⟨_, _, _, _, hi, _⟩ := init_shape e1
          obtain ⟨n2, hi2, hrep, _⟩ := initWith_spec z.atoms hz.atoms
          rw [hi] at hi2
          cases hi2
          refine Held.addNops _ ⟨_, hrep⟩ (.init e1) (by decide) ?_ e
          rw [hrep.count]
          decide
        | setOpName k name => exact hc.elim
        | _ => cases ht
    · obtain ⟨hx, h1, h2, h3, h4⟩ := call_sameOps hg hn hl (by simpa using ht) e
      have hreg : c.registry r = r := by
        cases c with
        | command c => cases c <;> first | rfl | exact absurd rfl ht
        | addInput => rfl
        | addNarsese => rfl
        | _ => exact absurd rfl ht
      rw [hreg]
      exact (ih.extends hx).congr h1 h2 h3 h4

/-- Operators are single atoms. -/
def AtomicOps (s : Sys) : Prop := ∀ k, ∃ a, (s.operations k).term = Term.zero.put 0 a

omit [Arith] in
theorem atomicTerm_put {name : CStr} {t : Term} (e : Narsese_AtomicTerm n name = .ok (t, n')) : ∃ a, t = Term.zero.put 0 a := by
  unfold Narsese_AtomicTerm at e
  rw [R.bind_eq_ok] at e
  obtain ⟨⟨i, n1⟩, e1, e⟩ := e
  cases e
  exact ⟨_, rfl⟩

omit [Arith] in
theorem zero_put : Term.zero = Term.zero.put 0 0 := by
  apply Term.ext_get
  intro i
  by_cases hi : i = 0
  · subst hi
    rw [Term.get_put_same _ _ (by decide), Term.get_zero]
    exact fun _ => rfl
  · rw [Term.get_put_ne _ _ hi]
    exact fun _ => rfl

omit [Arith] in
theorem AtomicOps.upd (h : AtomicOps s) {k : Nat} {o : Operation} (ho : ∃ a, o.term = Term.zero.put 0 a)
    (hs : s'.operations = upd s.operations k o) : AtomicOps s' := by
  intro j
  rw [hs]
  by_cases hj : j = k
  · subst hj; rw [upd_same]; exact ho
  · rw [upd_other _ _ hj]; exact h j

omit [Arith] in
theorem AtomicOps.addOperation (h : AtomicOps s) {name : CStr} {f : Term → Feedback}
    (e : NAR_AddOperation n name f s = .ok (n', s')) : AtomicOps s' := by
  obtain ⟨t, e1, _, ⟨_, _, rfl⟩ | ⟨_, rfl⟩⟩ := addOperation_shape e
  · exact h.upd (atomicTerm_put e1) rfl
  · exact h.upd (atomicTerm_put e1) rfl

omit [Arith] in
theorem AtomicOps.addNops (l : List CStr) : ∀ {n n' : Narsese} {s s' : Sys}, AtomicOps s →
    addNops l n s = .ok (n', s') → AtomicOps s' := by
  induction l with
  | nil => intro n n' s s' h e; cases e; exact h
  | cons name l ih =>
    intro n n' s s' h e
    unfold ONA.addNops at e
    rw [R.bind_eq_ok] at e
    obtain ⟨⟨n1, s1⟩, e1, e⟩ := e
    exact ih (h.addOperation e1) e

theorem AtomicOps.init {s0 : Sys} (e : NAR_INIT_sizes z.memory z.atoms s0 = .ok (n, s)) : AtomicOps s := by
  obtain ⟨_, _, _, _, _, rfl⟩ := init_shape e
  exact fun k => ⟨0, zero_put⟩

omit [Arith] in
/-- What `*setopname` does. -/
theorem setOpName_shape {k : Int} {name : CStr} (e : Shell_setOpName k name n s = .ok (n', s')) : ∃ t,
    Narsese_AtomicTerm n name = .ok (t, n') ∧ 1 ≤ k ∧ k ≤ OPERATIONS_MAX ∧ s.concepts.itemsAmount = 0 ∧
    (s'.operations (k - 1).toNat).term = t ∧ (s'.operations (k - 1).toNat).action ≠ none ∧
    ∀ j, j ≠ (k - 1).toNat → (s'.operations j).action = (s.operations j).action ∧
      ((s'.operations j).term = Term.zero ∧ j < OPERATIONS_MAX ∧ (∃ i ≤ j, (s.operations i).term = t) ∨
       (s'.operations j).term = (s.operations j).term ∧ (j < OPERATIONS_MAX → ∀ i ≤ j, (s.operations i).term ≠ t)) := by
  unfold Shell_setOpName at e
  rw [R.bind_eq_ok] at e
  obtain ⟨_, e1, e⟩ := e
  rw [R.bind_eq_ok] at e
  obtain ⟨_, e2, e⟩ := e
  rw [R.bind_eq_ok] at e
  obtain ⟨⟨t, n1⟩, e3, e⟩ := e
  cases e
  have e1 := of_decide_eq_true (cassert_eq_ok.1 e1)
  have e2 := of_decide_eq_true (cassert_eq_ok.1 e2)
  refine ⟨t, e3, e2.1, e2.2, e1, by dsimp only; rw [upd_same], by dsimp only; rw [upd_same]; simp, ?_⟩
  intro j hj
  dsimp only
  rw [upd_other _ _ hj]
  by_cases hcl : (decide (j < OPERATIONS_MAX) && (List.range (j + 1)).any fun i => decide ((s.operations i).term = t)) = true
  · rw [if_pos hcl]
    rw [Bool.and_eq_true, decide_eq_true_eq, List.any_eq_true] at hcl
    obtain ⟨h1, i, hi, h2⟩ := hcl
    rw [List.mem_range] at hi
    exact ⟨rfl, .inl ⟨rfl, h1, i, by omega, of_decide_eq_true h2⟩⟩
  · rw [if_neg hcl]
    refine ⟨rfl, .inr ⟨rfl, fun hlt i hi he => hcl ?_⟩⟩
    rw [Bool.and_eq_true, decide_eq_true_eq, List.any_eq_true]
    exact ⟨hlt, i, List.mem_range.2 (by omega), decide_eq_true he⟩

theorem Reachable.atomicOps (hz : z.Ok) (h : Reachable z n s) : AtomicOps s := by
  induction h with
  | start _ e => exact .init e
  | @call n s n' s' fuel c hs hl e ih =>
    obtain ⟨hg, hn⟩ := hs.good hz
    by_cases ht : c.namesOps = true
    · cases c with
      | init => exact .init e
      | addInput => cases ht
      | addOperation name f => exact ih.addOperation e
      | addNarsese => cases ht
      | command c =>
        unfold Call.run Command.run at e
        cases c with
        | reset =>
          dsimp only at e
          unfold Shell_NARInit_sizes at e
          rw [R.bind_eq_ok] at e
          obtain ⟨⟨n1, s1⟩, e1, e⟩ := e
          exact AtomicOps.addNops _ (.init e1) e
        | setOpName k name =>
          obtain ⟨t, e1, _, _, _, h1, _, h2⟩ := setOpName_shape e
          intro j
          by_cases hj : j = (k - 1).toNat
          · subst hj; rw [h1]; exact atomicTerm_put e1
          · rcases (h2 j hj).2 with ⟨h3, _⟩ | ⟨h3, _⟩
            · rw [h3]; exact ⟨0, zero_put⟩
            · rw [h3]; exact ih j
        | _ => cases ht
    · obtain ⟨_, h1, _⟩ := call_sameOps hg hn hl (by simpa using ht) e
      intro k
      rw [h1]
      exact ih k

/-- **C47 (renaming).** After `*setopname k name` succeeds, from any reachable state, the operation of this name has the
id `k`, and there is a procedure to call. -/
theorem C47_rename (hz : z.Ok) (h : Reachable z n s) {k : Int} {name : CStr} (fuel : Fuel)
    (e : (Command.setOpName k name).run z.memory z.atoms fuel n s = .ok (n', s')) (hc : n'.term_index < 2 ^ 16)
    (t : Term) (ht : OperationNamed n' t (truncName name)) :
    (s'.operationID n' t : Int) = k ∧ (s'.operations (k - 1).toNat).action ≠ none := by
  obtain ⟨op, e1, hk1, hk2, _, g1, g2, g3⟩ := setOpName_shape e
  have hn := (h.good hz).2
  obtain ⟨a1, a2, a3⟩ := atomicTerm_name hn e1 hc
  have hn' := (atomicTerm_extends hn e1).1
  have hat : op.get 0 = Narsese_getOperationAtom n' t := by
    refine nameOf_injective hn' a1 ht.1 ?_ (by rw [a3, ht.2])
    rw [← ht.2] at a3
    rw [a3]
    intro he
    have := operationAtom_name ht.1
    rw [he] at this
    exact absurd this (by decide)
  refine ⟨?_, g2⟩
  obtain ⟨b, hb⟩ := atomicTerm_put e1
  unfold Sys.operationID
  dsimp only
  rw [if_pos ht.1]
  have hlt : (k - 1).toNat < OPERATIONS_MAX := by omega
  have hfind : (List.range OPERATIONS_MAX).find? (fun j => (s'.operations j).term.get 0 = Narsese_getOperationAtom n' t) =
      some (k - 1).toNat := by
    rw [List.find?_eq_some_iff_append]
    refine ⟨by rw [g1]; simpa using hat, List.range (k - 1).toNat,
      (List.range (OPERATIONS_MAX - (k - 1).toNat - 1)).map ((k - 1).toNat + 1 + ·), ?_, ?_⟩
    · have : OPERATIONS_MAX = (k - 1).toNat + (1 + (OPERATIONS_MAX - (k - 1).toNat - 1)) := by omega
      conv_lhs => rw [this]
      rw [List.range_add, List.range_add]
      simp [Nat.add_assoc]
    · intro j hj
      rw [List.mem_range] at hj
      simp only [Bool.not_eq_true', decide_eq_false_iff_not]
      intro he
      rcases (g3 j (by omega)).2 with ⟨h3, _⟩ | ⟨h3, h4⟩
      · rw [h3, Term.get_zero] at he
        exact ht.1 he.symm
      · obtain ⟨c, hcj⟩ := h.atomicOps hz j
        rw [h3, hcj, Term.get_put_same _ _ (by decide), ← hat, hb, Term.get_put_same _ _ (by decide)] at he
        exact h4 (by omega) j (le_refl _) (by rw [hcj, hb, he])
  rw [hfind]
  show (((k - 1).toNat + 1 : Nat) : Int) = k
  omega

/-- **C47 (ids).** In every session, the operations of the registry, and only these, have an id: their position in the
order of registration. Calling it runs the procedure registered last under the name. -/
theorem C47_ids (hz : z.Ok) {r : Registry} (h : Session z n s r) (t : Term) :
    (∀ i (hi : i < r.length), OperationNamed n t r[i].1 → s.operationID n t = i + 1 ∧
      (s.operations i).action = some r[i].2) ∧
    ((∀ e ∈ r, ¬ OperationNamed n t e.1) → s.operationID n t = 0) :=
  ⟨fun i hi ht => ⟨(h.held hz).id (h.reachable.good hz).2 hi ht, ((h.held hz).slots i hi).2.2.2⟩, fun ht => (h.held hz).unknown ht⟩

/-- **C47 (stable).** Registering keeps the positions of all names, and no name occurs twice. -/
theorem C47_stable (hz : z.Ok) {r : Registry} (h : Session z n s r) (name : CStr) (f : Term → Feedback) :
    (r.map Prod.fst).Nodup ∧ r.length ≤ OPERATIONS_MAX ∧
    ∀ i (hi : i < r.length), ∃ hi' : i < (r.register name f).length, ((r.register name f)[i]).1 = r[i].1 ∧
      (r[i].1 ≠ truncName name → ((r.register name f)[i]).2 = r[i].2) := by
  refine ⟨(h.held hz).nodup, (h.held hz).bound, fun i hi => ?_⟩
  unfold Registry.register
  by_cases hm : truncName name ∈ r.map Prod.fst
  · simp only [hm, if_true]
    refine ⟨by rw [List.length_map]; exact hi, ?_⟩
    rw [List.getElem_map]
    by_cases he : r[i].1 = truncName name
    · rw [if_pos he]; exact ⟨he.symm, fun h => absurd he h⟩
    · rw [if_neg he]; exact ⟨rfl, fun _ => rfl⟩
  · simp only [hm, if_false]
    refine ⟨by rw [List.length_append]; omega, ?_⟩
    rw [List.getElem_append_left hi]
    exact ⟨rfl, fun _ => rfl⟩

/-- **C47 (limit).** An operator name for which there is room in the atom table is accepted if it is known or if less than
`OPERATIONS_MAX` operations are registered; otherwise the call ends with the assertion. -/
theorem C47_limit (hz : z.Ok) {r : Registry} (h : Session z n s r) {name : CStr} (f : Term → Feedback) {t : Term}
    {n1 : Narsese} (e : Narsese_AtomicTerm n name = .ok (t, n1)) (hc : n1.term_index < 2 ^ 16)
    (h1 : name.head? = some '^') (h2 : 2 ≤ name.length) :
    (truncName name ∈ r.map Prod.fst ∨ r.length < OPERATIONS_MAX → ∃ s', NAR_AddOperation n name f s = .ok (n1, s')) ∧
    (truncName name ∉ r.map Prod.fst → r.length = OPERATIONS_MAX →
      NAR_AddOperation n name f s = .error (.assertFail "Too many operators, increase OPERATIONS_MAX!")) := by
  have hn := (h.reachable.good hz).2
  obtain ⟨hn', hx, _⟩ := atomicTerm_extends hn e
  have hop := atomicTerm_operation hn e hc h1 h2
  have h' := (h.held hz).extends hx
  have hcomp : ∀ b, (decide ((if s.operationID n1 t = 0 then s.op_k + 1 else s.operationID n1 t) ≤ OPERATIONS_MAX)) = b →
      NAR_AddOperation n name f s = (if b then .ok (n1, { s with
        op_k := if s.operationID n1 t = 0 then s.op_k + 1 else s.op_k
        operations := upd s.operations ((if s.operationID n1 t = 0 then s.op_k + 1 else s.operationID n1 t) - 1)
          ⟨t, some f, fun _ => Term.zero, false⟩ })
        else .error (.assertFail "Too many operators, increase OPERATIONS_MAX!")) := by
    intro b hb
    unfold NAR_AddOperation
    rw [cassert_true (h.held hz).initialized, R.ok_bind, e, R.ok_bind]
    dsimp only
    have hreg : registerOperation n1 name t f s = ((liftM (cassert
        (decide ((if s.operationID n1 t = 0 then s.op_k + 1 else s.operationID n1 t) ≤ OPERATIONS_MAX))
        "Too many operators, increase OPERATIONS_MAX!") : M Unit) >>= fun _ => set { s with
          op_k := if s.operationID n1 t = 0 then s.op_k + 1 else s.op_k
          operations := upd s.operations ((if s.operationID n1 t = 0 then s.op_k + 1 else s.operationID n1 t) - 1)
            ⟨t, some f, fun _ => Term.zero, false⟩ }) s := by
      unfold registerOperation
      rw [cassert_true (by simpa using h1)]
      rfl
    rw [hreg, hb]
    cases b with
    | false => rfl
    | true =>
      rw [cassert_true rfl, if_pos rfl]
      rfl
  constructor
  · intro hor
    have hb : decide ((if s.operationID n1 t = 0 then s.op_k + 1 else s.operationID n1 t) ≤ OPERATIONS_MAX) = true := by
      rw [decide_eq_true_eq]
      by_cases hm : truncName name ∈ r.map Prod.fst
      · obtain ⟨i, hi, hri⟩ := List.getElem_of_mem hm
        rw [List.length_map] at hi
        rw [List.getElem_map] at hri
        have hid := h'.id hn' hi (t := t) (by rw [hri]; exact hop)
        rw [hid, if_neg (Nat.succ_ne_zero _)]
        exact le_trans hi h'.bound
      · have hlt := hor.resolve_left hm
        have hid : s.operationID n1 t = 0 :=
          h'.unknown fun e he ht => hm (List.mem_map.2 ⟨e, he, ht.2.symm.trans hop.2⟩)
        rw [if_pos hid, h'.count]
        exact hlt
    exact ⟨_, by rw [hcomp _ hb]; rfl⟩
  · intro hm hlen
    have hid : s.operationID n1 t = 0 :=
      h'.unknown fun e he ht => hm (List.mem_map.2 ⟨e, he, ht.2.symm.trans hop.2⟩)
    have hb : decide ((if s.operationID n1 t = 0 then s.op_k + 1 else s.operationID n1 t) ≤ OPERATIONS_MAX) = false := by
      rw [decide_eq_false_iff_not, if_pos hid, h'.count, hlen]
      exact Nat.not_succ_le_self _
    rw [hcomp _ hb]
    rfl

/-- Only operations with a procedure are executed. -/
theorem Run.executed (h : Good n s) {t x : Nat} (r : Run n s t x s') : ∃ new, s'.output = s.output ++ new ∧
    ∀ op args, .executed op args ∈ new → ∃ k, op = (s.operations k).term ∧ (s.operations k).action ≠ none := by
  induction r with
  | refl => exact ⟨[], by simp, fun op args hm => by cases hm⟩
  | step r st ih =>
    obtain ⟨new, b, c⟩ := ih
    obtain ⟨f, o⟩ := st.frame (r.good h)
    cases o with
    | none e => exact ⟨new, by rw [e, b], c⟩
    | decision dd imp _ e =>
      refine ⟨new ++ [.decision dd imp], by rw [e, b, List.append_assoc], fun op args hm => ?_⟩
      rcases List.mem_append.1 hm with hm | hm
      · exact c op args hm
      · rw [List.mem_singleton] at hm
        cases hm
  | execute k action args r ha _ _ ih =>
    obtain ⟨new, b, c⟩ := ih
    obtain ⟨_, _, ho, _⟩ := r.effect h
    refine ⟨new ++ [.executed _ args], by dsimp only; rw [b, List.append_assoc], fun op a hm => ?_⟩
    rcases List.mem_append.1 hm with hm | hm
    · exact c op a hm
    · rw [List.mem_singleton] at hm
      cases hm
      exact ⟨k, by rw [ho], by rw [← ho, ha]; simp⟩
  | input term type truth offset _ ih => exact ih
  | answer lines _ hl ih =>
    obtain ⟨new, b, c⟩ := ih
    refine ⟨new ++ lines, by dsimp only; rw [b, List.append_assoc], fun op args hm => ?_⟩
    rcases List.mem_append.1 hm with hm | hm
    · exact c op args hm
    · exact (hl _ hm).elim
  | tick _ ih => exact ih

/-- **C47 (executions).** Whatever a call executes is a registered operation. -/
theorem C47_executed (hz : z.Ok) {r : Registry} (h : Session z n s r) (fuel : Fuel) (c : Call) (hl : c.Legal n s)
    (ht : c.thinks = true) (e : c.run z fuel n s = .ok (n', s')) : ∃ new, s'.output = s.output ++ new ∧
      ∀ op args, .executed op args ∈ new → ∃ e ∈ r, n.nameOf (op.get 0) = e.1 := by
  obtain ⟨hg, hn⟩ := h.reachable.good hz
  obtain ⟨hx, hg', t, x, rr⟩ := call_runs hg hn hl ht e
  obtain ⟨new, h1, h2⟩ := rr.executed hg'
  refine ⟨new, h1, fun op args hm => ?_⟩
  obtain ⟨k, rfl, hk⟩ := h2 op args hm
  by_cases hkr : k < r.length
  · exact ⟨_, List.getElem_mem hkr, ((h.held hz).slots k hkr).2.2.1⟩
  · exact absurd ((h.held hz).free k (by omega)).2 hk

end ONA
