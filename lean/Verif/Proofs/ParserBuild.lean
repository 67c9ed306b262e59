import Verif.Proofs.Parser
/-
Building the term array from prefix tokens.
-/
namespace ONA

/-- The atom table has grown: what was registered before has kept its name. -/
structure Narsese.Grows (n n' : Narsese) : Prop where
  count : n.term_index ≤ n'.term_index
  names : ∀ k, k < n.term_index → n'.atomNames k = n.atomNames k
  self : n'.SELF = n.SELF
  hasValue : n'.atomHasValue = n.atomHasValue
  values : n'.atomValues = n.atomValues
  measurement : n'.atomMeasurementNames = n.atomMeasurementNames

theorem Narsese.Grows.refl (n : Narsese) : n.Grows n := ⟨Nat.le_refl _, fun _ _ => rfl, rfl, rfl, rfl, rfl⟩

theorem Narsese.Grows.trans {a b c : Narsese} (h1 : a.Grows b) (h2 : b.Grows c) : a.Grows c :=
  ⟨h1.count.trans h2.count, fun k hk => (h2.names k (Nat.lt_of_lt_of_le hk h1.count)).trans (h1.names k hk),
    h2.self.trans h1.self, h2.hasValue.trans h1.hasValue, h2.values.trans h1.values, h2.measurement.trans h1.measurement⟩

/-- An atom of the table. -/
def Narsese.KnowsAtom (n : Narsese) (a : Atom) : Prop := a ≠ 0 → a.toNat ≤ n.term_index

theorem Narsese.KnowsAtom.grows {n n' : Narsese} {a : Atom} (h : n.KnowsAtom a) (hg : n.Grows n') : n'.KnowsAtom a :=
  fun h0 => (h h0).trans hg.count

theorem Narsese.Grows.nameOf {n n' : Narsese} (hg : n.Grows n') {a : Atom} (h : n.KnowsAtom a) (h0 : a ≠ 0) :
    n'.nameOf a = n.nameOf a := by
  unfold Narsese.nameOf
  apply hg.names
  have h1 := h h0
  have : a.toNat ≠ 0 := by
    intro e
    exact h0 (BitVec.eq_of_toNat_eq (by simpa using e))
  omega

/-- A name with an atom. -/
def Narsese.HasName (n : Narsese) (s : CStr) : Prop := ∃ k < n.term_index, k < 65535 ∧ n.atomNames k = s

/-- The names of a tree can be registered: they are all known, or there is room for as many new ones. -/
def Narsese.Room (n : Narsese) (T : NTree) : Prop := (∀ s ∈ T.names, n.HasName s) ∨ n.term_index + T.size ≤ 65535

/-- Registering a name while there is room. -/
theorem index_step {h : List (CStr × Nat)} {n : Narsese} (hs : Narsese.Session h n) (s : CStr)
    (hr : n.Room (.leaf (s.take 31))) :
    ∃ i n', Narsese_AtomicTermIndex n s = .ok (i, n') ∧ Narsese.Session ((s, i) :: h) n' ∧ n.Grows n' ∧
      n'.term_index ≤ n.term_index + 1 ∧ toAtom i ≠ 0 ∧ n'.KnowsAtom (toAtom i) ∧ n'.nameOf (toAtom i) = s.take 31 ∧
      (n.HasName (s.take 31) → n' = n) := by
  obtain ⟨ns, r, c, _, _⟩ := session_spec hs
  have hcnt := r.count
  have hto : ∀ i, 1 ≤ i → i ≤ 65535 → (toAtom i).toNat = i := by
    intro i h1 h2
    unfold toAtom
    rw [BitVec.toNat_ofNat, Nat.mod_eq_of_lt (by omega)]
  have hne : ∀ i, 1 ≤ i → i ≤ 65535 → toAtom i ≠ 0 := by
    intro i h1 h2 e
    have := hto i h1 h2
    rw [e] at this
    simp at this
    omega
  have hcap := r.cap
  by_cases hm : truncName s ∈ allInitialNames ++ ns
  · have e := r.index_known hm
    have hi := List.idxOf_lt_length_iff.2 hm
    have hb : List.idxOf (truncName s) (allInitialNames ++ ns) < 65535 := by
      rcases hr with hr | hr
      · obtain ⟨k, hk, hk2, e⟩ := hr (s.take 31) (by simp [NTree.leaf, NTree.names])
        have hk' : k < (allInitialNames ++ ns).length := by omega
        have e2 : truncName s = (allInitialNames ++ ns).getD k [] := by rw [← r.names k hk']; exact e.symm
        have e3 : truncName s = (allInitialNames ++ ns)[k] := by
          rw [e2]; simp only [List.getD, List.getElem?_eq_getElem hk', Option.getD_some]
        rw [e3, r.nodup.idxOf_getElem k hk']
        exact hk2
      · simp only [NTree.leaf, NTree.size] at hr; omega
    refine ⟨_, n, e, .call hs e, .refl n, by omega, hne _ (by omega) (by omega), ?_, ?_, fun _ => rfl⟩
    · intro _; rw [hto _ (by omega) (by omega)]; omega
    · unfold Narsese.nameOf
      rw [hto _ (by omega) (by omega), Nat.add_sub_cancel, r.names _ hi, getD_idxOf hm]; rfl
  · have hr : n.term_index < 65535 := by
      rcases hr with hr | hr
      · exfalso
        obtain ⟨k, hk, _, e⟩ := hr (s.take 31) (by simp [NTree.leaf, NTree.names])
        apply hm
        have hk' : k < (allInitialNames ++ ns).length := by omega
        have e2 : truncName s = (allInitialNames ++ ns).getD k [] := by rw [← r.names k hk']; exact e.symm
        rw [e2]
        simp only [List.getD, List.getElem?_eq_getElem hk', Option.getD_some]
        exact List.getElem_mem hk'
      · simp only [NTree.leaf, NTree.size] at hr; omega
    obtain ⟨n', e, r', h1, h2, h3, h4, h5⟩ := r.index_new hm (by rw [c]; unfold ATOMS_MAX; omega)
    have hcnt' := r'.count
    simp only [List.length_append, List.length_cons, List.length_nil] at hcnt' hcnt
    refine ⟨_, n', e, .call hs e, ⟨by omega, ?_, h2, h4, h3, h5⟩, by omega,
      hne _ (by omega) (by simp only [List.length_append]; omega), ?_, ?_, ?_⟩
    · intro k hk
      have hk' : k < (allInitialNames ++ ns).length := by simp only [List.length_append]; omega
      rw [r'.names k (by simp only [List.length_append, List.length_cons, List.length_nil] at hk' ⊢; omega), r.names k hk']
      simp only [List.getD]
      rw [List.getElem?_append_left hk']
    · intro _
      rw [hto _ (by omega) (by simp only [List.length_append]; omega)]
      simp only [List.length_append]; omega
    · unfold Narsese.nameOf
      rw [hto _ (by omega) (by simp only [List.length_append]; omega), Nat.add_sub_cancel, r'.names _ (by simp)]
      simp [List.getD, truncName, ATOMIC_TERM_LEN_MAX]
    · rintro ⟨k, hk, _, e⟩
      exfalso
      apply hm
      have hk' : k < (allInitialNames ++ ns).length := by simp only [List.length_append]; omega
      have e2 : truncName s = (allInitialNames ++ ns).getD k [] := by rw [← r.names k hk']; exact e.symm
      rw [e2]
      simp only [List.getD, List.getElem?_eq_getElem hk', Option.getD_some]
      exact List.getElem_mem hk'

/-- The effect of building: the subtree at `i` has been filled with the tree `T`, nothing else has changed. -/
structure Built (n n' : Narsese) (t t' : Term) (i : Nat) (T : NTree) : Prop where
  grows : n.Grows n'
  room : n'.term_index ≤ n.term_index + T.size
  outside : ∀ j, (∀ p, j ≠ pathPos i p) → t'.get j = t.get j
  knows : ∀ p, n'.KnowsAtom (t'.get (pathPos i p))
  tree : (t'.treeAt i).named n' = T
  /-- nothing is registered if all names are known -/
  known : (∀ s ∈ T.names, n.HasName s) → n' = n
  /-- no node below an empty one -/
  closed : ∀ p b, t'.get (childPos (pathPos i p) b) ≠ 0 → t'.get (pathPos i p) ≠ 0

theorem treeAt_out {s t : Term} {i j : Nat} (h : ∀ k, (∀ p, k ≠ pathPos i p) → s.get k = t.get k)
    (hd : ∀ p q, pathPos j q ≠ pathPos i p) : s.treeAt j = t.treeAt j :=
  treeAt_congr fun q => h _ fun p => hd p q

theorem named_grows {n n' : Narsese} (hg : n.Grows n') {t : Term} {i : Nat} (h : ∀ p, n.KnowsAtom (t.get (pathPos i p))) :
    (t.treeAt i).named n' = (t.treeAt i).named n := by
  induction i using pos_induction with
  | h i ih =>
    by_cases h0 : t.get i = 0
    · rw [t.treeAt_zero h0]; rfl
    · obtain ⟨il, ir⟩ := ih (Term.lt_of_get_ne h0)
      rw [t.treeAt_node h0]
      simp only [Tree.named]
      have hh : n.KnowsAtom (t.get i) := h []
      rw [hg.nameOf hh h0, il fun p => h (false :: p), ir fun p => h (true :: p)]

theorem path_sides {i : Nat} (p q : List Bool) : pathPos (2 * i + 1) p ≠ pathPos (2 * i + 2) q := by
  intro e
  have h1 : pathPos i (false :: p) = pathPos i (true :: q) := e
  have := pathPos_inj h1
  cases this

theorem path_root_left {i : Nat} (p : List Bool) : i ≠ pathPos (2 * i + 1) p := by
  intro e
  have h1 : pathPos i [] = pathPos i (false :: p) := e
  have := pathPos_inj h1
  cases this

theorem path_root_right {i : Nat} (p : List Bool) : i ≠ pathPos (2 * i + 2) p := by
  intro e
  have h1 : pathPos i [] = pathPos i (true :: p) := e
  have := pathPos_inj h1
  cases this

/-- Writing one node. -/
theorem built_leaf {h : List (CStr × Nat)} {n : Narsese} (hs : Narsese.Session h n) (s : CStr)
    (hr : n.Room (.leaf (s.take 31))) (t : Term) (i : Nat) (hi : i < COMPOUND_TERM_SIZE_MAX) (he : ∀ p, t.get (pathPos i p) = 0) :
    ∃ a n' t', Narsese_AtomicTermIndex n s = .ok (a, n') ∧ t.setNode (i + 1) a = .ok t' ∧ Narsese.Session ((s, a) :: h) n' ∧
      t' = t.put i (toAtom a) ∧ toAtom a ≠ 0 ∧ n'.nameOf (toAtom a) = s.take 31 ∧ Built n n' t t' i (.leaf (s.take 31)) := by
  obtain ⟨a, n', e, hs', hg, hb, h0, hk, hn, hkn⟩ := index_step hs s hr
  have hroot : (t.put i (toAtom a)).get i = toAtom a := Term.get_put_same t _ hi
  have hrest : ∀ k, k ≠ i → (t.put i (toAtom a)).get k = t.get k := fun k hk => Term.get_put_ne t _ hk
  refine ⟨a, n', t.put i (toAtom a), e, ?_, hs', rfl, h0, hn, hg, ?_, ?_, ?_, ?_,
    fun hall => hkn (hall _ (by simp [NTree.leaf, NTree.names])), ?_⟩
  · unfold Term.setNode; rw [Nat.add_sub_cancel, if_pos hi]
  · simpa [NTree.leaf, NTree.size] using hb
  · intro j hj; exact hrest j (hj [])
  · intro p
    cases p with
    | nil => show n'.KnowsAtom ((t.put i (toAtom a)).get i); rw [hroot]; exact hk
    | cons b p =>
      rw [hrest _ (Nat.ne_of_gt (lt_pathPos i b p)), he (b :: p)]
      intro hc; exact absurd rfl hc
  · rw [Term.treeAt_node _ (by rw [hroot]; exact h0), hroot]
    rw [Term.treeAt_zero (t.put i (toAtom a)) (i := 2 * i + 1) (by rw [hrest _ (by omega)]; exact he [false])]
    rw [Term.treeAt_zero (t.put i (toAtom a)) (i := 2 * i + 2) (by rw [hrest _ (by omega)]; exact he [true])]
    simp [Tree.named, NTree.leaf, hn]
  · intro p b hne
    exfalso
    have e1 : childPos (pathPos i p) b = pathPos i (p ++ [b]) := by rw [pathPos_append]; rfl
    have e2 : ∃ c q, p ++ [b] = c :: q := by cases p <;> simp
    obtain ⟨c, q, e2⟩ := e2
    rw [e1, e2, hrest _ (Nat.ne_of_gt (lt_pathPos i c q)), he] at hne
    exact hne rfl

theorem Narsese.Room.root {n : Narsese} {s : CStr} {L R : NTree} (h : n.Room (.node s L R)) : n.Room (.leaf s) := by
  rcases h with h | h
  · exact Or.inl fun x hx => h x (by simp [NTree.leaf, NTree.names] at hx; simp [NTree.names, hx])
  · right; simp only [NTree.leaf, NTree.size] at h ⊢; omega

theorem Narsese.Room.left {n n1 : Narsese} {t t1 : Term} {i : Nat} {s : CStr} {L R : NTree} (h : n.Room (.node s L R))
    (b : Built n n1 t t1 i (.leaf s)) : n1.Room L := by
  rcases h with h | h
  · have e : n1 = n := b.known fun x hx => h x (by simp [NTree.leaf, NTree.names] at hx; simp [NTree.names, hx])
    rw [e]
    exact Or.inl fun x hx => h x (by simp [NTree.names, hx])
  · right
    have := b.room
    simp only [NTree.leaf, NTree.size] at h this ⊢; omega

theorem Narsese.Room.right {n n1 n2 : Narsese} {t t1 t2 : Term} {i j : Nat} {s : CStr} {L R : NTree} (h : n.Room (.node s L R))
    (b : Built n n1 t t1 i (.leaf s)) (b2 : Built n1 n2 t1 t2 j L) : n2.Room R := by
  rcases h with h | h
  · have e : n1 = n := b.known fun x hx => h x (by simp [NTree.leaf, NTree.names] at hx; simp [NTree.names, hx])
    subst e
    have e : n2 = n1 := b2.known fun x hx => h x (by simp [NTree.names, hx])
    rw [e]
    exact Or.inl fun x hx => h x (by simp [NTree.names, hx])
  · right
    have h1 := b.room
    have h2 := b2.room
    simp only [NTree.leaf, NTree.size] at h h1 h2 ⊢; omega

/-- A node with two built subtrees. -/
theorem built_node {n n1 n2 n3 : Narsese} {t t1 t2 t3 : Term} {i : Nat} {s : CStr} {L R : NTree}
    (h1 : Built n n1 t t1 i (.leaf s)) (h2 : Built n1 n2 t1 t2 (2 * i + 1) L) (h3 : Built n2 n3 t2 t3 (2 * i + 2) R) :
    Built n n3 t t3 i (.node s L R) := by
  have g3 := h1.grows.trans (h2.grows.trans h3.grows)
  have r3 : t3.get i = t2.get i := h3.outside i (path_root_right)
  have r2 : t2.get i = t1.get i := h2.outside i (path_root_left)
  have l3 : ∀ p, t3.get (pathPos (2 * i + 1) p) = t2.get (pathPos (2 * i + 1) p) :=
    fun p => h3.outside _ fun q => path_sides p q
  have hk1 : n1.KnowsAtom (t1.get i) := h1.knows []
  have ht1 := h1.tree
  have h0 : t1.get i ≠ 0 := by
    intro e
    rw [t1.treeAt_zero e] at ht1
    simp [Tree.named, NTree.leaf] at ht1
  have hn : n1.nameOf (t1.get i) = s := by
    rw [t1.treeAt_node h0] at ht1
    simp only [Tree.named, NTree.leaf, NTree.node.injEq] at ht1
    exact ht1.1
  refine ⟨g3, ?_, ?_, ?_, ?_, ?_, ?_⟩
  · have a1 := h1.room
    have a2 := h2.room
    have a3 := h3.room
    simp only [NTree.leaf, NTree.size] at a1 a2 a3 ⊢
    omega
  · intro j hj
    rw [h3.outside j fun p => hj (true :: p), h2.outside j fun p => hj (false :: p), h1.outside j hj]
  · intro p
    match p with
    | [] =>
      show n3.KnowsAtom (t3.get i)
      rw [r3, r2]
      exact (hk1.grows h2.grows).grows h3.grows
    | false :: p =>
      show n3.KnowsAtom (t3.get (pathPos (2 * i + 1) p))
      rw [l3]
      exact (h2.knows p).grows h3.grows
    | true :: p => exact h3.knows p
  · rw [Term.treeAt_node _ (by rw [r3, r2]; exact h0)]
    simp only [Tree.named, NTree.node.injEq]
    refine ⟨?_, ?_, h3.tree⟩
    · rw [r3, r2, (h2.grows.trans h3.grows).nameOf hk1 h0, hn]
    · have : t3.treeAt (2 * i + 1) = t2.treeAt (2 * i + 1) := treeAt_congr l3
      rw [this, named_grows h3.grows h2.knows, h2.tree]
  · intro hall
    have e1 : n1 = n := h1.known fun x hx => hall x (by simp [NTree.leaf, NTree.names] at hx; simp [NTree.names, hx])
    subst e1
    have e2 : n2 = n1 := h2.known fun x hx => hall x (by simp [NTree.names, hx])
    subst e2
    exact h3.known fun x hx => hall x (by simp [NTree.names, hx])
  · intro p b
    match p with
    | [] => intro _; show t3.get i ≠ 0; rw [r3, r2]; exact h0
    | false :: p =>
      have e : childPos (pathPos i (false :: p)) b = pathPos (2 * i + 1) (p ++ [b]) := by rw [pathPos_append]; rfl
      show t3.get (childPos (pathPos i (false :: p)) b) ≠ 0 → t3.get (pathPos (2 * i + 1) p) ≠ 0
      rw [e, l3, l3]
      have := h2.closed p b
      rw [show childPos (pathPos (2 * i + 1) p) b = pathPos (2 * i + 1) (p ++ [b]) by rw [pathPos_append]; rfl] at this
      exact this
    | true :: p => exact h3.closed p b

/-- `buildBinaryTree` on the prefix tokens of an expression. -/
theorem build_spec {e : Expr} (he : e.WellFormed) : ∀ (fuel : Nat) (h : List (CStr × Nat)) (n : Narsese) (t : Term) (i : Nat)
    (rest : List CStr), Narsese.Session h n → e.ntree.Fits i → e.ntree.height ≤ fuel → n.Room e.ntree →
    (∀ p, t.get (pathPos i p) = 0) →
    ∃ h' n' t', buildBinaryTree fuel n t (e.ptoks ++ rest) (i + 1) = .ok (t', n') ∧ Narsese.Session h' n' ∧
      Built n n' t t' i e.ntree := by
  have hset : ∀ a : Bool, Expr.setName a = [if a then '"' else '\''] := by decide
  have pair : ∀ (s : CStr) (l r : Expr) (fuel : Nat) (h : List (CStr × Nat)) (n : Narsese) (t : Term) (i : Nat) (rest : List CStr),
      s.length = 1 → l.WellFormed → r.WellFormed →
      (∀ (fuel : Nat) (h : List (CStr × Nat)) (n : Narsese) (t : Term) (i : Nat) (rest : List CStr), Narsese.Session h n →
        l.ntree.Fits i → l.ntree.height ≤ fuel → n.Room l.ntree → (∀ p, t.get (pathPos i p) = 0) →
        ∃ h' n' t', buildBinaryTree fuel n t (l.ptoks ++ rest) (i + 1) = .ok (t', n') ∧ Narsese.Session h' n' ∧
          Built n n' t t' i l.ntree) →
      (∀ (fuel : Nat) (h : List (CStr × Nat)) (n : Narsese) (t : Term) (i : Nat) (rest : List CStr), Narsese.Session h n →
        r.ntree.Fits i → r.ntree.height ≤ fuel → n.Room r.ntree → (∀ p, t.get (pathPos i p) = 0) →
        ∃ h' n' t', buildBinaryTree fuel n t (r.ptoks ++ rest) (i + 1) = .ok (t', n') ∧ Narsese.Session h' n' ∧
          Built n n' t t' i r.ntree) →
      Narsese.Session h n → (NTree.node s l.ntree r.ntree).Fits i → (NTree.node s l.ntree r.ntree).height ≤ fuel →
      n.Room (NTree.node s l.ntree r.ntree) → (∀ p, t.get (pathPos i p) = 0) →
      ∃ h' n' t', buildBinaryTree fuel n t (['('] :: s :: (l.ptoks ++ (r.ptoks ++ ([[')']] ++ rest)))) (i + 1) = .ok (t', n') ∧
        Narsese.Session h' n' ∧ Built n n' t t' i (.node s l.ntree r.ntree) := by
    intro s l r fuel h n t i rest hlen hl hr ihl ihr hs hfit hht hsz hemp
    cases fuel with
    | zero => simp [NTree.height] at hht
    | succ fuel =>
      simp only [NTree.height] at hht
      obtain ⟨hi, fl, fr⟩ := hfit
      obtain ⟨a, n1, t1, e1, e2, hs1, et, h0, hname, b1⟩ := built_leaf hs s (by rw [List.take_of_length_le (by omega)]; exact hsz.root) t i hi hemp
      rw [List.take_of_length_le (by omega)] at b1
      have emp1 : ∀ k, k ≠ i → t1.get k = t.get k := by intro k hk; rw [et]; exact Term.get_put_ne t _ hk
      have room1 := b1.room
      simp only [NTree.leaf, NTree.size] at room1
      obtain ⟨h2, n2, t2, e3, hs2, b2⟩ := ihl fuel _ n1 t1 (2 * i + 1) (r.ptoks ++ ([[')']] ++ rest)) hs1 fl (by omega) (hsz.left b1)
        (fun p => by rw [emp1 _ (Ne.symm (path_root_left p))]; exact hemp (false :: p))
      have room2 := b2.room
      obtain ⟨h3, n3, t3, e4, hs3, b3⟩ := ihr fuel _ n2 t2 (2 * i + 2) ([[')']] ++ rest) hs2 fr (by omega) (hsz.right b1 b2)
        (fun p => by
          rw [b2.outside _ fun q => Ne.symm (path_sides q p), emp1 _ (Ne.symm (path_root_right p))]
          exact hemp (true :: p))
      refine ⟨h3, n3, t3, ?_, hs3, built_node b1 b2 b3⟩
      unfold buildBinaryTree
      rw [if_pos rfl]
      simp only
      have hne1 : (l.ptoks ++ (r.ptoks ++ ([[')']] ++ rest))) ≠ [] := by
        have := toks_pos l
        rw [← ptoks_length] at this
        intro e
        rw [List.append_eq_nil_iff] at e
        rw [e.1] at this
        simp at this
      have hne2 : (r.ptoks ++ ([[')']] ++ rest)) ≠ [] := by simp
      rw [(skip_toks hl 0 _ (Int.le_refl _)).2, if_pos rfl, e1]
      simp only [R.ok_bind]
      rw [e2]
      simp only [R.ok_bind]
      rw [if_neg hne1]
      have i1 : (i + 1) * 2 = 2 * i + 1 + 1 := by omega
      have i2 : (i + 1) * 2 + 1 = 2 * i + 2 + 1 := by omega
      rw [i1, e3]
      simp only [R.ok_bind]
      rw [if_neg hne2]
      have : 2 * i + 1 + 1 + 1 = 2 * i + 2 + 1 := by omega
      rw [this, e4]
  have single : ∀ (s : CStr) (l : Expr) (fuel : Nat) (h : List (CStr × Nat)) (n : Narsese) (t : Term) (i : Nat) (rest : List CStr),
      s.length = 1 → l.WellFormed →
      (∀ (fuel : Nat) (h : List (CStr × Nat)) (n : Narsese) (t : Term) (i : Nat) (rest : List CStr), Narsese.Session h n →
        l.ntree.Fits i → l.ntree.height ≤ fuel → n.Room l.ntree → (∀ p, t.get (pathPos i p) = 0) →
        ∃ h' n' t', buildBinaryTree fuel n t (l.ptoks ++ rest) (i + 1) = .ok (t', n') ∧ Narsese.Session h' n' ∧
          Built n n' t t' i l.ntree) →
      Narsese.Session h n → (NTree.node s l.ntree (.leaf [SET_TERMINATOR])).Fits i →
      (NTree.node s l.ntree (.leaf [SET_TERMINATOR])).height ≤ fuel →
      n.Room (NTree.node s l.ntree (.leaf [SET_TERMINATOR])) → (∀ p, t.get (pathPos i p) = 0) →
      ∃ h' n' t', buildBinaryTree fuel n t (['('] :: s :: (l.ptoks ++ ([[')']] ++ rest))) (i + 1) = .ok (t', n') ∧
        Narsese.Session h' n' ∧ Built n n' t t' i (.node s l.ntree (.leaf [SET_TERMINATOR])) := by
    intro s l fuel h n t i rest hlen hl ihl hs hfit hht hsz hemp
    cases fuel with
    | zero => simp [NTree.height] at hht
    | succ fuel =>
      simp only [NTree.height, NTree.leaf] at hht
      obtain ⟨hi, fl, fr⟩ := hfit
      obtain ⟨a, n1, t1, e1, e2, hs1, et, h0, hname, b1⟩ := built_leaf hs s (by rw [List.take_of_length_le (by omega)]; exact hsz.root) t i hi hemp
      rw [List.take_of_length_le (by omega)] at b1
      have emp1 : ∀ k, k ≠ i → t1.get k = t.get k := by intro k hk; rw [et]; exact Term.get_put_ne t _ hk
      have room1 := b1.room
      simp only [NTree.leaf, NTree.size] at room1
      obtain ⟨h2, n2, t2, e3, hs2, b2⟩ := ihl fuel _ n1 t1 (2 * i + 1) ([[')']] ++ rest) hs1 fl (by omega) (hsz.left b1)
        (fun p => by rw [emp1 _ (Ne.symm (path_root_left p))]; exact hemp (false :: p))
      have room2 := b2.room
      obtain ⟨a3, n3, t3, e4, e5, hs3, _, _, _, b3⟩ := built_leaf hs2 [SET_TERMINATOR] (hsz.right b1 b2) t2 (2 * i + 2) fr.1
        (fun p => by
          rw [b2.outside _ fun q => Ne.symm (path_sides q p), emp1 _ (Ne.symm (path_root_right p))]
          exact hemp (true :: p))
      refine ⟨_, n3, t3, ?_, hs3, built_node b1 b2 b3⟩
      unfold buildBinaryTree
      rw [if_pos rfl]
      simp only
      have hne1 : (l.ptoks ++ ([[')']] ++ rest)) ≠ [] := by simp
      have hne2 : ([[')']] ++ rest : List CStr) ≠ [] := by simp
      rw [(skip_toks hl 0 _ (Int.le_refl _)).2, if_pos rfl, e1]
      simp only [R.ok_bind]
      rw [e2]
      simp only [R.ok_bind]
      rw [if_neg hne1]
      have i1 : (i + 1) * 2 = 2 * i + 1 + 1 := by omega
      rw [i1, e3]
      simp only [R.ok_bind]
      rw [if_neg hne2]
      have i2 : 2 * i + 1 + 1 + 1 = 2 * i + 2 + 1 := by omega
      rw [i2]
      cases fuel with
      | zero => omega
      | succ fuel =>
        simp only [List.cons_append, List.nil_append]
        unfold buildBinaryTree
        rw [if_neg (by decide), cassert_true (by simpa using fr.1)]
        simp only [R.ok_bind]
        rw [if_neg (by simp)]
        have : Narsese_CopulaIndex n2 SET_TERMINATOR = .ok (a3, n3) := e4
        rw [this]
        simp only [R.ok_bind]
        rw [e5]
        rfl
  induction e with
  | atom w =>
    intro fuel h n t i rest hs hfit hht hsz hemp
    cases fuel with
    | zero => simp [Expr.ntree, NTree.leaf, NTree.height] at hht
    | succ fuel =>
      obtain ⟨hw1, hw2⟩ := name_word he
      obtain ⟨a, n1, t1, e1, e2, hs1, et, h0, hname, b1⟩ := built_leaf hs w hsz t i hfit.1 hemp
      refine ⟨_, n1, t1, ?_, hs1, b1⟩
      simp only [Expr.ptoks, List.cons_append, List.nil_append]
      unfold buildBinaryTree
      rw [if_neg hw1, cassert_true (by simpa using hfit.1)]
      simp only [R.ok_bind]
      rw [if_pos hw2, e1]
      simp only [R.ok_bind]
      rw [e2]
      rfl
  | infx a l c r ihl ihr =>
    intro fuel h n t i rest hs hfit hht hsz hemp
    have := pair [c.2] l r fuel h n t i rest rfl he.2.1 he.2.2 (ihl he.2.1) (ihr he.2.2) hs hfit hht hsz hemp
    simpa [Expr.ptoks, Expr.ntree] using this
  | pre c l r ihl ihr =>
    intro fuel h n t i rest hs hfit hht hsz hemp
    have := pair [c.2] l r fuel h n t i rest rfl he.2.1 he.2.2 (ihl he.2.1) (ihr he.2.2) hs hfit hht hsz hemp
    simpa [Expr.ptoks, Expr.ntree] using this
  | pre1 c l ihl =>
    intro fuel h n t i rest hs hfit hht hsz hemp
    have := single [c.2] l fuel h n t i rest rfl he.2 (ihl he.2) hs hfit hht hsz hemp
    simpa [Expr.ptoks, Expr.ntree] using this
  | set1 a l ihl =>
    intro fuel h n t i rest hs hfit hht hsz hemp
    have := single (Expr.setName a) l fuel h n t i rest (by rw [hset]; rfl) he (ihl he) hs hfit hht hsz hemp
    simpa [Expr.ptoks, Expr.ntree, hset] using this
  | set2 a l r ihl ihr =>
    intro fuel h n t i rest hs hfit hht hsz hemp
    have := pair (Expr.setName a) l r fuel h n t i rest (by rw [hset]; rfl) he.1 he.2 (ihl he.1) (ihr he.2) hs hfit hht hsz hemp
    simpa [Expr.ptoks, Expr.ntree, hset] using this

end ONA
