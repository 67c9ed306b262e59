import Verif.Proofs.Table
import Verif.Props.Truth
import Verif.Props.Stamp
/-
Properties of the implication tables (src/Table.c): C11, C12, C13, C52.
-/
namespace ONA
open TableSpec

section
variable [Arith]

/-- Tables as the system builds them: empty at first, then changed by successful add-and-revise calls and by removals
of existing entries. -/
inductive Table.Reach : Table → Prop where
  | zero : Table.Reach Table.zero
  | add {t t' : Table} {imp : Implication} {r : Option Nat} : Table.Reach t →
      Table_AddAndRevise t imp = .ok (r, t') → Table.Reach t'
  | remove {t : Table} {i : Nat} : Table.Reach t → i < t.itemsAmount → Table.Reach (Table_Remove t i)

theorem insert_perm (x : Implication) (l : List Implication) : (insert x l).Perm (x :: l) := by
  unfold TableSpec.insert
  refine List.perm_middle.trans ?_
  rw [List.takeWhile_append_dropWhile]

/-- Ranking is kept by an insertion of a new statement. -/
theorem insert_ranked {x : Implication} {l : List Implication} (hr : Ranked l) (hx : ∀ e ∈ l, e.term ≠ x.term) :
    Ranked (insert x l) := by
  have hk : ∀ e ∈ l, (keeps x e = true ↔ Truth_Expectation x.truth ≤ Truth_Expectation e.truth) := by
    intro e he
    unfold keeps
    rw [if_neg (hx e he), decide_eq_true_iff]
  have hsplit : l = l.takeWhile (keeps x) ++ l.dropWhile (keeps x) := (List.takeWhile_append_dropWhile).symm
  have hr' := hr
  unfold Ranked at hr'
  rw [hsplit, List.pairwise_append] at hr'
  obtain ⟨p1, p2, p3⟩ := hr'
  have hdrop : ∀ e ∈ l.dropWhile (keeps x), Truth_Expectation e.truth ≤ Truth_Expectation x.truth := by
    intro e he
    match hd : l.dropWhile (keeps x) with
    | [] => rw [hd] at he; cases he
    | d :: ds =>
      have hdl : d ∈ l := by rw [hsplit, hd]; simp
      have hfail : keeps x d = false := by
        have := List.head_dropWhile_not (keeps x) (l := l) (by rw [hd]; simp)
        simpa [hd] using this
      have hdx : Truth_Expectation d.truth < Truth_Expectation x.truth := by
        by_contra hc
        rw [(hk d hdl).2 (not_lt.1 hc)] at hfail
        cases hfail
      rw [hd] at he p2
      rcases List.mem_cons.1 he with rfl | he
      · exact le_of_lt hdx
      · exact le_trans (List.rel_of_pairwise_cons p2 he) (le_of_lt hdx)
  unfold Ranked TableSpec.insert
  rw [List.pairwise_append]
  refine ⟨p1, List.pairwise_cons.2 ⟨hdrop, p2⟩, ?_⟩
  intro a ha b hb
  have ha1 : Truth_Expectation x.truth ≤ Truth_Expectation a.truth :=
    (hk a ((List.takeWhile_sublist _).subset ha)).1 (List.mem_takeWhile_imp ha)
  rcases List.mem_cons.1 hb with rfl | hb
  · exact ha1
  · exact p3 a ha b hb

theorem insert_nodup {x : Implication} {l : List Implication} (hn : NoDup l) (hx : ∀ e ∈ l, e.term ≠ x.term) :
    NoDup (insert x l) := by
  unfold NoDup
  rw [(insert_perm x l).pairwise_iff (fun h => Ne.symm h)]
  exact List.pairwise_cons.2 ⟨fun e he => (hx e he).symm, hn⟩

/-- What is known of every table of the system. -/
structure Table.Inv (t : Table) : Prop where
  bound : t.itemsAmount ≤ TABLE_SIZE
  ranked : Ranked t.entries
  nodup : NoDup t.entries
  source : ∀ e ∈ t.entries, e.sourceConcept.isSome

omit [Arith] in
theorem mem_entries {t : Table} {e : Implication} : e ∈ t.entries ↔ ∃ i, i < t.itemsAmount ∧ t.array i = e := by
  simp [Table.entries]

/-- Entries about another statement than the one at index `i`. -/
theorem eraseIdx_eq_filter {t : Table} (h : t.Inv) {i : Nat} (hi : i < t.itemsAmount) :
    t.entries.eraseIdx i = t.entries.filter fun e => decide (e.term ≠ (t.array i).term) := by
  have hlen := t.entries_length
  have hil : i < t.entries.length := by omega
  have hs : t.entries = t.entries.take i ++ t.array i :: t.entries.drop (i + 1) := by
    conv_lhs => rw [← List.take_append_drop i t.entries, List.drop_eq_getElem_cons hil, t.entries_getElem]
  have hn := h.nodup
  unfold NoDup at hn
  rw [hs, List.pairwise_append] at hn
  obtain ⟨_, n2, n3⟩ := hn
  rw [List.eraseIdx_eq_take_drop_succ]
  conv_rhs => rw [hs]
  rw [List.filter_append, List.filter_cons, if_neg (by simp)]
  congr 1
  · symm
    apply List.filter_eq_self.2
    intro e he
    simpa using n3 e he (t.array i) (by simp)
  · symm
    apply List.filter_eq_self.2
    intro e he
    simpa using Ne.symm (List.rel_of_pairwise_cons n2 he)

theorem Table.Inv.sub {t t' : Table} (h : t.Inv) (hs : t'.entries.Sublist t.entries) : t'.Inv where
  bound := by
    have := hs.length_le
    rw [Table.entries_length, Table.entries_length] at this
    exact Nat.le_trans this h.bound
  ranked := h.ranked.sublist hs
  nodup := h.nodup.sublist hs
  source := fun e he => h.source e (hs.subset he)

/-- Inserting a new statement into a table keeps the invariant. -/
theorem Table.Inv.insert {t t' : Table} (h : t.Inv) {x : Implication} (hx : ∀ e ∈ t.entries, e.term ≠ x.term)
    (hs : x.sourceConcept.isSome) (he : t'.entries = (TableSpec.insert x t.entries).take TABLE_SIZE) : t'.Inv where
  bound := by rw [← t'.entries_length, he, List.length_take]; exact Nat.min_le_left _ _
  ranked := by rw [he]; exact (insert_ranked h.ranked hx).sublist (List.take_sublist _ _)
  nodup := by rw [he]; exact (insert_nodup h.nodup hx).sublist (List.take_sublist _ _)
  source := by
    intro e hm
    rw [he] at hm
    rcases List.mem_cons.1 ((insert_perm x _).mem_iff.1 (List.mem_of_mem_take hm)) with rfl | hm
    · exact hs
    · exact h.source e hm

/-- What add-and-revise does with a statement that is not in the table. -/
theorem addAndRevise_new {t : Table} (h : t.Inv) {x : Implication} (hx : ∀ e ∈ t.entries, e.term ≠ x.term)
    (hs : x.sourceConcept.isSome) :
    ∃ t', Table_AddAndRevise t x = .ok ((if (t.entries.takeWhile (keeps x)).length < TABLE_SIZE
      then some (t.entries.takeWhile (keeps x)).length else none), t') ∧
      t'.entries = (TableSpec.insert x t.entries).take TABLE_SIZE ∧ t'.Inv := by
  obtain ⟨t', e1, e2⟩ := t.add_spec x h.bound hs
  refine ⟨t', ?_, e2, h.insert hx hs e2⟩
  have hf := t.findTerm_spec x.term t.itemsAmount (Nat.le_refl _) (by intro m hm; omega)
  unfold Table_AddAndRevise
  cases hft : t.findTerm x.term t.itemsAmount with
  | some i =>
    rw [hft] at hf
    exact absurd hf.2 (hx _ (mem_entries.2 ⟨i, hf.1, rfl⟩))
  | none => exact e1

/-- What add-and-revise does with a statement that is in the table, given that the revision is defined. -/
theorem addAndRevise_known {t : Table} (h : t.Inv) {x old : Implication} (hold : old ∈ t.entries)
    (hterm : old.term = x.term) :
    Table_AddAndRevise t x = (do
      Table.assertTruth old.truth "(1)"
      Table.assertTruth x.truth "(2)"
      let revised ← Inference_ImplicationRevision old x
      Table.assertTruth revised.truth "(3)"
      let revised := { revised with term := x.term }
      let i := (t.entries.filter (fun e => decide (e.term ≠ x.term))).takeWhile (keeps revised)
      (Except.ok (some i.length, (Table.addLoop (Table_Remove t (t.entries.findIdx fun e => decide (e.term = x.term))) revised TABLE_SIZE).2))) ∧
    (∀ revised : Implication, revised.term = x.term → revised.sourceConcept.isSome →
      let t' := (Table.addLoop (Table_Remove t (t.entries.findIdx fun e => decide (e.term = x.term))) revised TABLE_SIZE).2
      t'.entries = TableSpec.insert revised (t.entries.filter fun e => decide (e.term ≠ x.term)) ∧ t'.Inv) := by
  have hf := t.findTerm_spec x.term t.itemsAmount (Nat.le_refl _) (by intro m hm; omega)
  obtain ⟨k, hk, hka⟩ := mem_entries.1 hold
  cases hft : t.findTerm x.term t.itemsAmount with
  | none =>
    rw [hft] at hf
    exact absurd (by rw [hka, hterm]) (hf k hk)
  | some i =>
    rw [hft] at hf
    obtain ⟨hi, hit⟩ := hf
    -- the position is unique
    have huniq : ∀ j, j < t.itemsAmount → (t.array j).term = x.term → j = i := by
      intro j hj hjt
      by_contra hne
      have hn := List.pairwise_iff_getElem.1 h.nodup
      have hlen := t.entries_length
      rcases Nat.lt_or_ge j i with hlt | hge
      · have := hn j i (by omega) (by omega) hlt
        rw [t.entries_getElem, t.entries_getElem, hjt, hit] at this
        exact this rfl
      · have := hn i j (by omega) (by omega) (by omega)
        rw [t.entries_getElem, t.entries_getElem, hjt, hit] at this
        exact this rfl
    have hki : k = i := huniq k hk (by rw [hka, hterm])
    have hidx : t.entries.findIdx (fun e => decide (e.term = x.term)) = i := by
      have hlen := t.entries_length
      rw [List.findIdx_eq (by omega)]
      refine ⟨by rw [t.entries_getElem]; simpa using hit, ?_⟩
      intro j hj
      rw [t.entries_getElem]
      by_contra hc
      have hc' : (t.array j).term = x.term := by simpa using hc
      have := huniq j (by omega) hc'
      omega
    have hrem : (Table_Remove t i).entries = t.entries.filter fun e => decide (e.term ≠ x.term) := by
      rw [t.remove_entries i hi, eraseIdx_eq_filter h hi, hit]
    have hinv : (Table_Remove t i).Inv := h.sub (by rw [hrem]; exact List.filter_sublist)
    have hcount : (Table_Remove t i).itemsAmount + 1 ≤ TABLE_SIZE := by
      show t.itemsAmount - 1 + 1 ≤ TABLE_SIZE
      have := h.bound
      omega
    have hnot : ∀ e ∈ (Table_Remove t i).entries, e.term ≠ x.term := by
      intro e he
      rw [hrem] at he
      simpa using (List.mem_filter.1 he).2
    have hshort : ∀ revised : Implication, ((Table_Remove t i).entries.takeWhile (keeps revised)).length < TABLE_SIZE := by
      intro revised
      have := (List.takeWhile_sublist (keeps revised) (l := (Table_Remove t i).entries)).length_le
      rw [Table.entries_length] at this
      omega
    have hloop : ∀ revised : Implication,
        ((Table_Remove t i).addLoop revised TABLE_SIZE).2.entries = TableSpec.insert revised (Table_Remove t i).entries ∧
        ((Table_Remove t i).addLoop revised TABLE_SIZE).1 = some ((Table_Remove t i).entries.takeWhile (keeps revised)).length := by
      intro revised
      obtain ⟨a1, a2⟩ := (Table_Remove t i).addLoop_spec revised hinv.bound TABLE_SIZE (Nat.le_refl _) (by omega)
        (by intro m hm; omega)
      refine ⟨?_, ?_⟩
      · rw [a1, List.take_of_length_le]
        rw [(insert_perm _ _).length_eq, List.length_cons, Table.entries_length]
        exact hcount
      · rw [a2, if_pos (hshort revised)]
    constructor
    · unfold Table_AddAndRevise
      rw [hft]
      simp only
      rw [hidx]
      have : t.array i = old := by rw [← hki]; exact hka
      rw [this]
      have hsrc : ∀ r : Implication, Inference_ImplicationRevision old x = .ok r → r.sourceConcept.isSome := by
        intro r hr
        unfold Inference_ImplicationRevision at hr
        simp only [R.bind_eq_ok] at hr
        obtain ⟨_, _, _, _, _, _, _, _, hr⟩ := hr
        cases hr
        exact h.source old hold
      cases Table.assertTruth old.truth "(1)" with
      | error _ => rfl
      | ok _ =>
        cases Table.assertTruth x.truth "(2)" with
        | error _ => rfl
        | ok _ =>
          cases hrv : Inference_ImplicationRevision old x with
          | error _ => rfl
          | ok rv =>
            simp only [R.ok_bind]
            cases Table.assertTruth rv.truth "(3)" with
            | error _ => rfl
            | ok _ =>
              simp only [R.ok_bind]
              obtain ⟨b1, b2⟩ := hloop { rv with term := x.term }
              unfold Table_Add
              rw [cassert_true (hsrc rv hrv)]
              simp only [R.ok_bind]
              rw [b2]
              simp only [Option.isSome_some, cassert_true, R.ok_bind]
              rw [hrem]
    · intro revised hr1 hr2
      rw [hidx]
      obtain ⟨b1, b2⟩ := hloop revised
      simp only
      refine ⟨by rw [b1, hrem], ?_⟩
      refine hinv.insert (x := revised) (by rw [hr1]; exact hnot) hr2 ?_
      rw [b1, List.take_of_length_le]
      rw [(insert_perm _ _).length_eq, List.length_cons, Table.entries_length]
      exact hcount

theorem Table.Reach.inv {t : Table} (h : t.Reach) : t.Inv := by
  induction h with
  | zero => exact ⟨Nat.zero_le _, List.Pairwise.nil, List.Pairwise.nil, fun e he => by cases he⟩
  | remove _ hi ih => exact ih.sub (by rw [Table.remove_entries _ _ hi]; exact List.eraseIdx_sublist _ _)
  | @add t t' imp r _ hadd ih =>
    by_cases hx : ∃ old ∈ t.entries, old.term = imp.term
    · obtain ⟨old, hold, hterm⟩ := hx
      obtain ⟨k1, k2⟩ := addAndRevise_known ih hold hterm
      rw [k1] at hadd
      simp only [R.bind_eq_ok] at hadd
      obtain ⟨_, _, _, _, rv, hrv, _, _, hadd⟩ := hadd
      cases hadd
      refine (k2 { rv with term := imp.term } rfl ?_).2
      unfold Inference_ImplicationRevision at hrv
      simp only [R.bind_eq_ok] at hrv
      obtain ⟨_, _, _, _, _, _, _, _, hr⟩ := hrv
      cases hr
      exact ih.source old hold
    · push Not at hx
      have hs : imp.sourceConcept.isSome := by
        by_contra hc
        have hf := t.findTerm_spec imp.term t.itemsAmount (Nat.le_refl _) (by intro m hm; omega)
        unfold Table_AddAndRevise at hadd
        cases hft : t.findTerm imp.term t.itemsAmount with
        | some i =>
          rw [hft] at hf
          exact hx _ (mem_entries.2 ⟨i, hf.1, rfl⟩) hf.2
        | none =>
          rw [hft] at hadd
          unfold Table_Add cassert at hadd
          rw [if_neg hc] at hadd
          cases hadd
      obtain ⟨t'', e1, _, e3⟩ := addAndRevise_new ih hx hs
      rw [e1] at hadd
      cases hadd
      exact e3

/-- **C11.** After any history of add-and-revise and removals, a table has at most `TABLE_SIZE` entries, they are
ordered by truth expectation (highest first), and no two are about the same statement. -/
theorem C11_table (t : Table) (h : t.Reach) :
    t.entries.length ≤ TABLE_SIZE ∧
    (∀ i j, (hij : i < j) → ∀ hj : j < t.entries.length,
      Truth_Expectation t.entries[j].truth ≤ Truth_Expectation (t.entries[i]'(by omega)).truth ∧
      (t.entries[i]'(by omega)).term ≠ t.entries[j].term) := by
  refine ⟨by rw [t.entries_length]; exact h.inv.bound, ?_⟩
  intro i j hij hj
  exact ⟨List.pairwise_iff_getElem.1 h.inv.ranked i j (by omega) hj hij,
    List.pairwise_iff_getElem.1 h.inv.nodup i j (by omega) hj hij⟩

omit [Arith] in
/-- **C11 (removal).** Removing an entry removes exactly that entry. -/
theorem C11_remove (t : Table) (i : Nat) (h : i < t.itemsAmount) :
    (Table_Remove t i).entries = t.entries.eraseIdx i := t.remove_entries i h

/-- **C11 (new link).** Adding a link about a new statement never fails. If the table is full and no entry has a lower
expectation, nothing changes and NULL is returned. Otherwise the result points to the new link, all old entries
stay except that a full table loses its last (lowest) one. (The header comment src/Table.h 33-34, "it will still
replace the lowest", does not describe the code.) -/
theorem C11_add_new (t : Table) (h : t.Reach) (x : Implication) (hx : ∀ e ∈ t.entries, e.term ≠ x.term)
    (hs : x.sourceConcept.isSome) :
    ∃ r t', Table_AddAndRevise t x = .ok (r, t') ∧
      (t.entries.length = TABLE_SIZE ∧ (∀ e ∈ t.entries, Truth_Expectation x.truth ≤ Truth_Expectation e.truth) →
        r = none ∧ t'.entries = t.entries) ∧
      (¬ (t.entries.length = TABLE_SIZE ∧ ∀ e ∈ t.entries, Truth_Expectation x.truth ≤ Truth_Expectation e.truth) →
        (∃ i, r = some i ∧ t'.entries[i]? = some x) ∧
        (t.entries.length < TABLE_SIZE → t'.entries.Perm (x :: t.entries)) ∧
        (t.entries.length = TABLE_SIZE → t'.entries.Perm (x :: t.entries.dropLast))) := by
  have hi := h.inv
  obtain ⟨t', e1, e2, e3⟩ := addAndRevise_new hi hx hs
  have hk : ∀ e ∈ t.entries, (keeps x e = true ↔ Truth_Expectation x.truth ≤ Truth_Expectation e.truth) := by
    intro e he
    unfold keeps
    rw [if_neg (hx e he), decide_eq_true_iff]
  have hb := hi.bound
  rw [← t.entries_length] at hb
  refine ⟨_, t', e1, ?_, ?_⟩
  · rintro ⟨hfull, hall⟩
    have htw : t.entries.takeWhile (keeps x) = t.entries :=
      List.takeWhile_eq_self_iff.2 fun e he => (hk e he).2 (hall e he)
    rw [htw, if_neg (by omega)]
    refine ⟨rfl, ?_⟩
    rw [e2]
    unfold TableSpec.insert
    rw [htw, List.take_append_of_le_length (by omega), List.take_of_length_le (by omega)]
  · intro hnot
    have hlt : (t.entries.takeWhile (keeps x)).length < TABLE_SIZE := by
      have hle := (List.takeWhile_sublist (keeps x) (l := t.entries)).length_le
      by_contra hc
      apply hnot
      have hlen : t.entries.length = TABLE_SIZE := by omega
      refine ⟨hlen, ?_⟩
      have heq : t.entries.takeWhile (keeps x) = t.entries :=
        (List.takeWhile_sublist (keeps x)).eq_of_length (by omega)
      exact fun e he => (hk e he).1 (List.takeWhile_eq_self_iff.1 heq e he)
    rw [if_pos hlt]
    refine ⟨⟨_, rfl, ?_⟩, ?_, ?_⟩
    · rw [e2, List.getElem?_take_of_lt hlt]
      unfold TableSpec.insert
      rw [List.getElem?_append_right (Nat.le_refl _), Nat.sub_self]; rfl
    · intro hl
      rw [e2, List.take_of_length_le]
      · exact insert_perm x _
      · rw [(insert_perm x _).length_eq]; rw [List.length_cons]; omega
    · intro hl
      rw [e2]
      unfold TableSpec.insert
      have hd : t.entries.dropWhile (keeps x) ≠ [] := by
        intro hnil
        have := congrArg List.length (List.takeWhile_append_dropWhile (p := keeps x) (l := t.entries))
        rw [hnil, List.append_nil] at this
        omega
      have hlen := congrArg List.length (List.takeWhile_append_dropWhile (p := keeps x) (l := t.entries))
      rw [List.length_append] at hlen
      have hpos := List.length_pos_iff.2 hd
      rw [List.take_append, List.take_of_length_le (by omega)]
      obtain ⟨n, hn⟩ : ∃ n, TABLE_SIZE - (t.entries.takeWhile (keeps x)).length = n + 1 := ⟨_, (Nat.sub_add_cancel (by omega)).symm⟩
      rw [hn, List.take_succ_cons]
      have : (t.entries.dropWhile (keeps x)).take n = (t.entries.dropWhile (keeps x)).dropLast := by
        rw [List.dropLast_eq_take]; congr 1; omega
      rw [this]
      refine List.perm_middle.trans ?_
      rw [← List.dropLast_append_of_ne_nil hd, List.takeWhile_append_dropWhile]

/-- **C12.** Adding a link about a known statement, with valid truth values that can be revised, never fails: it
replaces the stored entry by one with the same statement, the revised truth value, the merged stamp, the latest
creation time and the stored source; every other entry stays, and nothing is added or lost. -/
theorem C12_merge (t : Table) (h : t.Reach) (old x : Implication) (hold : old ∈ t.entries) (hterm : old.term = x.term)
    (h1 : old.truth.Valid) (h2 : x.truth.Valid) (hc1 : old.truth.confidence < 1) (hc2 : x.truth.confidence < 1)
    (hpos : 0 < old.truth.confidence ∨ 0 < x.truth.confidence) :
    ∃ i t' merged, Table_AddAndRevise t x = .ok (some i, t') ∧ t'.entries[i]? = some merged ∧
      merged.term = x.term ∧ Truth_Revision old.truth x.truth = .ok merged.truth ∧ merged.truth.Valid ∧
      merged.stamp = Stamp_make old.stamp x.stamp ∧ merged.creationTime = max old.creationTime x.creationTime ∧
      merged.sourceConcept = old.sourceConcept ∧ merged.sourceConceptId = old.sourceConceptId ∧
      t'.entries.Perm (merged :: t.entries.filter fun e => decide (e.term ≠ x.term)) ∧
      t'.entries.length = t.entries.length := by
  have hi := h.inv
  obtain ⟨k1, k2⟩ := addAndRevise_known hi hold hterm
  obtain ⟨tr, etr, vtr, -⟩ := C22_revision_defined_partial old.truth x.truth h1 h2 hc1 hc2 hpos
  obtain ⟨w1, ew1, r1, l1⟩ := c2w_spec h1.c hc1
  obtain ⟨w2, ew2, r2, l2⟩ := c2w_spec h2.c hc2
  have hw1 : 0 ≤ w1 := le_trans h1.c_nonneg l1
  have hw2 : 0 ≤ w2 := le_trans h2.c_nonneg l2
  have hw : fadd w1 w2 ≠ 0 := by
    have : 0 < fadd w1 w2 := by
      rcases hpos with hp | hp
      · have : w1 ≤ fadd w1 w2 := le_rnd r1 (by linarith)
        linarith
      · have : w2 ≤ fadd w1 w2 := le_rnd r2 (by linarith)
        linarith
    exact ne_of_gt this
  have hrev : ∃ o, Inference_ImplicationRevision old x = .ok
      { term := old.term, truth := tr, stamp := Stamp_make old.stamp x.stamp, occurrenceTimeOffset := o
        sourceConcept := old.sourceConcept, sourceConceptId := old.sourceConceptId
        creationTime := max old.creationTime x.creationTime } := by
    unfold Inference_ImplicationRevision weighted_average fdiv
    rw [ew1, ew2, etr]
    simp only [R.ok_bind]
    rw [if_neg hw]
    exact ⟨_, rfl⟩
  obtain ⟨o, hrev⟩ := hrev
  have hassert : ∀ (v : Truth) (s : String), v.Valid → Table.assertTruth v s = .ok () := by
    intro v s hv
    unfold Table.assertTruth
    rw [cassert_true (by simp [hv.f_nonneg, hv.f_le]), R.ok_bind, cassert_true (by simp [hv.c_nonneg, hv.c_le])]
  rw [hassert _ _ h1, hassert _ _ h2, hrev] at k1
  simp only [R.ok_bind] at k1
  rw [hassert _ _ vtr] at k1
  simp only [R.ok_bind] at k1
  obtain ⟨k3, k4⟩ := k2 { term := x.term, truth := tr, stamp := Stamp_make old.stamp x.stamp, occurrenceTimeOffset := o
                          sourceConcept := old.sourceConcept, sourceConceptId := old.sourceConceptId
                          creationTime := max old.creationTime x.creationTime } rfl (hi.source old hold)
  refine ⟨_, _, { term := x.term, truth := tr, stamp := Stamp_make old.stamp x.stamp, occurrenceTimeOffset := o
                  sourceConcept := old.sourceConcept, sourceConceptId := old.sourceConceptId
                  creationTime := max old.creationTime x.creationTime }, k1, ?_, rfl, etr, vtr, rfl, rfl, rfl, rfl, ?_, ?_⟩
  · rw [k3]
    unfold TableSpec.insert
    rw [List.getElem?_append_right (Nat.le_refl _), Nat.sub_self]; rfl
  · rw [k3]; exact insert_perm _ _
  · rw [k3, (insert_perm _ _).length_eq, List.length_cons]
    obtain ⟨k, hk, hka⟩ := mem_entries.1 hold
    have := eraseIdx_eq_filter hi hk
    rw [hka, hterm] at this
    rw [← this, List.length_eraseIdx_of_lt (by rw [t.entries_length]; exact hk)]
    have := t.entries_length
    omega

end

/-! ### Exact arithmetic: C13, C52 -/
section
attribute [local instance] exactArith

/-- A link `<1 =/> 2>` (atoms chosen arbitrarily) with one piece of evidence, used as an example. -/
def exampleLink (f c : ℚ) (id : Int) (offset : ℚ) : Implication :=
  { term := ((Term.zero.put 0 46).put 1 64).put 2 65, truth := ⟨f, c⟩, stamp := Stamp.single id
    occurrenceTimeOffset := offset, sourceConcept := some 3, sourceConceptId := 7, creationTime := 5 }

theorem valid_exact {f c : ℚ} (h1 : 0 ≤ f) (h2 : f ≤ 1) (h3 : 0 ≤ c) (h4 : c ≤ 1) : (Truth.mk f c).Valid :=
  ⟨rfl, rfl, h1, h2, h3, h4⟩

theorem exampleLink_add : ∃ t, Table_AddAndRevise Table.zero (exampleLink 1 (1 / 2) 1 10) = .ok (some 0, t) ∧
    t.entries = [exampleLink 1 (1 / 2) 1 10] := by
  obtain ⟨t', e1, e2, -⟩ := addAndRevise_new (t := Table.zero) Table.Reach.zero.inv (x := exampleLink 1 (1 / 2) 1 10)
    (fun e he => by cases he) rfl
  exact ⟨t', e1, e2⟩

/-- **C13 is false of the code:** adding the very same link (same evidence) a second time raises its confidence from
1/2 to 2/3, although the two evidential bases overlap. -/
theorem C13_double_counted : ∃ (t t' : Table) (x merged : Implication) (i : Nat), t.Reach ∧ x ∈ t.entries ∧
    Stamp_checkOverlap x.stamp x.stamp = true ∧ Table_AddAndRevise t x = .ok (some i, t') ∧
    t'.entries[i]? = some merged ∧ x.truth.confidence = 1 / 2 ∧ merged.truth.confidence = 2 / 3 := by
  obtain ⟨t, e1, e2⟩ := exampleLink_add
  have hr : t.Reach := .add .zero e1
  have hm : exampleLink 1 (1 / 2) 1 10 ∈ t.entries := by rw [e2]; simp
  have hv : (exampleLink 1 (1 / 2) 1 10).truth.Valid := valid_exact (by norm_num) (by norm_num) (by norm_num) (by norm_num)
  obtain ⟨i, t', merged, m1, m2, m3, m4, -⟩ := C12_merge t hr _ _ hm rfl hv hv
    (by norm_num [exampleLink]) (by norm_num [exampleLink]) (Or.inl (by norm_num [exampleLink]))
  refine ⟨t, t', _, merged, i, hr, hm, by decide +kernel, m1, m2, rfl, ?_⟩
  obtain ⟨-, e⟩ := revision_exact (exampleLink 1 (1 / 2) 1 10).truth (exampleLink 1 (1 / 2) 1 10).truth
    (by norm_num [exampleLink]) (by norm_num [exampleLink]) (by norm_num [exampleLink]) (by norm_num [exampleLink])
    (Or.inl (by norm_num [exampleLink]))
  rw [e] at m4
  have := congrArg Truth.confidence (Except.ok.inj m4)
  rw [← this]
  norm_num [exampleLink, NAL.weight]

/-- **C13 (what holds).** If the evidential bases do not overlap, the amounts of evidence add up (below the cap) and, as
long as it fits, the merged base lists each piece of evidence of both links. -/
theorem C13_disjoint_partial (t : Table) (h : t.Reach) (old x : Implication) (hold : old ∈ t.entries)
    (hterm : old.term = x.term) (h1 : old.truth.Valid) (h2 : x.truth.Valid) (hc1 : old.truth.confidence < 1)
    (hc2 : x.truth.confidence < 1) (hpos : 0 < old.truth.confidence ∨ 0 < x.truth.confidence)
    (hdis : Stamp_checkOverlap old.stamp x.stamp = false) (hfit : old.stamp.ids.length + x.stamp.ids.length ≤ STAMP_SIZE)
    (hn1 : old.stamp.ids.Nodup) (hn2 : x.stamp.ids.Nodup) :
    ∃ i t' merged, Table_AddAndRevise t x = .ok (some i, t') ∧ t'.entries[i]? = some merged ∧
      merged.stamp.ids.Perm (old.stamp.ids ++ x.stamp.ids) ∧ merged.stamp.ids.Nodup ∧
      (merged.truth.confidence < 99 / 100 →
        NAL.weight merged.truth.confidence = NAL.weight old.truth.confidence + NAL.weight x.truth.confidence) := by
  obtain ⟨i, t', merged, m1, m2, -, m4, -, m6, -⟩ := C12_merge t h old x hold hterm h1 h2 hc1 hc2 hpos
  have hp := C16_complete old.stamp x.stamp hfit
  refine ⟨i, t', merged, m1, m2, by rw [m6]; exact hp, ?_, ?_⟩
  · rw [m6, hp.nodup_iff, List.nodup_append]
    refine ⟨hn1, hn2, ?_⟩
    intro a ha b hb hab
    subst hab
    have := (C17_overlap_iff old.stamp x.stamp).2 ⟨a, ha, hb⟩
    rw [hdis] at this
    cases this
  · obtain ⟨tr, e1, -, -, e4, -⟩ := C21_revision old.truth x.truth h1 hc1 h2 hc2 hpos
    rw [m4] at e1
    cases e1
    exact e4

/-- **C52.** The time offset of a merged link is the mean of the two offsets, weighted with the amounts of evidence;
hence it lies between them, and is at least as close to the offset of the more confident link. -/
theorem C52_offset (a b : Implication) (h1 : 0 ≤ a.truth.confidence) (h1' : a.truth.confidence < 1)
    (h2 : 0 ≤ b.truth.confidence) (h2' : b.truth.confidence < 1)
    (hpos : 0 < a.truth.confidence ∨ 0 < b.truth.confidence) :
    ∃ r, Inference_ImplicationRevision a b = .ok r ∧
      r.occurrenceTimeOffset * (NAL.weight a.truth.confidence + NAL.weight b.truth.confidence) =
        a.occurrenceTimeOffset * NAL.weight a.truth.confidence + b.occurrenceTimeOffset * NAL.weight b.truth.confidence ∧
      min a.occurrenceTimeOffset b.occurrenceTimeOffset ≤ r.occurrenceTimeOffset ∧
      r.occurrenceTimeOffset ≤ max a.occurrenceTimeOffset b.occurrenceTimeOffset ∧
      (b.truth.confidence ≤ a.truth.confidence →
        |r.occurrenceTimeOffset - a.occurrenceTimeOffset| ≤ |r.occurrenceTimeOffset - b.occurrenceTimeOffset|) ∧
      (a.truth.confidence ≤ b.truth.confidence →
        |r.occurrenceTimeOffset - b.occurrenceTimeOffset| ≤ |r.occurrenceTimeOffset - a.occurrenceTimeOffset|) := by
  obtain ⟨hw, e⟩ := revision_exact a.truth b.truth h1 h1' h2 h2' hpos
  have e1 : ∀ c : ℚ, c < 1 → Truth_c2w c = .ok (NAL.weight c) := by
    intro c hc
    unfold Truth_c2w fdiv NAL.weight
    have a : fsub 1 c = 1 - c := rfl
    have b : fmul TRUTH_EVIDENTIAL_HORIZON c = c := by simp [fmul, TRUTH_EVIDENTIAL_HORIZON, rnd, Arith.rnd]
    rw [a, b, if_neg (by linarith)]; rfl
  have w1 : 0 ≤ NAL.weight a.truth.confidence := div_nonneg h1 (by linarith)
  have w2 : 0 ≤ NAL.weight b.truth.confidence := div_nonneg h2 (by linarith)
  have wmono : ∀ c d : ℚ, 0 ≤ c → c ≤ d → d < 1 → NAL.weight c ≤ NAL.weight d := by
    intro c d hc hcd hd
    unfold NAL.weight
    exact div_le_div₀ (by linarith) hcd (by linarith) (by linarith)
  unfold Inference_ImplicationRevision weighted_average fdiv
  rw [e1 _ h1', e1 _ h2', e]
  simp only [R.ok_bind]
  have hadd : ∀ x y : ℚ, fadd x y = x + y := fun _ _ => rfl
  have hmul : ∀ x y : ℚ, fmul x y = x * y := fun _ _ => rfl
  have hrnd : ∀ x : ℚ, rnd x = x := fun _ => rfl
  simp only [hadd, hmul, hrnd]
  rw [if_neg (ne_of_gt hw)]
  generalize hwa : NAL.weight a.truth.confidence = wa at *
  generalize hwb : NAL.weight b.truth.confidence = wb at *
  generalize a.occurrenceTimeOffset = x at *
  generalize b.occurrenceTimeOffset = y at *
  refine ⟨_, rfl, ?_, ?_, ?_, ?_, ?_⟩
  · simp only; rw [div_mul_cancel₀ _ (ne_of_gt hw)]
  · simp only
    rw [le_div_iff₀ hw]
    nlinarith [min_le_left x y, min_le_right x y]
  · simp only
    rw [div_le_iff₀ hw]
    nlinarith [le_max_left x y, le_max_right x y]
  all_goals
    intro hle
    simp only
    have ha : (x * wa + y * wb) / (wa + wb) - x = (y - x) * (wb / (wa + wb)) := by field_simp; ring
    have hb : (x * wa + y * wb) / (wa + wb) - y = (x - y) * (wa / (wa + wb)) := by field_simp; ring
    rw [ha, hb, abs_mul, abs_mul, abs_sub_comm x y,
      abs_of_nonneg (div_nonneg w2 (le_of_lt hw)), abs_of_nonneg (div_nonneg w1 (le_of_lt hw))]
    refine mul_le_mul_of_nonneg_left ?_ (abs_nonneg _)
    refine div_le_div_of_nonneg_right ?_ (le_of_lt hw)
  · rw [← hwa, ← hwb]; exact wmono _ _ h2 hle h1'
  · rw [← hwa, ← hwb]; exact wmono _ _ h1 hle h2'

/-- The hypotheses of the theorems above are met by a concrete reachable table: a link with timing 10 is stored, a
second observation with timing 20 (independent evidence, equal confidence) moves the timing to 15. -/
example : ∃ t : Table, t.Reach ∧ exampleLink 1 (1 / 2) 1 10 ∈ t.entries ∧ t.entries.length = 1 ∧
    Stamp_checkOverlap (exampleLink 1 (1 / 2) 1 10).stamp (exampleLink 1 (1 / 2) 2 20).stamp = false ∧
    ∃ r, Inference_ImplicationRevision (exampleLink 1 (1 / 2) 1 10) (exampleLink 1 (1 / 2) 2 20) = .ok r ∧
      r.occurrenceTimeOffset = 15 := by
  obtain ⟨t, e1, e2⟩ := exampleLink_add
  refine ⟨t, .add .zero e1, by rw [e2]; simp, by rw [e2]; rfl, by decide +kernel, ?_⟩
  obtain ⟨r, h1, h2, -⟩ := C52_offset (exampleLink 1 (1 / 2) 1 10) (exampleLink 1 (1 / 2) 2 20) (by norm_num [exampleLink])
    (by norm_num [exampleLink]) (by norm_num [exampleLink]) (by norm_num [exampleLink]) (Or.inl (by norm_num [exampleLink]))
  refine ⟨r, h1, ?_⟩
  norm_num [exampleLink, NAL.weight] at h2
  linarith

end
end ONA
