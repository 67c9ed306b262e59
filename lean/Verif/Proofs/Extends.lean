import Verif.Proofs.Family
import Verif.Props.Narsese
/-
New names keep what is known: the invariant of the state under a growing vocabulary, and the vocabulary of parsed text.
-/
namespace ONA

namespace Narsese
variable {n n' n'' : Narsese}

theorem Extends.refl (n : Narsese) : n.Extends n := ⟨le_refl _, fun _ _ => rfl, rfl⟩

theorem Extends.trans (h : n.Extends n') (h' : n'.Extends n'') : n.Extends n'' :=
  ⟨le_trans h.more h'.more, fun i hi => (h'.names i (lt_of_lt_of_le hi h.more)).trans (h.names i hi), h'.self.trans h.self⟩

theorem Extends.knows (h : n.Extends n') {t : Term} (hk : n.Knows t) : n'.Knows t := fun i => le_trans (hk i) h.more

theorem Extends.base (h : n.Extends n') (hb : n.Base) : n'.Base :=
  ⟨le_trans hb.initial h.more, fun i hi => (h.names i (by have := hb.initial; omega)).trans (hb.names i hi),
    by rw [h.self]; exact le_trans hb.self h.more⟩

/-- The atom of a built-in name has this name. -/
theorem Base.nameOf (hb : n.Base) {s : CStr} (hs : s ∈ initialNames) :
    nameAtom s ≠ 0 ∧ n.nameOf (nameAtom s) = s := by
  have hlt := List.idxOf_lt_length_iff.2 hs
  have hlen : initialNames.length = 62 := by decide
  have ht : (nameAtom s).toNat = initialNames.idxOf s + 1 := by
    unfold nameAtom toAtom
    rw [BitVec.toNat_ofNat]
    exact Nat.mod_eq_of_lt (by omega)
  refine ⟨fun h => ?_, ?_⟩
  · rw [h] at ht
    simp at ht
  · unfold Narsese.nameOf
    rw [ht, Nat.add_sub_cancel, hb.names _ hlt]
    simp [List.getD, List.getElem?_eq_getElem hlt]

theorem Base.copulaEquals (hb : n.Base) {c : Char} (hc : c ∈ Narsese_CanonicalCopulas) :
    Narsese_copulaEquals n (copulaAtom c) c = true := by
  obtain ⟨h1, h2⟩ := hb.nameOf (s := [c]) (by unfold initialNames; simp [hc])
  change copulaAtom c ≠ 0 at h1
  change n.nameOf (copulaAtom c) = [c] at h2
  unfold Narsese_copulaEquals
  rw [decide_eq_true h1, decide_eq_true h2]
  rfl

theorem Extends.nameOf (h : n.Extends n') {a : Atom} (h0 : a ≠ 0) (ha : a.toNat ≤ n.term_index) : n'.nameOf a = n.nameOf a := by
  unfold Narsese.nameOf
  refine h.names _ ?_
  have : a.toNat ≠ 0 := fun e => h0 (BitVec.eq_of_toNat_eq e)
  omega

theorem Extends.simple (h : n.Extends n') {a : Atom} (ha : a.toNat ≤ n.term_index) :
    Narsese_IsSimpleAtom n' a = Narsese_IsSimpleAtom n a := by
  unfold Narsese_IsSimpleAtom
  by_cases h0 : a = 0
  · rw [h0]; rfl
  · rw [h.nameOf h0 ha]

theorem Extends.lists (h : n.Extends n') {t : Term} (hk : n.Knows t) (a : Atom) :
    IndexSpec.Lists n' t a ↔ IndexSpec.Lists n t a := by
  unfold IndexSpec.Lists
  constructor
  · rintro ⟨h1, i, hi, rfl⟩
    exact ⟨by rw [← h.simple (hk i)]; exact h1, i, hi, rfl⟩
  · rintro ⟨h1, i, hi, rfl⟩
    exact ⟨by rw [h.simple (hk i)]; exact h1, i, hi, rfl⟩

/-- The atom table is consistent. -/
def Ok (n : Narsese) : Prop := ∃ ns, n.Rep ns

theorem index_extends (h : n.Ok) {s : CStr} {i : Nat} (e : Narsese_AtomicTermIndex n s = .ok (i, n')) :
    n'.Ok ∧ n.Extends n' ∧ i ≤ n'.term_index := by
  obtain ⟨ns, h⟩ := h
  by_cases hs : truncName s ∈ ns
  · rw [h.index_known hs] at e
    cases e
    refine ⟨⟨ns, h⟩, Extends.refl _, ?_⟩
    rw [h.count]
    exact List.idxOf_lt_length_of_mem hs
  · by_cases hc : ns.length < n.capacity
    · obtain ⟨m, e1, hr, hcap, hself, _⟩ := h.index_new hs hc
      rw [e1] at e
      cases e
      refine ⟨⟨_, hr⟩, ⟨?_, ?_, hself⟩, ?_⟩
      · rw [hr.count, h.count, List.length_append]; omega
      · intro i hi
        rw [h.count] at hi
        rw [hr.names i (by rw [List.length_append]; omega), h.names i hi, List.getD_eq_getElem?_getD, List.getD_eq_getElem?_getD, List.getElem?_append_left hi]
      · rw [hr.count, List.length_append]; exact le_refl _
    · rw [h.index_full hs (by omega)] at e
      cases e

theorem setNode_knows {t r : Term} (h : n.Knows t) {i a : Nat} (ha : a ≤ n.term_index) (e : t.setNode i a = .ok r) : n.Knows r := by
  unfold Term.setNode at e
  split at e
  · cases e
    exact h.put _ (le_trans (toAtom_toNat_le _) ha)
  · cases e

theorem buildBinaryTree_extends : ∀ (fuel : Nat) {n n' : Narsese} {t r : Term} {tokens : List CStr} {i : Nat}, n.Ok → n.Knows t →
    buildBinaryTree fuel n t tokens i = .ok (r, n') → n'.Ok ∧ n.Extends n' ∧ n'.Knows r := by
  intro fuel
  induction fuel with
  | zero => intro n n' t r tokens i _ _ e; cases e
  | succ k ih =>
    intro n n' t r tokens i hn hk e
    cases tokens with
    | nil => cases e
    | cons tok rest =>
      unfold buildBinaryTree at e
      by_cases ht : tok = ['(']
      · rw [if_pos ht] at e
        cases rest with
        | nil => cases e
        | cons copula args =>
          dsimp only at e
          rw [R.bind_eq_ok] at e
          obtain ⟨⟨a, n1⟩, e1, e⟩ := e
          obtain ⟨k1, x1, ha⟩ := index_extends hn e1
          rw [R.bind_eq_ok] at e
          obtain ⟨t1, e2, e⟩ := e
          have hk1 := setNode_knows (x1.knows hk) ha e2
          rw [R.bind_eq_ok] at e
          obtain ⟨⟨t2, n2⟩, e3, e⟩ := e
          have h2 : n2.Ok ∧ n1.Extends n2 ∧ n2.Knows t2 := by
            by_cases hargs : args = []
            · rw [if_pos hargs] at e3; cases e3; exact ⟨k1, Extends.refl _, hk1⟩
            · rw [if_neg hargs] at e3; exact ih k1 hk1 e3
          obtain ⟨k2, x2, hk2⟩ := h2
          by_cases hi2 : skipCompound 0 args = []
          · rw [if_pos hi2] at e; cases e; exact ⟨k2, x1.trans x2, hk2⟩
          · rw [if_neg hi2] at e
            obtain ⟨k3, x3, hk3⟩ := ih k2 hk2 e
            exact ⟨k3, (x1.trans x2).trans x3, hk3⟩
      · rw [if_neg ht, R.bind_eq_ok] at e
        obtain ⟨_, _, e⟩ := e
        have key : ∀ {name : CStr}, (do
            let (atom, n) ← Narsese_AtomicTermIndex n name
            let bintree ← t.setNode i atom
            .ok (bintree, n) : R (Term × Narsese)) = .ok (r, n') → n'.Ok ∧ n.Extends n' ∧ n'.Knows r := by
          intro name e
          rw [R.bind_eq_ok] at e
          obtain ⟨⟨a, n1⟩, e1, e⟩ := e
          obtain ⟨k1, x1, ha⟩ := index_extends hn e1
          rw [R.bind_eq_ok] at e
          obtain ⟨t1, e2, e⟩ := e
          cases e
          exact ⟨k1, x1, setNode_knows (x1.knows hk) ha e2⟩
        split at e
        · exact key e
        · exact key (name := [SET_TERMINATOR]) e

theorem term_extends {text : CStr} {t : Term} (h : n.Ok) (hb : n.Base) (e : Narsese_Term n text = .ok (t, n')) :
    n'.Ok ∧ n.Extends n' ∧ n'.Knows t := by
  unfold Narsese_Term at e
  rw [R.bind_eq_ok] at e
  obtain ⟨_, _, e⟩ := e
  rw [R.bind_eq_ok] at e
  obtain ⟨tokens, _, e⟩ := e
  rw [R.bind_eq_ok] at e
  obtain ⟨⟨t1, n1⟩, e1, e⟩ := e
  rw [R.bind_eq_ok] at e
  obtain ⟨t2, e2, e⟩ := e
  cases e
  obtain ⟨k, x, hk⟩ := buildBinaryTree_extends 8 h knows_zero e1
  exact ⟨k, x, (x.base hb).normalize hk e2⟩

variable [Arith]

theorem sentence_extends {text : CStr} {se : Sentence} (h : n.Ok) (hb : n.Base) (e : Narsese_Sentence n text = .ok (se, n')) :
    n'.Ok ∧ n.Extends n' ∧ n'.Knows se.term := by
  unfold Narsese_Sentence at e
  rw [R.bind_eq_ok] at e
  obtain ⟨⟨o, s⟩, _, e⟩ := e
  rw [R.bind_eq_ok] at e
  obtain ⟨_, _, e⟩ := e
  rw [R.bind_eq_ok] at e
  obtain ⟨_, _, e⟩ := e
  rw [R.bind_eq_ok] at e
  obtain ⟨⟨tr, s1⟩, _, e⟩ := e
  dsimp only at e
  generalize (if sentenceTense s1 ≠ 0 then 5 else 1) = po at e
  by_cases hp : s1.length < po
  · rw [if_pos hp] at e; cases e
  · rw [if_neg hp, R.bind_eq_ok] at e
    obtain ⟨_, _, e⟩ := e
    rw [R.bind_eq_ok] at e
    obtain ⟨⟨t, n1⟩, e1, e⟩ := e
    cases e
    exact term_extends h hb e1

omit [Arith] in
theorem initWith_base {cap : Nat} (hc : 63 ≤ cap) (e : Narsese.initWith cap = .ok n) : n.Ok ∧ n.Base := by
  obtain ⟨m, e1, hr, _, hs, _⟩ := initWith_spec cap hc
  rw [e1] at e
  cases e
  have hcount : n.term_index = 63 := hr.count
  refine ⟨⟨_, hr⟩, ?_, ?_, ?_⟩
  · rw [hcount]; decide
  · intro i hi
    rw [hr.names i (by rw [List.length_append]; omega)]
    simp [List.getD, List.getElem?_append_left hi]
  · rw [hcount, hs]; decide

end Narsese

variable [Arith] {n n' : Narsese}

theorem Event.Good.extends (h : n.Extends n') {e : Event} (he : e.Good n) : e.Good n' := ⟨h.knows he.term, he.truth, he.stamp⟩

theorem Implication.Good.extends (h : n.Extends n') {e : Implication} (he : e.Good n) : e.Good n' :=
  ⟨h.knows he.term, he.truth, he.stamp⟩

theorem Table.Good.extends (h : n.Extends n') {t : Table} (ht : t.Good n) : t.Good n' :=
  ⟨ht.inv, fun e he => (ht.good e he).extends h⟩

theorem Concept.Good.extends (h : n.Extends n') {c : Concept} (hc : c.Good n) : c.Good n' :=
  { term := h.knows hc.term
    belief := hc.belief.extends h
    belief_type := hc.belief_type
    belief_time := hc.belief_time
    belief_spike := hc.belief_spike.extends h
    predicted_belief := hc.predicted_belief.extends h
    goal_spike := hc.goal_spike.extends h
    precondition_beliefs := fun k => (hc.precondition_beliefs k).extends h
    implication_links := hc.implication_links.extends h
    useCount := hc.useCount
    priority := hc.priority }

theorem BufferOk.extends (h : n.Extends n') {ty : EventType} {q : PriorityQueue ℚ Nat} {st : Nat → Event} (hb : BufferOk n ty q st) :
    BufferOk n' ty q st := ⟨hb.queue, hb.pos, hb.priority, hb.type, hb.confidence, hb.time, fun i => (hb.good i).extends h⟩

omit [Arith] in
theorem Operation.Known.extends (h : n.Extends n') {o : Operation} (ho : o.Known n) : o.Known n' :=
  ⟨h.knows ho.term, fun i => h.knows (ho.arguments i), fun f hf args k => h.knows (ho.action f hf args k)⟩

omit [Arith] in
theorem MemInv.extends (h : n.Extends n') {s : Sys} (hm : MemInv n s) (hk : ∀ c, n.Knows (s.termOf c)) : MemInv n' s := by
  refine { hm with index := ⟨?_, hm.index.pool, hm.index.keys⟩ }
  obtain ⟨L, r, ex⟩ := hm.index.rep
  refine ⟨L, r, ex.nodup, fun a c => (ex.mem a c).trans ?_⟩
  constructor
  · rintro ⟨t, ht, hl⟩
    refine ⟨t, ht, (h.lists ?_ a).2 hl⟩
    obtain ⟨d, _, e⟩ := List.mem_map.1 ht
    have e2 : s.termOf d = t := (Prod.ext_iff.1 e).2
    rw [← e2]
    exact hk d
  · rintro ⟨t, ht, hl⟩
    refine ⟨t, ht, (h.lists ?_ a).1 hl⟩
    obtain ⟨d, _, e⟩ := List.mem_map.1 ht
    have e2 : s.termOf d = t := (Prod.ext_iff.1 e).2
    rw [← e2]
    exact hk d

/-- A larger vocabulary keeps the invariant. -/
theorem Good.extends (h : n.Extends n') {s : Sys} (hg : Good n s) : Good n' s :=
  { mem := hg.mem.extends h fun c => (hg.concepts c).term
    prios := hg.prios
    concepts := fun c => (hg.concepts c).extends h
    beliefs := hg.beliefs.extends h
    goals := fun l => (hg.goals l).extends h
    layers := hg.layers
    beliefsOnce := hg.beliefsOnce
    goalsOnce := hg.goalsOnce
    anticipation := hg.anticipation
    base := h.base hg.base
    operations := fun k => (hg.operations k).extends h
    stdin := fun t ht => h.knows (hg.stdin t ht)
    importstamp := hg.importstamp
    priming := hg.priming
    history := hg.history
    marks := hg.marks
    marks2 := hg.marks2
    marks3 := hg.marks3
    home := hg.home }

end ONA
