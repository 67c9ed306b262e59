import Verif.Model.InvertedAtomIndex
import Verif.Proofs.HashTable
import Mathlib.Data.List.Lemmas
import Mathlib.Tactic.ByContra
/-
Refinement proof for the inverted atom index: every chain is a list of concepts.
-/
namespace ONA
namespace InvertedAtomIndex
open HashTable (Chain flatMap_upd flatMap_split)

/-- The `next` pointers. -/
def nx (x : InvertedAtomIndex) : Nat → Option Nat := fun n => (x.conceptChainElementStorage n).next
/-- The concept pointers. -/
def cc (x : InvertedAtomIndex) : Nat → Option Nat := fun n => (x.conceptChainElementStorage n).c

/-- Representation: the chain of atom `a` lists the concepts `L a`. -/
structure RepW (x : InvertedAtomIndex) (L : Nat → List Nat) (chains : Nat → List Nat) (free : List Nat) : Prop where
  chain : ∀ a, a < ATOMS_MAX → Chain x.nx (x.invertedAtomIndex a) (chains a)
  perm : ((List.range ATOMS_MAX).flatMap chains ++ free).Perm (List.range x.poolSize)
  stk_max : x.conceptChainElementStack.maxElements = x.poolSize
  stk_sp : x.conceptChainElementStack.stackpointer = free.length
  stk_items : ∀ i, i < free.length → x.conceptChainElementStack.items i = free[i]?
  own : ∀ a, a < ATOMS_MAX → (chains a).map x.cc = (L a).map some
  free_next : ∀ n ∈ free, x.nx n = none

def Rep (x : InvertedAtomIndex) (L : Nat → List Nat) : Prop := ∃ chains free, RepW x L chains free

/-- Number of chain elements in use. -/
def used (L : Nat → List Nat) : Nat := ((List.range ATOMS_MAX).flatMap L).length

theorem length_flatMap_congr {f g : Nat → List Nat} : ∀ {l : List Nat}, (∀ a ∈ l, (f a).length = (g a).length) →
    (l.flatMap f).length = (l.flatMap g).length
  | [], _ => rfl
  | a :: l, h => by
    simp only [List.flatMap_cons, List.length_append]
    rw [h a (by simp), length_flatMap_congr fun b hb => h b (by simp [hb])]

namespace RepW
variable {x : InvertedAtomIndex} {L chains : Nat → List Nat} {free : List Nat}

theorem nodup (h : RepW x L chains free) : ((List.range ATOMS_MAX).flatMap chains ++ free).Nodup :=
  h.perm.nodup_iff.2 List.nodup_range

theorem len (h : RepW x L chains free) {a : Nat} (ha : a < ATOMS_MAX) : (chains a).length = (L a).length := by
  have := congrArg List.length (h.own a ha)
  simpa using this

theorem used_eq (h : RepW x L chains free) : used L = ((List.range ATOMS_MAX).flatMap chains).length :=
  (length_flatMap_congr fun _ ha => h.len (List.mem_range.1 ha)).symm

theorem total (h : RepW x L chains free) : used L + free.length = x.poolSize := by
  have := h.perm.length_eq
  rw [List.length_append, List.length_range] at this
  rw [h.used_eq, this]

theorem split (h : RepW x L chains free) {a : Nat} (ha : a < ATOMS_MAX) :
    (chains a ++ ((List.range ATOMS_MAX).flatMap (upd chains a []) ++ free)).Perm (List.range x.poolSize) := by
  refine List.Perm.trans ?_ h.perm
  rw [← List.append_assoc]
  exact (flatMap_split List.nodup_range (List.mem_range.2 ha)).symm.append_right _

theorem mem_chain_unique (h : RepW x L chains free) {a b n : Nat} (ha : a < ATOMS_MAX) (hb : b < ATOMS_MAX)
    (hn : n ∈ chains a) (hn' : n ∈ chains b) : a = b := by
  by_contra hne
  have hnd := (h.split ha).nodup_iff.2 List.nodup_range
  rw [List.nodup_append] at hnd
  refine hnd.2.2 n hn n (List.mem_append.2 (.inl (List.mem_flatMap.2 ⟨b, List.mem_range.2 hb, ?_⟩))) rfl
  rw [upd_other _ _ (Ne.symm hne)]
  exact hn'

theorem nodup_chain (h : RepW x L chains free) {a : Nat} (ha : a < ATOMS_MAX) : (chains a).Nodup := by
  have hnd := (h.split ha).nodup_iff.2 List.nodup_range
  exact (List.nodup_append.1 hnd).1

theorem not_free (h : RepW x L chains free) {a n : Nat} (ha : a < ATOMS_MAX) (hn : n ∈ chains a) : n ∉ free := by
  intro hf
  have hnd := (h.split ha).nodup_iff.2 List.nodup_range
  rw [List.nodup_append] at hnd
  exact hnd.2.2 n hn n (List.mem_append.2 (.inr hf)) rfl

theorem len_le (h : RepW x L chains free) {a : Nat} (ha : a < ATOMS_MAX) : (chains a).length ≤ x.poolSize := by
  have := (h.split ha).length_eq
  simp only [List.length_append, List.length_range] at this
  omega

end RepW

theorem init_rep (m : Nat) : ∃ x, initWith m = .ok x ∧ Rep x (fun _ => []) ∧ x.poolSize = m := by
  obtain ⟨s, hs, h1, h2, h3⟩ := HashTable.initLoop_ok m m le_rfl
  refine ⟨_, by simp [initWith, hs]; rfl, ⟨fun _ => [], List.range m, ?_⟩, rfl⟩
  constructor
  · intro a _; rfl
  · rw [HashTable.flatMap_nil]; simp
  · exact h1
  · simpa using h2
  · intro i hi
    have hi : i < m := by simpa using hi
    rw [h3 i hi]; simp [hi]
  · intros; rfl
  · intros; rfl

theorem findLast_eq (x : InvertedAtomIndex) (c : Nat) : ∀ (l : List Nat) (n fuel : Nat),
    Chain x.nx (some n) (n :: l) → l.length < fuel →
    findLast x c fuel n = .ok (if some c ∈ (n :: l).map x.cc then none else some ((n :: l).getLast (by simp)))
  | [], n, fuel, h, hf => by
    obtain ⟨k, rfl⟩ : ∃ k, fuel = k + 1 := ⟨fuel - 1, by omega⟩
    have hn : (x.conceptChainElementStorage n).next = none := h.2
    by_cases hc : (x.conceptChainElementStorage n).c = some c
    · simp [findLast, hc, cc]
    · simp [findLast, hc, hn, cc, Ne.symm hc]
  | m :: l, n, fuel, h, hf => by
    obtain ⟨k, rfl⟩ : ∃ k, fuel = k + 1 := ⟨fuel - 1, by omega⟩
    have hn : (x.conceptChainElementStorage n).next = some m := h.2.1
    by_cases hc : (x.conceptChainElementStorage n).c = some c
    · simp [findLast, hc, cc]
    · have ih := findLast_eq x c l m k (hn ▸ h.2) (by simp at hf; omega)
      simp only [findLast, hc, if_false, hn]
      rw [ih]
      have : some c ∈ (n :: m :: l).map x.cc ↔ some c ∈ (m :: l).map x.cc := by
        rw [List.map_cons, List.mem_cons]
        exact ⟨fun e => e.resolve_left (fun e => hc e.symm), .inr⟩
      by_cases hm : some c ∈ (m :: l).map x.cc
      · rw [if_pos hm, if_pos (this.2 hm)]
      · rw [if_neg hm, if_neg (fun e => hm (this.1 e))]
        simp

theorem findElem_eq (x : InvertedAtomIndex) (c : Nat) : ∀ (l : List Nat) (p prev : Option Nat) (fuel : Nat),
    Chain x.nx p l → l.length < fuel →
    (some c ∉ l.map x.cc ∧ findElem x c fuel prev p = .ok none) ∨
    ∃ l1 n l2, l = l1 ++ n :: l2 ∧ some c ∉ l1.map x.cc ∧ x.cc n = some c ∧
      findElem x c fuel prev p = .ok (some (l1.getLast?.or prev, n))
  | [], p, prev, fuel, h, hf => by
    left
    have : p = none := h
    subst this
    cases fuel <;> simp [findElem]
  | n :: l, p, prev, fuel, h, hf => by
    obtain ⟨k, rfl⟩ : ∃ k, fuel = k + 1 := ⟨fuel - 1, by omega⟩
    obtain ⟨rfl, h2⟩ := h
    by_cases hc : (x.conceptChainElementStorage n).c = some c
    · right
      exact ⟨[], n, l, rfl, by simp, hc, by simp [findElem, hc]⟩
    · have hc' : x.cc n ≠ some c := hc
      rcases findElem_eq x c l _ (some n) k h2 (by simp at hf; omega) with ⟨h3, h4⟩ | ⟨l1, m, l2, rfl, h4, h5, h6⟩
      · left
        refine ⟨?_, ?_⟩
        · rw [List.map_cons, List.mem_cons, not_or]; exact ⟨hc'.symm, h3⟩
        · simp only [findElem, hc, if_false]; exact h4
      · right
        refine ⟨n :: l1, m, l2, rfl, ?_, h5, ?_⟩
        · rw [List.map_cons, List.mem_cons, not_or]; exact ⟨hc'.symm, h4⟩
        · simp only [findElem, hc, if_false]
          rw [show (x.conceptChainElementStorage n).next = x.nx n from rfl, h6]
          cases l1 with
          | nil => simp
          | cons b l1 =>
            simp only [List.getLast?_cons_cons]
            rw [List.getLast?_cons]; simp

/-- A fresh element is linked at the end of the chain of `atom`. -/
theorem addAtom_new {x : InvertedAtomIndex} {L : Nat → List Nat} (h : Rep x L) {a c : Nat} (ha : a < ATOMS_MAX)
    (hc : c ∉ L a) (hcap : used L < x.poolSize) :
    ∃ x', x.addAtom a c = .ok x' ∧ Rep x' (upd L a (L a ++ [c])) ∧ x'.poolSize = x.poolSize := by
  obtain ⟨chains, free, h⟩ := h
  have htot := h.total
  obtain ⟨f, n, rfl⟩ : ∃ f n, free = f ++ [n] := by
    rcases List.eq_nil_or_concat free with e | ⟨f, n, e⟩
    · simp [e] at htot; omega
    · exact ⟨f, n, by simpa using e⟩
  -- the popped element
  have hsp : x.conceptChainElementStack.stackpointer = f.length + 1 := by simpa using h.stk_sp
  have hit : x.conceptChainElementStack.items f.length = some n := by
    rw [h.stk_items _ (by simp)]; simp
  have hnew : newElem x c = .ok (n, { x with
      conceptChainElementStack := { x.conceptChainElementStack with stackpointer := f.length }
      conceptChainElementStorage := upd x.conceptChainElementStorage n
        { x.conceptChainElementStorage n with c := some c } }) := by
    simp [newElem, Stack.pop, hsp, hit]
  have hnf : n ∈ f ++ [n] := by simp
  have hnn : x.nx n = none := h.free_next n hnf
  have hnc : ∀ b, b < ATOMS_MAX → n ∉ chains b := fun b hb hn => h.not_free hb hn hnf
  have hsplit := h.split ha
  have hownmem : some c ∉ (chains a).map x.cc := by
    rw [h.own a ha]; simpa using hc
  have hndf : (f ++ [n]).Nodup := by
    have := h.nodup; exact (List.nodup_append.1 this).2.1
  have hnotf : n ∉ f := by
    intro hf
    rw [List.nodup_append] at hndf
    exact hndf.2.2 n hf n (by simp) rfl
  -- common verification of the new state
  have key : ∀ x' : InvertedAtomIndex, x'.poolSize = x.poolSize →
      x'.conceptChainElementStack = { x.conceptChainElementStack with stackpointer := f.length } →
      (∀ m, x'.cc m = upd x.cc n (some c) m) →
      (∀ m, m ∉ chains a → x'.nx m = x.nx m) →
      (∀ b, b ≠ a → x'.invertedAtomIndex b = x.invertedAtomIndex b) →
      Chain x'.nx (x'.invertedAtomIndex a) (chains a ++ [n]) →
      Rep x' (upd L a (L a ++ [c])) := by
    intro x' hp hs hcc hnx hhd hch
    refine ⟨upd chains a (chains a ++ [n]), f, ?_⟩
    constructor
    · intro b hb
      by_cases hba : b = a
      · subst hba; simpa using hch
      · rw [upd_other _ _ hba, hhd b hba]
        refine Chain.congr (h.chain b hb) fun m hm => ?_
        rw [hnx m]
        intro hma
        exact hba (h.mem_chain_unique hb ha hm hma)
    · rw [hp]
      refine List.Perm.trans ?_ hsplit
      refine ((flatMap_upd List.nodup_range (List.mem_range.2 ha)).append_right _).trans ?_
      simp only [List.append_assoc]
      refine List.Perm.append_left _ ?_
      refine (List.perm_append_comm (l₁ := [n])).trans ?_
      rw [List.append_assoc]
    · rw [hs, hp]; exact h.stk_max
    · rw [hs]
    · intro i hi
      rw [hs]
      have := h.stk_items i (by simp; omega)
      rw [show ({ x.conceptChainElementStack with stackpointer := f.length } : Stack Nat).items i =
        x.conceptChainElementStack.items i from rfl, this]
      rw [List.getElem?_append_left hi]
    · intro b hb
      by_cases hba : b = a
      · subst hba
        rw [upd_same, upd_same, List.map_append, List.map_append, ← h.own b hb]
        congr 1
        · refine List.map_congr_left fun m hm => ?_
          rw [hcc m, upd_other]
          intro e; subst e; exact hnc b hb hm
        · simp [hcc]
      · rw [upd_other _ _ hba, upd_other _ _ hba, ← h.own b hb]
        refine List.map_congr_left fun m hm => ?_
        rw [hcc m, upd_other]
        intro e; subst e; exact hnc b hb hm
    · intro m hm
      rw [hnx m]
      · exact h.free_next m (by simp [hm])
      · intro hma
        exact h.not_free ha hma (by simp [hm])
  have hccs : ∀ m, (upd x.conceptChainElementStorage n { x.conceptChainElementStorage n with c := some c } m).c =
      upd x.cc n (some c) m := by
    intro m; by_cases e : m = n
    · subst e; simp
    · simp [e, cc]
  have hnxs : ∀ m, (upd x.conceptChainElementStorage n { x.conceptChainElementStorage n with c := some c } m).next =
      x.nx m := by
    intro m; by_cases e : m = n
    · subst e; simp [nx]
    · simp [e, nx]
  rcases hl : chains a with _ | ⟨first, l⟩
  · have hnone : x.invertedAtomIndex a = none := by have := h.chain a ha; rw [hl] at this; exact this
    refine ⟨_, by simp only [addAtom, hnone, hnew, R.ok_bind]; rfl, ?_, ?_⟩
    swap; · rfl
    refine key _ rfl rfl hccs ?_ ?_ ?_
    · intro m _; exact hnxs m
    · intro b hb; exact upd_other _ _ hb
    · rw [hl]
      refine ⟨by simp, ?_⟩
      show _ = none
      rw [← hnn]; exact hnxs n
  · have hch := h.chain a ha
    rw [hl] at hch
    have hsome : x.invertedAtomIndex a = some first := hch.1
    have hfl : findLast x c (x.poolSize + 1) first = .ok (some ((first :: l).getLast (by simp))) := by
      have hle := h.len_le ha
      rw [hl] at hle
      rw [findLast_eq x c l first _ ⟨rfl, hch.2⟩ (by simp at hle; omega)]
      rw [if_neg (hl ▸ hownmem)]
    obtain ⟨l', last, hl'⟩ : ∃ l' last, first :: l = l' ++ [last] := by
      rcases List.eq_nil_or_concat (first :: l) with e | ⟨l', last, e⟩
      · simp at e
      · exact ⟨l', last, by simpa using e⟩
    have hgl : (first :: l).getLast (by simp) = last := by
      simp only [hl', List.getLast_append, List.getLast_singleton]; simp
    rw [hgl] at hfl
    refine ⟨_, by simp only [addAtom, hsome, hfl, hnew, R.ok_bind]; rfl, ?_, ?_⟩
    swap; · rfl
    have hlast : last ∈ chains a := by rw [hl, hl']; simp
    have hlastn : last ≠ n := by intro e; exact hnc a ha (e ▸ hlast)
    refine key _ rfl rfl ?_ ?_ ?_ ?_
    · intro m
      show ConceptChainElement.c (upd _ last _ m) = _
      by_cases e : m = last
      · subst e
        rw [upd_same]
        exact hccs m
      · rw [upd_other _ _ e]; exact hccs m
    · intro m hm
      show ConceptChainElement.next (upd _ last _ m) = _
      have e : m ≠ last := fun e => hm (e ▸ hlast)
      rw [upd_other _ _ e]; exact hnxs m
    · intro b _; rfl
    · have := Chain.snoc (nx := x.nx) (l := l') (last := last) (n := n) (p := x.invertedAtomIndex a)
        (by rw [← hl']; exact hch) (by rw [← hl', ← hl]; exact h.nodup_chain ha)
        (by rw [← hl', ← hl]; exact hnc a ha)
      rw [hl, hl']
      refine Chain.congr this fun m _ => ?_
      show _ = ConceptChainElement.next (upd _ last _ m)
      by_cases e : m = last
      · subst e; simp
      · rw [upd_other _ _ e, upd_other _ _ e, hnxs m]
        by_cases e : m = n
        · subst e; rw [upd_same, hnn]
        · rw [upd_other _ _ e]

/-- A concept already in the chain is not added again. -/
theorem addAtom_known {x : InvertedAtomIndex} {L : Nat → List Nat} (h : Rep x L) {a c : Nat} (ha : a < ATOMS_MAX)
    (hc : c ∈ L a) : x.addAtom a c = .ok x := by
  obtain ⟨chains, free, h⟩ := h
  have hm : some c ∈ (chains a).map x.cc := by rw [h.own a ha]; simpa using hc
  have hch := h.chain a ha
  have hle := h.len_le ha
  rcases hl : chains a with _ | ⟨first, l⟩
  · simp [hl] at hm
  · rw [hl] at hch hle hm
    have hsome : x.invertedAtomIndex a = some first := hch.1
    simp only [addAtom, hsome]
    rw [findLast_eq x c l first _ ⟨rfl, hch.2⟩ (by simp at hle; omega), if_pos hm]
    rfl

/-- Removing a concept that is not in the chain changes nothing. -/
theorem removeAtom_absent {x : InvertedAtomIndex} {L : Nat → List Nat} (h : Rep x L) {a c : Nat} (ha : a < ATOMS_MAX)
    (hc : c ∉ L a) : x.removeAtom a c = .ok x := by
  obtain ⟨chains, free, h⟩ := h
  have hm : some c ∉ (chains a).map x.cc := by rw [h.own a ha]; simpa using hc
  have hle := h.len_le ha
  rcases findElem_eq x c (chains a) _ none (x.poolSize + 1) (h.chain a ha) (by omega) with
    ⟨_, h2⟩ | ⟨l1, n, l2, h1, _, h3, _⟩
  · simp [removeAtom, h2]
  · exact absurd (by rw [h1]; simp [h3]) hm

/-- The element of the concept is unlinked and goes back to the pool. -/
theorem removeAtom_present {x : InvertedAtomIndex} {L : Nat → List Nat} (h : Rep x L) {a c : Nat} (ha : a < ATOMS_MAX)
    (hc : c ∈ L a) :
    ∃ x', x.removeAtom a c = .ok x' ∧ Rep x' (upd L a ((L a).erase c)) ∧ x'.poolSize = x.poolSize := by
  obtain ⟨chains, free, h⟩ := h
  have hm : some c ∈ (chains a).map x.cc := by rw [h.own a ha]; simpa using hc
  have hle := h.len_le ha
  rcases findElem_eq x c (chains a) _ none (x.poolSize + 1) (h.chain a ha) (by omega) with
    ⟨h2, _⟩ | ⟨l1, n, l2, h1, h2, h3, h4⟩
  · exact absurd hm h2
  have htot := h.total
  have hnmem : n ∈ chains a := by rw [h1]; simp
  have hnd := h.nodup_chain ha
  have hch := h.chain a ha
  have hfree : free.length < x.poolSize := by
    have := (h.split ha).length_eq
    rw [h1] at this
    simp only [List.length_append, List.length_cons, List.length_range] at this
    omega
  have hnl : n ∉ l1 ++ l2 := by
    rw [h1] at hnd
    have := List.nodup_middle.1 hnd
    exact (List.nodup_cons.1 this).1
  -- concept list
  have hL : ((l1 ++ l2).map x.cc) = ((L a).erase c).map some := by
    have hown := h.own a ha
    rw [h1, List.map_append, List.map_cons, h3] at hown
    have : (L a).map some = l1.map x.cc ++ some c :: l2.map x.cc := hown.symm
    have e1 : ((L a).erase c).map some = ((L a).map some).erase (some c) := by
      rw [List.map_erase]
      exact fun a b e => Option.some.inj e
    rw [e1, this, List.erase_append_right _ h2, List.erase_cons_head, List.map_append]
  have key : ∀ x' : InvertedAtomIndex, x'.poolSize = x.poolSize →
      x'.conceptChainElementStack = { x.conceptChainElementStack with
        items := upd x.conceptChainElementStack.items free.length (some n), stackpointer := free.length + 1 } →
      (∀ m, m ≠ n → x'.cc m = x.cc m) → x'.nx n = none →
      (∀ m, m ∉ chains a → x'.nx m = x.nx m) →
      (∀ b, b ≠ a → x'.invertedAtomIndex b = x.invertedAtomIndex b) →
      Chain x'.nx (x'.invertedAtomIndex a) (l1 ++ l2) →
      Rep x' (upd L a ((L a).erase c)) := by
    intro x' hp hs hcc hn0 hnx hhd hch'
    refine ⟨upd chains a (l1 ++ l2), free ++ [n], ?_⟩
    constructor
    · intro b hb
      by_cases hba : b = a
      · subst hba; simpa using hch'
      · rw [upd_other _ _ hba, hhd b hba]
        refine Chain.congr (h.chain b hb) fun m hm => ?_
        rw [hnx m]
        intro hma
        exact hba (h.mem_chain_unique hb ha hm hma)
    · rw [hp]
      refine List.Perm.trans ?_ (h.split ha)
      refine ((flatMap_upd List.nodup_range (List.mem_range.2 ha)).append_right _).trans ?_
      rw [h1]
      have e2 : (l1 ++ n :: l2).Perm (n :: (l1 ++ l2)) := List.perm_middle
      refine List.Perm.trans ?_ (e2.symm.append_right _)
      rw [← List.append_assoc, List.append_assoc (l1 ++ l2), List.cons_append]
      exact (List.perm_append_comm (l₂ := [n]))
    · rw [hs, hp]; exact h.stk_max
    · rw [hs]; simp
    · intro i hi
      rw [hs]
      show upd _ _ _ i = _
      by_cases e : i = free.length
      · subst e; simp
      · have hi : i < free.length := by simp at hi; omega
        rw [upd_other _ _ e, List.getElem?_append_left hi]
        exact h.stk_items i hi
    · intro b hb
      by_cases hba : b = a
      · subst hba
        rw [upd_same, upd_same, ← hL]
        refine List.map_congr_left fun m hm => hcc m ?_
        intro e; subst e; exact hnl hm
      · rw [upd_other _ _ hba, upd_other _ _ hba, ← h.own b hb]
        refine List.map_congr_left fun m hm => hcc m ?_
        intro e; subst e; exact hba (h.mem_chain_unique hb ha hm hnmem)
    · intro m hm
      rcases List.mem_append.1 hm with hm | hm
      · rw [hnx m]
        · exact h.free_next m hm
        · intro hma; exact h.not_free ha hma hm
      · rw [List.mem_singleton.1 hm]; exact hn0
  have hsp := h.stk_sp
  have hpush : ∀ s : Stack Nat, s = x.conceptChainElementStack → s.push n = .ok { x.conceptChainElementStack with
        items := upd x.conceptChainElementStack.items free.length (some n), stackpointer := free.length + 1 } := by
    intro s e; subst e
    unfold Stack.push
    rw [if_pos (by rw [hsp, h.stk_max]; exact hfree), hsp]
  rcases List.eq_nil_or_concat l1 with e | ⟨l', prev, e⟩
  · subst e
    have h4' : findElem x c (x.poolSize + 1) none (x.invertedAtomIndex a) = .ok (some (none, n)) := by
      simpa using h4
    refine ⟨_, by simp only [removeAtom, h4', R.ok_bind, unlink]; rw [hpush _ rfl]; rfl, ?_, ?_⟩
    swap; · rfl
    refine key _ rfl rfl ?_ ?_ ?_ ?_ ?_
    · intro m hm; show ConceptChainElement.c (upd _ n _ m) = _; rw [upd_other _ _ hm]; rfl
    · show ConceptChainElement.next (upd _ n _ n) = _; rw [upd_same]
    · intro m hm
      show ConceptChainElement.next (upd _ n _ m) = _
      rw [upd_other _ _ (fun e : m = n => hm (by rw [e]; exact hnmem))]; rfl
    · intro b hb; exact upd_other _ _ hb
    · rw [h1] at hch
      show Chain _ (upd _ a _ a) _
      rw [upd_same]
      refine Chain.congr hch.2 fun m hm => ?_
      show _ = ConceptChainElement.next (upd _ n _ m)
      rw [upd_other _ _ (fun e : m = n => hnl (by rw [← e]; simpa using hm))]; rfl
  · have e : l1 = l' ++ [prev] := by simpa using e
    subst e
    have h4' : findElem x c (x.poolSize + 1) none (x.invertedAtomIndex a) = .ok (some (some prev, n)) := by
      simpa using h4
    have hpn : prev ≠ n := by intro e; exact hnl (by simp [e])
    have hpm : prev ∈ chains a := by rw [h1]; simp
    refine ⟨_, by simp only [removeAtom, h4', R.ok_bind, unlink]; rw [hpush _ rfl]; rfl, ?_, ?_⟩
    swap; · rfl
    refine key _ rfl rfl ?_ ?_ ?_ ?_ ?_
    · intro m hm
      show ConceptChainElement.c (upd _ n _ m) = _
      rw [upd_other _ _ hm]
      by_cases e : m = prev
      · subst e; rw [upd_same]; rfl
      · rw [upd_other _ _ e]; rfl
    · show ConceptChainElement.next (upd _ n _ n) = _; rw [upd_same]
    · intro m hm
      show ConceptChainElement.next (upd _ n _ m) = _
      rw [upd_other _ _ (fun e : m = n => hm (by rw [e]; exact hnmem)), upd_other _ _ (fun e : m = prev => hm (by rw [e]; exact hpm))]; rfl
    · intro b _; rfl
    · rw [h1] at hch hnd
      have := Chain.unlink (nx := x.nx) (l1 := l') (prev := prev) (n := n) (l2 := l2)
        (by simpa using hch) (by simpa using hnd)
      have e3 : l' ++ [prev] ++ l2 = l' ++ prev :: l2 := by simp
      rw [e3]
      refine Chain.congr this fun m hm => ?_
      show _ = ConceptChainElement.next (upd _ n _ m)
      have hmn : m ≠ n := by intro e; exact hnl (by rw [← e]; simpa using hm)
      rw [upd_other _ _ hmn]
      by_cases e : m = prev
      · subst e; rw [upd_same, upd_same]; rfl
      · rw [upd_other _ _ e, upd_other _ _ e]; rfl

/-- Following a chain visits the concepts in order. -/
theorem follow_eq {x : InvertedAtomIndex} : ∀ {l : List Nat} {p : Option Nat} {fuel : Nat},
    Chain x.nx p l → l.length < fuel → follow x fuel p = .ok (l.map x.cc)
  | [], p, fuel, h, _ => by
    have : p = none := h
    subst this; cases fuel <;> rfl
  | n :: l, p, fuel, h, hf => by
    obtain ⟨k, rfl⟩ : ∃ k, fuel = k + 1 := ⟨fuel - 1, by omega⟩
    obtain ⟨rfl, h2⟩ := h
    have := follow_eq (fuel := k) h2 (by simp at hf; omega)
    simp only [follow]
    rw [show (x.conceptChainElementStorage n).next = x.nx n from rfl, this]
    rfl

theorem follow_rep {x : InvertedAtomIndex} {L : Nat → List Nat} (h : Rep x L) {a : Nat} (ha : a < ATOMS_MAX) :
    follow x (x.poolSize + 1) (x.invertedAtomIndex a) = .ok ((L a).map some) := by
  obtain ⟨chains, free, h⟩ := h
  rw [follow_eq (h.chain a ha) (by have := h.len_le ha; omega), h.own a ha]

end InvertedAtomIndex
end ONA
