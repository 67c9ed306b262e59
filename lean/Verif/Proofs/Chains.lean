import Verif.Proofs.Closed
import Verif.Proofs.ClosedNAL
import Verif.Spec.Related
/-
The traversal of the chains of the inverted atom index comes to an end: every element of the pool is part of one chain or free,
so that only so many elements can follow, until the index is changed.
-/
namespace ONA
open HashTable (Chain)

theorem chain_suffix {nx : Nat → Option Nat} : ∀ {l1 : List Nat} {p : Option Nat} {e : Nat} {l2 : List Nat},
    Chain nx p (l1 ++ e :: l2) → Chain nx (some e) (e :: l2)
  | [], _, _, _, h => ⟨rfl, h.2⟩
  | _ :: _, _, _, _, h => chain_suffix h.2

/-- The elements of a chain are elements of the pool. -/
def InPool (x : InvertedAtomIndex) (l : List Nat) : Prop := ∀ e ∈ l, e < x.poolSize

theorem chain_from {x : InvertedAtomIndex} {L : Nat → List Nat} (h : InvertedAtomIndex.Rep x L) {p : Option Nat}
    (hp : ∀ e, p = some e → e < x.poolSize) : ∃ l, Chain x.nx p l ∧ InPool x l ∧ l.length ≤ x.poolSize := by
  cases p with
  | none => exact ⟨[], rfl, fun _ h => (by cases h), Nat.zero_le _⟩
  | some e =>
    obtain ⟨chains, free, h⟩ := h
    have he : e ∈ (List.range ATOMS_MAX).flatMap chains ++ free := h.perm.mem_iff.2 (List.mem_range.2 (hp e rfl))
    rcases List.mem_append.1 he with he | he
    · obtain ⟨a, ha, he⟩ := List.mem_flatMap.1 he
      have ha := List.mem_range.1 ha
      have hc := h.chain a ha
      have hl := h.len_le ha
      obtain ⟨l1, l2, e2⟩ := List.append_of_mem he
      have hmem : InPool x (chains a) := fun m hm => List.mem_range.1 (h.perm.mem_iff.1
        (List.mem_append_left _ (List.mem_flatMap.2 ⟨a, List.mem_range.2 ha, hm⟩)))
      rw [e2] at hc hl hmem
      refine ⟨_, chain_suffix hc, fun m hm => hmem m (List.mem_append_right _ hm), ?_⟩
      rw [List.length_append] at hl
      omega
    · refine ⟨[e], ⟨rfl, h.free_next e he⟩, ?_, ?_⟩
      · intro m hm
        rw [List.mem_singleton] at hm
        rw [hm]
        exact hp e rfl
      · exact Nat.lt_of_le_of_lt (Nat.zero_le _) (hp e rfl)

theorem chain_start {x : InvertedAtomIndex} {L : Nat → List Nat} (h : InvertedAtomIndex.Rep x L) (a : Atom) :
    ∃ l, Chain x.nx (InvertedAtomIndex_GetConceptChain x a) l ∧ InPool x l ∧ l.length ≤ x.poolSize := by
  refine chain_from h fun e he => ?_
  obtain ⟨chains, free, h⟩ := h
  have ha := InvertedAtomIndex.atom_lt a
  have hc := h.chain a.toNat ha
  have he : x.invertedAtomIndex a.toNat = some e := by
    unfold InvertedAtomIndex_GetConceptChain at he
    split at he
    · exact he
    · cases he
  cases hl : chains a.toNat with
  | nil => rw [hl, he] at hc; cases hc
  | cons b l =>
    rw [hl, he] at hc
    obtain ⟨h1, -⟩ := hc
    cases h1
    refine List.mem_range.1 (h.perm.mem_iff.1 (List.mem_append_left _ (List.mem_flatMap.2 ⟨a.toNat, List.mem_range.2 ha, ?_⟩)))
    rw [hl]
    exact List.mem_cons_self

variable [Arith] {n : Narsese} {σ : Type} {J : σ → Sys → Prop}

/-- A visit which changes the index brings the end nearer. -/
def Nearer (m : σ → Nat) (st : σ) (s : Sys) (st' : σ) (s' : Sys) : Prop :=
  s'.index = s.index ∧ m st' ≤ m st ∨ m st' < m st

theorem visitConcept_nearer {body : Nat → σ → M (Bool × σ)} {m : σ → Nat} (hJ : ∀ st, Closed n (J st))
    (hm : ∀ c st s, J st s → WP (body c st) (fun r s' => Nearer m st s r.2 s') s) (c : Option Nat) (st : σ) (s : Sys) (hs : J st s) :
    WP (visitConcept body c st) (fun r s' => Nearer m st s r.2 s') s := by
  unfold visitConcept
  cases c with
  | none => exact WP.pure (.inl ⟨rfl, Nat.le_refl _⟩)
  | some c =>
    refine WP.get (WP.ite (fun _ => ?_) fun _ => WP.pure (.inl ⟨rfl, Nat.le_refl _⟩))
    refine WP.bind (WP.modify ?_)
    have hg := ((hJ st).good hs).concepts c
    exact hm c st _ ((hJ st).concept hs (.attention _ _ _ _ _ _ hg.useCount hg.priority .first))

end ONA
