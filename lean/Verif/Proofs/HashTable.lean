import Verif.Spec.HashTable
import Mathlib.Data.List.Nodup
import Mathlib.Data.List.Perm.Basic
/-
Refinement proof for the hash table.
-/
namespace ONA
namespace HashTable
variable {P K V : Type}

/-- `l` is the list of nodes reachable from `p` through `next`, ending in NULL. -/
def Chain (nx : Nat → Option Nat) (p : Option Nat) : List Nat → Prop
  | [] => p = none
  | n :: l => p = some n ∧ Chain nx (nx n) l

theorem Chain.congr {nx nx' : Nat → Option Nat} : ∀ {l : List Nat} {p : Option Nat},
    Chain nx p l → (∀ n ∈ l, nx n = nx' n) → Chain nx' p l
  | [], _, h, _ => h
  | n :: l, p, h, hc => by
    refine ⟨h.1, ?_⟩
    rw [← hc n (by simp)]
    exact Chain.congr h.2 (fun m hm => hc m (by simp [hm]))

/-- Append a node at the end of a chain. -/
theorem Chain.snoc {nx : Nat → Option Nat} : ∀ {l : List Nat} {p : Option Nat} {last n : Nat},
    Chain nx p (l ++ [last]) → (l ++ [last]).Nodup → n ∉ l ++ [last] →
    Chain (upd (upd nx n none) last (some n)) p (l ++ [last] ++ [n])
  | [], p, last, n, h, _, hn => by
    have : n ≠ last := by simpa using hn
    refine ⟨h.1, ?_, ?_⟩ <;> simp [Chain, this]
  | m :: l, p, last, n, h, hnd, hn => by
    simp only [List.cons_append, List.nodup_cons, List.mem_cons, not_or] at hnd hn
    refine ⟨h.1, ?_⟩
    have hm : m ≠ last := by intro e; subst e; exact hnd.1 (by simp)
    have hmn : m ≠ n := fun e => hn.1 e.symm
    have := Chain.snoc (l := l) h.2 hnd.2 hn.2
    simpa [hm, hmn] using this

/-- Unlink an inner node. -/
theorem Chain.unlink {nx : Nat → Option Nat} : ∀ {l1 : List Nat} {p : Option Nat} {prev n : Nat} {l2 : List Nat},
    Chain nx p (l1 ++ prev :: n :: l2) → (l1 ++ prev :: n :: l2).Nodup →
    Chain (upd nx prev (nx n)) p (l1 ++ prev :: l2)
  | [], p, prev, n, l2, h, hnd => by
    obtain ⟨h1, h2, h3⟩ := h
    simp only [List.nil_append, List.nodup_cons, List.mem_cons, not_or] at hnd
    refine ⟨h1, ?_⟩
    simp only [upd_same]
    refine Chain.congr h3 fun m hm => ?_
    have : m ≠ prev := by intro e; subst e; exact hnd.1.2 hm
    simp [this]
  | m :: l1, p, prev, n, l2, h, hnd => by
    simp only [List.cons_append, List.nodup_cons] at hnd
    refine ⟨h.1, ?_⟩
    have hm : m ≠ prev := by intro e; subst e; exact hnd.1 (by simp)
    have := Chain.unlink (l1 := l1) h.2 hnd.2
    simpa [hm] using this

theorem flatMap_upd_not_mem {c : Nat → List Nat} {b : Nat} {v : List Nat} :
    ∀ {L : List Nat}, b ∉ L → L.flatMap (upd c b v) = L.flatMap c := by
  intro L hb
  induction L with
  | nil => rfl
  | cons a L ih =>
    simp only [List.mem_cons, not_or] at hb
    simp [List.flatMap_cons, ih hb.2, Ne.symm hb.1]

theorem flatMap_upd {c : Nat → List Nat} {b : Nat} {v : List Nat} :
    ∀ {L : List Nat}, L.Nodup → b ∈ L → (L.flatMap (upd c b v)).Perm (v ++ L.flatMap (upd c b [])) := by
  intro L hL hb
  induction L with
  | nil => simp at hb
  | cons a L ih =>
    simp only [List.nodup_cons] at hL
    simp only [List.flatMap_cons]
    by_cases h : a = b
    · subst h
      simp [flatMap_upd_not_mem hL.1]
    · have hb' : b ∈ L := by
        rcases List.mem_cons.1 hb with e | e
        · exact absurd e.symm h
        · exact e
      have := ih hL.2 hb'
      simp only [upd_apply, h, if_false]
      refine (List.Perm.append_left (c a) this).trans ?_
      rw [← List.append_assoc, ← List.append_assoc]
      exact List.Perm.append_right _ List.perm_append_comm

theorem upd_self {c : Nat → List Nat} {b : Nat} : upd c b (c b) = c := by
  funext j; by_cases h : j = b <;> simp [h]

theorem flatMap_split {c : Nat → List Nat} {b : Nat} {L : List Nat} (hL : L.Nodup) (hb : b ∈ L) :
    (L.flatMap c).Perm (c b ++ L.flatMap (upd c b [])) := by
  have := flatMap_upd (c := c) (v := c b) hL hb
  rwa [upd_self] at this

theorem pairwise_forall {α : Type _} {R : α → α → Prop} (hs : ∀ a b, R a b → R b a) :
    ∀ {l : List α}, l.Pairwise R → ∀ {x y : α}, x ∈ l → y ∈ l → x ≠ y → R x y := by
  intro l h
  induction h with
  | nil => intro x y hx; cases hx
  | cons ha _ ih =>
    intro x y hx hy hne
    rcases List.mem_cons.1 hx with hx' | hx' <;> rcases List.mem_cons.1 hy with hy' | hy'
    · exact absurd (hx'.trans hy'.symm) hne
    · exact hx' ▸ ha _ hy'
    · exact hy' ▸ hs _ _ (ha _ hx')
    · exact ih hx' hy' hne

theorem flatMap_nil (L : List Nat) : L.flatMap (fun _ => ([] : List Nat)) = [] := by
  induction L with
  | nil => rfl
  | cons a L ih => simp [List.flatMap_cons]

/-- Nodes in use. -/
def nodes (t : HashTable P V) (chains : Nat → List Nat) : List Nat :=
  (List.range t.buckets).flatMap chains

/-- The (key pointer, value) pair of a filled node. -/
def IsEntry (t : HashTable P V) (n : Nat) (e : P × V) : Prop :=
  (t.storage n).key = some e.1 ∧ (t.storage n).value = some e.2

/-- Representation relation between a table and the list of its entries. -/
structure RepW (ops : KeyOps P K) (t : HashTable P V) (l : List (P × V))
    (chains : Nat → List Nat) (free : List Nat) (ent : Nat → P × V) : Prop where
  bpos : 0 < t.buckets
  chain : ∀ b, b < t.buckets → Chain (fun n => (t.storage n).next) (t.HT b) (chains b)
  perm : (nodes t chains ++ free).Perm (List.range t.maxElements)
  stk_max : t.VMStack.maxElements = t.maxElements
  stk_sp : t.VMStack.stackpointer = free.length
  stk_items : ∀ i, i < free.length → t.VMStack.items i = free[i]?
  ent_ok : ∀ b, b < t.buckets → ∀ n ∈ chains b,
    IsEntry t n (ent n) ∧ bucketIndex (ops.hash (ops.deref (ent n).1)) t.buckets = .ok b
  entries : l.Perm ((nodes t chains).map ent)
  distinct : l.Pairwise fun a b => ops.equal (ops.deref a.1) (ops.deref b.1) = false

def Rep (ops : KeyOps P K) (t : HashTable P V) (l : List (P × V)) : Prop :=
  ∃ chains free ent, RepW ops t l chains free ent

theorem RepW.rep {ops : KeyOps P K} {t : HashTable P V} {l : List (P × V)} {chains free ent}
    (h : RepW ops t l chains free ent) : Rep ops t l := ⟨chains, free, ent, h⟩

theorem bucketIndex_ok {h : Int} {B : Nat} (hh : 0 ≤ h) (hB : 0 < B) :
    ∃ b, b < B ∧ bucketIndex h B = .ok b := by
  have h0 : B ≠ 0 := by omega
  have h1 : 0 ≤ Int.tmod h B := Int.tmod_nonneg _ hh
  have h2 : Int.tmod h B < B := Int.tmod_lt_of_pos _ (by omega)
  refine ⟨(Int.tmod h B).toNat, by omega, ?_⟩
  simp [bucketIndex, h0, Int.not_lt.2 h1]

theorem equal_false_symm {ops : KeyOps P K} (hl : ops.Lawful) {a b : K} (h : ops.equal a b = false) :
    ops.equal b a = false := by
  cases hba : ops.equal b a with
  | false => rfl
  | true => rw [hl.symm _ _ hba] at h; cases h

theorem mem_nodes {t : HashTable P V} {chains : Nat → List Nat} {n : Nat} :
    n ∈ nodes t chains ↔ ∃ b, b < t.buckets ∧ n ∈ chains b := by
  simp [nodes, List.mem_flatMap]

namespace RepW
variable {ops : KeyOps P K} {t : HashTable P V} {l : List (P × V)}
    {chains : Nat → List Nat} {free : List Nat} {ent : Nat → P × V}

theorem nodup (h : RepW ops t l chains free ent) : (nodes t chains ++ free).Nodup :=
  h.perm.nodup_iff.2 List.nodup_range

theorem nodup_chain (h : RepW ops t l chains free ent) {b : Nat} (hb : b < t.buckets) :
    (chains b).Nodup := by
  have h1 := (List.nodup_append.1 h.nodup).1
  have h2 := (flatMap_split (c := chains) (L := List.range t.buckets) (b := b) List.nodup_range
    (by simpa using hb))
  exact (List.nodup_append.1 (h2.nodup_iff.1 h1)).1

theorem length_chain (h : RepW ops t l chains free ent) {b : Nat} (hb : b < t.buckets) :
    (chains b).length ≤ t.maxElements := by
  have h2 := (flatMap_split (c := chains) (L := List.range t.buckets) (b := b) List.nodup_range
    (by simpa using hb)).length_eq
  have h1 := h.perm.length_eq
  simp only [List.length_append, List.length_range, nodes] at h1 h2
  omega

theorem length_entries (h : RepW ops t l chains free ent) : l.length + free.length = t.maxElements := by
  have h1 := h.perm.length_eq
  have h2 := h.entries.length_eq
  simp at h1 h2
  omega

theorem mem_entries (h : RepW ops t l chains free ent) (e : P × V) :
    e ∈ l ↔ ∃ n ∈ nodes t chains, ent n = e := by
  rw [h.entries.mem_iff]; simp

theorem distinct_nodes (h : RepW ops t l chains free ent) (hl : ops.Lawful) {n m : Nat}
    (hn : n ∈ nodes t chains) (hm : m ∈ nodes t chains) (hne : n ≠ m) :
    ops.equal (ops.deref (ent n).1) (ops.deref (ent m).1) = false := by
  have h1 : ((nodes t chains).map ent).Pairwise fun a b => ops.equal (ops.deref a.1) (ops.deref b.1) = false :=
    h.entries.pairwise h.distinct (fun hab => equal_false_symm hl hab)
  rw [List.pairwise_map] at h1
  exact pairwise_forall (fun _ _ hab => equal_false_symm hl hab) h1 hn hm hne

end RepW

theorem lookup_eq_some {ops : KeyOps P K} (hl : ops.Lawful) {l : List (P × V)} {k : K} {v : V}
    (hd : l.Pairwise fun a b => ops.equal (ops.deref a.1) (ops.deref b.1) = false) :
    HTSpec.lookup ops l k = some v ↔ ∃ p, (p, v) ∈ l ∧ ops.equal (ops.deref p) k = true := by
  constructor
  · intro h
    simp only [HTSpec.lookup, Option.map_eq_some_iff] at h
    obtain ⟨⟨p, w⟩, h1, h2⟩ := h
    have hm := List.mem_of_find?_eq_some h1
    have he := List.find?_some h1
    subst h2
    exact ⟨p, hm, he⟩
  · rintro ⟨p, hm, he⟩
    cases hf : l.find? fun e => ops.equal (ops.deref e.1) k with
    | none =>
      have := List.find?_eq_none.1 hf _ hm
      simp [he] at this
    | some e =>
      have hm' := List.mem_of_find?_eq_some hf
      have he' := List.find?_some hf
      have : e = (p, v) := by
        by_contra hne
        have h1 : ops.equal (ops.deref e.1) (ops.deref p) = false := by
          exact pairwise_forall (fun (a b : P × V) hab => equal_false_symm hl hab) hd hm' hm hne
        rw [hl.trans _ _ _ he' (hl.symm _ _ he)] at h1
        cases h1
      simp [HTSpec.lookup, hf, this]

theorem lookup_eq_none {ops : KeyOps P K} {l : List (P × V)} {k : K} :
    HTSpec.lookup ops l k = none ↔ ∀ e ∈ l, ops.equal (ops.deref e.1) k = false := by
  simp [HTSpec.lookup, List.find?_eq_none]

theorem keyEq_ok {ops : KeyOps P K} {t : HashTable P V} {n : Nat} {e : P × V} (h : IsEntry t n e) (k : K) :
    keyEq ops (t.storage n) k = .ok (ops.equal (ops.deref e.1) k) := by
  simp [keyEq, h.1]

/-- The get loop on a chain of filled nodes. -/
theorem getLoop_eq {ops : KeyOps P K} {t : HashTable P V} {ent : Nat → P × V} {k : K} :
    ∀ (c : List Nat) (p : Option Nat) (fuel : Nat),
      Chain (fun n => (t.storage n).next) p c → (∀ n ∈ c, IsEntry t n (ent n)) → c.length ≤ fuel →
      getLoop ops t k fuel p = .ok (HTSpec.lookup ops (c.map ent) k)
  | [], p, fuel, hc, _, _ => by
    cases hc; unfold getLoop; simp [HTSpec.lookup]
  | n :: c, p, fuel, hc, he, hf => by
    obtain ⟨rfl, hc⟩ := hc
    cases fuel with
    | zero => simp at hf
    | succ fuel =>
      have hn := he n (by simp)
      unfold getLoop
      rw [keyEq_ok hn]
      simp only [R.ok_bind]
      cases heq : ops.equal (ops.deref (ent n).1) k with
      | true => simp [HTSpec.lookup, heq, hn.2]
      | false =>
        have := getLoop_eq (ops := ops) (k := k) c _ fuel hc (fun m hm => he m (by simp [hm]))
          (by simpa using hf)
        simpa [HTSpec.lookup, heq] using this

theorem mem_chain_of_equal {ops : KeyOps P K} (hl : ops.Lawful) {t : HashTable P V} {l : List (P × V)}
    {chains free ent} (h : RepW ops t l chains free ent) {k : K} {b n : Nat}
    (hb : bucketIndex (ops.hash k) t.buckets = .ok b) (hn : n ∈ nodes t chains)
    (he : ops.equal (ops.deref (ent n).1) k = true) : n ∈ chains b := by
  obtain ⟨b', hb', hnb⟩ := mem_nodes.1 hn
  have := (h.ent_ok b' hb' n hnb).2
  rw [hl.hash_eq _ _ he, hb] at this
  cases this
  exact hnb

theorem lookup_chain {ops : KeyOps P K} (hl : ops.Lawful) {t : HashTable P V} {l : List (P × V)}
    {chains free ent} (h : RepW ops t l chains free ent) {k : K} {b : Nat} (hbB : b < t.buckets)
    (hb : bucketIndex (ops.hash k) t.buckets = .ok b) :
    HTSpec.lookup ops ((chains b).map ent) k = HTSpec.lookup ops l k := by
  have hsub : ((chains b).map ent).Pairwise
      fun a b => ops.equal (ops.deref a.1) (ops.deref b.1) = false := by
    rw [List.pairwise_map]
    refine List.Pairwise.imp_of_mem ?_ (h.nodup_chain hbB)
    intro n m hn hm hne
    exact h.distinct_nodes hl (mem_nodes.2 ⟨b, hbB, hn⟩) (mem_nodes.2 ⟨b, hbB, hm⟩) hne
  cases hr : HTSpec.lookup ops l k with
  | none =>
    rw [lookup_eq_none] at hr ⊢
    intro e he
    obtain ⟨n, hn, rfl⟩ := List.mem_map.1 he
    exact hr _ ((h.mem_entries _).2 ⟨n, mem_nodes.2 ⟨b, hbB, hn⟩, rfl⟩)
  | some v =>
    rw [lookup_eq_some hl h.distinct] at hr
    rw [lookup_eq_some hl hsub]
    obtain ⟨p, hm, he⟩ := hr
    obtain ⟨n, hn, hne⟩ := (h.mem_entries _).1 hm
    refine ⟨p, List.mem_map.2 ⟨n, mem_chain_of_equal hl h hb hn (by rw [hne]; exact he), hne⟩, he⟩

theorem get_rep {ops : KeyOps P K} (hl : ops.Lawful) {t : HashTable P V} {l : List (P × V)}
    (h : Rep ops t l) (k : K) : get ops t k = .ok (HTSpec.lookup ops l k) := by
  obtain ⟨chains, free, ent, h⟩ := h
  obtain ⟨b, hbB, hb⟩ := bucketIndex_ok (hl.hash_nonneg k) h.bpos
  unfold get
  rw [hb, R.ok_bind, getLoop_eq (chains b) _ _ (h.chain b hbB) (fun n hn => (h.ent_ok b hbB n hn).1)
    (by have := h.length_chain hbB; omega), lookup_chain hl h hbB hb]

/-! ### Initialisation -/

theorem initLoop_ok (m : Nat) : ∀ k, k ≤ m → ∃ s, initLoop (Stack.init (fun _ => none) m) k = .ok s ∧
    s.maxElements = m ∧ s.stackpointer = k ∧ ∀ i, i < k → s.items i = some i
  | 0, _ => ⟨_, rfl, rfl, rfl, by intro i hi; omega⟩
  | k + 1, hk => by
    obtain ⟨s, h1, h2, h3, h4⟩ := initLoop_ok m k (by omega)
    refine ⟨{ s with items := upd s.items s.stackpointer (some k), stackpointer := s.stackpointer + 1 },
      ?_, h2, by simp [h3], ?_⟩
    · simp only [initLoop, h1, R.ok_bind, Stack.push]
      rw [if_pos (by omega)]
    · intro i hi
      by_cases hik : i = k
      · subst hik; simp [h3]
      · simp [h3, hik, h4 i (by omega)]

theorem init_rep [Nonempty P] [Nonempty V] (ops : KeyOps P K) (B m : Nat) (hB : 0 < B) :
    ∃ t : HashTable P V, init B m = .ok t ∧ t.buckets = B ∧ t.maxElements = m ∧ Rep ops t [] := by
  obtain ⟨s, h1, h2, h3, h4⟩ := initLoop_ok m m (Nat.le_refl _)
  refine ⟨_, by unfold init; rw [h1]; rfl, rfl, rfl, fun _ => [], List.range m,
    fun _ => Classical.choice inferInstance, ?_⟩
  exact { bpos := hB
          chain := fun b _ => rfl
          perm := by simp [nodes, flatMap_nil]
          stk_max := h2
          stk_sp := by simp [h3]
          stk_items := by intro i hi; simp at hi; simp [h4 i hi, hi]
          ent_ok := by intro b _ n hn; cases hn
          entries := by simp [nodes, flatMap_nil]
          distinct := List.Pairwise.nil }

/-! ### Set -/

theorem setLoop_eq {ops : KeyOps P K} {t : HashTable P V} {ent : Nat → P × V} {k : K} :
    ∀ (c : List Nat) (n : Nat) (fuel : Nat),
      Chain (fun n => (t.storage n).next) (some n) (n :: c) → (∀ m ∈ n :: c, IsEntry t m (ent m)) →
      c.length + 1 ≤ fuel →
      (∃ m ∈ n :: c, ops.equal (ops.deref (ent m).1) k = true ∧ setLoop ops t k fuel n = .ok (.inl m)) ∨
      ((∀ m ∈ n :: c, ops.equal (ops.deref (ent m).1) k = false) ∧
        ∃ c' last, n :: c = c' ++ [last] ∧ setLoop ops t k fuel n = .ok (.inr last)) := by
  intro c
  induction c with
  | nil =>
    intro n fuel hc he hf
    obtain ⟨fuel, rfl⟩ : ∃ f, fuel = f + 1 := ⟨fuel - 1, by omega⟩
    have hnx : (t.storage n).next = none := hc.2
    have hn := he n (by simp)
    cases heq : ops.equal (ops.deref (ent n).1) k with
    | true => exact .inl ⟨n, by simp, heq, by simp [setLoop, keyEq_ok hn, heq]⟩
    | false =>
      refine .inr ⟨by simpa using heq, [], n, rfl, ?_⟩
      simp [setLoop, keyEq_ok hn, heq, hnx]
  | cons m c ih =>
    intro n fuel hc he hf
    obtain ⟨fuel, rfl⟩ : ∃ f, fuel = f + 1 := ⟨fuel - 1, by omega⟩
    have hnx : (t.storage n).next = some m := hc.2.1
    have hn := he n (by simp)
    cases heq : ops.equal (ops.deref (ent n).1) k with
    | true => exact .inl ⟨n, by simp, heq, by simp [setLoop, keyEq_ok hn, heq]⟩
    | false =>
      have hstep : setLoop ops t k (fuel + 1) n = setLoop ops t k fuel m := by
        simp [setLoop, keyEq_ok hn, heq, hnx]
      have hc' : Chain (fun n => (t.storage n).next) (some m) (m :: c) := ⟨rfl, hc.2.2⟩
      rcases ih m fuel hc' (fun x hx => he x (List.mem_cons_of_mem _ hx)) (by simpa using hf) with
        ⟨x, hx, h1, h2⟩ | ⟨h1, c', last, h2, h3⟩
      · exact .inl ⟨x, List.mem_cons_of_mem _ hx, h1, by rw [hstep, h2]⟩
      · refine .inr ⟨?_, n :: c', last, by rw [h2]; rfl, by rw [hstep, h3]⟩
        intro x hx
        rcases List.mem_cons.1 hx with rfl | hx
        · exact heq
        · exact h1 x hx

theorem takeNode_ok {ops : KeyOps P K} {t : HashTable P V} {l : List (P × V)} {chains ent}
    {free : List Nat} {n : Nat} (h : RepW ops t l chains (free ++ [n]) ent) (p : P) (v : V) :
    takeNode t p v = .ok (n, { t with
      VMStack := { t.VMStack with stackpointer := free.length }
      storage := upd t.storage n { value := some v, key := some p, next := none } }) := by
  have h1 := h.stk_sp
  have h2 := h.stk_items free.length (by simp)
  simp at h1 h2
  simp [takeNode, Stack.pop, h1, h2]

/-- Adding node `n` holding `(p, v)` at the end of chain `b`. -/
theorem add_rep {ops : KeyOps P K} (hl : ops.Lawful) {t t' : HashTable P V} {l : List (P × V)} {chains ent}
    {free : List Nat} {n b : Nat} {p : P} {v : V}
    (h : RepW ops t l chains (free ++ [n]) ent) (hbB : b < t.buckets)
    (hb : bucketIndex (ops.hash (ops.deref p)) t.buckets = .ok b)
    (hnew : HTSpec.lookup ops l (ops.deref p) = none)
    (hB : t'.buckets = t.buckets) (hm : t'.maxElements = t.maxElements)
    (hs : t'.VMStack = { t.VMStack with stackpointer := free.length })
    (hkey : ∀ m, m ≠ n → (t'.storage m).key = (t.storage m).key ∧ (t'.storage m).value = (t.storage m).value)
    (hn : IsEntry t' n (p, v))
    (hch : Chain (fun m => (t'.storage m).next) (t'.HT b) (chains b ++ [n]))
    (hcho : ∀ b', b' < t.buckets → b' ≠ b → Chain (fun m => (t'.storage m).next) (t'.HT b') (chains b')) :
    RepW ops t' ((p, v) :: l) (upd chains b (chains b ++ [n])) free (upd ent n (p, v)) := by
  have hnodup := h.nodup
  have hn_nodes : n ∉ nodes t chains := by
    intro hmem
    exact (List.nodup_append.1 hnodup).2.2 n hmem n (by simp) rfl
  have hnodes : (nodes t' (upd chains b (chains b ++ [n]))).Perm (n :: nodes t chains) := by
    have h1 := flatMap_upd (c := chains) (v := chains b ++ [n]) (L := List.range t.buckets) (b := b)
      List.nodup_range (by simpa using hbB)
    have h2 := flatMap_split (c := chains) (L := List.range t.buckets) (b := b)
      List.nodup_range (by simpa using hbB)
    simp only [nodes, hB]
    refine h1.trans ?_
    rw [List.append_assoc]
    refine List.perm_middle.trans ?_
    exact List.Perm.cons _ h2.symm
  have hmap : (nodes t chains).map (upd ent n (p, v)) = (nodes t chains).map ent := by
    refine List.map_congr_left fun m hm => ?_
    have : m ≠ n := fun e => hn_nodes (e ▸ hm)
    simp [this]
  constructor
  · rw [hB]; exact h.bpos
  · intro b' hb'
    rw [hB] at hb'
    by_cases hbb : b' = b
    · subst hbb; simpa using hch
    · simpa [hbb] using hcho b' hb' hbb
  · rw [hm]
    refine List.Perm.trans ?_ h.perm
    refine (List.Perm.append_right free hnodes).trans ?_
    rw [List.cons_append, ← List.append_assoc]
    exact (List.perm_append_singleton _ _).symm
  · rw [hs, hm]; exact h.stk_max
  · rw [hs]
  · intro i hi
    rw [hs]
    have := h.stk_items i (by simp; omega)
    rw [this, List.getElem?_append_left hi]
  · intro b' hb' m hmem
    rw [hB] at hb' ⊢
    by_cases hmn : m = n
    · subst hmn
      have hbb : b' = b := by
        by_contra hbb
        rw [upd_other _ _ hbb] at hmem
        exact hn_nodes (mem_nodes.2 ⟨b', hb', hmem⟩)
      subst hbb
      simpa using ⟨hn, hb⟩
    · have hmem' : m ∈ chains b' := by
        by_cases hbb : b' = b
        · subst hbb
          simpa [hmn] using hmem
        · simpa [hbb] using hmem
      obtain ⟨h1, h2⟩ := h.ent_ok b' hb' m hmem'
      rw [upd_other _ _ hmn]
      exact ⟨⟨(hkey m hmn).1.trans h1.1, (hkey m hmn).2.trans h1.2⟩, h2⟩
  · refine List.Perm.trans ?_ (hnodes.map (upd ent n (p, v))).symm
    simp only [List.map_cons, upd_same, hmap]
    exact List.Perm.cons _ h.entries
  · refine List.Pairwise.cons ?_ h.distinct
    intro e he
    exact equal_false_symm hl (lookup_eq_none.1 hnew e he)

theorem insert_of_none {ops : KeyOps P K} {l : List (P × V)} {p : P} {v : V}
    (h : HTSpec.lookup ops l (ops.deref p) = none) : HTSpec.insert ops l p v = (p, v) :: l := by
  rw [lookup_eq_none] at h
  unfold HTSpec.insert
  rw [if_neg]
  simp only [List.any_eq_true, not_exists, not_and]
  intro e he
  simp [h e he]

/-- Overwriting the value of node `n`. -/
theorem overwrite_rep {ops : KeyOps P K} (hl : ops.Lawful) {t : HashTable P V} {l : List (P × V)} {chains ent}
    {free : List Nat} {n : Nat} {p : P} {v : V} (h : RepW ops t l chains free ent)
    (hn : n ∈ nodes t chains) (he : ops.equal (ops.deref (ent n).1) (ops.deref p) = true) :
    RepW ops { t with storage := upd t.storage n { t.storage n with value := some v } }
      (HTSpec.insert ops l p v) chains free (upd ent n ((ent n).1, v)) := by
  have hfst : ∀ m, (upd ent n ((ent n).1, v) m).1 = (ent m).1 := by
    intro m; by_cases hm : m = n
    · subst hm; simp
    · simp [hm]
  have hnx : (fun m => (upd t.storage n { t.storage n with value := some v } m).next) =
      fun m => (t.storage m).next := by
    funext m; by_cases hm : m = n
    · subst hm; simp
    · simp [hm]
  have hany : (l.any fun e => ops.equal (ops.deref e.1) (ops.deref p)) = true := by
    rw [List.any_eq_true]
    exact ⟨ent n, (h.mem_entries _).2 ⟨n, hn, rfl⟩, he⟩
  have hins : HTSpec.insert ops l p v =
      l.map fun e => if ops.equal (ops.deref e.1) (ops.deref p) then (e.1, v) else e := by
    unfold HTSpec.insert; rw [if_pos hany]
  constructor
  · exact h.bpos
  · intro b hb
    show Chain (fun m => (upd t.storage n { t.storage n with value := some v } m).next) _ _
    rw [hnx]; exact h.chain b hb
  · exact h.perm
  · exact h.stk_max
  · exact h.stk_sp
  · exact h.stk_items
  · intro b hb m hm
    obtain ⟨h1, h2⟩ := h.ent_ok b hb m hm
    refine ⟨?_, by rw [hfst]; exact h2⟩
    by_cases hmn : m = n
    · subst hmn; exact ⟨by simpa using h1.1, by simp⟩
    · exact ⟨by simpa [hmn] using h1.1, by simpa [hmn] using h1.2⟩
  · rw [hins]
    refine (h.entries.map _).trans ?_
    rw [List.map_map]
    have : (nodes t chains).map ((fun e => if ops.equal (ops.deref e.1) (ops.deref p) then (e.1, v) else e) ∘ ent)
        = (nodes t chains).map (upd ent n ((ent n).1, v)) := by
      refine List.map_congr_left fun m hm => ?_
      by_cases hmn : m = n
      · subst hmn; simp [he]
      · have h1 := h.distinct_nodes hl hm hn hmn
        have : ops.equal (ops.deref (ent m).1) (ops.deref p) = false := by
          cases hq : ops.equal (ops.deref (ent m).1) (ops.deref p) with
          | false => rfl
          | true => rw [hl.trans _ _ _ hq (hl.symm _ _ he)] at h1; cases h1
        simp [hmn, this]
    rw [this]
    exact List.Perm.refl _
  · rw [hins, List.pairwise_map]
    refine h.distinct.imp ?_
    intro a b hab
    have h1 : ∀ e : P × V, (if ops.equal (ops.deref e.1) (ops.deref p) = true then (e.1, v) else e).1 = e.1 := by
      intro e; split <;> rfl
    rw [h1, h1]; exact hab

theorem set_rep {ops : KeyOps P K} (hl : ops.Lawful) {t : HashTable P V} {l : List (P × V)}
    (h : Rep ops t l) (p : P) (v : V)
    (hcap : HTSpec.lookup ops l (ops.deref p) ≠ none ∨ l.length < t.maxElements) :
    ∃ t', set ops t p v = .ok t' ∧ t'.buckets = t.buckets ∧ t'.maxElements = t.maxElements ∧
      Rep ops t' (HTSpec.insert ops l p v) := by
  obtain ⟨chains, free, ent, h⟩ := h
  obtain ⟨b, hbB, hb⟩ := bucketIndex_ok (hl.hash_nonneg (ops.deref p)) h.bpos
  have hfree : HTSpec.lookup ops l (ops.deref p) = none → ∃ f n, free = f ++ [n] := by
    intro hnone
    have h1 : l.length < t.maxElements := by
      rcases hcap with h1 | h1
      · exact absurd hnone h1
      · exact h1
    have h2 := h.length_entries
    rcases List.eq_nil_or_concat free with rfl | ⟨f, n, rfl⟩
    · simp at h2; omega
    · exact ⟨f, n, by simp⟩
  have hchain := h.chain b hbB
  cases hHT : t.HT b with
  | none =>
    have hcb : chains b = [] := by
      cases hc : chains b with
      | nil => rfl
      | cons n c => rw [hc] at hchain; have := hchain.1; rw [hHT] at this; cases this
    have hnone : HTSpec.lookup ops l (ops.deref p) = none := by
      rw [← lookup_chain hl h hbB hb, hcb]; rfl
    obtain ⟨f, n, rfl⟩ := hfree hnone
    refine ⟨{ t with
        VMStack := { t.VMStack with stackpointer := f.length }
        storage := upd t.storage n { value := some v, key := some p, next := none }
        HT := upd t.HT b (some n) },
      by simp only [set, hb, R.ok_bind, hHT, takeNode_ok h p v], rfl, rfl, ?_⟩
    rw [insert_of_none hnone]
    have hnn : ∀ b', b' < t.buckets → n ∉ chains b' := by
      intro b' hb' hmem
      exact (List.nodup_append.1 h.nodup).2.2 n (mem_nodes.2 ⟨b', hb', hmem⟩) n (by simp) rfl
    apply RepW.rep
    refine add_rep hl (t' := { t with
        VMStack := { t.VMStack with stackpointer := f.length }
        storage := upd t.storage n { value := some v, key := some p, next := none }
        HT := upd t.HT b (some n) }) h hbB hb hnone rfl rfl rfl ?_ ?_ ?_ ?_
    · intro m hm; simp [hm]
    · exact ⟨by simp, by simp⟩
    · rw [hcb]; exact ⟨by simp, by simp [Chain]⟩
    · intro b' hb' hbb
      simp only [upd_other _ _ hbb]
      refine Chain.congr (h.chain b' hb') fun m hm => ?_
      have : m ≠ n := fun e => hnn b' hb' (e ▸ hm)
      simp [this]
  | some first =>
    obtain ⟨c, hcb⟩ : ∃ c, chains b = first :: c := by
      cases hc : chains b with
      | nil => rw [hc] at hchain; have : t.HT b = none := hchain; rw [hHT] at this; cases this
      | cons n c => rw [hc] at hchain; have := hchain.1; rw [hHT] at this; cases this; exact ⟨c, rfl⟩
    rw [hcb, hHT] at hchain
    have hlen := h.length_chain hbB
    rw [hcb] at hlen
    rcases setLoop_eq (ops := ops) (ent := ent) (k := ops.deref p) c first (t.maxElements + 1) hchain
        (fun m hm => (h.ent_ok b hbB m (hcb ▸ hm)).1) (by simp at hlen; omega) with
      ⟨n, hn, he, hset⟩ | ⟨hne, c', last, hc', hset⟩
    · refine ⟨{ t with storage := upd t.storage n { t.storage n with value := some v } },
        by simp only [set, hb, R.ok_bind, hHT, hset], rfl, rfl, ?_⟩
      exact RepW.rep <| overwrite_rep hl h (mem_nodes.2 ⟨b, hbB, hcb ▸ hn⟩) he
    · have hnone : HTSpec.lookup ops l (ops.deref p) = none := by
        rw [← lookup_chain hl h hbB hb, lookup_eq_none]
        intro e he
        obtain ⟨m, hm, rfl⟩ := List.mem_map.1 he
        exact hne m (hcb ▸ hm)
      obtain ⟨f, n, rfl⟩ := hfree hnone
      have hnn : ∀ b', b' < t.buckets → n ∉ chains b' := by
        intro b' hb' hmem
        exact (List.nodup_append.1 h.nodup).2.2 n (mem_nodes.2 ⟨b', hb', hmem⟩) n (by simp) rfl
      have hlastmem : last ∈ chains b := by rw [hcb, hc']; simp
      have hlast : last ≠ n := fun e => hnn b hbB (e ▸ hlastmem)
      refine ⟨{ t with
        VMStack := { t.VMStack with stackpointer := f.length }
        storage := upd (upd t.storage n { value := some v, key := some p, next := none }) last
          { upd t.storage n { value := some v, key := some p, next := none } last with next := some n } },
        by simp only [set, hb, R.ok_bind, hHT, hset, takeNode_ok h p v], rfl, rfl, ?_⟩
      rw [insert_of_none hnone]
      apply RepW.rep
      refine add_rep hl (t' := { t with
        VMStack := { t.VMStack with stackpointer := f.length }
        storage := upd (upd t.storage n { value := some v, key := some p, next := none }) last
          { upd t.storage n { value := some v, key := some p, next := none } last with next := some n } })
        h hbB hb hnone rfl rfl rfl ?_ ?_ ?_ ?_
      · intro m hm
        by_cases hml : m = last
        · subst hml; simp [hm]
        · simp [hm, hml]
      · exact ⟨by simp [Ne.symm hlast], by simp [Ne.symm hlast]⟩
      · have hnd := h.nodup_chain hbB
        rw [hcb, hc'] at hnd ⊢
        rw [hc'] at hchain
        have hnc : n ∉ c' ++ [last] := by rw [← hc', ← hcb]; exact hnn b hbB
        have := Chain.snoc hchain hnd hnc
        rw [hHT]
        refine Chain.congr this fun m _ => ?_
        by_cases hml : m = last
        · subst hml; simp
        · by_cases hmn : m = n
          · subst hmn; simp [hml]
          · simp [hml, hmn]
      · intro b' hb' hbb
        refine Chain.congr (h.chain b' hb') fun m hm => ?_
        have h1 : m ≠ n := fun e => hnn b' hb' (e ▸ hm)
        have h2 : m ≠ last := by
          intro e; subst e
          have e1 := (h.ent_ok b' hb' m hm).2
          have e2 := (h.ent_ok b hbB m hlastmem).2
          rw [e1] at e2; cases e2; exact hbb rfl
        simp [h1, h2]

/-- A full table refuses a new key with the assertion of `Stack_Pop`. -/
theorem set_full {ops : KeyOps P K} (hl : ops.Lawful) {t : HashTable P V} {l : List (P × V)}
    (h : Rep ops t l) (p : P) (v : V) (hnew : HTSpec.lookup ops l (ops.deref p) = none)
    (hfull : l.length = t.maxElements) :
    set ops t p v = .error (.assertFail "VMEntry stack underflow") := by
  obtain ⟨chains, free, ent, h⟩ := h
  obtain ⟨b, hbB, hb⟩ := bucketIndex_ok (hl.hash_nonneg (ops.deref p)) h.bpos
  have h1 := h.length_entries
  have h2 := h.stk_sp
  have hfree : free = [] := List.length_eq_zero_iff.1 (by omega)
  subst hfree
  have htake : takeNode t p v = .error (.assertFail "VMEntry stack underflow") := by
    simp [takeNode, Stack.pop, h2]
  have hchain := h.chain b hbB
  cases hHT : t.HT b with
  | none => simp only [set, hb, R.ok_bind, hHT, htake, R.error_bind]
  | some first =>
    obtain ⟨c, hcb⟩ : ∃ c, chains b = first :: c := by
      cases hc : chains b with
      | nil => rw [hc] at hchain; have : t.HT b = none := hchain; rw [hHT] at this; cases this
      | cons n c => rw [hc] at hchain; have := hchain.1; rw [hHT] at this; cases this; exact ⟨c, rfl⟩
    rw [hcb, hHT] at hchain
    have hlen := h.length_chain hbB
    rw [hcb] at hlen
    rcases setLoop_eq (ops := ops) (ent := ent) (k := ops.deref p) c first (t.maxElements + 1) hchain
        (fun m hm => (h.ent_ok b hbB m (hcb ▸ hm)).1) (by simp at hlen; omega) with
      ⟨n, hn, he, hset⟩ | ⟨hne, c', last, hc', hset⟩
    · have := lookup_eq_none.1 hnew (ent n) ((h.mem_entries _).2 ⟨n, mem_nodes.2 ⟨b, hbB, hcb ▸ hn⟩, rfl⟩)
      rw [he] at this; cases this
    · simp only [set, hb, R.ok_bind, hHT, hset, htake, R.error_bind]

/-! ### Delete -/

theorem deleteLoop_eq {ops : KeyOps P K} {t : HashTable P V} {ent : Nat → P × V} {k : K} :
    ∀ (c : List Nat) (prev p : Option Nat) (fuel : Nat),
      Chain (fun n => (t.storage n).next) p c → (∀ m ∈ c, IsEntry t m (ent m)) → c.length ≤ fuel →
      (∃ m ∈ c, ops.equal (ops.deref (ent m).1) k = true) →
      ∃ c1 n c2, c = c1 ++ n :: c2 ∧ ops.equal (ops.deref (ent n).1) k = true ∧
        deleteLoop ops t k fuel prev p = .ok ((c1.getLast?).or prev, n) := by
  intro c
  induction c with
  | nil => rintro prev p fuel _ _ _ ⟨m, hm, _⟩; cases hm
  | cons n c ih =>
    rintro prev p fuel ⟨rfl, hc⟩ he hf ⟨m, hm, hme⟩
    obtain ⟨fuel, rfl⟩ : ∃ f, fuel = f + 1 := ⟨fuel - 1, by simp at hf; omega⟩
    have hn := he n (by simp)
    cases heq : ops.equal (ops.deref (ent n).1) k with
    | true => exact ⟨[], n, c, rfl, heq, by simp [deleteLoop, keyEq_ok hn, heq]⟩
    | false =>
      have hmc : m ∈ c := by
        rcases List.mem_cons.1 hm with rfl | hm
        · rw [heq] at hme; cases hme
        · exact hm
      obtain ⟨c1, n', c2, h1, h2, h3⟩ := ih (some n) _ fuel hc (fun x hx => he x (by simp [hx]))
        (by simpa using hf) ⟨m, hmc, hme⟩
      refine ⟨n :: c1, n', c2, by rw [h1]; rfl, h2, ?_⟩
      simp only [deleteLoop, keyEq_ok hn, R.ok_bind, heq]
      rw [if_neg (by simp), h3]
      congr 2
      rw [List.getLast?_cons]
      cases c1.getLast? <;> simp

/-- Removing node `n` from chain `b`. -/
theorem remove_rep {ops : KeyOps P K} (hl : ops.Lawful) {t t' : HashTable P V} {l : List (P × V)} {chains ent}
    {free c1 c2 : List Nat} {n b : Nat} {k : K}
    (h : RepW ops t l chains free ent) (hbB : b < t.buckets) (hcb : chains b = c1 ++ n :: c2)
    (he : ops.equal (ops.deref (ent n).1) k = true)
    (hB : t'.buckets = t.buckets) (hm : t'.maxElements = t.maxElements)
    (hs1 : t'.VMStack.maxElements = t.VMStack.maxElements)
    (hs2 : t'.VMStack.stackpointer = free.length + 1)
    (hs3 : t'.VMStack.items = upd t.VMStack.items free.length (some n))
    (hkey : ∀ m, (t'.storage m).key = (t.storage m).key ∧ (t'.storage m).value = (t.storage m).value)
    (hch : Chain (fun m => (t'.storage m).next) (t'.HT b) (c1 ++ c2))
    (hcho : ∀ b', b' < t.buckets → b' ≠ b → Chain (fun m => (t'.storage m).next) (t'.HT b') (chains b')) :
    RepW ops t' (HTSpec.erase ops l k) (upd chains b (c1 ++ c2)) (free ++ [n]) ent := by
  have hnodes : (nodes t chains).Perm (n :: nodes t' (upd chains b (c1 ++ c2))) := by
    have h1 := flatMap_upd (c := chains) (v := c1 ++ c2) (L := List.range t.buckets) (b := b)
      List.nodup_range (by simpa using hbB)
    have h2 := flatMap_split (c := chains) (L := List.range t.buckets) (b := b)
      List.nodup_range (by simpa using hbB)
    simp only [nodes, hB]
    refine h2.trans ?_
    rw [hcb]
    refine (List.Perm.append_right _ List.perm_middle).trans ?_
    rw [List.cons_append]
    exact List.Perm.cons _ h1.symm
  have hnmem : n ∈ nodes t chains := hnodes.symm.subset (by simp)
  have hlperm : l.Perm (ent n :: (nodes t' (upd chains b (c1 ++ c2))).map ent) := by
    refine h.entries.trans ((hnodes.map ent).trans ?_)
    simp
  have hfilter : ((nodes t' (upd chains b (c1 ++ c2))).map ent).filter
      (fun e => !ops.equal (ops.deref e.1) k) = (nodes t' (upd chains b (c1 ++ c2))).map ent := by
    rw [List.filter_eq_self]
    intro e hemem
    obtain ⟨m, hmm, rfl⟩ := List.mem_map.1 hemem
    have hmn : m ≠ n := by
      intro e; subst e
      have hd := hnodes.nodup_iff.1 (List.nodup_append.1 h.nodup).1
      exact (List.nodup_cons.1 hd).1 hmm
    have hmnodes : m ∈ nodes t chains := hnodes.symm.subset (by simp [hmm])
    have h1 := h.distinct_nodes hl hmnodes hnmem hmn
    cases hq : ops.equal (ops.deref (ent m).1) k with
    | false => rfl
    | true => rw [hl.trans _ _ _ hq (hl.symm _ _ he)] at h1; cases h1
  constructor
  · rw [hB]; exact h.bpos
  · intro b' hb'
    rw [hB] at hb'
    by_cases hbb : b' = b
    · subst hbb; simpa using hch
    · simpa [hbb] using hcho b' hb' hbb
  · rw [hm]
    refine List.Perm.trans ?_ h.perm
    rw [← List.append_assoc]
    refine (List.perm_append_singleton _ _).trans ?_
    rw [← List.cons_append]
    exact List.Perm.append_right _ hnodes.symm
  · rw [hs1, hm]; exact h.stk_max
  · simp [hs2]
  · intro i hi
    simp at hi
    rw [hs3]
    by_cases hii : i = free.length
    · subst hii; simp
    · have : i < free.length := by omega
      rw [upd_other _ _ hii, h.stk_items i this, List.getElem?_append_left this]
  · intro b' hb' m hmem
    rw [hB] at hb' ⊢
    have hmem' : m ∈ chains b' := by
      by_cases hbb : b' = b
      · subst hbb
        rw [upd_same] at hmem
        rw [hcb]
        rcases List.mem_append.1 hmem with hx | hx <;> simp [hx]
      · simpa [hbb] using hmem
    obtain ⟨h1, h2⟩ := h.ent_ok b' hb' m hmem'
    exact ⟨⟨(hkey m).1.trans h1.1, (hkey m).2.trans h1.2⟩, h2⟩
  · have := hlperm.filter (fun e => !ops.equal (ops.deref e.1) k)
    rw [List.filter_cons_of_neg (by simp [he]), hfilter] at this
    exact this
  · exact h.distinct.filter _

theorem delete_rep {ops : KeyOps P K} (hl : ops.Lawful) {t : HashTable P V} {l : List (P × V)}
    (h : Rep ops t l) (k : K) (hin : HTSpec.lookup ops l k ≠ none) :
    ∃ t', delete ops t k = .ok t' ∧ t'.buckets = t.buckets ∧ t'.maxElements = t.maxElements ∧
      Rep ops t' (HTSpec.erase ops l k) := by
  obtain ⟨chains, free, ent, h⟩ := h
  obtain ⟨b, hbB, hb⟩ := bucketIndex_ok (hl.hash_nonneg k) h.bpos
  have hchain := h.chain b hbB
  obtain ⟨v, hv⟩ := Option.ne_none_iff_exists'.1 hin
  rw [lookup_eq_some hl h.distinct] at hv
  obtain ⟨p, hpm, hpe⟩ := hv
  obtain ⟨x, hxn, hxe⟩ := (h.mem_entries _).1 hpm
  have hxe' : ops.equal (ops.deref (ent x).1) k = true := by rw [hxe]; exact hpe
  have hxb := mem_chain_of_equal hl h hb hxn hxe'
  have hfl : free.length < t.maxElements := by
    have h1 := h.length_entries
    have h2 : 0 < l.length := List.length_pos_of_mem hpm
    omega
  have hpush : ∀ n, t.VMStack.push n = .ok { t.VMStack with
      items := upd t.VMStack.items free.length (some n), stackpointer := free.length + 1 } := by
    intro n
    simp [Stack.push, h.stk_sp, h.stk_max, hfl]
  obtain ⟨first, c, hcb⟩ : ∃ first c, chains b = first :: c := by
    cases hc : chains b with
    | nil => rw [hc] at hxb; cases hxb
    | cons n c => exact ⟨n, c, rfl⟩
  have hHT : t.HT b = some first := by rw [hcb] at hchain; exact hchain.1
  have hdisj : ∀ b', b' < t.buckets → b' ≠ b → ∀ m ∈ chains b', m ∉ chains b := by
    intro b' hb' hbb m hm hm'
    have e1 := (h.ent_ok b' hb' m hm).2
    have e2 := (h.ent_ok b hbB m hm').2
    rw [e1] at e2; cases e2; exact hbb rfl
  by_cases hnx : (t.storage first).next = none
  · have hc : c = [] := by
      rw [hcb] at hchain
      have h2 := hchain.2
      cases c with
      | nil => rfl
      | cons m c => have := h2.1; simp only [hnx] at this; cases this
    subst hc
    have hxf : x = first := by rw [hcb] at hxb; simpa using hxb
    subst hxf
    refine ⟨{ t with
        HT := upd t.HT b none
        VMStack := { t.VMStack with
          items := upd t.VMStack.items free.length (some x), stackpointer := free.length + 1 } },
      by simp only [delete, hb, R.ok_bind, hHT, hnx, if_true, hpush], rfl, rfl, ?_⟩
    apply RepW.rep
    refine remove_rep hl (c1 := []) (c2 := []) h hbB hcb hxe' rfl rfl rfl rfl rfl (fun _ => ⟨rfl, rfl⟩) ?_ ?_
    · simp [Chain]
    · intro b' hb' hbb
      simpa [hbb] using h.chain b' hb'
  · obtain ⟨c1, n, c2, hc, he, hdel⟩ := deleteLoop_eq (ops := ops) (ent := ent) (k := k) (chains b) none
      (some first) (t.maxElements + 1) (by rw [← hHT]; exact hchain)
      (fun m hm => (h.ent_ok b hbB m hm).1) (by have := h.length_chain hbB; omega) ⟨x, hxb, hxe'⟩
    rw [Option.or_none] at hdel
    have hnd := h.nodup_chain hbB
    rcases List.eq_nil_or_concat c1 with rfl | ⟨c1', prev, rfl⟩
    · have hfn : first = n := by rw [hcb] at hc; exact (List.cons.inj hc).1
      subst hfn
      refine ⟨{ t with
          HT := upd t.HT b (t.storage first).next
          VMStack := { t.VMStack with
            items := upd t.VMStack.items free.length (some first), stackpointer := free.length + 1 } },
        by simp only [delete, hb, R.ok_bind, hHT, hnx, if_false, hdel, List.getLast?_nil, hpush],
        rfl, rfl, ?_⟩
      apply RepW.rep
      refine remove_rep hl (c1 := []) h hbB hc he rfl rfl rfl rfl rfl (fun _ => ⟨rfl, rfl⟩) ?_ ?_
      · rw [hc] at hchain
        simpa using hchain.2
      · intro b' hb' hbb
        simpa [hbb] using h.chain b' hb'
    · have hc1 : (c1'.concat prev).getLast? = some prev := by simp
      rw [hc1] at hdel
      refine ⟨{ t with
          storage := upd t.storage prev { t.storage prev with next := (t.storage n).next }
          VMStack := { t.VMStack with
            items := upd t.VMStack.items free.length (some n), stackpointer := free.length + 1 } },
        by simp only [delete, hb, R.ok_bind, hHT, hnx, if_false, hdel, hpush],
        rfl, rfl, ?_⟩
      have hprev : prev ∈ chains b := by rw [hc]; simp
      apply RepW.rep
      refine remove_rep hl h hbB hc he rfl rfl rfl rfl rfl ?_ ?_ ?_
      · intro m
        by_cases hmp : m = prev
        · subst hmp; simp
        · simp [hmp]
      · rw [hc] at hchain hnd
        simp only [List.concat_eq_append, List.append_assoc, List.singleton_append] at hchain hnd ⊢
        have := Chain.unlink hchain hnd
        refine Chain.congr this fun m _ => ?_
        by_cases hmp : m = prev
        · subst hmp; simp
        · simp [hmp]
      · intro b' hb' hbb
        refine Chain.congr (h.chain b' hb') fun m hm => ?_
        have : m ≠ prev := fun e => hdisj b' hb' hbb m hm (e ▸ hprev)
        simp [this]

/-! ### Changing the store the keys point into -/

/-- The table keeps representing its entries when memory changes that its key pointers do not point to. -/
theorem Rep.congr_deref {ops ops' : KeyOps P K} {t : HashTable P V} {l : List (P × V)} (h : Rep ops t l)
    (he : ops'.equal = ops.equal) (hh : ops'.hash = ops.hash)
    (hd : ∀ e ∈ l, ops'.deref e.1 = ops.deref e.1) : Rep ops' t l := by
  obtain ⟨chains, free, ent, h⟩ := h
  refine ⟨chains, free, ent, { h with ent_ok := ?_, distinct := ?_ }⟩
  · intro b hb n hn
    obtain ⟨h1, h2⟩ := h.ent_ok b hb n hn
    refine ⟨h1, ?_⟩
    rw [hh, hd _ ((h.mem_entries _).2 ⟨n, mem_nodes.2 ⟨b, hb, hn⟩, rfl⟩)]
    exact h2
  · refine h.distinct.imp_of_mem ?_
    intro a b ha hb hab
    rw [he, hd a ha, hd b hb]; exact hab

theorem Rep.perm {ops : KeyOps P K} (hl : ops.Lawful) {t : HashTable P V} {l l' : List (P × V)}
    (h : Rep ops t l) (hp : l'.Perm l) : Rep ops t l' := by
  obtain ⟨chains, free, ent, h⟩ := h
  exact ⟨chains, free, ent, { h with
    entries := hp.trans h.entries
    distinct := hp.symm.pairwise h.distinct (fun hab => equal_false_symm hl hab) }⟩

theorem Rep.length_le {ops : KeyOps P K} {t : HashTable P V} {l : List (P × V)} (h : Rep ops t l) :
    l.length + t.VMStack.stackpointer = t.maxElements := by
  obtain ⟨chains, free, ent, h⟩ := h
  rw [h.stk_sp]; exact h.length_entries

theorem Rep.distinct {ops : KeyOps P K} {t : HashTable P V} {l : List (P × V)} (h : Rep ops t l) :
    l.Pairwise fun a b => ops.equal (ops.deref a.1) (ops.deref b.1) = false := by
  obtain ⟨chains, free, ent, h⟩ := h
  exact h.distinct

end HashTable
end ONA
