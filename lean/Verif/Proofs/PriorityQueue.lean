import Verif.Model.PriorityQueue
import Mathlib.Data.List.Nodup
import Mathlib.Data.List.Perm.Basic
import Mathlib.Logic.Equiv.Basic
/-
Min-max heap invariant and its preservation by the operations of the priority queue.
-/
namespace ONA
namespace PriorityQueue
variable {α β : Type}

/-! ### Permutations of the first `n` cells -/

/-- `g` is `f` with the first `n` cells permuted. -/
def PermBelow (n : Nat) (f g : Nat → Item α β) : Prop :=
  ∃ σ : Equiv.Perm Nat, (∀ i, n ≤ i → σ i = i) ∧ g = f ∘ σ

theorem PermBelow.refl (n : Nat) (f : Nat → Item α β) : PermBelow n f f :=
  ⟨Equiv.refl _, fun _ _ => rfl, rfl⟩

theorem PermBelow.trans {n : Nat} {f g h : Nat → Item α β} (a : PermBelow n f g) (b : PermBelow n g h) :
    PermBelow n f h := by
  obtain ⟨σ, hσ, rfl⟩ := a
  obtain ⟨τ, hτ, rfl⟩ := b
  refine ⟨τ.trans σ, ?_, rfl⟩
  intro i hi
  simp [hτ i hi, hσ i hi]

theorem PermBelow.mono {n m : Nat} (hnm : n ≤ m) {f g : Nat → Item α β} (a : PermBelow n f g) :
    PermBelow m f g := by
  obtain ⟨σ, hσ, rfl⟩ := a
  exact ⟨σ, fun i hi => hσ i (by omega), rfl⟩

theorem swap_apply (f : Nat → Item α β) (a b k : Nat) :
    swap f a b k = if k = b then f a else if k = a then f b else f k := by
  simp [swap, upd_apply]

theorem swap_permBelow {n a b : Nat} (f : Nat → Item α β) (ha : a < n) (hb : b < n) :
    PermBelow n f (swap f a b) := by
  refine ⟨Equiv.swap a b, ?_, ?_⟩
  · intro i hi
    exact Equiv.swap_apply_of_ne_of_ne (by omega) (by omega)
  · funext k
    simp only [swap_apply, Function.comp, Equiv.swap_apply_def]
    split <;> rename_i h1
    · subst h1
      split <;> rename_i h2
      · subst h2; rfl
      · rfl
    · split <;> rename_i h2
      · rfl
      · rfl

theorem range_map_perm {n : Nat} {σ : Equiv.Perm Nat} (hσ : ∀ i, n ≤ i → σ i = i) :
    ((List.range n).map σ).Perm (List.range n) := by
  have hlt : ∀ i, i < n → σ i < n := by
    intro i hi
    by_contra hc
    have h1 := hσ (σ i) (by omega)
    have h2 := σ.injective h1
    omega
  rw [List.perm_ext_iff_of_nodup]
  · intro a
    simp only [List.mem_map, List.mem_range]
    constructor
    · rintro ⟨i, hi, rfl⟩
      exact hlt i hi
    · intro ha
      refine ⟨σ.symm a, ?_, by simp⟩
      by_contra hc
      have h1 := hσ (σ.symm a) (by omega)
      simp at h1
      omega
  · exact (List.nodup_range).map σ.injective
  · exact List.nodup_range

theorem PermBelow.perm {n m : Nat} (hnm : n ≤ m) {f g : Nat → Item α β} (h : PermBelow n f g) :
    ((List.range m).map g).Perm ((List.range m).map f) := by
  obtain ⟨σ, hσ, rfl⟩ := h
  rw [← List.map_map]
  exact (range_map_perm (fun i hi => hσ i (by omega))).map f

theorem PermBelow.above {n : Nat} {f g : Nat → Item α β} (h : PermBelow n f g) {i : Nat} (hi : n ≤ i) :
    g i = f i := by
  obtain ⟨σ, hσ, rfl⟩ := h
  simp [hσ i hi]

/-! ### Levels -/

theorem levelIncrements_pos {n : Nat} (h : n ≠ 0) : levelIncrements n = levelIncrements (n / 2) + 1 := by
  rw [levelIncrements]; simp [h]

theorem isOnMaxLevel_zero : isOnMaxLevel 0 = false := by
  unfold isOnMaxLevel
  rw [levelIncrements_pos (by omega)]
  have : levelIncrements 0 = 0 := by rw [levelIncrements]; simp
  simp [this]

/-- `c` is a child of `i`. -/
def IsC (i c : Nat) : Prop := c = 2 * i + 1 ∨ c = 2 * i + 2
/-- `g` is a grandchild of `i`. -/
def IsG (i g : Nat) : Prop := 4 * i + 3 ≤ g ∧ g ≤ 4 * i + 6

theorem lev_child {i c : Nat} (h : IsC i c) : isOnMaxLevel c = !isOnMaxLevel i := by
  unfold isOnMaxLevel
  rw [levelIncrements_pos (n := c + 1) (by omega)]
  have : (c + 1) / 2 = i + 1 := by unfold IsC at h; omega
  rw [this]
  generalize levelIncrements (i + 1) = k
  have h2 : ((k : Int) - 1) % 2 = 0 ∨ ((k : Int) - 1) % 2 = 1 := by omega
  push_cast
  rcases h2 with h2 | h2
  · have h3 : ((k : Int) + 1 - 1) % 2 = 1 := by omega
    rw [h2, h3]; rfl
  · have h3 : ((k : Int) + 1 - 1) % 2 = 0 := by omega
    rw [h2, h3]; rfl

theorem lev_grandchild {i g : Nat} (h : IsG i g) : isOnMaxLevel g = isOnMaxLevel i := by
  have h1 : IsC i ((g - 1) / 2) := by unfold IsG at h; unfold IsC; omega
  have h2 : IsC ((g - 1) / 2) g := by unfold IsG at h; unfold IsC; omega
  rw [lev_child h2, lev_child h1]; simp

/-! ### Order on a level -/
variable [LinearOrder α]

/-- The order enforced by a node on a min level (`inv = false`) or max level (`inv = true`). -/
def ord (inv : Bool) (x y : Item α β) : Prop :=
  if inv then y.priority ≤ x.priority else x.priority ≤ y.priority

theorem ord_refl (inv : Bool) (x : Item α β) : ord inv x x := by
  unfold ord; split <;> exact le_refl _

theorem ord_trans {inv : Bool} {x y z : Item α β} (h1 : ord inv x y) (h2 : ord inv y z) : ord inv x z := by
  unfold ord at *
  split <;> simp_all
  · exact le_trans h2 h1
  · exact le_trans h1 h2

theorem ord_not {inv : Bool} {x y : Item α β} (h : ord inv x y) : ord (!inv) y x := by
  unfold ord at *
  cases inv <;> simp_all

theorem ord_of_ltx {inv : Bool} {x y : Item α β} (h : ltx x.priority y.priority inv = true) : ord inv x y := by
  unfold ltx at h; unfold ord
  cases inv <;> simp_all
  exact le_of_lt h

theorem ord_of_not_ltx {inv : Bool} {x y : Item α β} (h : ltx x.priority y.priority inv = false) :
    ord inv y x := by
  unfold ltx at h; unfold ord
  cases inv <;> simp_all
  exact le_of_lt h

/-- Node `i` is in order with its children and grandchildren among the first `n` cells. -/
def NodeOk (f : Nat → Item α β) (n i : Nat) : Prop :=
  (∀ c, IsC i c → c < n → ord (isOnMaxLevel i) (f i) (f c)) ∧
  (∀ g, IsG i g → g < n → ord (isOnMaxLevel i) (f i) (f g))

/-- Min-max heap on the first `n` cells. -/
def Heap (f : Nat → Item α β) (n : Nat) : Prop := ∀ i, NodeOk f n i

/-- All nodes but `i` are in order, and the grandparent of `i` is in order with the descendants of `i`. -/
def HoleHeap (f : Nat → Item α β) (n i : Nat) : Prop :=
  (∀ k, k ≠ i → NodeOk f n k) ∧
  (∀ k, IsG k i → ∀ d, (IsC i d ∨ IsG i d) → d < n → ord (isOnMaxLevel k) (f k) (f d))

/-! ### Extremes of a heap -/

theorem Heap.min {f : Nat → Item α β} {n : Nat} (h : Heap f n) (i : Nat) (hi : i < n) :
    (f 0).priority ≤ (f i).priority := by
  induction i using Nat.strongRecOn with
  | _ i ih =>
    by_cases h0 : i = 0
    · subst h0; exact le_refl _
    · have hc : IsC ((i - 1) / 2) i := by unfold IsC; omega
      by_cases hl : isOnMaxLevel i = true
      · have hp : isOnMaxLevel ((i - 1) / 2) = false := by
          have := lev_child hc; rw [hl] at this; simpa using this.symm
        have := (h ((i - 1) / 2)).1 i hc hi
        rw [hp] at this
        simp [ord] at this
        exact le_trans (ih _ (by omega) (by omega)) this
      · by_cases h3 : i < 3
        · exfalso
          apply hl
          have : IsC 0 i := by unfold IsC; omega
          rw [lev_child this, isOnMaxLevel_zero]; rfl
        · have hg : IsG ((i - 3) / 4) i := by unfold IsG; omega
          have := (h ((i - 3) / 4)).2 i hg hi
          rw [← lev_grandchild hg] at this
          simp [ord, hl] at this
          exact le_trans (ih _ (by omega) (by omega)) this

theorem smallestChild_spec (f : Nat → Item α β) (n i : Nat) (inv : Bool) :
    (smallestChild f n i inv = i ∧ n ≤ 2 * i + 1) ∨
    (IsC i (smallestChild f n i inv) ∧ smallestChild f n i inv < n ∧
      ∀ c, IsC i c → c < n → ord inv (f (smallestChild f n i inv)) (f c)) := by
  unfold smallestChild leftChild
  simp only
  split
  · left; omega
  · right
    split <;> rename_i h1 h2
    · simp at h2
      refine ⟨by unfold IsC; omega, h2.1, ?_⟩
      intro c hc hcn
      rcases hc with rfl | rfl
      · exact ord_of_ltx h2.2
      · exact ord_refl _ _
    · refine ⟨by unfold IsC; omega, by omega, ?_⟩
      intro c hc hcn
      rcases hc with rfl | rfl
      · exact ord_refl _ _
      · simp at h2
        exact ord_of_not_ltx (h2 (by omega))

theorem smallestGrandChild_fold (f : Nat → Item α β) (n : Nat) (inv : Bool) (rs : List Nat) (m0 : Nat)
    (hm0 : m0 < n) :
    let m := rs.foldl (fun min r => if r < n && ltx (f r).priority (f min).priority inv then r else min) m0
    m < n ∧ (m = m0 ∨ m ∈ rs) ∧ ord inv (f m) (f m0) ∧ ∀ r ∈ rs, r < n → ord inv (f m) (f r) := by
  induction rs generalizing m0 with
  | nil => simp [hm0, ord_refl]
  | cons r rs ih =>
    simp only [List.foldl_cons]
    split <;> rename_i h
    · simp at h
      obtain ⟨a, b, c, d⟩ := ih r h.1
      refine ⟨a, ?_, ord_trans c (ord_of_ltx h.2), ?_⟩
      · rcases b with b | b
        · right; rw [b]; simp
        · right; exact List.mem_cons_of_mem _ b
      · intro r' hr' hn
        rcases List.mem_cons.1 hr' with rfl | hr'
        · exact c
        · exact d r' hr' hn
    · obtain ⟨a, b, c, d⟩ := ih m0 hm0
      refine ⟨a, ?_, c, ?_⟩
      · rcases b with b | b
        · left; exact b
        · right; exact List.mem_cons_of_mem _ b
      · intro r' hr' hn
        rcases List.mem_cons.1 hr' with rfl | hr'
        · simp at h
          exact ord_trans c (ord_of_not_ltx (h hn))
        · exact d r' hr' hn

theorem smallestGrandChild_spec (f : Nat → Item α β) (n i : Nat) (inv : Bool) :
    (smallestGrandChild f n i inv = i ∧ n ≤ 4 * i + 3) ∨
    (IsG i (smallestGrandChild f n i inv) ∧ smallestGrandChild f n i inv < n ∧
      ∀ c, IsG i c → c < n → ord inv (f (smallestGrandChild f n i inv)) (f c)) := by
  unfold smallestGrandChild leftGrandChild
  simp only
  split
  · left; omega
  · right
    obtain ⟨a, b, c, d⟩ := smallestGrandChild_fold f n inv [4 * i + 3 + 1, 4 * i + 3 + 2, 4 * i + 3 + 3]
      (4 * i + 3) (by omega)
    refine ⟨?_, a, ?_⟩
    · unfold IsG
      rcases b with b | b
      · rw [b]; omega
      · simp only [List.mem_cons, List.not_mem_nil, or_false] at b
        omega
    · intro g hg hgn
      unfold IsG at hg
      by_cases h0 : g = 4 * i + 3
      · subst h0; exact c
      · exact d g (by simp only [List.mem_cons, List.not_mem_nil, or_false]; omega) hgn

theorem Heap.max {f : Nat → Item α β} {n : Nat} (h : Heap f n) (hn : 0 < n) (i : Nat) (hi : i < n) :
    (f i).priority ≤ (f (smallestChild f n 0 true)).priority := by
  rcases smallestChild_spec f n 0 true with ⟨a, b⟩ | ⟨a, b, c⟩
  · rw [a]; have : i = 0 := by omega
    subst this; exact le_refl _
  · have top : ∀ i, i < n → isOnMaxLevel i = true →
        (f i).priority ≤ (f (smallestChild f n 0 true)).priority := by
      intro i
      induction i using Nat.strongRecOn with
      | _ i ih =>
        intro hi hl
        by_cases h0 : i = 0
        · subst h0; rw [isOnMaxLevel_zero] at hl; cases hl
        by_cases h3 : i < 3
        · have hc : IsC 0 i := by unfold IsC; omega
          have := c i hc hi
          simpa [ord] using this
        · have hg : IsG ((i - 3) / 4) i := by unfold IsG; omega
          have h4 := (h ((i - 3) / 4)).2 i hg hi
          have hlg := lev_grandchild hg
          rw [← hlg, hl] at h4
          simp [ord] at h4
          exact le_trans h4 (ih _ (by omega) (by omega) (by rw [← hlg, hl]))
    by_cases hl : isOnMaxLevel i = true
    · exact top i hi hl
    · by_cases h0 : i = 0
      · subst h0
        exact h.min _ b
      · have hc : IsC ((i - 1) / 2) i := by unfold IsC; omega
        have h4 := (h ((i - 1) / 2)).1 i hc hi
        have hlc := lev_child hc
        have hp : isOnMaxLevel ((i - 1) / 2) = true := by
          simp at hl; rw [hl] at hlc; simpa using hlc.symm
        rw [hp] at h4
        simp [ord] at h4
        exact le_trans h4 (top _ (by omega) hp)

/-! ### trickleDown -/

omit [LinearOrder α] in
theorem swap_left {f : Nat → Item α β} {a b : Nat} (h : a ≠ b) : swap f a b a = f b := by
  simp [swap_apply, h]
omit [LinearOrder α] in
theorem swap_right {f : Nat → Item α β} {a b : Nat} : swap f a b b = f a := by
  simp [swap_apply]
omit [LinearOrder α] in
theorem swap_ne {f : Nat → Item α β} {a b k : Nat} (h1 : k ≠ a) (h2 : k ≠ b) : swap f a b k = f k := by
  simp [swap_apply, h1, h2]

/-- After putting the smallest child in order with `i`, only grandchildren of `i` may be out of order. -/
def HoleHeapG (f : Nat → Item α β) (n i : Nat) : Prop :=
  (∀ k, k ≠ i → NodeOk f n k) ∧
  (∀ c, IsC i c → c < n → ord (isOnMaxLevel i) (f i) (f c)) ∧
  (∀ k, IsG k i → ∀ d, (IsC i d ∨ IsG i d) → d < n → ord (isOnMaxLevel k) (f k) (f d))

theorem holeHeap_child {f : Nat → Item α β} {n i m : Nat} (h : HoleHeap f n i) (hm : IsC i m) (hmn : m < n)
    (hmin : ∀ c, IsC i c → c < n → ord (isOnMaxLevel i) (f m) (f c)) :
    HoleHeapG (if ltx (f m).priority (f i).priority (isOnMaxLevel i) then swap f i m else f) n i := by
  obtain ⟨h1, h2⟩ := h
  split <;> rename_i hlt
  · have hlt := ord_of_ltx hlt
    have hne : i ≠ m := by unfold IsC at hm; omega
    have hlm := lev_child hm
    refine ⟨?_, ?_, ?_⟩
    · intro k hk
      have hk1 := h1 k hk
      by_cases hkm : k = m
      · subst hkm
        -- the value at `m` moved outwards
        have hout : ord (isOnMaxLevel k) (f i) (f k) := by rw [hlm]; exact ord_not hlt
        constructor
        · intro c hc hcn
          rw [swap_right, swap_ne (by unfold IsC at *; omega) (by unfold IsC at *; omega)]
          exact ord_trans hout (hk1.1 c hc hcn)
        · intro c hc hcn
          rw [swap_right, swap_ne (by unfold IsC IsG at *; omega) (by unfold IsC IsG at *; omega)]
          exact ord_trans hout (hk1.2 c hc hcn)
      · rw [NodeOk, swap_ne hk hkm]
        constructor
        · intro c hc hcn
          by_cases hci : c = i
          · subst hci
            rw [swap_left hne]
            -- k parent of i, m grandchild of k
            exact hk1.2 m (by unfold IsC IsG at *; omega) hmn
          · by_cases hcm : c = m
            · exfalso; unfold IsC at *; omega
            · rw [swap_ne hci hcm]; exact hk1.1 c hc hcn
        · intro c hc hcn
          by_cases hci : c = i
          · subst hci
            rw [swap_left hne]
            exact h2 k hc m (Or.inl hm) hmn
          · by_cases hcm : c = m
            · subst hcm
              rw [swap_right]
              -- k is the parent of i
              exact hk1.1 i (by unfold IsC IsG at *; omega) (by unfold IsC at hm; omega)
            · rw [swap_ne hci hcm]; exact hk1.2 c hc hcn
    · intro c hc hcn
      rw [swap_left hne]
      by_cases hcm : c = m
      · subst hcm; rw [swap_right]; exact hlt
      · rw [swap_ne (by unfold IsC at *; omega) hcm]; exact hmin c hc hcn
    · intro k hk d hd hdn
      have hki : k ≠ i := by unfold IsG at hk; omega
      have hkm : k ≠ m := by unfold IsG IsC at *; omega
      rw [swap_ne hki hkm]
      by_cases hdm : d = m
      · subst hdm
        rw [swap_right]
        exact (h1 k hki).2 i hk (by unfold IsC at hm; omega)
      · rw [swap_ne (by unfold IsG IsC at *; omega) hdm]
        exact h2 k hk d hd hdn
  · have hge := ord_of_not_ltx (by simpa using hlt)
    exact ⟨h1, fun c hc hcn => ord_trans hge (hmin c hc hcn), h2⟩

theorem holeHeapG_swap {f : Nat → Item α β} {n i j : Nat} (h : HoleHeapG f n i) (hj : IsG i j) (hjn : j < n)
    (hmin : ∀ c, IsG i c → c < n → ord (isOnMaxLevel i) (f j) (f c))
    (hlt : ord (isOnMaxLevel i) (f j) (f i)) : HoleHeap (swap f i j) n j := by
  obtain ⟨h1, h2, h3⟩ := h
  have hne : i ≠ j := by unfold IsG at hj; omega
  have hlj := lev_grandchild hj
  have hij : ¬ IsC i j := by unfold IsG IsC at *; omega
  -- the parent `q` of `j`
  have hq : IsC i ((j - 1) / 2) := by unfold IsG IsC at *; omega
  have hqj : IsC ((j - 1) / 2) j := by unfold IsG IsC at *; omega
  generalize hqd : (j - 1) / 2 = q at hq hqj
  have hqi : q ≠ i := by unfold IsG IsC at *; omega
  refine ⟨?_, ?_⟩
  · intro k hk
    by_cases hki : k = i
    · subst hki
      rw [NodeOk, swap_left hne]
      constructor
      · intro c hc hcn
        rw [swap_ne (by unfold IsC at *; omega) (by rintro rfl; exact hij hc)]
        exact ord_trans hlt (h2 c hc hcn)
      · intro c hc hcn
        by_cases hcj : c = j
        · subst hcj; rw [swap_right]; exact hlt
        · rw [swap_ne (by unfold IsG at *; omega) hcj]; exact hmin c hc hcn
    · have hk1 := h1 k hki
      rw [NodeOk, swap_ne hki hk]
      constructor
      · intro c hc hcn
        by_cases hci : c = i
        · subst hci
          rw [swap_left hne]
          -- k is the parent of i, q its grandchild, j child of q
          have hkq := hk1.2 q (by unfold IsC IsG at *; omega) (by unfold IsC at hqj; omega)
          have hqj' := (h1 q hqi).1 j hqj hjn
          have e1 : isOnMaxLevel q = isOnMaxLevel k := lev_grandchild (by unfold IsC IsG at *; omega)
          rw [e1] at hqj'
          exact ord_trans hkq hqj'
        · by_cases hcj : c = j
          · subst hcj
            rw [swap_right]
            -- k = q
            have : k = q := by unfold IsC at *; omega
            subst this
            have := h2 k hq (by unfold IsC at hqj; omega)
            rw [lev_child hq]
            exact ord_not this
          · rw [swap_ne hci hcj]; exact hk1.1 c hc hcn
      · intro c hc hcn
        by_cases hci : c = i
        · subst hci
          rw [swap_left hne]
          exact h3 k hc j (Or.inr hj) hjn
        · by_cases hcj : c = j
          · exfalso; subst hcj; unfold IsG at *; omega
          · rw [swap_ne hci hcj]; exact hk1.2 c hc hcn
  · intro k hk d hd hdn
    have : k = i := by unfold IsG at *; omega
    subst this
    rw [swap_left hne]
    have hj1 := h1 j (Ne.symm hne)
    rw [swap_ne (by unfold IsG IsC at *; omega) (by unfold IsG IsC at *; omega), ← hlj]
    rcases hd with hd | hd
    · exact hj1.1 d hd hdn
    · exact hj1.2 d hd hdn

theorem trickleDown_spec (n : Nat) (fuel : Nat) : ∀ (f : Nat → Item α β) (i : Nat), HoleHeap f n i →
    n + 1 ≤ fuel + i →  0 < fuel →
    ∃ g, trickleDown n (isOnMaxLevel i) fuel f i = .ok g ∧ Heap g n ∧ PermBelow n f g := by
  induction fuel with
  | zero => intro f i _ _ h; omega
  | succ fuel ih =>
    intro f i hole hf _
    unfold trickleDown
    dsimp only
    rcases smallestChild_spec f n i (isOnMaxLevel i) with ⟨a, b⟩ | ⟨a, b, c⟩
    · rw [if_pos a]
      refine ⟨f, rfl, ?_, PermBelow.refl _ _⟩
      intro k
      by_cases hk : k = i
      · subst hk
        exact ⟨fun c hc hcn => by unfold IsC at hc; omega, fun c hc hcn => by unfold IsG at hc; omega⟩
      · exact hole.1 k hk
    · generalize smallestChild f n i (isOnMaxLevel i) = m at *
      rw [if_neg (by unfold IsC at a; omega)]
      have hG := holeHeap_child hole a b c
      have hperm : PermBelow n f
          (if ltx (f m).priority (f i).priority (isOnMaxLevel i) = true then swap f i m else f) := by
        split
        · exact swap_permBelow f (by unfold IsC at a; omega) b
        · exact PermBelow.refl _ _
      generalize (if ltx (f m).priority (f i).priority (isOnMaxLevel i) = true then swap f i m else f) = f' at *
      rcases smallestGrandChild_spec f' n i (isOnMaxLevel i) with ⟨a', b'⟩ | ⟨a', b', c'⟩
      · rw [if_pos a']
        refine ⟨f', rfl, ?_, hperm⟩
        intro k
        by_cases hk : k = i
        · subst hk
          exact ⟨hG.2.1, fun c hc hcn => by unfold IsG at hc; omega⟩
        · exact hG.1 k hk
      · generalize smallestGrandChild f' n i (isOnMaxLevel i) = j at *
        have hji : j ≠ i := by unfold IsG at a'; omega
        rw [if_neg hji]
        split <;> rename_i hlt
        · have hole' := holeHeapG_swap hG a' b' c' (ord_of_ltx hlt)
          have hs : 4 * i + 3 ≤ j := a'.1
          obtain ⟨g, hg1, hg2, hg3⟩ := ih (swap f' i j) j hole' (by omega) (by omega)
          rw [lev_grandchild a'] at hg1
          exact ⟨g, hg1, hg2, hperm.trans ((swap_permBelow f' (by omega) b').trans hg3)⟩
        · refine ⟨f', rfl, ?_, hperm⟩
          have hge := ord_of_not_ltx (by simpa using hlt)
          intro k
          by_cases hk : k = i
          · subst hk
            exact ⟨hG.2.1, fun c hc hcn => ord_trans hge (c' c hc hcn)⟩
          · exact hG.1 k hk

/-- Whatever the array contains, `trickleDown` terminates and only permutes the first `n` cells. -/
theorem trickleDown_perm (n : Nat) (inv : Bool) (fuel : Nat) : ∀ (f : Nat → Item α β) (i : Nat),
    n + 1 ≤ fuel + i → 0 < fuel → ∃ g, trickleDown n inv fuel f i = .ok g ∧ PermBelow n f g := by
  induction fuel with
  | zero => intro f i _ h; omega
  | succ fuel ih =>
    intro f i hf _
    unfold trickleDown
    dsimp only
    rcases smallestChild_spec f n i inv with ⟨a, b⟩ | ⟨a, b, c⟩
    · rw [if_pos a]; exact ⟨f, rfl, PermBelow.refl _ _⟩
    · generalize smallestChild f n i inv = m at *
      rw [if_neg (by unfold IsC at a; omega)]
      have hperm : PermBelow n f
          (if ltx (f m).priority (f i).priority inv = true then swap f i m else f) := by
        split
        · exact swap_permBelow f (by unfold IsC at a; omega) b
        · exact PermBelow.refl _ _
      generalize (if ltx (f m).priority (f i).priority inv = true then swap f i m else f) = f' at *
      rcases smallestGrandChild_spec f' n i inv with ⟨a', b'⟩ | ⟨a', b', c'⟩
      · rw [if_pos a']; exact ⟨f', rfl, hperm⟩
      · generalize smallestGrandChild f' n i inv = j at *
        rw [if_neg (by unfold IsG at a'; omega)]
        split
        · have hs : 4 * i + 3 ≤ j := a'.1
          obtain ⟨g, hg1, hg3⟩ := ih (swap f' i j) j (by omega) (by omega)
          exact ⟨g, hg1, hperm.trans ((swap_permBelow f' (by omega) b').trans hg3)⟩
        · exact ⟨f', rfl, hperm⟩

/-! ### bubbleUp -/

/-- Only the relation of `p` to its grandparent may be out of order. -/
def BubHeap (f : Nat → Item α β) (n p : Nat) : Prop :=
  (∀ k c, IsC k c → c < n → ord (isOnMaxLevel k) (f k) (f c)) ∧
  (∀ k g, IsG k g → g < n → g ≠ p → ord (isOnMaxLevel k) (f k) (f g)) ∧
  (∀ k, IsG k p → ∀ d, (IsC p d ∨ IsG p d) → d < n → ord (isOnMaxLevel k) (f k) (f d))

theorem bubHeap_swap {f : Nat → Item α β} {n p m : Nat} (h : BubHeap f n p) (hm : IsG m p) (hpn : p < n)
    (hlt : ord (isOnMaxLevel p) (f p) (f m)) : BubHeap (swap f p m) n m := by
  obtain ⟨h1, h2, h3⟩ := h
  have hl := lev_grandchild hm
  have hne : p ≠ m := by unfold IsG at hm; omega
  rw [hl] at hlt
  have hq : IsC m ((p - 1) / 2) := by unfold IsG IsC at *; omega
  have hqp : IsC ((p - 1) / 2) p := by unfold IsG IsC at *; omega
  generalize hqd : (p - 1) / 2 = q at hq hqp
  have key : ∀ d, (IsC m d ∨ IsG m d) → d < n → ord (isOnMaxLevel m) (f m) (swap f p m d) := by
    intro d hd hdn
    by_cases hdp : d = p
    · subst hdp; rw [swap_left hne]; exact ord_refl _ _
    · rw [swap_ne hdp (by unfold IsG IsC at *; omega)]
      rcases hd with hd | hd
      · exact h1 m d hd hdn
      · exact h2 m d hd hdn hdp
  refine ⟨?_, ?_, ?_⟩
  · intro k c hc hcn
    by_cases hkm : k = m
    · subst hkm
      rw [swap_right]
      exact ord_trans hlt (key c (Or.inl hc) hcn)
    · by_cases hkp : k = p
      · subst hkp
        rw [swap_left hne, swap_ne (by unfold IsG IsC at *; omega) (by unfold IsG IsC at *; omega), hl]
        exact h3 m hm c (Or.inl hc) hcn
      · rw [swap_ne hkp hkm]
        by_cases hcp : c = p
        · subst hcp
          have : k = q := by unfold IsC at *; omega
          subst this
          rw [swap_left hne, lev_child hq]
          exact ord_not (h1 m k hq (by unfold IsC at hqp; omega))
        · by_cases hcm : c = m
          · subst hcm
            rw [swap_right]
            have := h1 k c hc hcn
            have e := lev_child hc
            refine ord_trans this ?_
            have := ord_not hlt
            rw [e] at this; simpa using this
          · rw [swap_ne hcp hcm]; exact h1 k c hc hcn
  · intro k g hg hgn hgm
    by_cases hkm : k = m
    · subst hkm
      rw [swap_right]
      exact ord_trans hlt (key g (Or.inr hg) hgn)
    · by_cases hkp : k = p
      · subst hkp
        rw [swap_left hne, swap_ne (by unfold IsG IsC at *; omega) (by unfold IsG IsC at *; omega), hl]
        exact h3 m hm g (Or.inr hg) hgn
      · rw [swap_ne hkp hkm]
        by_cases hgp : g = p
        · exfalso; subst hgp; unfold IsG at *; omega
        · rw [swap_ne hgp hgm]; exact h2 k g hg hgn hgp
  · intro k hk d hd hdn
    rw [swap_ne (f := f) (k := k) (by unfold IsG at *; omega) (by unfold IsG at *; omega)]
    have e := lev_grandchild hk
    have hkm := h2 k m hk (by unfold IsG at *; omega) (Ne.symm hne)
    have := key d hd hdn
    rw [e] at this
    exact ord_trans hkm this

theorem bubbleLoop_spec (n : Nat) (fuel : Nat) : ∀ (f : Nat → Item α β) (p : Nat), BubHeap f n p → p < n →
    p < fuel → ∃ g, bubbleLoop (isOnMaxLevel p) fuel f p = .ok g ∧ Heap g n ∧ PermBelow n f g := by
  induction fuel with
  | zero => intro f p _ _ h; omega
  | succ fuel ih =>
    intro f p hb hpn hf
    unfold bubbleLoop
    dsimp only
    have fin : (∀ m, IsG m p → ord (isOnMaxLevel m) (f m) (f p)) → Heap f n := by
      intro hm k
      refine ⟨hb.1 k, fun g hg hgn => ?_⟩
      by_cases hgp : g = p
      · subst hgp; exact hm k hg
      · exact hb.2.1 k g hg hgn hgp
    split <;> rename_i h
    · simp only [Bool.and_eq_true, decide_eq_true_eq] at h
      obtain ⟨h1, h2⟩ := h
      have hm : IsG (grandparent p).toNat p := by unfold grandparent at *; unfold IsG; omega
      generalize (grandparent p).toNat = m at *
      have hb' := bubHeap_swap hb hm hpn (ord_of_ltx h2)
      have : m < p := by unfold IsG at hm; omega
      obtain ⟨g, hg1, hg2, hg3⟩ := ih _ m hb' (by omega) (by omega)
      rw [← lev_grandchild hm] at hg1
      exact ⟨g, hg1, hg2, (swap_permBelow f hpn (by omega)).trans hg3⟩
    · refine ⟨f, rfl, fin ?_, PermBelow.refl _ _⟩
      intro m hm
      have e : grandparent p = (m : Int) := by unfold grandparent; unfold IsG at hm; omega
      rw [e] at h
      have h' : ltx (f p).priority (f m).priority (isOnMaxLevel p) = false := by
        simpa using h
      have := ord_of_not_ltx h'
      rw [← lev_grandchild hm]; exact this

/-- Bubbling up cell `i` extends a heap of the first `i` cells to the first `i + 1` cells. -/
theorem bubbleUp_spec (f : Nat → Item α β) (i : Nat) (h : Heap f i) :
    ∃ g, bubbleUp f i = .ok g ∧ Heap g (i + 1) ∧ PermBelow (i + 1) f g := by
  unfold bubbleUp
  dsimp only
  split <;> rename_i hlt
  · simp only [Bool.and_eq_true, decide_eq_true_eq] at hlt
    obtain ⟨h0, hx⟩ := hlt
    have hm : IsC (parent i).toNat i := by unfold parent at *; unfold IsC; omega
    generalize (parent i).toNat = m at *
    have hl := lev_child hm
    have hne : i ≠ m := by unfold IsC at hm; omega
    have hmi : m < i := by unfold IsC at hm; omega
    have hord : ord (isOnMaxLevel m) (f i) (f m) := by
      have hx' : ltx (f m).priority (f i).priority (isOnMaxLevel i) = true := by
        unfold ltx; exact hx
      have := ord_not (ord_of_ltx hx')
      rw [hl] at this; simpa using this
    have hb : BubHeap (swap f i m) (i + 1) m := by
      refine ⟨?_, ?_, ?_⟩
      · intro k c hc hcn
        by_cases hkm : k = m
        · subst hkm
          rw [swap_right]
          by_cases hci : c = i
          · subst hci; rw [swap_left hne]; exact hord
          · rw [swap_ne hci (by unfold IsC at *; omega)]
            exact ord_trans hord ((h k).1 c hc (by omega))
        · have hki : k ≠ i := by rintro rfl; unfold IsC at hc; omega
          rw [swap_ne hki hkm]
          by_cases hci : c = i
          · exfalso; subst hci; unfold IsC at *; omega
          · by_cases hcm : c = m
            · subst hcm
              rw [swap_right]
              have := ord_not hord
              rw [lev_child hc] at this
              exact ord_trans ((h k).1 c hc (by omega)) (by simpa using this)
            · rw [swap_ne hci hcm]; exact (h k).1 c hc (by omega)
      · intro k g hg hgn hgm
        by_cases hkm : k = m
        · exfalso; subst hkm; unfold IsG IsC at *; omega
        · rw [swap_ne (by unfold IsG at hg; omega) hkm]
          by_cases hgi : g = i
          · subst hgi
            rw [swap_left hne]
            exact (h k).1 m (by unfold IsG IsC at *; omega) hmi
          · rw [swap_ne hgi hgm]; exact (h k).2 g hg (by omega)
      · intro k hk d hd hdn
        rw [swap_ne (by unfold IsG at hk; omega) (by unfold IsG at hk; omega)]
        have hkm := (h k).2 m hk hmi
        by_cases hdi : d = i
        · subst hdi; rw [swap_left hne]; exact hkm
        · rw [swap_ne hdi (by unfold IsG IsC at *; omega)]
          rcases hd with hd | hd
          · have := (h m).1 d hd (by omega)
            rw [lev_grandchild hk] at this
            exact ord_trans hkm this
          · exfalso; unfold IsG IsC at *; omega
    obtain ⟨g, hg1, hg2, hg3⟩ := bubbleLoop_spec (i + 1) (i + 2) (swap f i m) m hb (by omega) (by omega)
    rw [hl]
    simp only [Bool.not_not]
    exact ⟨g, hg1, hg2, (swap_permBelow f (by omega) (by omega)).trans hg3⟩
  · have hb : BubHeap f (i + 1) i := by
      refine ⟨?_, ?_, ?_⟩
      · intro k c hc hcn
        by_cases hci : c = i
        · subst hci
          have e : parent c = (k : Int) := by unfold parent; unfold IsC at hc; omega
          rw [e] at hlt
          have hx' : ltx (f k).priority (f c).priority (isOnMaxLevel c) = false := by
            unfold ltx; simpa using hlt
          have := ord_not (ord_of_not_ltx hx')
          rw [lev_child hc] at this; simpa using this
        · exact (h k).1 c hc (by omega)
      · intro k g hg hgn hgi
        exact (h k).2 g hg (by omega)
      · intro k hk d hd hdn
        exfalso; unfold IsG IsC at *; omega
    exact bubbleLoop_spec (i + 1) (i + 2) f i hb (by omega) (by omega)

/-! ### API level -/

theorem heap_zero (f : Nat → Item α β) : Heap f 0 :=
  fun _ => ⟨fun _ _ h => absurd h (by omega), fun _ _ h => absurd h (by omega)⟩

theorem Heap.shrink {f : Nat → Item α β} {n m : Nat} (h : Heap f n) (hm : m ≤ n) : Heap f m :=
  fun k => ⟨fun c hc hcn => (h k).1 c hc (by omega), fun c hc hcn => (h k).2 c hc (by omega)⟩

theorem Heap.congr {f g : Nat → Item α β} {n : Nat} (h : Heap f n) (e : ∀ i, i < n → g i = f i) : Heap g n := by
  intro k
  constructor
  · intro c hc hcn
    rw [e c hcn, e k (by unfold IsC at hc; omega)]; exact (h k).1 c hc hcn
  · intro c hc hcn
    rw [e c hcn, e k (by unfold IsG at hc; omega)]; exact (h k).2 c hc hcn

/-- Replacing cell `i` (which has no grandparent) leaves a heap with a hole at `i`, provided the parent of `i`
stays in order with `i`. -/
theorem Heap.hole_top {f : Nat → Item α β} {n i : Nat} (h : Heap f (n + 1)) (hin : i ≤ n) (hi : i < 3) :
    HoleHeap (swap f i n) n i := by
  by_cases hie : i = n
  · subst hie
    refine ⟨?_, fun k hk => by unfold IsG at hk; omega⟩
    intro k hk
    constructor
    · intro c hc hcn
      rw [swap_ne (by unfold IsC at hc; omega) (by unfold IsC at hc; omega),
        swap_ne (by unfold IsC at hc; omega) (by unfold IsC at hc; omega)]
      exact (h k).1 c hc (by omega)
    · intro c hc hcn
      rw [swap_ne (by unfold IsG at hc; omega) (by unfold IsG at hc; omega),
        swap_ne (by unfold IsG at hc; omega) (by unfold IsG at hc; omega)]
      exact (h k).2 c hc (by omega)
  · refine ⟨?_, fun k hk => by unfold IsG at hk; omega⟩
    intro k hk
    constructor
    · intro c hc hcn
      have hkn : k ≠ n := by unfold IsC at hc; omega
      rw [swap_ne hk hkn]
      by_cases hci : c = i
      · subst hci
        rw [swap_left hie]
        have hk0 : k = 0 := by unfold IsC at hc; omega
        subst hk0
        have := h.min n (by omega)
        simpa [ord, isOnMaxLevel_zero] using this
      · rw [swap_ne hci (by omega)]; exact (h k).1 c hc (by omega)
    · intro c hc hcn
      have hkn : k ≠ n := by unfold IsG at hc; omega
      rw [swap_ne hk hkn, swap_ne (by unfold IsG at hc; omega) (by omega)]
      exact (h k).2 c hc (by omega)

end PriorityQueue
end ONA
