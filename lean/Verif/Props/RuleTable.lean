import Verif.Model.RuleTable
/-
The generated rule table is what the generator yields for the rule texts.
-/
namespace ONA

set_option maxRecDepth 100000

/-- The result of a computation is the given value. -/
def yields {α : Type} [DecidableEq α] (x : R α) (a : α) : Bool := match x with
  | .ok b => decide (b = a)
  | .error _ => false

theorem of_yields {α : Type} [DecidableEq α] {x : R α} {a : α} (h : yields x a = true) : x = .ok a := by
  unfold yields at h
  cases x with
  | error _ => cases h
  | ok b => rw [of_decide_eq_true h]

/-- The atom table of the generator, with no more entries than needed. -/
def generatorTable (n : Narsese) : Prop := Narsese.initWith 63 = .ok n

/-- The rules from `25 * i` on are generated. -/
def segmentGenerated (i : Nat) : Bool := match Narsese.initWith 63 with
  | .ok n => (((ruleTexts.zip nalRules).drop (i * 25)).take 25).all fun p => yields (p.1.compile n) p.2
  | .error _ => false

theorem segment0 : segmentGenerated 0 = true := by decide +kernel
theorem segment1 : segmentGenerated 1 = true := by decide +kernel
theorem segment2 : segmentGenerated 2 = true := by decide +kernel
theorem segment3 : segmentGenerated 3 = true := by decide +kernel
theorem segment4 : segmentGenerated 4 = true := by decide +kernel
theorem segment5 : segmentGenerated 5 = true := by decide +kernel
theorem segment6 : segmentGenerated 6 = true := by decide +kernel
theorem segment7 : segmentGenerated 7 = true := by decide +kernel
theorem segment8 : segmentGenerated 8 = true := by decide +kernel
theorem segment9 : segmentGenerated 9 = true := by decide +kernel

/-- An element is in one of the segments. -/
theorem mem_segment {α : Type} {w m : Nat} {l : List α} (hw : 0 < w) (hl : l.length ≤ m * w) {x : α} (hx : x ∈ l) :
    ∃ i < m, x ∈ (l.drop (i * w)).take w := by
  obtain ⟨j, hj, rfl⟩ := List.mem_iff_getElem.1 hx
  refine ⟨j / w, Nat.div_lt_of_lt_mul (lt_of_lt_of_le hj (by rw [Nat.mul_comm]; exact hl)), ?_⟩
  have h1 : j % w < w := Nat.mod_lt _ hw
  have h2 : j / w * w + j % w = j := by rw [Nat.mul_comm]; exact Nat.div_add_mod j w
  rw [List.mem_iff_getElem]
  refine ⟨j % w, ?_, ?_⟩
  · rw [List.length_take, List.length_drop]
    omega
  · rw [List.getElem_take, List.getElem_drop]
    congr 1

/-- **C65.** The rules the reasoner applies are, in order, what its generator yields for the rule texts of the source:
premises and conclusion are parsed like any other input, the truth function and flags are taken over. -/
theorem C65_rules (n : Narsese) (hn : generatorTable n) : ruleTexts.length = nalRules.length ∧
    ∀ p ∈ ruleTexts.zip nalRules, p.1.compile n = .ok p.2 := by
  refine ⟨by decide +kernel, fun p hp => ?_⟩
  have hlen : (ruleTexts.zip nalRules).length ≤ 10 * 25 := by decide +kernel
  obtain ⟨i, hi, hm⟩ := mem_segment (by norm_num) hlen hp
  have key : segmentGenerated i = true := by
    match i, hi with
    | 0, _ => exact segment0
    | 1, _ => exact segment1
    | 2, _ => exact segment2
    | 3, _ => exact segment3
    | 4, _ => exact segment4
    | 5, _ => exact segment5
    | 6, _ => exact segment6
    | 7, _ => exact segment7
    | 8, _ => exact segment8
    | 9, _ => exact segment9
  unfold segmentGenerated at key
  rw [hn] at key
  exact of_yields (List.all_eq_true.1 key p hm)

def reductionsGenerated : Bool := match Narsese.initWith 63 with
  | .ok n => (reductionTexts.zip nalReductions).all fun p => yields (compileReduction n p.1) p.2
  | .error _ => false

theorem reductions_check : reductionsGenerated = true := by decide +kernel

/-- **C65 (reductions).** The same for the reductions. -/
theorem C65_reductions (n : Narsese) (hn : generatorTable n) : reductionTexts.length = nalReductions.length ∧
    ∀ p ∈ reductionTexts.zip nalReductions, compileReduction n p.1 = .ok p.2 := by
  refine ⟨by decide +kernel, fun p hp => ?_⟩
  have key := reductions_check
  unfold reductionsGenerated at key
  rw [hn] at key
  exact of_yields (List.all_eq_true.1 key p hp)

/-- There is such an atom table. -/
example : ∃ n, generatorTable n := by
  have key := reductions_check
  unfold reductionsGenerated at key
  unfold generatorTable
  cases h : Narsese.initWith 63 with
  | ok n => exact ⟨n, rfl⟩
  | error _ => rw [h] at key; cases key

end ONA
