import Verif.Spec.Abort
import Verif.Proofs.Keeps
/-
Abnormal ends of computations.
-/
namespace ONA
/-- Whether the recursion bounds of the model may be too small. -/
class Bounds where
  short : Prop

variable {α β σ : Type} {I : Sys → Prop} [Bounds]

/-- A computation ended in a listed way, or the bounds of the model are too small. -/
def Ended (e : Err) : Prop := Abort e ∨ e = .fuel ∧ Bounds.short

/-- The computation ends normally or in a listed way. -/
def Ends (x : R α) : Prop := ∀ e, x = .error e → Ended e

/-- The same for a function on the state. -/
def EndsAt (x : M α) (s : Sys) : Prop := ∀ e, x s = .error e → Ended e

/-- The same from every state satisfying an invariant. -/
def Ending (I : Sys → Prop) (x : M α) : Prop := ∀ s, I s → EndsAt x s

namespace Ends

theorem ok {a : α} : Ends (.ok a : R α) := by intro e h; cases h

theorem of_ok {x : R α} {a : α} (h : x = .ok a) : Ends x := by rw [h]; exact ok

theorem pure {a : α} : Ends (Pure.pure a : R α) := ok

theorem error {e : Err} (h : Abort e) : Ends (.error e : R α) := by intro e' h'; cases h'; exact .inl h

theorem bind {x : R α} {f : α → R β} (hx : Ends x) (hf : ∀ a, x = .ok a → Ends (f a)) : Ends (x >>= f) := by
  intro e h
  cases hx' : x with
  | error e' =>
    rw [hx'] at h
    cases h
    exact hx _ hx'
  | ok a =>
    rw [hx'] at h
    exact hf a hx' e h

theorem ite {c : Prop} [Decidable c] {x y : R α} (hx : c → Ends x) (hy : ¬ c → Ends y) : Ends (if c then x else y) := by
  by_cases h : c
  · rw [if_pos h]; exact hx h
  · rw [if_neg h]; exact hy h

theorem cassert {b : Bool} {m : String} (h : b = false → Abort (.assertFail m)) : Ends (ONA.cassert b m) := by
  cases b with
  | true => exact ok
  | false => exact error (h rfl)

theorem assert {b : Bool} {m : String} (h : b = true) : Ends (ONA.cassert b m) := by rw [cassert_true h]; exact ok

/-- An assertion of the list, followed by the rest. -/
theorem bind_cassert {b : Bool} {m : String} {f : Unit → R β} (h : Abort (.assertFail m)) (hf : b = true → Ends (f ())) :
    Ends (ONA.cassert b m >>= f) :=
  bind (cassert fun _ => h) fun _ e => hf (cassert_eq_ok.1 e)

/-- An assertion which holds, followed by the rest. -/
theorem bind_assert {b : Bool} {m : String} {f : Unit → R β} (h : b = true) (hf : Ends (f ())) :
    Ends (ONA.cassert b m >>= f) := by
  rw [cassert_true h]
  exact hf

theorem foldlM {f : β → α → R β} {P : β → Prop} : ∀ (l : List α) (b : β), P b →
    (∀ b, P b → ∀ a ∈ l, Ends (f b a) ∧ ∀ b', f b a = .ok b' → P b') → Ends (l.foldlM f b) := by
  intro l
  induction l with
  | nil => intro b _ _; exact ok
  | cons a l ih =>
    intro b hb h
    rw [List.foldlM_cons]
    refine bind (h b hb a List.mem_cons_self).1 fun b' e => ih b' ((h b hb a List.mem_cons_self).2 b' e) ?_
    exact fun b hb a ha => h b hb a (List.mem_cons_of_mem _ ha)

theorem foldlM' {f : β → α → R β} (l : List α) (b : β) (h : ∀ b, ∀ a ∈ l, Ends (f b a)) : Ends (l.foldlM f b) :=
  foldlM (P := fun _ => True) l b trivial fun b _ a ha => ⟨h b a ha, fun _ _ => trivial⟩

end Ends

namespace EndsAt

theorem pure {a : α} {s : Sys} : EndsAt (Pure.pure a : M α) s := by intro e h; cases h

theorem throw {e : Err} {s : Sys} (h : Abort e) : EndsAt (MonadExcept.throw e : M α) s := by
  intro e' h'; cases h'; exact .inl h

/-- The bounds of the model are too small. -/
theorem short {s : Sys} (h : Bounds.short) : EndsAt (MonadExcept.throw .fuel : M α) s := by
  intro e' h'; cases h'; exact .inr ⟨rfl, h⟩

theorem get {s : Sys} : EndsAt (MonadState.get : M Sys) s := by intro e h; cases h

theorem set {s t : Sys} : EndsAt (MonadStateOf.set t : M PUnit) s := by intro e h; cases h

theorem modify {s : Sys} {f : Sys → Sys} : EndsAt (modify f : M PUnit) s := by intro e h; cases h

theorem lift {x : R α} {s : Sys} (h : Ends x) : EndsAt (monadLift x : M α) s := by
  intro e h'
  cases hx : x with
  | error e' =>
    rw [hx] at h'
    cases h'
    exact h _ hx
  | ok a => rw [hx] at h'; cases h'

theorem bind {x : M α} {f : α → M β} {s : Sys} (hx : EndsAt x s) (hf : WP x (fun a s' => EndsAt (f a) s') s) :
    EndsAt (x >>= f) s := by
  intro e h
  cases hx' : x s with
  | error e' =>
    have h : Except.bind (x s) (fun p => f p.1 p.2) = .error e := h
    rw [hx'] at h
    cases h
    exact hx _ hx'
  | ok p =>
    have h : Except.bind (x s) (fun p => f p.1 p.2) = .error e := h
    rw [hx'] at h
    exact hf p.1 p.2 hx' e h

theorem bind_get {f : Sys → M β} {s : Sys} (h : EndsAt (f s) s) : EndsAt ((MonadState.get : M Sys) >>= f) s :=
  bind get (by intro a s' e; change (Except.ok (s, s) : R _) = _ at e; cases e; exact h)

theorem bind_set {t : Sys} {f : PUnit → M β} {s : Sys} (h : EndsAt (f ⟨⟩) t) :
    EndsAt ((MonadStateOf.set t : M PUnit) >>= f) s := bind set (WP.set h)

theorem bind_modify {g : Sys → Sys} {f : PUnit → M β} {s : Sys} (h : EndsAt (f ⟨⟩) (g s)) :
    EndsAt ((_root_.modify g : M PUnit) >>= f) s := bind modify (WP.modify h)

theorem bind_lift {x : R α} {f : α → M β} {s : Sys} (hx : Ends x) (h : ∀ a, x = .ok a → EndsAt (f a) s) :
    EndsAt ((monadLift x : M α) >>= f) s := bind (lift hx) (WP.lift h)

theorem ite {c : Prop} [Decidable c] {x y : M α} {s : Sys} (hx : c → EndsAt x s) (hy : ¬ c → EndsAt y s) :
    EndsAt (if c then x else y) s := by
  by_cases h : c
  · rw [if_pos h]; exact hx h
  · rw [if_neg h]; exact hy h

end EndsAt

namespace Ending

theorem pure {a : α} : Ending I (Pure.pure a : M α) := fun _ _ => EndsAt.pure

theorem throw {e : Err} (h : Abort e) : Ending I (MonadExcept.throw e : M α) := fun _ _ => EndsAt.throw h

theorem set {t : Sys} : Ending I (MonadStateOf.set t : M PUnit) := fun _ _ => EndsAt.set

theorem modify {f : Sys → Sys} : Ending I (modify f : M PUnit) := fun _ _ => EndsAt.modify

theorem lift {x : R α} (h : Ends x) : Ending I (monadLift x : M α) := fun _ _ => EndsAt.lift h

theorem bind {x : M α} {f : α → M β} {Q : α → Prop} (hx : Ending I x) (hk : Keeps I x Q)
    (hf : ∀ a, Q a → Ending I (f a)) : Ending I (x >>= f) := by
  intro s hs
  refine EndsAt.bind (hx s hs) ?_
  intro a s' e
  obtain ⟨h1, h2⟩ := hk s a s' hs e
  exact hf a h2 s' h1

theorem seq {x : M α} {f : α → M β} {Q : α → Prop} (hx : Ending I x) (hk : Keeps I x Q)
    (hf : ∀ a, Ending I (f a)) : Ending I (x >>= f) := bind hx hk fun a _ => hf a

theorem bind_get {f : Sys → M β} (h : ∀ s, I s → Ending I (f s)) : Ending I ((MonadState.get : M Sys) >>= f) := by
  intro s hs
  exact EndsAt.bind_get (h s hs s hs)

theorem bind_lift {x : R α} {f : α → M β} (hx : Ends x) (h : ∀ a, x = .ok a → Ending I (f a)) :
    Ending I ((monadLift x : M α) >>= f) := fun s hs => EndsAt.bind_lift hx fun a e => h a e s hs

theorem bind_modify {g : Sys → Sys} {f : PUnit → M β} (hg : ∀ s, I s → I (g s)) (h : Ending I (f ⟨⟩)) :
    Ending I ((_root_.modify g : M PUnit) >>= f) := fun s hs => EndsAt.bind_modify (h _ (hg s hs))

theorem ite {c : Prop} [Decidable c] {x y : M α} (hx : c → Ending I x) (hy : ¬ c → Ending I y) :
    Ending I (if c then x else y) := fun s hs => EndsAt.ite (fun h => hx h s hs) fun h => hy h s hs

theorem given {x : M α} (h : ∀ s, I s → Ending I x) : Ending I x := fun s hs => h s hs s hs

theorem forM {l : List α} {f : α → M PUnit} (h : ∀ a ∈ l, Ending I (f a)) (hk : ∀ a ∈ l, Keeps I (f a) fun _ => True) :
    Ending I (l.forM f) := by
  induction l with
  | nil => exact pure
  | cons a l ih =>
    show Ending I (f a >>= fun _ => l.forM f)
    exact bind (h a List.mem_cons_self) (hk a List.mem_cons_self) fun _ _ =>
      ih (fun b hb => h b (List.mem_cons_of_mem _ hb)) fun b hb => hk b (List.mem_cons_of_mem _ hb)

/-- A loop with a bound on the number of its rounds. -/
theorem loop {body : σ → M (Bool × σ)} {P : σ → Prop} (m : σ → Sys → Nat) (h : ∀ st, P st → Ending I (body st))
    (hk : ∀ st, P st → Keeps I (body st) fun r => P r.2)
    (hm : ∀ st s, P st → I s → WP (body st) (fun r s' => r.1 = true → m r.2 s' < m st s) s) :
    ∀ fuel st s, P st → I s → m st s < fuel → EndsAt (loopM body fuel st) s := by
  intro fuel
  induction fuel with
  | zero => intro st s _ _ h; exact absurd h (Nat.not_lt_zero _)
  | succ k ih =>
    intro st s hst hs hlt
    unfold loopM
    refine EndsAt.bind (h st hst s hs) ?_
    intro r s' e
    obtain ⟨hs', hr⟩ := hk st hst s r s' hs e
    refine EndsAt.ite (fun hc => ih r.2 s' hr hs' ?_) fun _ => EndsAt.pure
    have := hm st s hst hs r s' e hc
    omega

/-- Computations which end properly in any state. -/
theorem any {x : M α} (h : Ending (fun _ => True) x) : Ending I x := fun s _ => h s trivial

theorem bind_any {x : M α} {f : α → M β} (hx : Ending (fun _ => True) x) (hf : ∀ a, Ending (fun _ => True) (f a)) :
    Ending (fun _ => True) (x >>= f) := fun s _ => EndsAt.bind (hx s trivial) fun a s' _ => hf a s' trivial

end Ending

section
variable [Arith]

theorem Ends.fdiv {a b : ℚ} : Ends (ONA.fdiv a b) := by
  unfold ONA.fdiv
  exact ite (fun _ => error .nan) fun _ => ok

/-- Solves goals about computations which divide and assert only. -/
macro "ends" : tactic => `(tactic| repeat' first
  | exact Ends.ok
  | exact Ends.pure
  | exact Ends.fdiv
  | assumption
  | refine Ends.bind ?_ fun _ _ => ?_
  | refine Ends.ite (fun _ => ?_) (fun _ => ?_))

theorem Ends.w2c {w : ℚ} : Ends (Truth_w2c w) := Ends.fdiv
theorem Ends.c2w {w : ℚ} : Ends (Truth_c2w w) := Ends.fdiv

theorem Ends.revision {a b : Truth} : Ends (Truth_Revision a b) := by
  unfold Truth_Revision
  refine Ends.bind c2w fun w1 _ => Ends.bind c2w fun w2 _ => ?_
  refine Ends.ite (fun _ => ok) fun _ => Ends.ite (fun _ => ok) fun _ => ?_
  exact Ends.bind fdiv fun _ _ => Ends.bind w2c fun _ _ => ok

theorem Ends.abduction {a b : Truth} : Ends (Truth_Abduction a b) := Ends.bind w2c fun _ _ => ok
theorem Ends.induction {a b : Truth} : Ends (Truth_Induction a b) := abduction
theorem Ends.eternalize {a : Truth} : Ends (Truth_Eternalize a) := Ends.bind w2c fun _ _ => ok
theorem Ends.exemplification {a b : Truth} : Ends (Truth_Exemplification a b) := Ends.bind w2c fun _ _ => ok
theorem Ends.comparison {a b : Truth} : Ends (Truth_Comparison a b) := by
  unfold Truth_Comparison
  exact Ends.ite (fun _ => bind ok fun _ _ => Ends.bind w2c fun _ _ => ok) fun _ =>
    Ends.bind fdiv fun _ _ => Ends.bind w2c fun _ _ => ok
theorem Ends.conversion {a b : Truth} : Ends (Truth_Conversion a b) := Ends.bind w2c fun _ _ => ok
theorem Ends.anonymousAnalogy {a b : Truth} : Ends (Truth_AnonymousAnalogy a b) := Ends.bind w2c fun _ _ => ok

/-! ### Variables -/

omit [Arith] in
theorem Ends.hasAtomValue {n : Narsese} {a : Atom} : Ends (Narsese_hasAtomValue n a) :=
  bind_cassert .noAtom fun _ => ok

theorem Ends.unifyDifferent {n : Narsese} {d : ℚ} {t c : Truth} {g a : Atom} (hg : g ≠ 0) :
    Ends (ONA.unifyDifferent n d t c g a) := by
  unfold ONA.unifyDifferent
  refine ite (fun _ => ok) fun _ => bind hasAtomValue fun b _ => ?_
  refine ite (fun _ => ok) fun _ => bind hasAtomValue fun b e => ?_
  refine ite (fun _ => ok) fun _ => ite (fun _ => ok) fun _ => ?_
  have ha : a ≠ 0 := by
    intro h
    subst h
    simp [Narsese_hasAtomValue, ONA.cassert, R.error_bind] at e
  unfold Narsese_getAtomValue
  rw [cassert_true (by simpa using hg), cassert_true (by simpa using ha)]
  simp only [R.ok_bind]
  exact bind fdiv fun _ _ => ok

theorem Ends.unifyLoop {n : Narsese} {d : ℚ} {t : Truth} {g sp : Term} {q : Bool} : ∀ (k : Nat) (s : Substitution),
    Ends (ONA.unifyLoop n d t g sp q k s) := by
  intro k
  induction k with
  | zero => intro s; exact ok
  | succ k ih =>
    intro s
    unfold ONA.unifyLoop
    refine ite (fun _ => ih s) fun h0 => ite (fun _ => ?_) fun _ => ite (fun _ => ?_) fun _ => ih s
    · refine bind_cassert .unify fun _ => ?_
      exact ite (fun _ => ok) fun _ => ite (fun _ => ok) fun _ => ite (fun _ => ok) fun _ => ih _
    · refine bind (unifyDifferent h0) fun r _ => ?_
      cases r with
      | none => exact ok
      | some t => exact ih _

theorem Ends.unify2 {n : Narsese} {d : ℚ} {t : Truth} {g sp : Term} {q : Bool} : Ends (Variable_Unify2 n d t g sp q) :=
  unifyLoop _ _

theorem Ends.unifyAnalogy {n : Narsese} {d : ℚ} {t : Truth} {g sp : Term} :
    Ends (Variable_UnifyWithAnalogy n d t g sp) := unifyLoop _ _

theorem Ends.unify {n : Narsese} {g sp : Term} : Ends (Variable_Unify n g sp) := unifyLoop _ _

omit [Arith] in
theorem Ends.applyLoop {n : Narsese} {sub : Substitution} : ∀ (k : Nat) (g : Term) (b : Bool),
    Ends (ONA.applyLoop n sub k g b) := by
  intro k
  induction k with
  | zero => intro g b; exact ok
  | succ k ih =>
    intro g b
    unfold ONA.applyLoop
    refine bind_cassert .substitute fun _ => ?_
    exact ite (fun _ => ih _ _) fun _ => ih _ _

omit [Arith] in
theorem Ends.apply {n : Narsese} {g : Term} {sub : Substitution} (h : sub.success = true) :
    Ends (Variable_ApplySubstitute n g sub) := bind_assert h (applyLoop _ _ _)

omit [Arith] in
theorem Ends.introduceImplication {n : Narsese} {t : Term} {b : Bool} {k : Nat}
    (h : (Narsese_copulaEquals n (t.get 0) TEMPORAL_IMPLICATION || Narsese_copulaEquals n (t.get 0) IMPLICATION ||
      Narsese_copulaEquals n (t.get 0) EQUIVALENCE) = true) : Ends (Variable_IntroduceImplicationVariables2 n t b k) := by
  unfold Variable_IntroduceImplicationVariables2
  exact bind_assert h (ite (fun _ => ok) fun _ => ok)

omit [Arith] in
theorem Ends.introduceConjunction {n : Narsese} {t : Term} {b : Bool}
    (h : Narsese_copulaEquals n (t.get 0) CONJUNCTION = true) : Ends (Variable_IntroduceConjunctionVariables n t b) := by
  unfold Variable_IntroduceConjunctionVariables
  exact bind_assert h (ite (fun _ => ok) fun _ => ok)

omit [Arith] in
theorem Ends.normalizeLoop {n : Narsese} : ∀ (k : Nat) (s : NormState), Ends (ONA.normalizeLoop n k s) := by
  intro k
  induction k with
  | zero => intro s; exact ok
  | succ k ih =>
    intro s
    unfold ONA.normalizeLoop
    exact ite (fun _ => bind_cassert .normalize fun _ => ih _) fun _ => ih _

omit [Arith] in
theorem Ends.normalize {n : Narsese} {t : Term} : Ends (Variable_Normalize n t) := normalizeLoop _ _

/-! ### Inference -/

theorem Ends.intersection {a b : Event} (h : a.occurrenceTime ≤ b.occurrenceTime) :
    Ends (Inference_BeliefIntersection a b) := by
  unfold Inference_BeliefIntersection
  exact bind_assert (by simpa using h) (ite (fun _ => ok) fun _ => ok)

theorem Ends.beliefInduction {a b : Event} (h : a.occurrenceTime ≤ b.occurrenceTime) :
    Ends (Inference_BeliefInduction a b) := by
  unfold Inference_BeliefInduction
  exact bind_assert (by simpa using h) (ite (fun _ => bind induction fun _ _ => ok) fun _ => ok)

theorem Ends.eventRevision {a b : Event} : Ends (Inference_EventRevision a b) := bind revision fun _ _ => ok

theorem Ends.implicationRevision {a b : Implication} : Ends (Inference_ImplicationRevision a b) := by
  unfold Inference_ImplicationRevision
  exact bind c2w fun _ _ => bind c2w fun _ _ => bind fdiv fun _ _ => bind revision fun _ _ => ok

theorem Ends.revisionAndChoice {n : Narsese} {a b : Event} : Ends (Inference_RevisionAndChoice n a b) := by
  unfold Inference_RevisionAndChoice
  refine ite (fun _ => ok) fun _ => ite (fun _ => ite (fun _ => ok) fun _ => ok) fun _ => ?_
  exact bind eventRevision fun _ _ => ite (fun _ => ok) fun _ => error .revision

theorem Ends.eternalized {e : Event} : Ends (Event_Eternalized e) := by
  unfold Event_Eternalized
  exact ite (fun _ => bind eternalize fun _ _ => ok) fun _ => ok

end
end ONA
