import Verif.Model.NAR
/-
Partial correctness of functions on the global state: an invariant is kept by every run which ends normally.
-/
namespace ONA
variable {α β σ : Type} {I : Sys → Prop}

/-- Every normal run of `x` from a state satisfying `I` ends in such a state, with a result satisfying `Q`. -/
def Keeps (I : Sys → Prop) (x : M α) (Q : α → Prop) : Prop :=
  ∀ s a s', I s → x s = .ok (a, s') → I s' ∧ Q a

/-- Every normal run of `x` from `s` ends with a result and state satisfying `Q`. -/
def WP (x : M α) (Q : α → Sys → Prop) (s : Sys) : Prop := ∀ a s', x s = .ok (a, s') → Q a s'

namespace WP

theorem mono {x : M α} {Q Q' : α → Sys → Prop} {s : Sys} (h : WP x Q s) (hq : ∀ a s', Q a s' → Q' a s') : WP x Q' s :=
  fun a s' e => hq a s' (h a s' e)

theorem pure {a : α} {Q : α → Sys → Prop} {s : Sys} (h : Q a s) : WP (Pure.pure a : M α) Q s := by
  intro b s' e
  rw [M.pure_ok] at e
  obtain ⟨rfl, rfl⟩ := e
  exact h

theorem bind {x : M α} {f : α → M β} {Q : β → Sys → Prop} {s : Sys} (h : WP x (fun a s' => WP (f a) Q s') s) :
    WP (x >>= f) Q s := by
  intro b s' e
  rw [M.bind_ok] at e
  obtain ⟨a, s1, e1, e2⟩ := e
  exact h a s1 e1 b s' e2

theorem get {f : Sys → M β} {Q : β → Sys → Prop} {s : Sys} (h : WP (f s) Q s) :
    WP ((MonadState.get : M Sys) >>= f) Q s := by
  refine bind ?_
  intro a s' e
  change (Except.ok (s, s) : R _) = _ at e
  cases e
  exact h

theorem modify {f : Sys → Sys} {Q : PUnit → Sys → Prop} {s : Sys} (h : Q ⟨⟩ (f s)) : WP (modify f : M PUnit) Q s := by
  intro a s' e
  rw [M.modify_ok] at e
  subst e
  exact h

theorem set {t : Sys} {Q : PUnit → Sys → Prop} {s : Sys} (h : Q ⟨⟩ t) : WP (MonadStateOf.set t : M PUnit) Q s := by
  intro a s' e
  rw [M.set_ok] at e
  subst e
  exact h

theorem lift {x : R α} {Q : α → Sys → Prop} {s : Sys} (h : ∀ a, x = .ok a → Q a s) : WP (monadLift x : M α) Q s := by
  intro a s' e
  rw [M.lift_ok] at e
  obtain ⟨e, rfl⟩ := e
  exact h a e

theorem throw {e : Err} {Q : α → Sys → Prop} {s : Sys} : WP (MonadExcept.throw e : M α) Q s := by
  intro a s' h
  cases h

theorem ite {c : Prop} [Decidable c] {x y : M α} {Q : α → Sys → Prop} {s : Sys} (hx : c → WP x Q s)
    (hy : ¬ c → WP y Q s) : WP (if c then x else y) Q s := by
  by_cases h : c
  · rw [if_pos h]; exact hx h
  · rw [if_neg h]; exact hy h

theorem keeps {x : M α} {Q : α → Prop} {s : Sys} (h : Keeps I x Q) (hs : I s) : WP x (fun a s' => I s' ∧ Q a) s :=
  fun a s' e => h s a s' hs e

theorem and {x : M α} {Q Q' : α → Sys → Prop} {s : Sys} (h : WP x Q s) (h' : WP x Q' s) :
    WP x (fun a s' => Q a s' ∧ Q' a s') s := fun a s' e => ⟨h a s' e, h' a s' e⟩

/-- Loops. -/
theorem loop {body : σ → M (Bool × σ)} {J : σ → Sys → Prop} (h : ∀ st s, J st s → WP (body st) (fun r => J r.2) s) :
    ∀ fuel st s, J st s → WP (loopM body fuel st) J s := by
  intro fuel
  induction fuel with
  | zero => intro st s _; exact throw
  | succ k ih =>
    intro st s hst
    unfold loopM
    refine bind ((h st s hst).mono ?_)
    intro r s' hr
    split
    · exact ih r.2 s' hr
    · exact pure hr

end WP

namespace Keeps

theorem of_wp {x : M α} {Q : α → Prop} (h : ∀ s, I s → WP x (fun a s' => I s' ∧ Q a) s) : Keeps I x Q :=
  fun s a s' hs e => h s hs a s' e

theorem wp {x : M α} {Q : α → Prop} {s : Sys} (h : Keeps I x Q) (hs : I s) : WP x (fun a s' => I s' ∧ Q a) s :=
  fun a s' e => h s a s' hs e

/-- What follows from the invariant may be assumed. -/
theorem given {x : M α} {Q : α → Prop} (h : ∀ s, I s → Keeps I x Q) : Keeps I x Q :=
  fun s a s' hs e => h s hs s a s' hs e

theorem mono {x : M α} {Q Q' : α → Prop} (h : Keeps I x Q) (hq : ∀ a, Q a → Q' a) : Keeps I x Q' := by
  intro s a s' hs e
  obtain ⟨h1, h2⟩ := h s a s' hs e
  exact ⟨h1, hq a h2⟩

theorem triv {x : M α} {Q : α → Prop} (h : Keeps I x Q) : Keeps I x fun _ => True := h.mono fun _ _ => trivial

theorem pure {a : α} {Q : α → Prop} (h : Q a) : Keeps I (Pure.pure a : M α) Q := by
  intro s b s' hs e
  rw [M.pure_ok] at e
  obtain ⟨rfl, rfl⟩ := e
  exact ⟨hs, h⟩

theorem bind {x : M α} {f : α → M β} {Q : α → Prop} {P : β → Prop} (hx : Keeps I x Q)
    (hf : ∀ a, Q a → Keeps I (f a) P) : Keeps I (x >>= f) P := by
  intro s b s' hs e
  rw [M.bind_ok] at e
  obtain ⟨a, s1, e1, e2⟩ := e
  obtain ⟨h1, h2⟩ := hx s a s1 hs e1
  exact hf a h2 s1 b s' h1 e2

/-- Sequencing where the result of the first part is not used. -/
theorem seq {x : M α} {f : α → M β} {Q : α → Prop} {P : β → Prop} (hx : Keeps I x Q)
    (hf : ∀ a, Keeps I (f a) P) : Keeps I (x >>= f) P := bind hx fun a _ => hf a

theorem get : Keeps I (MonadState.get : M Sys) I := by
  intro s a s' hs e
  have e : (MonadState.get : M Sys) s = .ok (a, s') := e
  change (Except.ok (s, s) : R _) = _ at e
  cases e
  exact ⟨hs, hs⟩

theorem bind_get {f : Sys → M β} {P : β → Prop} (h : ∀ s, I s → Keeps I (f s) P) :
    Keeps I ((MonadState.get : M Sys) >>= f) P := bind get h

theorem set {t : Sys} (h : I t) : Keeps I (MonadStateOf.set t : M PUnit) fun _ => True := by
  intro s a s' hs e
  rw [M.set_ok] at e
  subst e
  exact ⟨h, trivial⟩

theorem modify {f : Sys → Sys} (h : ∀ s, I s → I (f s)) : Keeps I (modify f : M PUnit) fun _ => True := by
  intro s a s' hs e
  rw [M.modify_ok] at e
  subst e
  exact ⟨h s hs, trivial⟩

theorem lift {x : R α} {Q : α → Prop} (h : ∀ a, x = .ok a → Q a) : Keeps I (monadLift x : M α) Q := by
  intro s a s' hs e
  rw [M.lift_ok] at e
  obtain ⟨e, rfl⟩ := e
  exact ⟨hs, h a e⟩

theorem bind_lift {x : R α} {f : α → M β} {P : β → Prop} (h : ∀ a, x = .ok a → Keeps I (f a) P) :
    Keeps I ((monadLift x : M α) >>= f) P := bind (lift fun _ e => e) h

theorem throw {e : Err} {Q : α → Prop} : Keeps I (MonadExcept.throw e : M α) Q := by
  intro s a s' _ h
  cases h

theorem ite {c : Prop} [Decidable c] {x y : M α} {Q : α → Prop} (hx : c → Keeps I x Q) (hy : ¬ c → Keeps I y Q) :
    Keeps I (if c then x else y) Q := by
  by_cases h : c
  · rw [if_pos h]; exact hx h
  · rw [if_neg h]; exact hy h

theorem forM {l : List α} {f : α → M PUnit} (h : ∀ a ∈ l, Keeps I (f a) fun _ => True) :
    Keeps I (l.forM f) fun _ => True := by
  induction l with
  | nil => exact pure trivial
  | cons a l ih =>
    show Keeps I (f a >>= fun _ => l.forM f) _
    exact bind (h a (List.mem_cons_self)) fun _ _ => ih fun b hb => h b (List.mem_cons_of_mem _ hb)

theorem loop {body : σ → M (Bool × σ)} {P : σ → Prop} (h : ∀ st, P st → Keeps I (body st) fun r => P r.2) :
    ∀ fuel st, P st → Keeps I (loopM body fuel st) P := by
  intro fuel
  induction fuel with
  | zero => intro st _; exact throw
  | succ k ih =>
    intro st hst
    unfold loopM
    refine bind (h st hst) ?_
    intro r hr
    split
    · exact ih r.2 hr
    · exact pure hr

/-- Loops whose variables carry no information. -/
theorem loop' {body : σ → M (Bool × σ)} (h : ∀ st, Keeps I (body st) fun _ => True) (fuel : Nat) (st : σ) :
    Keeps I (loopM body fuel st) fun _ => True :=
  loop (P := fun _ => True) (fun st _ => h st) fuel st trivial

end Keeps
end ONA
