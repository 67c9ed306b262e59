/-
Conventions of the model (no C code corresponds to this file except where cited).
-/
namespace ONA

/-- Abnormal outcomes. `assertFail` models `Globals_assert` (src/Globals.c 29-37: prints and `exit(1)`);
`ub` an access outside an array or through NULL; `nan` a division by zero (or another operation whose
result is not a number); `fuel` is an artefact of the model: the recursion bound of a C loop or recursion
was reached. -/
inductive Err where
  | assertFail (msg : String)
  | ub (what : String)
  | nan
  | fuel
deriving DecidableEq, Repr

/-- A computation that may end abnormally. -/
abbrev R (α : Type _) := Except Err α

instance {α : Type _} [DecidableEq α] : DecidableEq (R α)
  | .ok a, .ok b => if h : a = b then isTrue (by rw [h]) else isFalse (by intro e; cases e; exact h rfl)
  | .error a, .error b => if h : a = b then isTrue (by rw [h]) else isFalse (by intro e; cases e; exact h rfl)
  | .ok _, .error _ => isFalse (by intro e; cases e)
  | .error _, .ok _ => isFalse (by intro e; cases e)

/-- `assert(b, msg)` (src/Globals.c 29-37). -/
def cassert (b : Bool) (msg : String) : R Unit :=
  if b then .ok () else .error (.assertFail msg)

/-- Array assignment `a[i] = v`. -/
def upd {α : Type _} (f : Nat → α) (i : Nat) (v : α) : Nat → α :=
  fun j => if j = i then v else f j

@[simp] theorem upd_same {α : Type _} (f : Nat → α) (i : Nat) (v : α) : upd f i v i = v := by
  simp [upd]

@[simp] theorem upd_other {α : Type _} (f : Nat → α) {i j : Nat} (v : α) (h : j ≠ i) :
    upd f i v j = f j := by
  simp [upd, h]

theorem upd_apply {α : Type _} (f : Nat → α) (i j : Nat) (v : α) :
    upd f i v j = if j = i then v else f j := rfl

/-- `bind` of the error monad, in the form used by the proofs. -/
theorem R.bind_eq_ok {α β : Type _} {x : R α} {f : α → R β} {b : β} :
    (x >>= f) = .ok b ↔ ∃ a, x = .ok a ∧ f a = .ok b := by
  cases x with
  | error e => simp [bind, Except.bind]
  | ok a => simp [bind, Except.bind]

@[simp] theorem R.ok_bind {α β : Type _} (a : α) (f : α → R β) :
    ((Except.ok a : R α) >>= f) = f a := rfl

@[simp] theorem R.error_bind {α β : Type _} (e : Err) (f : α → R β) :
    ((Except.error e : R α) >>= f) = .error e := rfl

theorem cassert_true {b : Bool} {m : String} (h : b = true) : cassert b m = .ok () := by
  simp [cassert, h]

theorem cassert_eq_ok {b : Bool} {m : String} {u : Unit} : cassert b m = .ok u ↔ b = true := by
  cases b <;> simp [cassert]

end ONA
