import Verif.Model.Basic
import Verif.Model.Config
/-
Model of src/Stamp.c. Evidence ids are `Int` (C `long`, no overflow).
-/
namespace ONA

/-- `STAMP_FREE` (src/Stamp.h 46). -/
def STAMP_FREE : Int := 0

/-- `Stamp` (src/Stamp.h 47-50). The array has `STAMP_SIZE` cells; the model never looks beyond them. -/
structure Stamp where
  evidentialBase : Nat → Int

/-- `(Stamp) {0}`. -/
def Stamp.zero : Stamp := ⟨fun _ => 0⟩

/-- Loop variables of `Stamp_make` (src/Stamp.c 29-32). -/
structure StampMakeState where
  ret : Nat → Int
  j : Nat
  processStamp1 : Bool
  processStamp2 : Bool

/-- Body of one `if(processStampN)` block (src/Stamp.c 34-48 and 49-63): `(state', active', break?)`. -/
def Stamp.makeBlock (ret : Nat → Int) (j : Nat) (active : Bool) (e : Int) : (Nat → Int) × Nat × Bool × Bool :=
  if active then
    if e ≠ STAMP_FREE then
      (upd ret j e, j + 1, true, decide (j + 1 ≥ STAMP_SIZE))
    else (ret, j, false, false)
  else (ret, j, false, false)

/-- Loop of `Stamp_make` (src/Stamp.c 32-68), `k` iterations remain. -/
def Stamp.makeLoop (s1 s2 : Stamp) : Nat → StampMakeState → (Nat → Int)
  | 0, st => st.ret
  | k + 1, st =>
    let i := STAMP_SIZE - (k + 1)
    let (ret, j, p1, brk) := makeBlock st.ret st.j st.processStamp1 (s1.evidentialBase i)
    if brk then ret
    else
      let (ret, j, p2, brk) := makeBlock ret j st.processStamp2 (s2.evidentialBase i)
      if brk then ret
      else if !p1 && !p2 then ret
      else makeLoop s1 s2 k ⟨ret, j, p1, p2⟩

/-- `Stamp_make` (src/Stamp.c 27-70). -/
def Stamp_make (s1 s2 : Stamp) : Stamp :=
  ⟨Stamp.makeLoop s1 s2 STAMP_SIZE ⟨fun _ => 0, 0, true, true⟩⟩

/-- Inner loop of `Stamp_checkOverlap` (src/Stamp.c 80-90): cells `STAMP_SIZE - k ..`. -/
def Stamp.overlapInner (x : Int) (b : Stamp) : Nat → Bool
  | 0 => false
  | k + 1 =>
    let e := b.evidentialBase (STAMP_SIZE - (k + 1))
    if e = STAMP_FREE then false
    else if x = e then true
    else overlapInner x b k

/-- Outer loop of `Stamp_checkOverlap` (src/Stamp.c 74-91). -/
def Stamp.overlapOuter (a b : Stamp) : Nat → Bool
  | 0 => false
  | k + 1 =>
    let x := a.evidentialBase (STAMP_SIZE - (k + 1))
    if x = STAMP_FREE then false
    else if overlapInner x b STAMP_SIZE then true
    else overlapOuter a b k

/-- `Stamp_checkOverlap` (src/Stamp.c 72-93). -/
def Stamp_checkOverlap (a b : Stamp) : Bool := Stamp.overlapOuter a b STAMP_SIZE

/-- Inner loop of `Stamp_Equal` (src/Stamp.c 104-115): `inl r` is `return r`, `inr contained` the flag. -/
def Stamp.equalInner (x : Int) (b : Stamp) : Nat → Bool ⊕ Bool
  | 0 => .inr false
  | k + 1 =>
    let e := b.evidentialBase (STAMP_SIZE - (k + 1))
    if e = STAMP_FREE then .inl (decide (x = STAMP_FREE))
    else if x = e then .inr true
    else equalInner x b k

/-- Outer loop of `Stamp_Equal` (src/Stamp.c 97-120). -/
def Stamp.equalOuter (a b : Stamp) : Nat → Bool
  | 0 => true
  | k + 1 =>
    let i := STAMP_SIZE - (k + 1)
    let x := a.evidentialBase i
    if x = STAMP_FREE then decide (b.evidentialBase i = STAMP_FREE)
    else match equalInner x b STAMP_SIZE with
      | .inl r => r
      | .inr contained => if !contained then false else equalOuter a b k

/-- `Stamp_Equal` (src/Stamp.c 95-122). -/
def Stamp_Equal (a b : Stamp) : Bool := Stamp.equalOuter a b STAMP_SIZE

end ONA
