import Verif.Spec.Reset
import Verif.Proofs.Demo
/-
C54: a restart forgets the history, except for what is listed in Spec/Reset.lean.
-/
namespace ONA
section
variable [Arith] {z : Sizes} {n n' : Narsese} {s s' : Sys}

theorem init_same (h : SameLeftover s s') : NAR_INIT_sizes z.memory z.atoms s = NAR_INIT_sizes z.memory z.atoms s' := by
  obtain ⟨q1, st1, ht1, ix1, oi1, be1, bs1, ge1, gs1, op1, ci1, th1, rc1, sb1, sbp1, sbc1, sg1, sgp1, sgc1, p11, p21, p31, t1, m1,
    ev1, nx1, ct1, in1, k1, a1, b1, c1, d1, e1, f1, g1, i1, sd1, o1, w1⟩ := s
  obtain ⟨q2, st2, ht2, ix2, oi2, be2, bs2, ge2, gs2, op2, ci2, th2, rc2, sb2, sbp2, sbc2, sg2, sgp2, sgc2, p12, p22, p32, t2, m2,
    ev2, nx2, ct2, in2, k2, a2, b2, c2, d2, e2, f2, g2, i2, sd2, o2, w2⟩ := s'
  obtain ⟨g1, g2, g3, g4, g5, g6, g7, g8, g9, g10, g11, g12, g13, g14⟩ := h
  simp only [Sys.settings, Settings.mk.injEq, true_and] at g1
  dsimp only at g2 g3 g4 g5 g6 g7 g8 g9 g10 g11 g12 g13 g14
  obtain ⟨x1, x2, x3, x4, x5, x6, x7, x8⟩ := g1
  obtain ⟨bs1, im1⟩ := ev1
  obtain ⟨bs2, im2⟩ := ev2
  dsimp only at g2
  subst g2 g3 g4 g5 g6 g7 g8 g9 g10 g11 g12 g13 g14 x1 x2 x3 x4 x5 x6 x7 x8
  unfold NAR_INIT_sizes Memory_INIT_sizes
  generalize cassert _ _ = c
  generalize Narsese.initWith _ = nr
  generalize HashTable.init _ _ = hr
  generalize InvertedAtomIndex.initWith _ = ir
  cases c with
  | error _ => rfl
  | ok _ => cases hr with
    | error _ => rfl
    | ok _ => cases ir with
      | error _ => rfl
      | ok _ => cases nr with
        | error _ => rfl
        | ok _ => rfl

/-- **C54 (partial).** After `*reset` nothing of the history is left, except what `SameLeftover` lists: two systems which
agree in these things, whatever else happened to them, are identical after `*reset`, and answer every further sequence of
calls in the same way. In particular one of them may be a process just started. Missing for the full property: parameters,
pending imported stamps and the random numbers do survive, see `C54_import`. -/
theorem C54_reset_partial (h : SameLeftover s s') (fuel : Fuel) (later : List Call) :
    runCalls z fuel (.command .reset :: later) n s = runCalls z fuel (.command .reset :: later) n' s' := by
  unfold runCalls Call.run Command.run Shell_NARInit_sizes
  dsimp only
  rw [init_same h]

/-- The same for `NAR_INIT`. -/
theorem C54_init_partial (h : SameLeftover s s') (fuel : Fuel) (later : List Call) :
    runCalls z fuel (.init :: later) n s = runCalls z fuel (.init :: later) n' s' := by
  unfold runCalls Call.run
  dsimp only
  rw [init_same h]

end

section
attribute [local instance] exactArith
open Demo
set_option maxRecDepth 100000

/-- The printed answers, with the first id of their stamp. -/
def answerIds (o : List Output) : List (Option Int) := o.filterMap fun o => match o with
  | .answer st _ _ _ _ => some (some (st.evidentialBase 0))
  | .answerNone => some none
  | _ => none

def resetSession (before : List Call) : List Call :=
  .init :: before ++ [.command .reset, .addNarsese "a.".toList false 0, .addNarsese "a?".toList false 0]

def idsAfter (before : List Call) : Option (List (Option Int)) :=
  match runCalls sizes fuel (resetSession before) (Narsese.blank 0 ⟨⟨fun _ => none, 0, 0⟩, fun _ => ⟨none, none, none⟩, fun _ => none, 0, 0⟩) (Sys.boot []) with
  | .ok (_, s) => some (answerIds s.output)
  | .error _ => none

theorem idsAfter_fresh : idsAfter [] = some [some 1] := by decide +kernel

theorem idsAfter_import : idsAfter [.command (.stampImport [7])] = some [some 7] := by decide +kernel

/-- **C54 fails in general.** A stamp imported before `*reset` is used for the first input after it: the answer to the same
question after the same input carries another evidential base. -/
theorem C54_import : ∃ before : List Call, idsAfter before ≠ idsAfter [] ∧ idsAfter before ≠ none ∧ idsAfter [] ≠ none := by
  refine ⟨[.command (.stampImport [7])], ?_, ?_, ?_⟩
  · rw [idsAfter_fresh, idsAfter_import]; decide
  · rw [idsAfter_import]; decide
  · rw [idsAfter_fresh]; decide

theorem start_check : check sizes fuel [.op "^x"] (fun _ _ => true) = true := by decide +kernel

/-- `C54_reset_partial` applies to reachable states with different histories. -/
example : ∃ n s n' s', Reachable sizes n s ∧ Reachable sizes n' s' ∧ SameLeftover s s' ∧ s.currentTime ≠ s'.currentTime := by
  obtain ⟨n, s, _, hr, _⟩ := of_check start_check
  exact ⟨n, s, n, { s with currentTime := s.currentTime + 5 }, hr, .call fuel (.command (.currentTime (s.currentTime + 5))) hr trivial rfl,
    ⟨rfl, rfl, rfl, rfl, rfl, rfl, rfl, rfl, rfl, rfl, rfl, rfl, rfl, rfl⟩, by show s.currentTime ≠ s.currentTime + 5; omega⟩

end
end ONA
