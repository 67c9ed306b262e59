import Verif.Proofs.RunFacts
import Verif.Props.Lifted
/-
What a call does, as in Proofs/RunFacts.lean, with the calls that start anew told apart from the others.
-/
namespace ONA
variable [Arith] {n n' : Narsese} {s s' s0 : Sys} {z : Sizes}

/-- As `Effect`; only the calls which start anew empty the memory. -/
inductive Effects (z : Sizes) (anew : Bool) (n : Narsese) (s : Sys) (n' : Narsese) (s' : Sys) : Prop where
  | restart : anew = true → EmptyMemory z s' → Effects z anew n s n' s'
  | run (s1 : Sys) (t x : Nat) : n.Extends n' → SameMemory s s1 → Good n' s1 → Run n' s1 t x s' → Effects z anew n s n' s'

theorem Effects.settings {anew : Bool} (hx : n.Extends n') (hm : SameMemory s s') (hg : Good n' s') : Effects z anew n s n' s' :=
  .run s' 0 0 hx hm hg .refl

theorem Effects.between {anew : Bool} {b k : Nat} (hx : n.Extends n') (hg : Good n s) (h : Between n' s b k s') : Effects z anew n s n' s' := by
  obtain ⟨_, t, x, hr, _⟩ := h
  exact .run s t x hx (.refl _) (hg.extends hx) hr

theorem command_effects (hz : z.Ok) {fuel : Fuel} {c : Command} (hg : Good n s) (hn : n.Ok) (hl : c.Legal n s)
    (e : c.run z.memory z.atoms fuel n s = .ok (n', s')) : Effects z (Call.command c).restarts n s n' s' := by
  have hg' := (command_good hz hg hn hl e).1
  cases c with
  | nothing => cases e; exact .settings (.refl _) (.refl _) hg'
  | report r => obtain ⟨rfl, rfl⟩ := report_same e; exact .settings (.refl _) (.refl _) hg'
  | exit => cases e; exact .settings (.refl _) (.refl _) hg'
  | cycles k =>
    unfold Command.run at e
    dsimp only at e
    rw [R.bind_eq_ok] at e
    obtain ⟨⟨_, s1⟩, e1, e⟩ := e
    cases e
    exact .between (.refl _) hg (cycles_between fuel k hg e1)
  | reset => exact .restart rfl (shellInit_empty e)
  | restrictedConceptCreation b => cases e; exact .settings (.refl _) ⟨rfl, rfl, rfl, rfl, rfl, rfl, rfl, rfl, rfl⟩ hg'
  | parameter p v => cases e; exact .settings (.refl _) (by cases p <;> exact ⟨rfl, rfl, rfl, rfl, rfl, rfl, rfl, rfl, rfl⟩) hg'
  | babblingOps k => cases e; exact .settings (.refl _) ⟨rfl, rfl, rfl, rfl, rfl, rfl, rfl, rfl, rfl⟩ hg'
  | currentTime t => cases e; exact .settings (.refl _) ⟨rfl, rfl, rfl, rfl, rfl, rfl, rfl, rfl, rfl⟩ hg'
  | stampId b => cases e; exact .settings (.refl _) ⟨rfl, rfl, rfl, rfl, rfl, rfl, rfl, rfl, rfl⟩ hg'
  | stampImport ids => cases e; exact .settings (.refl _) ⟨rfl, rfl, rfl, rfl, rfl, rfl, rfl, rfl, rfl⟩ hg'
  | setValue v g name =>
    unfold Command.run at e
    dsimp only at e
    rw [R.bind_eq_ok] at e
    obtain ⟨n1, e1, e⟩ := e
    cases e
    exact .settings (setValue_extends hn e1).2 (.refl _) hg'
  | space g name =>
    unfold Command.run at e
    dsimp only at e
    rw [R.bind_eq_ok] at e
    obtain ⟨_, _, e⟩ := e
    rw [R.bind_eq_ok] at e
    obtain ⟨n1, e1, e⟩ := e
    cases e
    exact .settings (setSpace_extends _ hn e1).2 (.refl _) hg'
  | setOpName k name =>
    unfold Command.run Shell_setOpName at e
    dsimp only at e
    rw [R.bind_eq_ok] at e
    obtain ⟨_, _, e⟩ := e
    rw [R.bind_eq_ok] at e
    obtain ⟨_, _, e⟩ := e
    rw [R.bind_eq_ok] at e
    obtain ⟨⟨t, n1⟩, e1, e⟩ := e
    cases e
    exact .settings (atomicTerm_extends hn e1).2.1 ⟨rfl, rfl, rfl, rfl, rfl, rfl, rfl, rfl, rfl⟩ hg'
  | setOpArg k j text =>
    unfold Command.run Shell_setOpArg at e
    dsimp only at e
    rw [R.bind_eq_ok] at e
    obtain ⟨_, _, e⟩ := e
    rw [R.bind_eq_ok] at e
    obtain ⟨_, _, e⟩ := e
    rw [R.bind_eq_ok] at e
    obtain ⟨⟨t, n1⟩, e1, e⟩ := e
    cases e
    exact .settings (Narsese.term_extends hn hg.base e1).2.1 ⟨rfl, rfl, rfl, rfl, rfl, rfl, rfl, rfl, rfl⟩ hg'
  | setOpStdin k =>
    unfold Command.run at e
    dsimp only at e
    rw [R.bind_eq_ok] at e
    obtain ⟨s1, e1, e⟩ := e
    cases e
    unfold Shell_setOpStdin at e1
    split at e1
    · cases e1; exact .settings (.refl _) ⟨rfl, rfl, rfl, rfl, rfl, rfl, rfl, rfl, rfl⟩ hg'
    · cases e1
  | query threshold text =>
    unfold Command.run at e
    dsimp only at e
    rw [R.bind_eq_ok] at e
    obtain ⟨_, _, e⟩ := e
    obtain ⟨_, hx, _, _, h2⟩ := addNarsese_between fuel hg hn hl e
    exact .between hx hg h2
  | concurrent => cases e; exact .settings (.refl _) ⟨rfl, rfl, rfl, rfl, rfl, rfl, rfl, rfl, rfl⟩ hg'
  | narsese text =>
    obtain ⟨_, hx, _, _, h2⟩ := addNarsese_between fuel hg hn hl e
    exact .between hx hg h2

theorem call_effects (hz : z.Ok) {fuel : Fuel} {c : Call} (hg : Good n s) (hn : n.Ok) (hl : c.Legal n s)
    (e : c.run z fuel n s = .ok (n', s')) : Effects z c.restarts n s n' s' := by
  cases c with
  | init => exact .restart rfl (init_empty e)
  | addInput t ty tr eternal o =>
    unfold Call.run at e
    dsimp only at e
    rw [R.bind_eq_ok] at e
    obtain ⟨⟨_, s1⟩, e1, e⟩ := e
    cases e
    exact .between (.refl _) hg (addInput_between fuel hl.1 ty hl.2 eternal o hg e1)
  | addOperation name f =>
    obtain ⟨h1, _, h2⟩ := addOperation_good hg hn hl e
    exact .settings h2 (addOperation_memory e).1 h1
  | addNarsese text query threshold =>
    obtain ⟨_, hx, _, _, h2⟩ := addNarsese_between fuel hg hn hl e
    exact .between hx hg h2
  | command c => exact command_effects hz hg hn hl e

end ONA
