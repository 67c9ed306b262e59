import Verif.Model.Stamp
/-
Specification of stamps: a stamp is the list of the evidence ids in front of the first free cell.
-/
namespace ONA

/-- The evidence ids of a stamp, in order. -/
def Stamp.ids (s : Stamp) : List Int :=
  ((List.range STAMP_SIZE).map s.evidentialBase).takeWhile (fun e => e ≠ 0)

/-- No id behind a free cell. All stamps the system builds are of this form (`Stamp_make_wf`, `Event_InputEvent`). -/
def Stamp.WF (s : Stamp) : Prop :=
  ∀ i j, i ≤ j → j < STAMP_SIZE → s.evidentialBase i = 0 → s.evidentialBase j = 0

/-- Alternate between two lists; when one is exhausted the rest of the other follows. -/
def interleave {α : Type _} : List α → List α → List α
  | [], ys => ys
  | x :: xs, [] => x :: xs
  | x :: xs, y :: ys => x :: y :: interleave xs ys

end ONA
