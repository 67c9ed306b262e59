import Verif.Model.UDPNAR
import Verif.Spec.API
/-
What C55 and C68 say about the UDP front end.
-/
namespace ONA
namespace UDPNAR
variable {σ : Type}

/-- The work done one after the other, without interruption. -/
def sequential (code : Code σ) (log : List Work) (m : σ) : σ := log.foldl (fun m w => exec (code w) m) m

/-- The lines among the work. -/
def linesOf (log : List Work) : List CStr := log.filterMap fun w => match w with
  | .line text => some text
  | _ => none

/-- The line the receiver thread is about to process or processing. -/
def inProcess (x : Net σ) : List CStr :=
  if x.receiver = .lockNar ∨ x.receiver = .processing then [x.buffer] else []

/-- A thread is inside the reasoner. -/
def Inside (x : Net σ) : Thread → Prop
  | .main => x.main = .init
  | .reasoner => x.reasoner = .cycling
  | .receiver => x.receiver = .processing

/-- `UDPNAR_Start` has returned. -/
def Started (x : Net σ) : Prop :=
  x.main = .running ∨ x.main = .stop ∨ x.main = .shutdown ∨ x.main = .join1 ∨ x.main = .join2 ∨ x.main = .print ∨ x.main = .done

section
variable [Arith]

/-- What the work does to the reasoner: `Shell_NARInit`, one cycle, a line given to the shell (`*reset` included). -/
def perform (z : Sizes) (fuel : Fuel) : Work → Narsese × Sys → R (Narsese × Sys)
  | .init, (_, s) => Shell_NARInit_sizes z.memory z.atoms s
  | .cycle, (n, s) => do
    let (_, s) ← NAR_Cycles n fuel 1 s
    .ok (n, s)
  | .line text, (n, s) => do
    let (_, n, s) ← Shell_ProcessInput z.memory z.atoms fuel n s text
    .ok (n, s)

/-- Small steps which do what the reasoner does. -/
def Implements (code : Code (R (Narsese × Sys))) (z : Sizes) (fuel : Fuel) : Prop :=
  ∀ w m, exec (code w) m = m.bind (perform z fuel w)

/-- The lines are ones the shell can be given in the state in which their processing begins. -/
def LegalWork (z : Sizes) (fuel : Fuel) : List Work → Narsese × Sys → Prop
  | [], _ => True
  | w :: rest, m => (∀ text, w = .line text → ∀ c, parseLine (trimEnd text) = .ok c → c.Legal m.1 m.2) ∧
      ∀ m', perform z fuel w m = .ok m' → LegalWork z fuel rest m'

end
end UDPNAR
end ONA
