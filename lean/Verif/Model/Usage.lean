import Verif.Model.Arith
/-
Model of src/Usage.c.
-/
namespace ONA

/-- `Usage` (src/Usage.h 45-50); `long` counters without overflow. -/
structure Usage where
  useCount : Int
  lastUsed : Int
deriving DecidableEq, Repr

/-- src/Config.h 78. -/
def ETERNAL_INPUT_USAGE_BOOST : Int := 1000000

/-- `Usage_usefulness` (src/Usage.c 27-32). The conversions of `long` to `double` round. -/
def Usage_usefulness [Arith] (usage : Usage) (currentTime : Int) : R ℚ := do
  let recency : ℚ := rnd ((max 0 (currentTime - usage.lastUsed) : Int) : ℚ)
  let usefulnessToNormalize ← fdiv (rnd (usage.useCount : ℚ)) (fadd recency 1)
  fdiv usefulnessToNormalize (fadd usefulnessToNormalize 1)

/-- `Usage_use` (src/Usage.c 34-38). -/
def Usage_use (usage : Usage) (currentTime : Int) (eternalInput : Bool) : Usage :=
  { useCount := usage.useCount + (if eternalInput then ETERNAL_INPUT_USAGE_BOOST else 1)
    lastUsed := currentTime }

end ONA
