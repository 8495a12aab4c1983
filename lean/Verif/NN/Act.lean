import Mathlib.Analysis.SpecialFunctions.Log.Basic
import Mathlib.Analysis.SpecialFunctions.Trigonometric.Arctan
import Mathlib.Analysis.SpecialFunctions.Trigonometric.DerivHyp
/-!
# Activation functions (src/act.cpp, src/act.h)

Over the reals: `exp`, `log`, `tanh`, `atan`, `cos`, `sin`, `fmax`, `fmin`, `fabs` are the mathematical functions and the decimal
literals are exact.
-/
namespace Nnet.NN

/-- `struct ActFunc`, act.h:8-11. -/
structure ActFunc (R : Type) where
  act : R → R
  actd : R → R

namespace Act
open Real
noncomputable section

/-- act.cpp:5-7 -/
def identityF (z : ℝ) : ℝ := z
/-- act.cpp:8-10 -/
def identityG (_ : ℝ) : ℝ := 1
/-- act.cpp:12-14 -/
def sigmoidF (z : ℝ) : ℝ := 1 / (1 + exp (-z))
/-- act.cpp:15-18 -/
def sigmoidG (z : ℝ) : ℝ := let expo := exp (-z); expo / (1 + expo) / (1 + expo)
/-- act.cpp:20-22 -/
def arctanF (z : ℝ) : ℝ := arctan z
/-- act.cpp:23-25 -/
def arctanG (z : ℝ) : ℝ := 1 / (1 + z * z)
/-- act.cpp:27-29 -/
def tanhF (z : ℝ) : ℝ := tanh z
/-- act.cpp:30-33 -/
def tanhG (z : ℝ) : ℝ := let t := tanh z; 1 - t * t
/-- act.cpp:35-37 -/
def bipolarsigmoidF (z : ℝ) : ℝ := 2 / (1 + exp (-z)) - 1
/-- act.cpp:38-41 -/
def bipolarsigmoidG (z : ℝ) : ℝ := let f := bipolarsigmoidF z; (1 - f * f) / 2
/-- act.cpp:43-45 -/
def comploglogF (z : ℝ) : ℝ := 1 - exp (-exp z)
/-- act.cpp:46-49 -/
def comploglogG (z : ℝ) : ℝ := let expo := exp z; expo * exp (-expo)
/-- act.cpp:51-53 -/
def lecuntanhF (z : ℝ) : ℝ := 1.7159 * tanh (2 / 3 * z)
/-- act.cpp:54-57 -/
def lecuntanhG (z : ℝ) : ℝ := let x := 2 / 3 * z; 1.14393333 * 4 / (exp x + exp (-x)) / (exp x + exp (-x))
/-- act.cpp:59-61 -/
def hardtanhF (z : ℝ) : ℝ := max (-1) (min 1 z)
/-- act.cpp:62-65 -/
def hardtanhG (z : ℝ) : ℝ := if z ≥ -1 ∧ z ≤ 1 then 1 else 0
/-- act.cpp:67-69 -/
def absoluteF (z : ℝ) : ℝ := |z|
/-- act.cpp:70-73 -/
def absoluteG (z : ℝ) : ℝ := if z < 0 then -1 else 1
/-- act.cpp:75-77 -/
def reluF (z : ℝ) : ℝ := if z ≥ 0 then z else 0
/-- act.cpp:78-80 -/
def reluG (z : ℝ) : ℝ := if z ≥ 0 then 1 else 0
/-- act.cpp:82-84 -/
def relucosF (z : ℝ) : ℝ := max 0 z + cos z
/-- act.cpp:85-87 -/
def relucosG (z : ℝ) : ℝ := if z ≥ 0 then 1 - sin z else -sin z
/-- act.cpp:89-91 -/
def relusinF (z : ℝ) : ℝ := max 0 z + sin z
/-- act.cpp:92-94 -/
def relusinG (z : ℝ) : ℝ := if z ≥ 0 then 1 + cos z else cos z
/-- act.cpp:96-98 -/
def smoothreluF (z : ℝ) : ℝ := log (1 + exp z)
/-- act.cpp:99-102 -/
def smoothreluG (z : ℝ) : ℝ := let expo := exp z; expo / (1 + expo)

/-- `initactfunc`, act.cpp:104-109. -/
def initactfunc {R : Type} (act actd : R → R) : ActFunc R := ⟨act, actd⟩

/-- act.cpp:111 -/
def identity : ActFunc ℝ := initactfunc identityF identityG
/-- act.cpp:112 -/
def sigmoid : ActFunc ℝ := initactfunc sigmoidF sigmoidG
/-- act.cpp:113 -/
def arctan : ActFunc ℝ := initactfunc arctanF arctanG
/-- act.cpp:114 -/
def comploglog : ActFunc ℝ := initactfunc comploglogF comploglogG
/-- act.cpp:115 -/
def tanhyperbolic : ActFunc ℝ := initactfunc tanhF tanhG
/-- act.cpp:116 -/
def bipolarsigmoid : ActFunc ℝ := initactfunc bipolarsigmoidF bipolarsigmoidG
/-- act.cpp:117 -/
def lecuntanh : ActFunc ℝ := initactfunc lecuntanhF lecuntanhG
/-- act.cpp:118 -/
def hardtanh : ActFunc ℝ := initactfunc hardtanhF hardtanhG
/-- act.cpp:119 -/
def absolute : ActFunc ℝ := initactfunc absoluteF absoluteG
/-- act.cpp:120 -/
def relu : ActFunc ℝ := initactfunc reluF reluG
/-- act.cpp:121 -/
def relucos : ActFunc ℝ := initactfunc relucosF relucosG
/-- act.cpp:122 -/
def relusin : ActFunc ℝ := initactfunc relusinF relusinG
/-- act.cpp:123 -/
def smoothrelu : ActFunc ℝ := initactfunc smoothreluF smoothreluG

end
end Act
end Nnet.NN
