import Verif.NN.Binary64Ieee
import Verif.NN.Text
/-!
# NeuralNet::save and NeuralNet::load of weights of type `double` (src/neuralnet.cpp:99-152)

`File.lean` again for the networks of `Float.lean`, and the text of a `double`: finite numbers as `%.6g` writes them, `-0`, `inf`, `-inf`, `nan`, `-nan`; reading
as libstdc++ does: `strtod` correctly rounded, a failure if the text is not a number or the number is too large.
-/
namespace Nnet.NN.Flt
noncomputable section

section
variable {F : Type} [Arith F]

/-- The loop of neuralnet.cpp:103-110 over the hidden layers. -/
def saveHidden (io : TextIOOf F) : List (Layer F) → List Char → Res (List Char)
  | [], out => .ok out
  | L :: Ls, out => do
    let out ← saveMat io L.W out
    saveHidden io Ls out

/-- Everything `save` writes, neuralnet.cpp:103-118. -/
def Net.saveText (io : TextIOOf F) (n : Net F) : Res (List Char) := do
  let out ← saveHidden io n.hidden []
  saveMat io n.output.W out

/-- `NeuralNet::save(path)`, neuralnet.cpp:99-121; `canOpen` tells whether the file could be opened for writing (otherwise nothing happens). -/
def Net.save (io : TextIOOf F) (n : Net F) (path : String) (canOpen : Bool) (fs : Files) : Res Files :=
  if canOpen then do
    let text ← n.saveText io
    .ok (fs.put path text)
  else .ok fs

/-- The loop of neuralnet.cpp:130-140 over the hidden layers. -/
def loadHidden (io : TextIOOf F) : List (Layer F) → InStream → Res (List (Layer F) × InStream)
  | [], st => .ok ([], st)
  | L :: Ls, st => do
    let (w, st) ← loadMat io L.W st
    let (Ls, st) ← loadHidden io Ls st
    .ok ({ L with W := w } :: Ls, st)

/-- `NeuralNet::load(path)`, neuralnet.cpp:126-152; nothing happens when the file does not exist. -/
def Net.load (io : TextIOOf F) (n : Net F) (path : String) (fs : Files) : Res (Net F) :=
  match fs path with
  | none => .ok n
  | some text => do
    let (hidden, st) ← loadHidden io n.hidden ⟨text, true⟩
    let (w, _) ← loadMat io n.output.W st
    .ok { hidden := hidden, output := { n.output with W := w } }

end

namespace B64
open FV

/-- `DBL_MAX`, the largest `double`. -/
def dblMax : ℝ := ((2 ^ 53 - 1 : ℤ) : ℝ) * (2 : ℝ) ^ (971 : ℤ)

theorem dblMax_r64 : r64 dblMax = dblMax := r64_exact (n := 2 ^ 53 - 1) (e := 971) (by norm_num) (by norm_num)

theorem dblMax_lt : dblMax < overflow := by
  rw [overflow_zpow, show (1024 : ℤ) = 53 + 971 by norm_num, zpow_add₀ (by norm_num)]
  exact mul_lt_mul_of_pos_right (by norm_num) (two_zpow_pos _)

theorem dblMax_pos : 0 < dblMax := mul_pos (by norm_num) (two_zpow_pos _)

theorem isDouble_max' : IsDouble (fin dblMax) := by
  show rnd dblMax = fin dblMax
  rw [rnd_fin (by rw [dblMax_r64, abs_of_pos dblMax_pos]; exact dblMax_lt), dblMax_r64]

open Classical in
/-- The text of `out << x` for a `double`; `nanNeg` tells which NaNs have a minus sign. -/
def fmtD (nanNeg : Dbl → Bool) (x : Dbl) : List Char :=
  match x.v with
  | nan => if nanNeg x then ['-', 'n', 'a', 'n'] else ['n', 'a', 'n']
  | pinf => ['i', 'n', 'f']
  | ninf => ['-', 'i', 'n', 'f']
  | fin r => if r = 0 then (if x.negz then ['-', '0'] else ['0']) else fmtG r

open Classical in
/-- The `double` libstdc++ makes of the characters of a number: `strtod` rounds to nearest; if that overflows the value is `DBL_MAX` with the sign of the text and
the stream fails, if the text is not a number it is 0 and the stream fails. -/
def convD (P : Platform) (cs : List Char) : Double P × Bool :=
  if (strtod cs).2 = false then (0, false)
  else if rnd (strtod cs).1 = pinf then (⟨fin dblMax, false, isDouble_max'⟩, false)
  else if rnd (strtod cs).1 = ninf then (⟨fin (-dblMax), true, isDouble_neg isDouble_max'⟩, false)
  else (⟨rnd (strtod cs).1, (parseSign cs).1, isDouble_rnd _⟩, true)

/-- The conversions of the C++ library for `double`. -/
def dblText (P : Platform) (nanNeg : Dbl → Bool) : TextIOOf (Double P) := ⟨fmtD nanNeg, convD P⟩

end B64
end
end Nnet.NN.Flt
