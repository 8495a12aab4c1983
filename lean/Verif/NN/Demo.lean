import Verif.NN.PropsExamples
/-!
# Model of the demo programs example/xor_problem.cpp and example/spiral.cpp

Not modelled: what is printed, the window, the circles drawn for the training samples. The numbers `>>` delivers are a sequence `xs` (0 where extraction fails, as the variables are
set to 0 first), the labels a sequence `ys`; `opened` says whether both files could be opened.
-/
namespace Nnet.NN
noncomputable section

namespace Xor

/-- `cost`, xor_problem.cpp:25-28. -/
def cost : MatFunc := fun y h => do
  let s ← y.schur (funcop h Real.log)
  let t ← (y.map (fun v => 1 - v)).schur (funcop (h.map (fun v => 1 - v)) Real.log)
  let u ← s.add t
  .ok ((u.map (fun v => -v)).divS y.nr)

/-- `costd`, xor_problem.cpp:30-33. -/
def costd : MatFuncD := fun y a _ => do
  let grad ← a.sub y
  .ok (grad.divS y.nr)

/-- `load`, xor_problem.cpp:35-55. -/
def load (junk : Nat → Nat → ℝ) (opened : Bool) (xs : Nat → ℝ) (ys : Nat → Int) : Res (Mat ℝ × Mat ℝ) := do
  let x ← Mat.mk' junk 100 2
  let y := Mat.of 100 2 (fun _ _ => 0)
  if opened then
    loop 100 (fun i (xy : Mat ℝ × Mat ℝ) => do
      let x ← xy.1.setAt i 0 (xs (3 * i + 1))
      let x ← x.setAt i 1 (xs (3 * i + 2))
      let y ← xy.2.setAt i (ys i) 1
      .ok (x, y)) (x, y)
  else .ok (x, y)

/-- `loadsample`, xor_problem.cpp:56-62. -/
def loadsample (junk : Nat → Nat → ℝ) (w h : Nat) : Res (Mat ℝ) := do
  let m ← Mat.mk' junk (w * h : Nat) 2
  loop (h * w) (fun i (m : Mat ℝ) => do
    let m ← m.setAt i 0 (1 * ((i % w : Nat) : ℝ) / w)
    m.setAt i 1 (1 * ((i / w : Nat) : ℝ) / h)) m

/-- The constructor calls of `main`, xor_problem.cpp:72-80 (constructors without `stddev` use 1). -/
def recipe : Spec.Recipe :=
  { inputs := 2
    hidden := [⟨2, 6, 1e-2, 1, 0, Act.arctan⟩, ⟨6, 6, 1e-2, 1, 0, Act.relu⟩, ⟨6, 6, 1e-2, 1, 0, Act.sigmoid⟩, ⟨6, 6, 1e-2, 1, 0, Act.arctan⟩]
    out := ⟨6, 2, 1e-2, 1, 0, Act.sigmoid⟩
    cost := cost
    costd := costd }

/-- The calls of `main` on trainer and network, xor_problem.cpp:81-94. -/
def calls (x y sample : Mat ℝ) : List Spec.Stmt :=
  .make 0 (.momentum 0.5 none) :: (List.replicate 120000 (.feed 0 x y true) ++ [.call (.predict sample)])

/-- `main` up to the prediction, xor_problem.cpp:64-94: the values returned by the calls, and how it ends. -/
def main (dist : Draws) (io : TextIO) (mem : Nat → Nat → Nat → ℝ) (junk : Nat → Nat → ℝ) (fs : Files) (opened : Bool) (xs : Nat → ℝ) (ys : Nat → Int) : List Spec.Returned × Res Files :=
  match (do let xy ← load junk opened xs ys; let m ← loadsample junk 800 600; .ok (xy, m) : Res ((Mat ℝ × Mat ℝ) × Mat ℝ)) with
  | .error e => ([], .error e)
  | .ok ((x, y), m) => Spec.run dist io mem fs recipe (calls x y m)

/-- Drawing the classes on a canvas of zeros of `h` rows and `w` columns, xor_problem.cpp:97-100: `canvas.at` does not check its indices. -/
def draw (w h : Nat) (result : Mat ℝ) : Res (Nat → Nat → Nat) :=
  loop result.nr (fun i (c : Nat → Nat → Nat) => do
    if i / w < h ∧ i % w < w then
      let v ← result.at' i 0
      .ok (fun a b => if a = i / w ∧ b = i % w then (if v = 1 then 128 else 0) else c a b)
    else .error (.ub .vectorIndex)) (fun _ _ => 0)

end Xor

namespace Spiral

/-- `load`, spiral.cpp:28-48. -/
def load (junk : Nat → Nat → ℝ) (opened : Bool) (xs : Nat → ℝ) (ys : Nat → Int) : Res (Mat ℝ × Mat ℝ) := do
  let x ← Mat.mk' junk 300 2
  let y := Mat.of 300 3 (fun _ _ => 0)
  if opened then
    loop 300 (fun i (xy : Mat ℝ × Mat ℝ) => do
      let x ← xy.1.setAt i 0 (xs (2 * i))
      let x ← x.setAt i 1 (xs (2 * i + 1))
      let y ← xy.2.setAt i (ys i) 1
      .ok (x, y)) (x, y)
  else .ok (x, y)

/-- `loadsample`, spiral.cpp:49-57. -/
def loadsample (junk : Nat → Nat → ℝ) (w h : Nat) : Res (Mat ℝ) := do
  let m ← Mat.mk' junk (w * h : Nat) 2
  loop (h * w) (fun i (m : Mat ℝ) => do
    let m ← m.setAt i 0 (1 * ((i % w : Nat) : ℝ) / w * 2 - 1)
    m.setAt i 1 (1 * ((i / w : Nat) : ℝ) / h * 2 - 1)) m

/-- The constructor calls of `main`, spiral.cpp:66-72; `SoftmaxOutput(16, 3, lrate, lambda)` is softmaxoutput.cpp:9-14. -/
def recipe : Spec.Recipe :=
  { inputs := 2
    hidden := [⟨2, 64, 1e-2, 1e-2, 0, Act.arctan⟩, ⟨64, 16, 1e-2, 1e-2, 0, Act.arctan⟩]
    out := ⟨16, 3, 1e-2, 1, 0, Act.identity⟩
    cost := Softmax.cost
    costd := Softmax.costd }

/-- The calls of `main` on trainer and network, spiral.cpp:73-87. -/
def calls (x y sample : Mat ℝ) : List Spec.Stmt :=
  .make 0 (.trainer none) :: (List.replicate 36000 (.feed 0 x y true) ++ [.call (.predict sample)])

/-- `main` up to the prediction, spiral.cpp:59-87. -/
def main (dist : Draws) (io : TextIO) (mem : Nat → Nat → Nat → ℝ) (junk : Nat → Nat → ℝ) (fs : Files) (opened : Bool) (xs : Nat → ℝ) (ys : Nat → Int) : List Spec.Returned × Res Files :=
  match (do let xy ← load junk opened xs ys; let m ← loadsample junk 800 600; .ok (xy, m) : Res ((Mat ℝ × Mat ℝ) × Mat ℝ)) with
  | .error e => ([], .error e)
  | .ok ((x, y), m) => Spec.run dist io mem fs recipe (calls x y m)

/-- Drawing the classes, spiral.cpp:90-99 (colours written as the class number plus 1; 0 is an unpainted pixel). -/
def draw (w h : Nat) (result : Mat ℝ) : Res (Nat → Nat → Nat) :=
  loop result.nr (fun i (c : Nat → Nat → Nat) => do
    let v ← result.at' i 0
    if v = 0 ∨ v = 1 ∨ v = 2 then
      if i / w < h ∧ i % w < w then
        .ok (fun a b => if a = i / w ∧ b = i % w then (if v = 0 then 1 else if v = 1 then 2 else 3) else c a b)
      else .error (.ub .vectorIndex)
    else .ok c) (fun _ _ => 0)

end Spiral
end
end Nnet.NN
