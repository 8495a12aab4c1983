import Verif.NN.Net
/-!
# GradientChecker (test/gradient_checker.{h,cpp})

The helper class the project checks its own back-propagation with. `m[l]` is Armadillo's unchecked access to element `l` of the memory of `m`, which is stored
column by column; outside it is undefined behaviour. `LOG` and the printing in `issame` have no effect on the result and are left out.
-/
namespace Nnet.NN
noncomputable section

/-- `m[l]`. -/
def Mat.lin (m : Mat ℝ) (l : Nat) : Res ℝ :=
  if l < m.nr * m.nc then .ok (m.f (l % m.nr) (l / m.nr)) else .error (.ub .outOfBounds)

/-- `m[l] = v`. -/
def Mat.setLin (m : Mat ℝ) (l : Nat) (v : ℝ) : Res (Mat ℝ) :=
  if l < m.nr * m.nc then .ok (Mat.of m.nr m.nc (fun a b => if a = l % m.nr ∧ b = l / m.nr then v else m.f a b)) else .error (.ub .outOfBounds)

/-- `class GradientChecker`, gradient_checker.h:17-19. -/
structure Checker where
  nnet : Net
  random_data : Mat ℝ
  random_label : Mat ℝ

namespace Checker

/-- One of the loops gradient_checker.cpp:24-30: `m[i] = (rand() % 10000) / 10000.0` for `i = 0 .. dim-1`; `rand k` is the `k`-th number `rand()` returns. -/
def fillRandom (rand : Nat → Nat) (first dim : Nat) (m : Mat ℝ) : Res (Mat ℝ) :=
  loop dim (fun i m => m.setLin i ((rand (first + i) % 10000 : Nat) / 10000)) m

/-- `GradientChecker::GradientChecker(const NeuralNet&)`, gradient_checker.cpp:11-31. `self` is the default-constructed member `nnet`. -/
def new (dist : Draws) (junk : Nat → Nat → ℝ) (rand : Nat → Nat) (self net : Net) : Res Checker := do
  let nnet := self.assign net
  let i ← InputLayer.copyCtor dist junk net.input
  let input_dim := i.getnnodes
  let output_dim := net.output.copyCtor.getnnodes
  let data ← Mat.mk' junk 1 input_dim
  let label ← Mat.mk' junk 1 output_dim
  let data ← fillRandom rand 0 input_dim data
  let label ← fillRandom rand input_dim output_dim label
  .ok ⟨nnet, data, label⟩

/-- `eps`, gradient_checker.cpp:34, and the tolerance in gradient_checker.cpp:91. -/
def eps : ℝ := 1 / 1000000

/-- `GradientChecker::issame(m1, m2)`, gradient_checker.cpp:81-101. -/
def issame (m1 m2 : Mat ℝ) : Res Bool :=
  if m1.nr ≠ m2.nr ∨ m1.nc ≠ m2.nc then .ok false
  else loop m1.nr (fun i same => loop m1.nc (fun j same => do
    let val1 ← m1.lin (i * m1.nc + j)
    let val2 ← m2.lin (i * m1.nc + j)
    .ok (if |val1 - val2| < 1 / 1000000 then false else same)) same) true

/-- What the loops of `check` change: the perturbed weights, the collected difference quotients, the layers, the network. -/
structure State where
  perturb : Mat ℝ
  gradient : Mat ℝ
  store : Store
  net : Net

/-- Body of the double loop, gradient_checker.cpp:48-63: layer `i`, weight `(j, k)`. -/
def checkEntry (junk : Nat → Nat → ℝ) (data label : Mat ℝ) (i : Nat) (W : Mat ℝ) (j k : Nat) (t : State) : Res State := do
  -- compute first cost
  let v ← t.perturb.lin (j * t.perturb.nc + k)
  let perturb ← t.perturb.setLin (j * t.perturb.nc + k) (v + eps)
  let s ← t.net.sethiddenw t.store i perturb
  let (prediction1, s, n) ← t.net.forwardprop junk s data
  let loss1 ← n.computecost prediction1 label
  -- compute second cost
  let v ← perturb.lin (j * perturb.nc + k)
  let perturb ← perturb.setLin (j * perturb.nc + k) (v - 2 * eps)
  let s ← n.sethiddenw s i perturb
  let (prediction2, s, n) ← n.forwardprop junk s data
  let loss2 ← n.computecost prediction2 label
  -- reset Weights
  let s ← n.sethiddenw s i W
  let gradient ← t.gradient.setLin (j * t.gradient.nc + k) ((loss1 - loss2) / (2 * eps))
  .ok ⟨perturb, gradient, s, n⟩

/-- Body of the outer loop, gradient_checker.cpp:38-76: layer `i`; the `Bool` is `success`. -/
def checkLayer (junk : Nat → Nat → ℝ) (data label : Mat ℝ) (i : Nat) (st : Bool × Store × Net) : Res (Bool × Store × Net) := do
  let L ← st.2.2.gethidden st.2.1 i
  let W := L.W
  let t ← loop W.nr (fun j t => loop W.nc (fun k t => checkEntry junk data label i W j k t) t) ⟨W, L.grad, st.2.1, st.2.2⟩
  let (_, s, n) ← t.net.forwardprop junk t.store data
  let (s, n) ← n.backprop junk s label
  let target ← n.gethidden s i
  let same ← issame t.gradient target.grad
  .ok (if same then st.1 else false, s, n)

/-- `GradientChecker::check()`, gradient_checker.cpp:33-79. -/
def check (junk : Nat → Nat → ℝ) (s : Store) (c : Checker) : Res (Bool × Store × Checker) := do
  let (b, s, n) ← loop c.nnet.hidden.length (checkLayer junk c.random_data c.random_label) (true, s, c.nnet)
  .ok (b, s, { c with nnet := n })

end Checker
end
end Nnet.NN
