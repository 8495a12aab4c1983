import Verif.NN.PropsUnitTests
import Verif.NN.Special
/-!
# C89: constructors give the layers that were asked for; setters
-/
namespace Nnet.NN
open Finset UnitTest
noncomputable section

/-! ## Specification -/

/-- A fresh layer behind `p` nodes, with `q` nodes, as asked for. -/
structure Spec.Made (dist : Draws) (L : Layer) (p q : Nat) (lrate sd lambda : ℝ) (act : ActFunc ℝ) : Prop where
  lrate : L.lrate = lrate
  lambda : L.lambda = lambda
  act : L.actfunc = act
  getpnnodes : L.getpnnodes = p + 1
  getnnodes : L.getnnodes = q
  grad : L.grad.nr = p + 1 ∧ L.grad.nc = q
  fresh : L.pa = .empty ∧ L.z = .empty ∧ L.a = .empty ∧ L.delta = .empty
  weights : ∃ c, ∀ i < p + 1, ∀ j < q, L.W.f i j = c * dist sd (i * q + j)
  spread : 0 ≤ sd → (∃ t < (p + 1) * q, dist sd t ≠ ∑ t ∈ range ((p + 1) * q), dist sd t) → stddev L.W = .ok sd

theorem newDev_made (dist : Draws) (junk : Nat → Nat → ℝ) (p q : Nat) (lrate sd lambda : ℝ) (act : ActFunc ℝ) :
    ∃ L, Layer.newDev dist junk p q lrate sd lambda act = .ok L ∧ Spec.Made dist L p q lrate sd lambda act := by
  have e := ofParam_ok dist junk (param := { previous_nodes := p, nodes := q, standard_dev := sd, learning_rate := lrate, lambda := lambda, actfunc := act }) rfl rfl
  refine ⟨_, e, ⟨rfl, rfl, rfl, rfl, rfl, ⟨rfl, rfl⟩, ⟨rfl, rfl, rfl, rfl⟩, ⟨_, fun i hi j hj => Mat.of_f' hi hj⟩, fun hs hd => ?_⟩⟩
  obtain ⟨L, e1, -, -, e2⟩ := C87_random_init dist junk (param := { previous_nodes := p, nodes := q, standard_dev := sd, learning_rate := lrate, lambda := lambda, actfunc := act }) rfl rfl hs hd
  rw [e] at e1
  cases e1
  exact e2

/-- **C89** (layers). The three constructors of `Layer` with sizes that are not negative: weights and gradient of `p + 1` rows and `q` columns, the rate, penalty and activation asked for, no results yet, and weights
that are the draws times one factor and have the spread asked for (1 if none is given). -/
theorem C89_layer (dist : Draws) (junk : Nat → Nat → ℝ) (p q : Nat) (lrate sd lambda : ℝ) (act : ActFunc ℝ) :
    (∃ L, Layer.newDev dist junk p q lrate sd lambda act = .ok L ∧ Spec.Made dist L p q lrate sd lambda act) ∧
    (∃ L, Layer.new dist junk p q lrate lambda act = .ok L ∧ Spec.Made dist L p q lrate 1 lambda act) ∧
    (∃ L, Layer.ofParam dist junk { previous_nodes := p, nodes := q, standard_dev := sd, learning_rate := lrate, lambda := lambda, actfunc := act } = .ok L ∧ Spec.Made dist L p q lrate sd lambda act) :=
  ⟨newDev_made .., newDev_made .., newDev_made ..⟩

/-- **C89** (default parameters). A `LayerParam` in which only the sizes are set gives a linear layer with spread 1, learning rate 1/100 and no penalty. -/
theorem C89_default_param (dist : Draws) (junk : Nat → Nat → ℝ) (p q : Nat) :
    ∃ L, Layer.ofParam dist junk { previous_nodes := p, nodes := q } = .ok L ∧ Spec.Made dist L p q (1 / 100) 1 0 Act.identity := newDev_made ..

/-- A fresh output layer. -/
structure Spec.MadeOutput (dist : Draws) (o : OutputLayer) (p q : Nat) (lrate sd lambda : ℝ) (act : ActFunc ℝ) (cost : MatFunc) (costd : MatFuncD) : Prop where
  made : Spec.Made dist o.toLayer p q lrate sd lambda act
  cost : o.cost = cost
  costd : o.costd = costd
  label : o.y = .empty

theorem output_made {dist : Draws} {r : Res Layer} {p q : Nat} {lrate sd lambda : ℝ} {act : ActFunc ℝ} (cost : MatFunc) (costd : MatFuncD) (h : ∃ L, r = .ok L ∧ Spec.Made dist L p q lrate sd lambda act) :
    ∃ o : OutputLayer, (do let L ← r; Except.ok ({ L with cost := cost, costd := costd, y := .empty } : OutputLayer) : Res OutputLayer) = .ok o ∧ Spec.MadeOutput dist o p q lrate sd lambda act cost costd := by
  obtain ⟨L, e, h⟩ := h
  rw [e]
  exact ⟨_, rfl, ⟨⟨h.lrate, h.lambda, h.act, h.getpnnodes, h.getnnodes, h.grad, h.fresh, h.weights, h.spread⟩, rfl, rfl, rfl⟩⟩

/-- **C89** (output layers). The constructors of `OutputLayer` and of the four kinds of outputs. The constructors with a `LayerParam` take its activation, the others fix it: the sigmoid for cross entropy, none for
the others. -/
theorem C89_outputs (dist : Draws) (junk : Nat → Nat → ℝ) (p q : Nat) (lrate sd lambda : ℝ) (act : ActFunc ℝ) (cost : MatFunc) (costd : MatFuncD) :
    let param : LayerParam := { previous_nodes := p, nodes := q, standard_dev := sd, learning_rate := lrate, lambda := lambda, actfunc := act }
    (∃ o, OutputLayer.new dist junk p q lrate lambda act cost costd = .ok o ∧ Spec.MadeOutput dist o p q lrate 1 lambda act cost costd) ∧
    (∃ o, OutputLayer.newDev dist junk p q lrate sd lambda act cost costd = .ok o ∧ Spec.MadeOutput dist o p q lrate sd lambda act cost costd) ∧
    (∃ o, OutputLayer.ofParam dist junk param cost costd = .ok o ∧ Spec.MadeOutput dist o p q lrate sd lambda act cost costd) ∧
    (∃ o, Quadratic.new dist junk p q lrate sd lambda = .ok o ∧ Spec.MadeOutput dist o p q lrate sd lambda Act.identity Quadratic.cost Quadratic.costd) ∧
    (∃ o, CrossEntropy.new dist junk p q lrate sd lambda = .ok o ∧ Spec.MadeOutput dist o p q lrate sd lambda Act.sigmoid CrossEntropy.cost CrossEntropy.costd) ∧
    (∃ o, Softmax.new dist junk p q lrate sd lambda = .ok o ∧ Spec.MadeOutput dist o p q lrate sd lambda Act.identity Softmax.cost Softmax.costd) ∧
    (∃ o, KullbackLeibler.new dist junk p q lrate sd lambda = .ok o ∧ Spec.MadeOutput dist o p q lrate sd lambda Act.identity KullbackLeibler.cost KullbackLeibler.costd) ∧
    (∃ o, Quadratic.ofParam dist junk param = .ok o ∧ Spec.MadeOutput dist o p q lrate sd lambda act Quadratic.cost Quadratic.costd) ∧
    (∃ o, CrossEntropy.ofParam dist junk param = .ok o ∧ Spec.MadeOutput dist o p q lrate sd lambda act CrossEntropy.cost CrossEntropy.costd) ∧
    (∃ o, Softmax.ofParam dist junk param = .ok o ∧ Spec.MadeOutput dist o p q lrate sd lambda act Softmax.cost Softmax.costd) ∧
    (∃ o, KullbackLeibler.ofParam dist junk param = .ok o ∧ Spec.MadeOutput dist o p q lrate sd lambda act KullbackLeibler.cost KullbackLeibler.costd) :=
  ⟨output_made _ _ (newDev_made ..), output_made _ _ (newDev_made ..), output_made _ _ (newDev_made ..), output_made _ _ (newDev_made ..), output_made _ _ (newDev_made ..), output_made _ _ (newDev_made ..),
    output_made _ _ (newDev_made ..), output_made _ _ (newDev_made ..), output_made _ _ (newDev_made ..), output_made _ _ (newDev_made ..), output_made _ _ (newDev_made ..)⟩

/-- **C89** (the number of nodes in front). `getpnnodes()` never returns the number of nodes the layer was constructed with: it counts the row of the biases too. -/
theorem C89_getpnnodes_refuted (dist : Draws) (junk : Nat → Nat → ℝ) (p q : Nat) (lrate lambda : ℝ) (act : ActFunc ℝ) :
    ∃ L, Layer.new dist junk p q lrate lambda act = .ok L ∧ L.getpnnodes ≠ p := by
  obtain ⟨L, e, h⟩ := newDev_made dist junk p q lrate 1 lambda act
  exact ⟨L, e, by rw [h.getpnnodes]; omega⟩

/-- **C89** (input and norm layers). The input layer is linear and square; the norm layer has one row, no weight and no rate. -/
theorem C89_input_norm (dist : Draws) (junk : Nat → Nat → ℝ) (k : Nat) :
    (∃ L, InputLayer.new junk k = .ok L ∧ L.getpnnodes = k ∧ L.getnnodes = k ∧ L.lrate = 0 ∧ L.lambda = 0 ∧ L.actfunc = Act.identity) ∧
    (∃ L, Norm.newBase dist junk = .ok L ∧ Spec.Made dist L 0 0 0 1 0 Act.identity) := by
  refine ⟨?_, newDev_made dist junk 0 0 0 1 0 Act.identity⟩
  unfold InputLayer.new Mat.mk'
  rw [if_pos ⟨by omega, by omega⟩, ok_bind, ok_bind]
  exact ⟨_, rfl, rfl, rfl, rfl, rfl, rfl⟩

/-- **C89** (negative sizes). A constructor of a layer throws exactly if there are fewer than -1 nodes in front or fewer than 0 nodes. -/
theorem C89_negative (dist : Draws) (junk : Nat → Nat → ℝ) (p q : Int) (lrate sd lambda : ℝ) (act : ActFunc ℝ) :
    (p < -1 ∨ q < 0 → Layer.newDev dist junk p q lrate sd lambda act = .error .throw) ∧
    (¬ (p < -1 ∨ q < 0) → ∃ L, Layer.newDev dist junk p q lrate sd lambda act = .ok L ∧ (L.getpnnodes : Int) = p + 1 ∧ (L.getnnodes : Int) = q) := by
  constructor
  · intro h
    unfold Layer.newDev Mat.mk'
    rw [if_neg (by omega)]
    rfl
  · intro h
    unfold Layer.newDev Mat.mk'
    rw [if_pos (by omega), ok_bind, ok_bind, randominit_ok]
    refine ⟨_, rfl, ?_, ?_⟩
    · show (((p + 1).toNat : Nat) : Int) = _
      omega
    · show ((q.toNat : Nat) : Int) = _
      omega

/-! ## Setters -/

/-- **C89** (setters). `setw` replaces the weights, and what is computed from them, by those given. `setlambda` does not touch results: it adds `(r - lambda) * W` to the next gradient. `setlrate` scales the next
update. -/
theorem C89_setters (L : Layer) {x d : Mat ℝ} {q : Nat} (hr : 0 < x.nr) (hc : 0 < x.nc) (hW : L.W.nr = x.nc + 1) (hq : L.W.nc = q) (hd1 : d.nr = x.nr) (hd2 : d.nc = q) (r : ℝ) :
    (∀ w, (L.setw w).W = w ∧ (L.setw w).setw L.W = L) ∧
    (∃ a L1 L2 b L3 L4, L.forwardprop x = .ok (a, L1) ∧ (L.setlambda r).forwardprop x = .ok (a, L2) ∧ L1.backprop d = .ok (b, L3) ∧ L2.backprop d = .ok (b, L4) ∧
      ∀ i < L.W.nr, ∀ j < L.W.nc, L4.grad.f i j = L3.grad.f i j + (r - L.lambda) * L.W.f i j) ∧
    (L.grad.nr = L.W.nr → L.grad.nc = L.W.nc → ∃ L1, (L.setlrate r).update = .ok L1 ∧ L1.lrate = r ∧ ∀ i < L.W.nr, ∀ j < L.W.nc, L1.W.f i j = L.W.f i j - r * L.grad.f i j) := by
  refine ⟨fun w => ⟨rfl, rfl⟩, ?_, fun h1 h2 => ?_⟩
  · have f1 := Layer.forwardprop_ok (L := L) hr hc hW
    have f2 := Layer.forwardprop_ok (L := L.setlambda r) hr hc hW
    have b1 := Layer.backprop_ok (L := L.fwd x) (d := d) (Layer.fwd_cached hW) hr (by show 2 ≤ L.W.nr; omega) hd1 (by show _ = L.W.nc; omega)
    have b2 := Layer.backprop_ok (L := (L.setlambda r).fwd x) (d := d) (Layer.fwd_cached hW) hr (by show 2 ≤ L.W.nr; omega) hd1 (by show _ = L.W.nc; omega)
    refine ⟨_, _, _, _, _, _, f1, f2, b1, b2, fun i hi j hj => ?_⟩
    show (((L.setlambda r).fwd x).regGrad _).f i j = ((L.fwd x).regGrad _).f i j + _
    unfold Layer.regGrad
    rw [Mat.of_f' (by exact hi) (by exact hj), Mat.of_f' (by exact hi) (by exact hj)]
    show (Layer.gradOf (ones1 x) ((L.fwd x).dz d)).f i j + r * L.W.f i j = (Layer.gradOf (ones1 x) ((L.fwd x).dz d)).f i j + L.lambda * L.W.f i j + _
    ring
  · have := Layer.update_ok (L := L.setlrate r) ⟨h1, h2⟩
    refine ⟨_, this, rfl, fun i hi j hj => ?_⟩
    show (Mat.of L.W.nr L.W.nc (fun i j => L.W.f i j - r * L.grad.f i j)).f i j = _
    rw [Mat.of_f' hi hj]

/-- The hypotheses are met by a layer the constructor makes. -/
example (dist : Draws) (junk : Nat → Nat → ℝ) : ∃ L, Layer.new dist junk 3 2 (1 / 10) 0 Act.sigmoid = .ok L ∧ L.W.nr = (Mat.of 5 3 (fun _ _ => (1 : ℝ))).nc + 1 ∧ L.W.nc = 2 ∧ L.grad.nr = L.W.nr ∧ L.grad.nc = L.W.nc := by
  obtain ⟨-, ⟨L, e, h⟩, -⟩ := C89_layer dist junk 3 2 (1 / 10) 1 0 Act.sigmoid
  exact ⟨L, e, h.getpnnodes, h.getnnodes, h.grad.1.trans h.getpnnodes.symm, h.grad.2.trans h.getnnodes.symm⟩

end
end Nnet.NN
