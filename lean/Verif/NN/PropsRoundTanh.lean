import Verif.NN.RoundAct
/-!
# An explicit bound for networks of `tanh` layers (C77)
-/
namespace Nnet.NN.Flt
namespace Spec
open FV B64
noncomputable section

/-- The real layer `R` has the same weights, learning rate and regularization as `L`; no weight exceeds `M` in absolute value; at most `N` inputs (with the bias) and units. -/
structure SameLayer {P : Platform} (N M : ℝ) (L : Layer (Double P)) (R : Layer ℝ) : Prop where
  nr : L.W.nr = R.W.nr
  nc : L.W.nc = R.W.nc
  W : ∀ i j, i < R.W.nr → j < R.W.nc → (L.W.f i j).v = fin (R.W.f i j) ∧ |R.W.f i j| ≤ M
  inputs : (R.W.nr : ℝ) ≤ N
  units : (R.W.nc : ℝ) ≤ N
  lrate : L.lrate.v = fin R.lrate
  lambda : L.lambda.v = fin R.lambda

/-- The error bound: `h` hidden layers, inputs up to `B`. -/
def tanhBound (δ N M B : ℝ) (h : ℕ) : ℝ := (2 * u * N ^ 2 * M * B + 2 * N * tiny + δ) * ∑ i ∈ Finset.range (h + 1), (N * M) ^ i

end
end Spec
open FV B64 Spec
noncomputable section
variable {P : Platform}

/-- Estimates of a layer with the weights of `R`. -/
def tanhEst (δ N M : ℝ) (R : Layer ℝ) : LayerEst := ⟨N, ⟨M, 0⟩, ⟨|R.lrate|, 0⟩, ⟨|R.lambda|, 0⟩, estTanh δ, estTanhG δ, always, always⟩

theorem app_same {x : Double P} {r B : ℝ} (h : x.v = fin r) (hb : |r| ≤ B) : App ⟨B, 0⟩ x r := ⟨r, h, hb, hb, by simp⟩

theorem same_lapp {δ N M : ℝ} (hP : Libm P δ) (hM : 0 ≤ M) {L : Layer (Double P)} {R : Layer ℝ} (h : SameLayer N M L R) (h1 : L.actfunc = ⟨Act.tanhF, Act.tanhG⟩) (h2 : R.actfunc = ⟨Act.tanhF, Act.tanhG⟩) :
    LApp (tanhEst δ N M R) L R where
  W := ⟨h.nr, h.nc, ⟨hM, le_refl _⟩, fun i j hi hj => app_same (h.W i j hi hj).1 (h.W i j hi hj).2⟩
  inputs := h.inputs
  units := h.units
  act := by rw [h1, h2]; exact computes_tanh hP
  actd := by rw [h1, h2]; exact computes_tanhG hP
  lrate := app_same h.lrate (le_refl _)
  lambda := app_same h.lambda (le_refl _)

theorem tanh_step {δ N M B : ℝ} (hN : 1 ≤ N) (hM : 1 ≤ M) (hB : 1 ≤ B) (hδ : 0 ≤ δ) {x : Est} (hx : x.B ≤ B) {h : ℕ} {S : ℝ} (hS : S = ∑ i ∈ Finset.range h, (N * M) ^ i)
    (hE : x.E ≤ (2 * u * N ^ 2 * M * B + 2 * N * tiny + δ) * S) : (Est.dot N x.one ⟨M, 0⟩).E + δ ≤ tanhBound δ N M B h := by
  have hu := u_pos
  have ht := tiny_pos
  set c := 2 * u * N ^ 2 * M * B + 2 * N * tiny + δ with hc
  have h1 : ∑ i ∈ Finset.range (h + 1), (N * M) ^ i = N * M * S + 1 := by
    rw [Finset.sum_range_succ', hS, Finset.mul_sum, pow_zero]
    congr 1
    refine Finset.sum_congr rfl fun i _ => ?_
    rw [pow_succ]; ring
  unfold tanhBound
  rw [h1, ← hc]
  have hone : x.one.B ≤ B := max_le hB hx
  have hone0 : 0 ≤ x.one.B := zero_le_one.trans (le_max_left _ _)
  have h2 : 2 * N * u * (N * (x.one.B * M)) ≤ 2 * u * N ^ 2 * M * B := by
    have : x.one.B * M ≤ B * M := mul_le_mul_of_nonneg_right hone (by linarith)
    have := mul_le_mul_of_nonneg_left this (show 0 ≤ 2 * N * u * N by positivity)
    nlinarith
  have h3 : N * M * x.E ≤ N * M * (c * S) := mul_le_mul_of_nonneg_left hE (by positivity)
  simp only [Est.dot, Est.one] at *
  nlinarith

theorem tanh_forward {δ N M B : ℝ} (hP : Libm P δ) (hN : 1 ≤ N) (hN2 : N < 2 ^ 50) (hM : 1 ≤ M) (hB : 1 ≤ B) (hs : N * (B * M) ≤ sumMax) :
    ∀ {Ls : List (Layer (Double P))} {Rs : List (Layer ℝ)} {x : Est} {k : ℕ}, List.Forall₂ (fun L R => SameLayer N M L R ∧ L.actfunc = ⟨Act.tanhF, Act.tanhG⟩ ∧ R.actfunc = ⟨Act.tanhF, Act.tanhG⟩) Ls Rs →
    x.B ≤ B → x.E ≤ (2 * u * N ^ 2 * M * B + 2 * N * tiny + δ) * ∑ i ∈ Finset.range k, (N * M) ^ i →
    HApp (Rs.map (tanhEst δ N M)) Ls Rs ∧ ForwardFits (Rs.map (tanhEst δ N M)) x ∧ (forward (Rs.map (tanhEst δ N M)) x).B ≤ B ∧
      (forward (Rs.map (tanhEst δ N M)) x).E ≤ (2 * u * N ^ 2 * M * B + 2 * N * tiny + δ) * ∑ i ∈ Finset.range (k + Rs.length), (N * M) ^ i
  | _, _, x, k, .nil, hx, hE => ⟨.nil, trivial, hx, hE⟩
  | _, _, x, k, .cons (a := L) (b := R) (l₂ := Rs) hL hs', hx, hE => by
    have hone : x.one.B ≤ B := max_le hB hx
    have hone0 : 0 ≤ x.one.B := zero_le_one.trans (le_max_left _ _)
    have hst := tanh_step hN hM hB hP.small.1 hx rfl hE
    obtain ⟨h1, h2, h3, h4⟩ := tanh_forward hP hN hN2 hM hB hs hs' (x := (tanhEst δ N M R).a x) (k := k + 1) (by exact hB) hst
    refine ⟨.cons (same_lapp hP (by linarith) hL.1 hL.2.1 hL.2.2) h1, ⟨⟨hN2, ?_, trivial⟩, h2⟩, h3, ?_⟩
    · show N * (x.one.B * M) ≤ sumMax
      refine le_trans (mul_le_mul_of_nonneg_left (mul_le_mul_of_nonneg_right hone (by linarith)) (by linarith)) hs
    · rw [List.length_cons, show k + (Rs.length + 1) = k + 1 + Rs.length by omega]
      exact h4

/-- C77. Networks whose layers all use `tanh`: with weights up to `M` and at most `N` units a layer, the outputs for inputs up to `B` differ from the exact outputs of the same network by at most
`(2 N² M B 2⁻⁵³ + 2 N 2⁻¹⁰⁷⁴ + δ) (1 + N M + ... + (N M)^h)`, where `h` is the number of hidden layers and `δ` the error of the C library's `tanh`. -/
theorem C77_tanh {δ N M B : ℝ} (hP : Libm P δ) (hN : 1 ≤ N) (hN2 : N < 2 ^ 50) (hM : 1 ≤ M) (hB : 1 ≤ B) (hs : N * (B * M) ≤ sumMax) {n : Net (Double P)} {m : Net ℝ}
    (hh : List.Forall₂ (fun L R => SameLayer N M L R ∧ L.actfunc = ⟨Act.tanhF, Act.tanhG⟩ ∧ R.actfunc = ⟨Act.tanhF, Act.tanhG⟩) n.hidden m.hidden)
    (ho : SameLayer N M n.output.toLayer m.output.toLayer ∧ n.output.actfunc = ⟨Act.tanhF, Act.tanhG⟩ ∧ m.output.actfunc = ⟨Act.tanhF, Act.tanhG⟩)
    {X : Mat (Double P)} {X' : Mat ℝ} (hnr : X.nr = X'.nr) (hnc : X.nc = X'.nc) (hX : ∀ i j, i < X'.nr → j < X'.nc → (X.f i j).v = fin (X'.f i j) ∧ |X'.f i j| ≤ B)
    {a : Mat (Double P)} {n' : Net (Double P)} (h : n.forwardprop X = .ok (a, n')) :
    ∃ a' m', m.forwardprop X' = .ok (a', m') ∧ a.nr = a'.nr ∧ a.nc = a'.nc ∧
      ∀ i j, i < a'.nr → j < a'.nc → ∃ q, (a.f i j).v = fin q ∧ |q - a'.f i j| ≤ tanhBound δ N M B n.hidden.length := by
  obtain ⟨h1, h2, h3, h4⟩ := tanh_forward hP hN hN2 hM hB hs hh (x := ⟨B, 0⟩) (k := 0) (le_refl B) (by simp)
  have hlo : LApp (tanhEst δ N M m.output.toLayer) n.output.toLayer m.output.toLayer := same_lapp hP (by linarith) ho.1 ho.2.1 ho.2.2
  set e : NetEst := ⟨m.hidden.map (tanhEst δ N M), tanhEst δ N M m.output.toLayer, fun _ _ => unit, fun _ _ => False⟩ with he
  have hx : MApp ⟨B, 0⟩ X X' := ⟨hnr, hnc, ⟨by linarith, le_refl _⟩, fun i j hi hj => app_same (hX i j hi hj).1 (hX i j hi hj).2⟩
  have hone : (forward e.hidden ⟨B, 0⟩).one.B ≤ B := max_le hB h3
  have hfit : e.Fits ⟨B, 0⟩ := ⟨h2, hN2, le_trans (mul_le_mul_of_nonneg_left (mul_le_mul_of_nonneg_right hone (by show 0 ≤ M; linarith)) (by show 0 ≤ N; linarith)) hs, trivial⟩
  obtain ⟨a', m', g1, g2, g3, g4⟩ := (C77_forward (e := e) ⟨h1, hlo, fun _ _ _ _ _ _ _ _ hf => hf.elim⟩ hfit hx).2 a n' h
  refine ⟨a', m', g1, g2, g3, fun i j hi hj => ?_⟩
  obtain ⟨q, q1, q2⟩ := g4 i j hi hj
  refine ⟨q, q1, q2.trans ?_⟩
  rw [zero_add] at h4
  have hlen : n.hidden.length = m.hidden.length := hh.length_eq
  rw [hlen]
  exact tanh_step hN hM hB hP.small.1 h3 rfl h4

/-! ## Concrete cases -/

namespace RoundExample

/-- A matrix of ones. -/
def ones {F : Type} [Arith F] (r c : ℕ) : Mat F := Mat.of r c fun _ _ => 1

/-- A `tanh` layer with one input and one unit, weights 1, learning rate 1, regularization 0. -/
def layer {F : Type} [Arith F] : Layer F := ⟨1, 0, ⟨Act.tanhF, Act.tanhG⟩, ones 0 0, ones 0 0, ones 0 0, ones 0 0, ones 2 1, ones 0 0⟩

/-- Two such layers. -/
def net {F : Type} [Arith F] : Net F := ⟨[layer], ⟨layer, Quadratic.cost, Quadratic.costd, ones 0 0⟩⟩

theorem same_layer : SameLayer (P := P) 2 1 layer layer where
  nr := rfl
  nc := rfl
  W i j hi hj := by
    have hi : i < 2 := hi
    have hj : j < 1 := hj
    show ((Mat.of 2 1 fun _ _ => (1 : Double P)).f i j).v = fin ((Mat.of 2 1 fun _ _ => (1 : ℝ)).f i j) ∧ |(Mat.of 2 1 fun _ _ => (1 : ℝ)).f i j| ≤ 1
    rw [Mat.of_f' hi hj, Mat.of_f' hi hj]
    exact ⟨rfl, by simp⟩
  inputs := by show ((2 : ℕ) : ℝ) ≤ 2; norm_num
  units := by show ((1 : ℕ) : ℝ) ≤ 2; norm_num
  lrate := rfl
  lambda := rfl

theorem sumMax_ge : (2 : ℝ) ^ (100 : ℕ) ≤ sumMax := by unfold sumMax; exact pow_le_pow_right₀ (by norm_num) (by norm_num)
theorem large_ge' : (2 : ℝ) ^ (100 : ℕ) ≤ large := by unfold large; exact pow_le_pow_right₀ (by norm_num) (by norm_num)

theorem ones_same {r c i j : ℕ} (hi : i < r) (hj : j < c) : ((ones r c : Mat (Double P)).f i j).v = fin ((ones r c : Mat ℝ).f i j) ∧ |(ones r c : Mat ℝ).f i j| ≤ 1 := by
  unfold ones
  rw [Mat.of_f' hi hj, Mat.of_f' hi hj]
  exact ⟨rfl, by simp⟩

/-- The hypotheses of `C77_tanh` are met by this network on the correctly rounded platform: the error is at most `2 ^ -44`. -/
example : ∃ a n' a' m', (net : Net (Double Platform.exact)).forwardprop (ones 1 1) = .ok (a, n') ∧ (net : Net ℝ).forwardprop (ones 1 1) = .ok (a', m') ∧
    ∃ q, (a.f 0 0).v = fin q ∧ |q - a'.f 0 0| ≤ 1 / 2 ^ 44 := by
  have hok : ∃ p, (net : Net (Double Platform.exact)).forwardprop (ones 1 1) = .ok p := ⟨_, rfl⟩
  obtain ⟨⟨a, n'⟩, h⟩ := hok
  have hs := sumMax_ge
  obtain ⟨a', m', h1, h2, h3, h4⟩ := C77_tanh (N := 2) (M := 1) (B := 1) (m := net) (X' := ones 1 1) libm_exact (by norm_num) (by norm_num) (by norm_num) (by norm_num) (by linarith)
    (.cons ⟨same_layer, rfl, rfl⟩ .nil) ⟨same_layer, rfl, rfl⟩ rfl rfl (fun i j hi hj => ones_same hi hj) h
  have hd : a'.nr = 1 ∧ a'.nc = 1 := by
    obtain ⟨p, hp, e1, e2⟩ : ∃ p, (net : Net ℝ).forwardprop (ones 1 1) = .ok p ∧ p.1.nr = 1 ∧ p.1.nc = 1 := ⟨_, rfl, rfl, rfl⟩
    rw [hp] at h1
    cases h1
    exact ⟨e1, e2⟩
  obtain ⟨q, q1, q2⟩ := h4 0 0 (by omega) (by omega)
  refine ⟨a, n', a', m', h, h1, q, q1, q2.trans ?_⟩
  have ht : tiny ≤ u := by have := u_tiny; linarith
  have hl : (net : Net (Double Platform.exact)).hidden.length = 1 := rfl
  rw [hl]
  unfold tanhBound
  rw [Finset.sum_range_succ, Finset.sum_range_succ, Finset.sum_range_zero]
  have hu : u = 1 / 2 ^ 53 := rfl
  rw [hu] at ht ⊢
  nlinarith

/-- Estimates for this network. -/
def est : NetEst := ⟨[tanhEst (2 * u) 2 1 layer], tanhEst (2 * u) 2 1 layer, estDiff, fun y a => 2 * (a.B + y.B) ≤ large⟩

theorem est_app : NApp est (net : Net (Double Platform.exact)) (net : Net ℝ) :=
  ⟨.cons (same_lapp libm_exact (by norm_num) same_layer rfl rfl) .nil, same_lapp libm_exact (by norm_num) same_layer rfl rfl, computes_quadratic⟩

theorem est_fits : est.TrainFits 1 ⟨1, 0⟩ ⟨1, 0⟩ := by
  have hs := sumMax_ge
  have hl := large_ge'
  have h0 : |(0 : ℝ)| = 0 := abs_zero
  have h1 : |(1 : ℝ)| = 1 := abs_one
  have r1 : (layer : Layer ℝ).lrate = 1 := rfl
  have r2 : (layer : Layer ℝ).lambda = 0 := rfl
  constructor
  · norm_num
  · refine ⟨⟨⟨?_, ?_, trivial⟩, trivial⟩, ?_, ?_, trivial⟩ <;> norm_num [est, tanhEst, forward, Est.one, Est.dot, LayerEst.a, LayerEst.z, NetEst.last, estTanh] <;> linarith
  · norm_num [est, tanhEst, forward, Est.one, Est.dot, LayerEst.a, LayerEst.z, NetEst.last, NetEst.out, estTanh]
    linarith
  · constructor <;> norm_num [est, tanhEst, forward, Est.one, Est.dot, LayerEst.a, LayerEst.z, NetEst.last, NetEst.out, NetEst.delta, estTanh, estDiff, Est.divn, Est.add, Est.mul, LayerEst.grad, r1, r2] <;> linarith
  · refine ⟨trivial, trivial, ?_, ?_⟩
    · norm_num [est, tanhEst, forward, backward, Est.one, Est.dot, LayerEst.a, LayerEst.z, NetEst.last, NetEst.out, NetEst.delta, LayerEst.passed, estTanh, estTanhG, unit, estDiff, Est.divn, Est.add, Est.mul, LayerEst.grad, r1, r2]
      linarith
    · constructor <;> norm_num [est, tanhEst, forward, backward, Est.one, Est.dot, LayerEst.a, LayerEst.z, NetEst.last, NetEst.out, NetEst.delta, LayerEst.delta, LayerEst.passed, estTanh, estTanhG, unit, estDiff, Est.divn, Est.add,
        Est.mul, LayerEst.grad, r1, r2] <;> linarith

theorem ones_app {r c : ℕ} : MApp ⟨1, 0⟩ (ones r c : Mat (Double P)) (ones r c : Mat ℝ) :=
  ⟨rfl, rfl, ⟨by norm_num, le_refl _⟩, fun i j hi hj => app_same (ones_same (P := P) hi hj).1 (ones_same (P := P) hi hj).2⟩

/-- The hypotheses of `C78_train` are met by a training step of this network. -/
example : ∃ n' m', trainAll (net : Net (Double Platform.exact)) [(ones 1 1, ones 1 1)] = .ok n' ∧ trainAll (net : Net ℝ) [(ones 1 1, ones 1 1)] = .ok m' ∧
    NApp (est.trained 1 ⟨1, 0⟩ ⟨1, 0⟩) n' m' := by
  obtain ⟨n', hn⟩ : ∃ n', trainAll (net : Net (Double Platform.exact)) [(ones 1 1, ones 1 1)] = .ok n' := ⟨_, rfl⟩
  obtain ⟨m', h1, h2⟩ := (C78_train (bs' := [(ones 1 1, ones 1 1)]) est_app (B := 1) (x := ⟨1, 0⟩) (y := ⟨1, 0⟩) (fun k hk => by
    have : k = 0 := by simpa using hk
    subst this
    exact est_fits) (.cons ⟨ones_app, ones_app, by show ((1 : ℕ) : ℝ) ≤ 1; norm_num, by show ((1 : ℕ) : ℝ) ≤ 1; norm_num⟩ .nil)).2 n' hn
  exact ⟨n', m', hn, h1, h2⟩

/-- Two classes: the outputs for the sample 1 are 2 and 0. -/
def pick {F : Type} [Arith F] : Net F :=
  ⟨[], ⟨⟨1, 0, ⟨Act.identityF, Act.identityG⟩, ones 0 0, ones 0 0, ones 0 0, ones 0 0, Mat.of 2 2 fun _ j => if j = 0 then 1 else 0, ones 0 0⟩, Quadratic.cost, Quadratic.costd, ones 0 0⟩⟩

/-- Estimates for it. -/
def pickEst : NetEst := ⟨[], ⟨2, ⟨1, 0⟩, ⟨1, 0⟩, ⟨1, 0⟩, id, fun _ => unit, always, always⟩, estDiff, fun y a => 2 * (a.B + y.B) ≤ large⟩

theorem pick_app : NApp pickEst (pick : Net (Double P)) (pick : Net ℝ) where
  hidden := .nil
  output :=
    { W := ⟨rfl, rfl, ⟨zero_le_one, le_refl _⟩, fun i j hi hj => by
        have hi : i < 2 := hi
        have hj : j < 2 := hj
        show App ⟨1, 0⟩ ((Mat.of 2 2 fun _ j => if j = 0 then (1 : Double P) else 0).f i j) ((Mat.of 2 2 fun _ j => if j = 0 then (1 : ℝ) else 0).f i j)
        rw [Mat.of_f' hi hj, Mat.of_f' hi hj]
        split
        · exact app_same rfl (by simp)
        · exact app_same rfl (by simp)⟩
      inputs := by show ((2 : ℕ) : ℝ) ≤ 2; norm_num
      units := by show ((2 : ℕ) : ℝ) ≤ 2; norm_num
      act := computes_identity
      actd := computes_identityG
      lrate := app_same rfl (by simp [pick])
      lambda := app_same rfl (by simp [pick]) }
  costd := computes_quadratic

/-- The hypotheses of `C77_predict` are met: `predict` answers class 0. -/
example : ∃ am n', (pick : Net (Double Platform.exact)).predict (ones 1 1) = .ok (am, n') ∧ am.f 0 0 = Arith.lit ((0 : ℕ) : ℚ) := by
  obtain ⟨⟨am, n'⟩, h⟩ : ∃ p, (pick : Net (Double Platform.exact)).predict (ones 1 1) = .ok p := ⟨_, rfl⟩
  obtain ⟨⟨a', m'⟩, hm, e1, e2, e3, e4⟩ : ∃ p, (pick : Net ℝ).forwardprop (ones 1 1) = .ok p ∧ p.1.nr = 1 ∧ p.1.nc = 2 ∧ p.1.f 0 0 = 2 ∧ p.1.f 0 1 = 0 := by
    obtain ⟨⟨a', o'⟩, ho⟩ : ∃ p, (pick : Net ℝ).output.forwardprop (ones 1 1) = .ok p := ⟨_, rfl⟩
    have hf := (out_forwardprop_spec ho).1
    refine ⟨(a', ⟨[], o'⟩), ?_, hf.a_nr, hf.a_nc, ?_, ?_⟩
    · unfold Net.forwardprop
      rw [show Net.hiddenForward (pick : Net ℝ).hidden (ones 1 1) = .ok (ones 1 1, []) from rfl, ok_bind]
      dsimp only
      rw [ho]
      rfl
    · show a'.f 0 0 = 2
      have hb := hf.bias 0 (by decide)
      have hd := hf.data 0 0 (by decide) (by decide)
      have hz := hf.z 0 0 (by decide) (by decide)
      rw [hf.a_f 0 0 (by decide) (by decide), hz]
      show Act.identityF (((List.range 2).map fun k => (o'.pa.f 0 k, (pick : Net ℝ).output.W.f k 0)).map fun p => p.1 * p.2).sum = 2
      have w0 : (pick : Net ℝ).output.W.f 0 0 = 1 := Mat.of_f' (by decide) (by decide)
      have w1 : (pick : Net ℝ).output.W.f 1 0 = 1 := Mat.of_f' (by decide) (by decide)
      have o1 : (ones 1 1 : Mat ℝ).f 0 0 = 1 := Mat.of_f' (by decide) (by decide)
      simp only [List.range_succ, List.range_zero, List.nil_append, List.map_append, List.map_cons, List.map_nil, List.sum_append, List.sum_cons, List.sum_nil, w0, w1, hb, hd, o1, Act.identityF, zero_add]
      norm_num
    · show a'.f 0 1 = 0
      have hz := hf.z 0 1 (by decide) (by decide)
      rw [hf.a_f 0 1 (by decide) (by decide), hz]
      show Act.identityF (((List.range 2).map fun k => (o'.pa.f 0 k, (pick : Net ℝ).output.W.f k 1)).map fun p => p.1 * p.2).sum = 0
      have w0 : (pick : Net ℝ).output.W.f 0 1 = 0 := Mat.of_f' (by decide) (by decide)
      have w1 : (pick : Net ℝ).output.W.f 1 1 = 0 := Mat.of_f' (by decide) (by decide)
      simp only [List.range_succ, List.range_zero, List.nil_append, List.map_append, List.map_cons, List.map_nil, List.sum_append, List.sum_cons, List.sum_nil, zero_add, w0, w1, Act.identityF]
      norm_num
  refine ⟨am, n', h, ?_⟩
  exact (C77_predict pick_app (x := ⟨1, 0⟩) (by
    have := sumMax_ge
    refine ⟨trivial, by norm_num [pickEst], ?_, trivial⟩
    norm_num [pickEst, NetEst.last, forward, Est.one]
    linarith) ones_app h hm (i := 0) (k := 0) (by dsimp only at e1; omega) (by dsimp only at e2; omega) (fun j hj hne => by
    dsimp only at e2 e3 e4
    have : j = 1 := by omega
    subst this
    rw [e3, e4]
    have ht : tiny ≤ u := by have := u_tiny; linarith
    have hu : u = 1 / 2 ^ 53 := rfl
    rw [hu] at ht
    norm_num [pickEst, NetEst.out, NetEst.last, forward, LayerEst.a, LayerEst.z, Est.dot, Est.one, hu]
    linarith)).1

end RoundExample
end
end Nnet.NN.Flt
