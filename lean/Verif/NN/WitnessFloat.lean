import Verif.NN.PropsFloatSafe
import Verif.NN.PropsFloatCost
import Verif.NN.PropsFloatSoftmax
/-!
# The hypotheses of further theorems are met (6): double arithmetic
-/
namespace Nnet.NN.Flt
open FV Arith Ieee Spec
noncomputable section

theorem Witness.five : Number (lit (5 : ℤ) : Witness.T) := by
  rw [Number, Witness.val_lit_int 5 (by norm_num)]; exact ⟨_, rfl⟩

/-! ## C72 -/
example := C72_values (lit (5 : ℤ) : Witness.T) Witness.five
example := C72_derivatives (lit (5 : ℤ) : Witness.T) Witness.five
example := C72_derivatives_overflow (lit (5 : ℤ) : Witness.T) Witness.five
example := C72_nan (Witness.mk nan) rfl

/-! ## C73 -/
/-- A class whose bias is NaN, class 1 of 2, is never predicted again. -/
def Witness.net2 : Net Witness.T :=
  ⟨[], { Witness.layer (Mat.of 2 2 fun i j => if i = 0 ∧ j = 1 then Witness.mk nan else 1) with cost := Quadratic.cost, costd := Quadratic.costd, y := Mat.empty }⟩
theorem Witness.net2_nan : NaN (Witness.net2.output.W.f 0 1) := rfl
example : ∃ m am m', runAll [.forwardprop (Witness.full 1 1 1), .backprop (Witness.full 1 2 1), .update] Witness.net2 = .ok m ∧ m.predict (Witness.full 1 1 1) = .ok (am, m') ∧ NaN (m.output.W.f 0 1) ∧
    ∃ c : ℕ, c < 2 ∧ c ≠ 1 ∧ am.f 0 0 = lit c := by
  obtain ⟨m, h⟩ : ∃ m, runAll [.forwardprop (Witness.full 1 1 1), .backprop (Witness.full 1 2 1), .update] Witness.net2 = .ok m := ⟨_, rfl⟩
  obtain ⟨⟨am, m'⟩, hp, hr⟩ : ∃ r, m.predict (Witness.full 1 1 1) = .ok r ∧ r.1.nr = 1 := by cases h; exact ⟨_, rfl, rfl⟩
  exact ⟨m, am, m', h, hp, (C73_persist h).1 0 1 Witness.net2_nan, C73_predict_other (j := 1) (by omega) Witness.net2_nan (fun _ h => h) h hp 0 (by rw [hr]; omega)⟩

/-! ## C74 -/
example : ∃ a n1 n2 n3 am m', Witness.soft.forwardprop (Witness.full 1 1 1) = .ok (a, n1) ∧ Witness.soft.trainOn (Witness.full 1 1 1) (Witness.full 1 1 1) = .ok n2 ∧
    n2.trainOn (Witness.full 1 1 1) (Witness.full 1 1 1) = .ok n3 ∧ n3.predict (Witness.full 1 1 1) = .ok (am, m') ∧ am.f 0 0 = lit 0 ∧ NaN (am.f 0 1) := by
  obtain ⟨⟨a, n1⟩, h1⟩ := Witness.soft_forward
  obtain ⟨n2, h2⟩ := Witness.soft_trains
  obtain ⟨n3, h3⟩ : ∃ n3, n2.trainOn (Witness.full 1 1 1) (Witness.full 1 1 1) = .ok n3 := by cases h2; exact ⟨_, rfl⟩
  obtain ⟨⟨am, m'⟩, hp, hr⟩ : ∃ r, n3.predict (Witness.full 1 1 1) = .ok r ∧ r.1.nr = 1 := by cases h2; cases h3; exact ⟨_, rfl, rfl⟩
  have h800 := Witness.val_lit_int 800 (by norm_num)
  have ha : Ieee.val (a.f 0 0) = fin 800 := by
    cases h1
    show Witness.rndV (FV.add fin (FV.mul fin (Witness.rndV (fin 1)) (Ieee.val (lit (800 : ℤ) : Witness.T))) (FV.add fin (FV.mul fin (Witness.rndV (fin 1)) (Witness.rndV (fin 0))) (fin 0))) = fin 800
    rw [h800, show Witness.rndV (fin 1) = fin 1 from Witness.rnd_one, show Witness.rndV (fin 0) = fin 0 from Witness.rnd_zero]
    show Witness.rnd (1 * 800 + (1 * 0 + 0)) = fin 800
    simpa using Witness.rounding.int 800 (by norm_num)
  have hs : a.nr = 1 ∧ a.nc = 1 := by cases h1; exact ⟨rfl, rfl⟩
  have := C74_dead (ops := []) rfl (fun _ h => h) h1 (i := 0) (j := 0) (by omega) (by omega) (by rw [ha]; show (710 : ℝ) ≤ 800; norm_num) h2 h3 rfl hp 0 (by rw [hr]; omega)
  exact ⟨a, n1, n2, n3, am, m', h1, h2, h3, hp, this⟩

/-- All outputs -800: the exponentials are 0. -/
def Witness.low : Net Witness.T :=
  ⟨[], { Witness.layer (Mat.of 2 1 fun i _ => if i = 0 then lit (-800 : ℤ) else 0) with cost := Softmax.cost, costd := Softmax.costd, y := Mat.empty }⟩
example : ∃ n', Witness.low.trainOn (Witness.full 1 1 1) (Witness.full 1 1 1) = .ok n' ∧ NaN (n'.output.W.f 0 0) ∧ ∃ n2, n'.trainOn (Witness.full 1 1 1) (Witness.full 1 1 1) = .ok n2 ∧ NaN (n2.output.W.f 0 0) := by
  obtain ⟨⟨a, n1⟩, h1⟩ : ∃ r, Witness.low.forwardprop (Witness.full 1 1 1) = .ok r := ⟨_, rfl⟩
  obtain ⟨n', h2⟩ : ∃ n', Witness.low.trainOn (Witness.full 1 1 1) (Witness.full 1 1 1) = .ok n' := ⟨_, rfl⟩
  have h800 := Witness.val_lit_int (-800) (by norm_num)
  have ha : Ieee.val (a.f 0 0) = fin (-800) := by
    cases h1
    show Witness.rndV (FV.add fin (FV.mul fin (Witness.rndV (fin 1)) (Ieee.val (lit (-800 : ℤ) : Witness.T))) (FV.add fin (FV.mul fin (Witness.rndV (fin 1)) (Witness.rndV (fin 0))) (fin 0))) = fin (-800)
    rw [h800, show Witness.rndV (fin 1) = fin 1 from Witness.rnd_one, show Witness.rndV (fin 0) = fin 0 from Witness.rnd_zero]
    show Witness.rnd (1 * ((-800 : ℤ) : ℝ) + (1 * 0 + 0)) = fin (-800)
    simpa using Witness.rounding.int (-800) (by norm_num)
  have hs : a.nr = 1 ∧ a.nc = 1 := by cases h1; exact ⟨rfl, rfl⟩
  have h3 := C74_underflow (i := 0) rfl h1 h2 (by omega) (by
    intro j hj
    obtain rfl : j = 0 := by omega
    rw [ha]; show (-800 : ℝ) ≤ -746; norm_num) 0 (by omega)
  obtain ⟨n2, h4⟩ : ∃ n2, n'.trainOn (Witness.full 1 1 1) (Witness.full 1 1 1) = .ok n2 := by cases h2; exact ⟨_, rfl⟩
  have hn : n'.output.costd = Softmax.costd ∧ n'.output.actfunc = Witness.ident ∧ n'.output.W.nc = 1 := by cases h2; exact ⟨rfl, rfl, rfl⟩
  exact ⟨n', h2, h3, n2, h4, C74_second hn.1 (by rw [hn.2.1]; exact fun _ h => h) h3 h4 0 (by rw [hn.2.2]; omega)⟩
example := C74_safe (y := Witness.full 3 2 1) (a := Witness.full 3 2 1) (z := Witness.full 3 2 1) rfl rfl (by show 2 < 2 ^ 50; norm_num) (by show 3 ≤ 2 ^ 53; norm_num)
  (fun i j hi hj => by rw [Witness.full, Mat.of_f' (by exact hi) (by exact hj)]; exact ⟨1, val_one, by norm_num, by norm_num⟩)
  (fun i j hi hj => by rw [Witness.full, Mat.of_f' (by exact hi) (by exact hj)]; exact ⟨1, val_one, by norm_num, by norm_num⟩)

/-! ## C75 -/
example : ∃ c, (Witness.withCost Quadratic.cost).computecost (Witness.full 3 2 1) (Witness.full 3 2 0) = .ok c ∧ Le (fin 0) (Ieee.val c) :=
  ⟨_, rfl, C75_quadratic (n := Witness.withCost Quadratic.cost) (pred := Witness.full 3 2 1) (y := Witness.full 3 2 0) rfl rfl (by show 3 ≤ 2 ^ 53; norm_num)
    (fun i j hi hj => by rw [Witness.full, Mat.of_f' (by exact hi) (by exact hj)]; exact ⟨0, val_zero⟩)
    (fun i j hi hj => by rw [Witness.full, Mat.of_f' (by exact hi) (by exact hj)]; exact ⟨1, val_one⟩)⟩
/-- A logit of 800. -/
example : ∃ c, (Witness.withCost Softmax.cost).computecost (Witness.full 1 2 (lit (800 : ℤ))) (Witness.full 1 2 1) = .ok c ∧ NaN c := by
  obtain ⟨c, h⟩ : ∃ c, (Witness.withCost Softmax.cost).computecost (Witness.full 1 2 (lit (800 : ℤ))) (Witness.full 1 2 1) = .ok c := ⟨_, rfl⟩
  refine ⟨c, h, C75_softmax (n := Witness.withCost Softmax.cost) rfl h (i := 0) (j := 1) (by show 0 < 1; omega) (by show 1 < 2; omega) (.inl ?_)⟩
  rw [Witness.full, Mat.of_f' (by omega) (by omega), Witness.val_lit_int 800 (by norm_num)]
  show (710 : ℝ) ≤ ((800 : ℤ) : ℝ)
  norm_num
/-- A sigmoid unit that is right with a logit of 40. -/
example : ∃ c, (Witness.withCost CrossEntropy.cost).computecost (Witness.full 1 1 (Act.sigmoidF (lit (40 : ℤ)))) (Witness.full 1 1 1) = .ok c ∧ NaN c := by
  obtain ⟨c, h⟩ : ∃ c, (Witness.withCost CrossEntropy.cost).computecost (Witness.full 1 1 (Act.sigmoidF (lit (40 : ℤ)))) (Witness.full 1 1 1) = .ok c := ⟨_, rfl⟩
  exact ⟨c, h, (C75_crossentropy_saturated (n := Witness.withCost CrossEntropy.cost) rfl h (i := 0) (j := 0) (by show 0 < 1; omega) (by show 0 < 1; omega) (Witness.val_lit_int 40 (by norm_num)) rfl
    (.inl ⟨val_one, by norm_num⟩)).1⟩

/-! ## C76 -/
example : ∃ am n', Witness.tanhNet.predict (Witness.full 1 1 1) = .ok (am, n') ∧ am.f 0 0 = lit 0 := by
  obtain ⟨⟨am, n'⟩, h⟩ : ∃ r, Witness.tanhNet.predict (Witness.full 1 1 1) = .ok r := ⟨_, rfl⟩
  obtain ⟨⟨a0, n0⟩, hf0⟩ : ∃ r, Witness.tanhNet.forwardprop (Witness.full 1 1 1) = .ok r := ⟨_, rfl⟩
  have h1 : Within 8 (1 : Witness.T) := one_within (by norm_num)
  have h0 : Within 8 (0 : Witness.T) := ⟨0, val_zero, by norm_num⟩
  have hfull : ∀ r c i j, i < r → j < c → Within 8 ((Witness.full r c 1).f i j) := fun r c i j hi hj => by
    rw [Witness.full, Mat.of_f' hi hj]
    exact h1
  have hm : ∀ L : Layer Witness.T, L.W = Witness.full 2 1 1 → L.lrate = 1 → L.lambda = 0 → Moderate 8 L := fun L h1' h2 h3 =>
    ⟨by rw [h1']; show ((2 : ℕ) : ℝ) ≤ 8; norm_num, by rw [h1']; show ((1 : ℕ) : ℝ) ≤ 8; norm_num, by rw [h1']; exact fun i j => hfull 2 1 i j, by rw [h2]; exact h1, by rw [h3]; exact h0⟩
  have hbig : (8 : ℝ) ^ 3 ≤ sumMax := le_trans (by norm_num) sumMax_big
  have hhid : ∀ L ∈ Witness.tanhNet.hidden, Moderate 8 L ∧ Bounded L.actfunc := fun L hL => by
    have : L = { Witness.layer (Witness.full 2 1 1) with actfunc := ⟨Act.tanhF, Act.tanhG⟩ } := by simpa [Witness.tanhNet] using hL
    subst this
    exact ⟨hm _ rfl rfl rfl, bounded_library.1⟩
  obtain ⟨a, n1, hf, hr, hk⟩ := C76_predict (M := 8) (le_refl _) (by norm_num) hbig hhid (hm _ rfl rfl rfl) (fun z hz => hz) (fun i j => hfull 1 1 i j) h
  have hnum := C76_forward (M := 8) (le_refl _) (by norm_num) hbig hhid (hm _ rfl rfl rfl) (fun z hz => hz) (fun i j => hfull 1 1 i j) hf
  have hnc : a.nc = 1 := by rw [hf0] at hf; cases hf; cases hf0; rfl
  obtain ⟨k, hk1, hk2, -⟩ := hk 0 (by show 0 < 1; omega)
  obtain rfl : k = 0 := by omega
  exact ⟨am, n', h, by simpa using hk2⟩

end
end Nnet.NN.Flt
