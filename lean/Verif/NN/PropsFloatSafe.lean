import Verif.NN.PropsFloatCost
/-!
# C76: bounded networks compute with numbers only
-/
namespace Nnet.NN.Flt
open FV Arith Ieee Spec

/-! ## Specification -/
namespace Spec

/-- The `double` `x` is a number of absolute value at most `B`. -/
def Within {F : Type} [Ieee F] (B : ℝ) (x : F) : Prop := ∃ q, val x = fin q ∧ |q| ≤ B

/-- A layer with sizes, weights, learning rate and regularisation at most `M` and an activation function that is bounded, with a bounded derivative. -/
structure Moderate {F : Type} [Ieee F] (M : ℝ) (L : Layer F) : Prop where
  inputs : (L.W.nr : ℝ) ≤ M
  units : (L.W.nc : ℝ) ≤ M
  weights : ∀ i j, i < L.W.nr → j < L.W.nc → Within M (L.W.f i j)
  lrate : Within M L.lrate
  lambda : Within M L.lambda

/-- `tanh`, `arctan`, `bipolarsigmoid`, `lecuntanh`, `hardtanh` in floating point: values at most 2, derivatives at most 8. -/
def Bounded {F : Type} [Ieee F] (g : ActFunc F) : Prop := ∀ z, Number z → Within 2 (g.act z) ∧ Within 8 (g.actd z)

end Spec

section
variable {F : Type} [Ieee F]

theorem within_mono {a b : ℝ} {x : F} (h : Within a x) (hab : a ≤ b) : Within b x := by
  obtain ⟨q, h1, h2⟩ := h
  exact ⟨q, h1, h2.trans hab⟩

theorem within_num {a : ℝ} {x : F} (h : Within a x) : Number x := by
  obtain ⟨q, h1, _⟩ := h
  exact ⟨q, h1⟩

theorem btw_within {a : ℝ} {l u : ℝ} {x : F} (h : Between l u x) (h1 : -a ≤ l) (h2 : u ≤ a) : Within a x := by
  obtain ⟨q, hq, q1, q2⟩ := h
  exact ⟨q, hq, abs_le.2 ⟨by linarith, by linarith⟩⟩

/-- The bounded activation functions of the library. -/
theorem bounded_library : Bounded (F := F) ⟨Act.tanhF, Act.tanhG⟩ ∧ Bounded (F := F) ⟨Act.arctanF, Act.arctanG⟩ ∧ Bounded (F := F) ⟨Act.bipolarsigmoidF, Act.bipolarsigmoidG⟩ ∧
    Bounded (F := F) ⟨Act.lecuntanhF, Act.lecuntanhG⟩ ∧ Bounded (F := F) ⟨Act.hardtanhF, Act.hardtanhG⟩ := by
  refine ⟨fun z hz => ?_, fun z hz => ?_, fun z hz => ?_, fun z hz => ?_, fun z hz => ?_⟩
  · exact ⟨btw_within (tanh_range (num_ne_nan hz)) (by norm_num) (by norm_num), btw_within (tanhG_range (num_ne_nan hz)) (by norm_num) (by norm_num)⟩
  · exact ⟨btw_within (arctan_range (num_ne_nan hz)) (by norm_num) (by norm_num), btw_within (arctanG_range hz) (by norm_num) (by norm_num)⟩
  · exact ⟨btw_within (bipolarsigmoid_range (num_ne_nan hz)) (by norm_num) (by norm_num), btw_within (bipolarsigmoidG_range (num_ne_nan hz)) (by norm_num) (by norm_num)⟩
  · exact ⟨btw_within (lecuntanh_range hz) (by norm_num) (by norm_num), btw_within (lecuntanhG_range hz) (by norm_num) (by norm_num)⟩
  · refine ⟨btw_within (hardtanh_range z) (by norm_num) (by norm_num), ?_⟩
    rcases hardtanhG_range z with h | h
    · exact ⟨0, h, by norm_num⟩
    · exact ⟨1, h, by norm_num⟩

theorem rnd_within {r B : ℝ} (h : |r| ≤ B) (hB : B ≤ large) : ∃ q, Ieee.rnd F r = fin q ∧ |q| ≤ 2 * B := by
  obtain ⟨q, h1, h2⟩ := (Ieee.rounding (F := F)).finite r (h.trans hB)
  exact ⟨q, h1, h2.trans (by linarith)⟩

theorem mul_within {a b : ℝ} {x y : F} (hx : Within a x) (hy : Within b y) (hab : a * b ≤ large) : Within (2 * (a * b)) (x * y) := by
  obtain ⟨p, hp, p1⟩ := hx
  obtain ⟨q, hq, q1⟩ := hy
  unfold Within
  rw [val_mul, hp, hq]
  refine rnd_within ?_ hab
  rw [abs_mul]
  exact mul_le_mul p1 q1 (abs_nonneg _) ((abs_nonneg _).trans p1)

theorem add_within {a b : ℝ} {x y : F} (hx : Within a x) (hy : Within b y) (hab : a + b ≤ large) : Within (2 * (a + b)) (x + y) := by
  obtain ⟨p, hp, p1⟩ := hx
  obtain ⟨q, hq, q1⟩ := hy
  unfold Within
  rw [val_add, hp, hq]
  exact rnd_within ((abs_add_le _ _).trans (add_le_add p1 q1)) hab

theorem sub_within {a b : ℝ} {x y : F} (hx : Within a x) (hy : Within b y) (hab : a + b ≤ large) : Within (2 * (a + b)) (x - y) := by
  obtain ⟨p, hp, p1⟩ := hx
  obtain ⟨q, hq, q1⟩ := hy
  unfold Within
  rw [val_sub, hp, hq]
  refine rnd_within ((abs_add_le _ _).trans (add_le_add p1 ?_)) hab
  rw [abs_neg]
  exact q1

theorem div_within {a : ℝ} {x : F} {n : ℕ} (hx : Within a x) (h0 : 0 < n) (hn : n ≤ 2 ^ 53) (ha : a ≤ large) : Within (2 * a) (x / lit n) := by
  obtain ⟨p, hp, p1⟩ := hx
  have hn1 : (1 : ℝ) ≤ n := by exact_mod_cast h0
  unfold Within
  rw [div_fin hp (lit_nat (F := F) hn) (by linarith)]
  refine rnd_within ?_ ha
  rw [abs_div, abs_of_nonneg (by linarith : (0 : ℝ) ≤ n)]
  exact (div_le_self (abs_nonneg _) hn1).trans p1

theorem dot_within {a b M : ℝ} {n : ℕ} {g h : ℕ → F} (hg : ∀ k, k < n → Within a (g k)) (hh : ∀ k, k < n → Within b (h k)) (ha : 0 ≤ a) (hb : 0 ≤ b) (hn : (n : ℝ) ≤ M) (hM : M < 2 ^ 50)
    (hs : M * (a * b) ≤ sumMax) : Within (4 * (M * (a * b))) (dot ((List.range n).map fun k => (g k, h k))) := by
  obtain ⟨r, hr, h1⟩ := dot_bound ((List.range n).map fun k => (g k, h k)) (a * b) (fun p hp => by
    obtain ⟨k, hk, rfl⟩ := List.mem_map.1 hp
    obtain ⟨p, hp, p1⟩ := hg k (by simpa using hk)
    obtain ⟨q, hq, q1⟩ := hh k (by simpa using hk)
    refine ⟨p, q, hp, hq, ?_⟩
    rw [abs_mul]
    exact mul_le_mul p1 q1 (abs_nonneg _) ha) (by
      rw [List.length_map, List.length_range]
      exact_mod_cast lt_of_le_of_lt hn hM) (by
      rw [List.length_map, List.length_range]
      exact (mul_le_mul_of_nonneg_right hn (mul_nonneg ha hb)).trans hs)
  refine ⟨r, hr, h1.trans ?_⟩
  rw [List.length_map, List.length_range, mul_assoc]
  have := mul_le_mul_of_nonneg_right hn (mul_nonneg ha hb)
  linarith

/-! ## Forward -/

theorem one_within {B : ℝ} (h : 1 ≤ B) : Within B (1 : F) := ⟨1, val_one, by rw [abs_one]; exact h⟩

theorem sumMax_le_large : 16 * sumMax ≤ large := by
  have h1 := sumMax_le
  have h2 := sumMax_pos
  have : (16 : ℝ) ≤ 2 ^ 23 := by norm_num
  nlinarith

/-- What a forward pass leaves in a layer. -/
structure Filled (M : ℝ) (N : ℕ) (L : Layer F) : Prop where
  mod : Moderate M L
  act : Bounded L.actfunc
  rows : L.pa.nr = N
  pa : ∀ i j, i < L.pa.nr → j < L.pa.nc → Within M (L.pa.f i j)
  z : ∀ i j, i < L.z.nr → j < L.z.nc → Number (L.z.f i j)

theorem Spec.Moderate.same {M : ℝ} {L L' : Layer F} (h : Moderate M L) (h1 : L'.W = L.W) (h2 : L'.lrate = L.lrate) (h3 : L'.lambda = L.lambda) : Moderate M L' :=
  ⟨by rw [h1]; exact h.inputs, by rw [h1]; exact h.units, by rw [h1]; exact h.weights, by rw [h2]; exact h.lrate, by rw [h3]; exact h.lambda⟩

theorem layer_forward {M : ℝ} (hM : 8 ≤ M) (hM50 : M < 2 ^ 50) (hs : M * (M * M) ≤ sumMax) {L L' : Layer F} {x a : Mat F} (hL : Moderate M L) (hx : ∀ i j, i < x.nr → j < x.nc → Within M (x.f i j))
    (h : Forwarded L x a L') : (∀ i j, i < L'.pa.nr → j < L'.pa.nc → Within M (L'.pa.f i j)) ∧ ∀ i j, i < L'.z.nr → j < L'.z.nc → Within (4 * (M * (M * M))) (L'.z.f i j) := by
  have e1 := h.pa_nr
  have e2 := h.pa_nc
  have e3 := h.wnr
  have e4 := h.z_nr
  have e5 := h.z_nc
  have hpa : ∀ i j, i < L'.pa.nr → j < L'.pa.nc → Within M (L'.pa.f i j) := by
    intro i j hi hj
    cases j with
    | zero => rw [h.bias i (by omega)]; exact one_within (by linarith)
    | succ j => rw [h.data i j (by omega) (by omega)]; exact hx i j (by omega) (by omega)
  refine ⟨hpa, fun i j hi hj => ?_⟩
  rw [h.z i j (by omega) (by omega)]
  refine dot_within (fun k hk => hpa i k (by omega) (by omega)) (fun k hk => hL.weights k j (by omega) (by omega)) (by linarith) (by linarith) ?_ hM50 hs
  have := hL.inputs
  rw [e3] at this
  exact this

theorem hiddenForward_within {M : ℝ} (hM : 8 ≤ M) (hM50 : M < 2 ^ 50) (hs : M * (M * M) ≤ sumMax) : ∀ {Ls Ls' : List (Layer F)} {x r : Mat F}, Net.hiddenForward Ls x = .ok (r, Ls') →
    (∀ L ∈ Ls, Moderate M L ∧ Bounded L.actfunc) → (∀ i j, i < x.nr → j < x.nc → Within M (x.f i j)) →
    r.nr = x.nr ∧ (∀ i j, i < r.nr → j < r.nc → Within M (r.f i j)) ∧ Ls'.length = Ls.length ∧ ∀ L ∈ Ls', Filled M x.nr L
  | [], _, _, _, h, _, hx => by cases h; exact ⟨rfl, hx, rfl, by simp⟩
  | L :: Ls, _, x, _, h, hL, hx => by
    obtain ⟨⟨a, L'⟩, h1, h⟩ := bind_eq_ok h
    obtain ⟨⟨b, Ls''⟩, h2, h⟩ := bind_eq_ok h
    cases h
    have hf := forwardprop_spec h1
    obtain ⟨hm, hb⟩ := hL L (by simp)
    obtain ⟨f1, f2⟩ := layer_forward hM hM50 hs hm hx hf
    have e1 := hf.a_nr
    have e2 := hf.a_nc
    have e3 := hf.z_nr
    have e4 := hf.z_nc
    obtain ⟨g1, g2, g3, g4⟩ := hiddenForward_within hM hM50 hs h2 (fun L hL' => hL L (by simp [hL'])) (fun i j hi hj => by
      rw [hf.a_f i j (by omega) (by omega)]
      exact within_mono (hb _ (within_num (f2 i j (by omega) (by omega)))).1 (by linarith))
    refine ⟨by omega, g2, by simp [g3], fun L0 hL0 => ?_⟩
    rcases List.mem_cons.1 hL0 with rfl | hL0
    · exact ⟨hm.same hf.same.2.2.2.1 hf.same.1 hf.same.2.1, by rw [hf.same.2.2.1]; exact hb, hf.pa_nr, f1, fun i j hi hj => within_num (f2 i j hi hj)⟩
    · have := g4 L0 hL0
      rwa [e1] at this

/-- The forward pass of a network with bounded weights and inputs and bounded hidden activation functions: every hidden and output pre-activation is a number, and so is the result if the output activation
maps numbers to numbers. -/
theorem C76_forward {M : ℝ} (hM : 8 ≤ M) (hM50 : M < 2 ^ 50) (hs : M ^ 3 ≤ sumMax) {n n' : Net F} {x a : Mat F} (hhid : ∀ L ∈ n.hidden, Moderate M L ∧ Bounded L.actfunc)
    (hout : Moderate M n.output.toLayer) (hact : ∀ z, Number z → Number (n.output.actfunc.act z)) (hx : ∀ i j, i < x.nr → j < x.nc → Within M (x.f i j)) (h : n.forwardprop x = .ok (a, n')) :
    a.nr = x.nr ∧ ∀ i j, i < a.nr → j < a.nc → Number (a.f i j) := by
  have hs' : M * (M * M) ≤ sumMax := by rw [show M * (M * M) = M ^ 3 by ring]; exact hs
  obtain ⟨⟨c, hid⟩, h1, h⟩ := bind_eq_ok h
  obtain ⟨⟨r, out⟩, h2, h⟩ := bind_eq_ok h
  cases h
  obtain ⟨g1, g2, _, _⟩ := hiddenForward_within hM hM50 hs' h1 hhid hx
  obtain ⟨hf, _⟩ := out_forwardprop_spec h2
  obtain ⟨_, f2⟩ := layer_forward hM hM50 hs' hout g2 hf
  have e1 := hf.a_nr
  have e2 := hf.a_nc
  have e3 := hf.z_nr
  have e4 := hf.z_nc
  refine ⟨by omega, fun i j hi hj => ?_⟩
  rw [hf.a_f i j (by omega) (by omega)]
  exact hact _ (within_num (f2 i j (by omega) (by omega)))

/-! ## Prediction -/

theorem best_max {g : Nat → F} : ∀ m, (∀ k, k ≤ m → Number (g k)) → (∀ k, k ≤ m → Le (val (g k)) (val (best g m).1)) ∧ ∀ k, k < (best g m).2 → Lt (val (g k)) (val (best g m).1)
  | 0, h => by
    refine ⟨fun k hk => ?_, fun k hk => by simp [best] at hk⟩
    have : k = 0 := by omega
    subst this
    obtain ⟨q, hq⟩ := h 0 (by omega)
    show Le (val (g 0)) (val (g 0))
    rw [hq]
    exact le_refl q
  | m + 1, h => by
    obtain ⟨h1, h2⟩ := best_max m (fun k hk => h k (by omega))
    obtain ⟨b1, b2⟩ := best_le g m
    obtain ⟨p, hp⟩ := h (best g m).2 (by omega)
    rw [← b2] at hp
    obtain ⟨q, hq⟩ := h (m + 1) (by omega)
    unfold best
    split
    · rename_i hl
      rw [lt_iff, hp, hq] at hl
      have hl : p < q := hl
      have hlt : ∀ k, k ≤ m → Lt (val (g k)) (val (g (m + 1))) := fun k hk => by
        obtain ⟨r, hr⟩ := h k (by omega)
        have := h1 k hk
        rw [hr, hp] at this
        rw [hr, hq]
        exact lt_of_le_of_lt this hl
      refine ⟨fun k hk => ?_, fun k hk => hlt k (by omega)⟩
      rcases Nat.lt_or_ge m k with hk' | hk'
      · have : k = m + 1 := by omega
        subst this
        show Le (val (g (m + 1))) (val (g (m + 1)))
        rw [hq]
        exact le_refl q
      · obtain ⟨r, hr⟩ := h k (by omega)
        have := hlt k hk'
        rw [hr, hq] at this
        show Le (val (g k)) (val (g (m + 1)))
        rw [hr, hq]
        exact le_of_lt this
    · rename_i hl
      rw [lt_iff, hp, hq] at hl
      have hl : ¬ p < q := hl
      refine ⟨fun k hk => ?_, h2⟩
      rcases Nat.lt_or_ge m k with hk' | hk'
      · have : k = m + 1 := by omega
        subst this
        rw [hq, hp]
        exact not_lt.1 hl
      · exact h1 k hk'

/-- For the same networks `predict` answers for every sample the first class with the largest output. -/
theorem C76_predict {M : ℝ} (hM : 8 ≤ M) (hM50 : M < 2 ^ 50) (hs : M ^ 3 ≤ sumMax) {n n' : Net F} {x am : Mat F} (hhid : ∀ L ∈ n.hidden, Moderate M L ∧ Bounded L.actfunc)
    (hout : Moderate M n.output.toLayer) (hact : ∀ z, Number z → Number (n.output.actfunc.act z)) (hx : ∀ i j, i < x.nr → j < x.nc → Within M (x.f i j)) (h : n.predict x = .ok (am, n')) :
    ∃ a n1, n.forwardprop x = .ok (a, n1) ∧ am.nr = x.nr ∧ ∀ i, i < x.nr → ∃ k : ℕ, k < a.nc ∧ am.f i 0 = lit k ∧ am.f i 1 = a.f i k ∧ (∀ j, j < a.nc → Le (val (a.f i j)) (val (a.f i k))) ∧
      ∀ j, j < k → Lt (val (a.f i j)) (val (a.f i k)) := by
  obtain ⟨a, h1, h2⟩ := predict_spec h
  obtain ⟨e1, e2⟩ := C76_forward hM hM50 hs hhid hout hact hx h1
  obtain ⟨pa, hf, hr, h3⟩ := predict_out h
  have ha : n'.output.a = a := by
    obtain ⟨⟨c, hid⟩, _, h1⟩ := bind_eq_ok h1
    obtain ⟨⟨r, out⟩, h5, h1⟩ := bind_eq_ok h1
    cases h1
    exact (out_forwardprop_spec h5).1.a_eq
  rw [ha] at hf h3
  have f1 := hf.a_nr
  have f2 := hf.a_nc
  refine ⟨a, n', h1, by omega, fun i hi => ?_⟩
  by_cases hc : 0 < n.output.W.nc
  · obtain ⟨h4, h5⟩ := h3 hc i (by omega)
    obtain ⟨b1, b2⟩ := best_le (a.f i) (n.output.W.nc - 1)
    obtain ⟨m1, m2⟩ := best_max (g := a.f i) (n.output.W.nc - 1) (fun k hk => e2 i k (by omega) (by omega))
    rw [b2] at m1 m2 h5
    exact ⟨_, by omega, h4, h5, fun j hj => m1 j (by omega), m2⟩
  · exfalso
    have h0 : n'.output.a.nr > 0 := by rw [ha]; omega
    unfold OutputLayer.argmax at h2
    rw [loop_error (k := 0) (e := .throw) (fun _ => Mat.of n'.output.a.nr 2 (fun _ _ => (0 : F))) rfl h0 (fun i hi => by omega) ?_] at h2
    · cases h2
    · unfold argmaxRow Mat.at'
      rw [if_neg (by rw [ha]; omega)]
      rfl

/-! ## Training -/

/-- `M ^ 2` absorbs factors up to 64. -/
theorem absorb {M c X : ℝ} (hM : 8 ≤ M) (hc : c ≤ 64) (hX : 0 ≤ X) : c * X ≤ X * M ^ 2 := by
  have : (64 : ℝ) ≤ M ^ 2 := by nlinarith
  nlinarith

theorem layer_backward {M D : ℝ} {N : ℕ} (hM : 8 ≤ M) (hM50 : M < 2 ^ 50) (hN : (N : ℝ) ≤ M) (hD : 1 ≤ D) (hs : D * M ^ 6 ≤ sumMax) {L L' : Layer F} {d r : Mat F} (hL : Filled M N L)
    (hd : ∀ i j, i < d.nr → j < d.nc → Within D (d.f i j)) (h : Backed L d r L') :
    (∀ i j, i < r.nr → j < r.nc → Within (D * M ^ 4) (r.f i j)) ∧ ∀ i j, i < L'.grad.nr → j < L'.grad.nc → Within (D * M ^ 6) (L'.grad.f i j) := by
  have hl := sumMax_le_large
  have hp := sumMax_pos
  have hM0 : (0 : ℝ) < M := by linarith
  have hM2 : (64 : ℝ) ≤ M ^ 2 := by nlinarith
  have k1 : 64 * (D * M ^ 2) ≤ D * M ^ 2 * M ^ 2 := absorb hM (le_refl _) (by positivity)
  have k2 : 64 * (D * M ^ 4) ≤ D * M ^ 4 * M ^ 2 := absorb hM (le_refl _) (by positivity)
  have q1 : D * M ^ 2 * M ^ 2 = D * M ^ 4 := by ring
  have q2 : D * M ^ 4 * M ^ 2 = D * M ^ 6 := by ring
  rw [q1] at k1
  rw [q2] at k2
  have k3 : M ^ 2 ≤ D * M ^ 2 := by nlinarith
  have k0 : D ≤ D * M ^ 2 := by nlinarith
  have hdelta : ∀ i j, i < d.nr → j < d.nc → Within (16 * D) (L'.delta.f i j) := fun i j hi hj => by
    rw [h.delta i j hi hj]
    have := mul_within (hd i j hi hj) (hL.act _ (hL.z i j (by rw [← h.d_nr]; exact hi) (by rw [← h.d_nc]; exact hj))).2 (by linarith)
    exact within_mono this (by linarith)
  have e1 := h.r_nr
  have e2 := h.r_nc
  have e3 := h.wnc
  have e4 := h.wnr
  have e5 := h.pa_nr
  have e6 := h.grad_nr
  have e7 := h.grad_nc
  refine ⟨fun i j hi hj => ?_, fun i j hi hj => ?_⟩
  · rw [h.r_f i j (by omega) hj]
    have := dot_within (F := F) (a := 16 * D) (b := M) (M := M) (n := d.nc) (fun k hk => hdelta i k (by omega) hk) (fun k hk => hL.mod.weights (j + 1) k (by omega) (by omega)) (by linarith) (by linarith)
      (by rw [← e3]; exact hL.mod.units) hM50 (by
        have : M * (16 * D * M) = 16 * (D * M ^ 2) := by ring
        linarith)
    refine within_mono this ?_
    have : 4 * (M * (16 * D * M)) = 64 * (D * M ^ 2) := by ring
    linarith
  · rw [h.grad i j (by omega) (by omega)]
    have h1 := dot_within (F := F) (a := M) (b := 16 * D) (M := M) (n := d.nr) (fun k hk => hL.pa k i (by omega) (by omega)) (fun k hk => hdelta k j hk (by omega)) (by linarith) (by linarith)
      (by rw [← e5, hL.rows]; exact hN) hM50 (by
        have : M * (M * (16 * D)) = 16 * (D * M ^ 2) := by ring
        linarith)
    have h2 := mul_within hL.mod.lambda (hL.mod.weights i j (by omega) (by omega)) (by
      have : M * M = M ^ 2 := by ring
      linarith)
    have r1 : 4 * (M * (M * (16 * D))) = 64 * (D * M ^ 2) := by ring
    have r2 : 2 * (M * M) = 2 * M ^ 2 := by ring
    refine within_mono (add_within h1 h2 (by linarith)) (by linarith)

theorem hiddenBackward_within {M D : ℝ} {N : ℕ} (hM : 8 ≤ M) (hM50 : M < 2 ^ 50) (hN : (N : ℝ) ≤ M) (hD : 1 ≤ D) : ∀ {Ls Ls' : List (Layer F)} {d r : Mat F}, Net.hiddenBackward Ls d = .ok (r, Ls') →
    D * (M ^ 4) ^ Ls.length * M ^ 6 ≤ sumMax → (∀ L ∈ Ls, Filled M N L) → (∀ i j, i < d.nr → j < d.nc → Within D (d.f i j)) →
    (∀ i j, i < r.nr → j < r.nc → Within (D * (M ^ 4) ^ Ls.length) (r.f i j)) ∧
    ∀ L ∈ Ls', Moderate M L ∧ ∀ i j, i < L.grad.nr → j < L.grad.nc → Within (D * (M ^ 4) ^ Ls.length * M ^ 6) (L.grad.f i j)
  | [], _, _, _, h, _, _, hd => by
    cases h
    exact ⟨by simpa using hd, by simp⟩
  | L :: Ls, _, _, _, h, hs, hL, hd => by
    obtain ⟨⟨a, Ls''⟩, h1, h⟩ := bind_eq_ok h
    obtain ⟨⟨b, L'⟩, h2, h⟩ := bind_eq_ok h
    cases h
    have hM1 : (1 : ℝ) ≤ M := by linarith
    have hM4 : (1 : ℝ) ≤ M ^ 4 := one_le_pow₀ hM1
    have hK : (1 : ℝ) ≤ (M ^ 4) ^ Ls.length := one_le_pow₀ hM4
    have hDK : D * (M ^ 4) ^ Ls.length * M ^ 6 ≤ D * (M ^ 4) ^ (Ls.length + 1) * M ^ 6 := by
      rw [pow_succ]
      have : D * (M ^ 4) ^ Ls.length ≤ D * ((M ^ 4) ^ Ls.length * M ^ 4) := mul_le_mul_of_nonneg_left (le_mul_of_one_le_right (by linarith) hM4) (by linarith)
      exact mul_le_mul_of_nonneg_right this (by positivity)
    rw [List.length_cons] at hs
    obtain ⟨g1, g2⟩ := hiddenBackward_within hM hM50 hN hD h1 (hDK.trans hs) (fun L hL' => hL L (by simp [hL'])) hd
    have hb := backprop_spec h2
    obtain ⟨b1, b2⟩ := layer_backward hM hM50 hN (by nlinarith) (hDK.trans hs) (hL L (by simp)) g1 hb
    refine ⟨fun i j hi hj => ?_, fun L0 hL0 => ?_⟩
    · refine within_mono (b1 i j hi hj) (le_of_eq ?_)
      rw [List.length_cons, pow_succ]
      ring
    · rw [List.length_cons]
      rcases List.mem_cons.1 hL0 with rfl | hL0
      · exact ⟨(hL L (by simp)).mod.same hb.same.2.2.2.1 hb.same.1 hb.same.2.1, fun i j hi hj => within_mono (b2 i j hi hj) hDK⟩
      · exact ⟨(g2 L0 hL0).1, fun i j hi hj => within_mono ((g2 L0 hL0).2 i j hi hj) hDK⟩

theorem layer_update {M G : ℝ} (hM : 8 ≤ M) (hG : M ≤ G) (hs : G * M ^ 2 ≤ sumMax) {L L' : Layer F} (hL : Moderate M L) (hg : ∀ i j, i < L.grad.nr → j < L.grad.nc → Within G (L.grad.f i j))
    (h : L.update = .ok L') : ∀ i j, i < L'.W.nr → j < L'.W.nc → Within (G * M ^ 2) (L'.W.f i j) := by
  rw [update_eq] at h
  obtain ⟨_, _, _, _, _, _, _, _, u1, u2, u3, u4, u5⟩ := updateWith_spec h
  have hl := sumMax_le_large
  have hp := sumMax_pos
  intro i j hi hj
  rw [u5 i j (by omega) (by omega)]
  have hMG : 8 * (M * G) ≤ G * M ^ 2 := by
    have : G * M ^ 2 = M * (M * G) := by ring
    have : 0 ≤ M * G := by nlinarith
    nlinarith
  have hMG' : M ≤ M * G := by nlinarith
  have h1 := mul_within hL.lrate (hg i j (by omega) (by omega)) (by linarith)
  refine within_mono (sub_within (hL.weights i j (by omega) (by omega)) h1 (by linarith)) (by linarith)

theorem hiddenUpdate_within {M G : ℝ} (hM : 8 ≤ M) (hG : M ≤ G) (hs : G * M ^ 2 ≤ sumMax) : ∀ {Ls Ls' : List (Layer F)}, Net.hiddenUpdate Ls = .ok Ls' →
    (∀ L ∈ Ls, Moderate M L ∧ ∀ i j, i < L.grad.nr → j < L.grad.nc → Within G (L.grad.f i j)) → ∀ L ∈ Ls', ∀ i j, i < L.W.nr → j < L.W.nc → Within (G * M ^ 2) (L.W.f i j)
  | [], _, h, _ => by cases h; simp
  | L :: Ls, _, h, hL => by
    obtain ⟨L', h1, h⟩ := bind_eq_ok h
    obtain ⟨Ls'', h2, h⟩ := bind_eq_ok h
    cases h
    intro L0 hL0
    rcases List.mem_cons.1 hL0 with rfl | hL0
    · exact layer_update hM hG hs (hL L (by simp)).1 (hL L (by simp)).2 h1
    · exact hiddenUpdate_within hM hG hs h2 (fun L hL' => hL L (by simp [hL'])) L0 hL0

/-- A training step of such a network (quadratic or cross entropy output; `L` hidden layers; sizes, number of rows, weights, inputs, labels, learning rates and regularisation at most `M`, where
`M ^ (16 + 4 L)` is at most `2 ^ 1000`: for `M` = 1000 up to 21 hidden layers): every weight is still a number afterwards, at most `M ^ (16 + 4 L)` in size. -/
theorem C76_train {M : ℝ} (hM : 8 ≤ M) (hM50 : M < 2 ^ 50) {n n' : Net F} {x y : Mat F} (hs : M ^ (16 + 4 * n.hidden.length) ≤ sumMax) (hhid : ∀ L ∈ n.hidden, Moderate M L ∧ Bounded L.actfunc)
    (hout : Moderate M n.output.toLayer) (hact : ∀ B z, 1 ≤ B → Within B z → Within B (n.output.actfunc.act z)) (hcost : n.output.costd = Quadratic.costd ∨ n.output.costd = CrossEntropy.costd)
    (hrows : (x.nr : ℝ) ≤ M) (hx : ∀ i j, i < x.nr → j < x.nc → Within M (x.f i j)) (hy : ∀ i j, i < y.nr → j < y.nc → Within M (y.f i j)) (h : n.trainOn x y = .ok n') :
    (∀ i j, i < n'.output.W.nr → j < n'.output.W.nc → Within (M ^ (16 + 4 * n.hidden.length)) (n'.output.W.f i j)) ∧
    ∀ L ∈ n'.hidden, ∀ i j, i < L.W.nr → j < L.W.nc → Within (M ^ (16 + 4 * n.hidden.length)) (L.W.f i j) := by
  have hM0 : (0 : ℝ) < M := by linarith
  have hM1 : (1 : ℝ) ≤ M := by linarith
  have hl := sumMax_le_large
  have hp := sumMax_pos
  have hcd : n.output.costd = Quadratic.costd := by
    rcases hcost with h | h
    · exact h
    · exact h
  have pw : ∀ a b : ℕ, a ≤ b → M ^ a ≤ M ^ b := fun a b hab => pow_le_pow_right₀ hM1 hab
  have hb : ∀ a : ℕ, a ≤ 16 + 4 * n.hidden.length → M ^ a ≤ sumMax := fun a ha => (pw a _ ha).trans hs
  have hs3 : M * (M * M) ≤ sumMax := by rw [show M * (M * M) = M ^ 3 by ring]; exact hb 3 (by omega)
  obtain ⟨⟨a, n1⟩, h1, h⟩ := bind_eq_ok h
  obtain ⟨n2, h2, h3⟩ := bind_eq_ok h
  obtain ⟨⟨c, hid⟩, h4, h1⟩ := bind_eq_ok h1
  obtain ⟨⟨r, out⟩, h5, h1⟩ := bind_eq_ok h1
  cases h1
  obtain ⟨⟨d, out2⟩, h6, h2⟩ := bind_eq_ok h2
  obtain ⟨⟨d', hid2⟩, h7, h2⟩ := bind_eq_ok h2
  cases h2
  obtain ⟨L3, h8, h3⟩ := bind_eq_ok h3
  obtain ⟨hid3, h9, h3⟩ := bind_eq_ok h3
  cases h3
  obtain ⟨g1, g2, g3, g4⟩ := hiddenForward_within hM hM50 hs3 h4 hhid hx
  obtain ⟨hf, _, hcd', _⟩ := out_forwardprop_spec h5
  obtain ⟨f1, f2⟩ := layer_forward hM hM50 hs3 hout g2 hf
  have hbk : OutBacked out y d out2 := out_backprop_spec h6
  have hW : out.W = n.output.W := hf.same.2.2.2.1
  have hmod : Moderate M out.toLayer := hout.same hW hf.same.1 hf.same.2.1
  have e1 := hf.a_nr
  have e2 := hf.a_nc
  have e3 := hf.z_nr
  have e4 := hf.z_nc
  have e5 := hf.pa_nr
  -- the output delta
  have hdelta : out2.delta.nr = c.nr ∧ out2.delta.nc = n.output.W.nc ∧ ∀ i j, i < out2.delta.nr → j < out2.delta.nc → Within (M ^ 5) (out2.delta.f i j) := by
    have hd := hbk.delta
    rw [show out.costd = n.output.costd from hcd', hcd, show out.a = a from hf.a_eq] at hd
    obtain ⟨e, h10, hd⟩ := bind_eq_ok hd
    obtain ⟨a1, a2, a3, a4, a5⟩ := zip_spec h10
    injection hd with hd
    rw [← hd]
    simp only [divN, Mat.map_nr, Mat.map_nc]
    refine ⟨by omega, by omega, fun i j hi hj => ?_⟩
    rw [Mat.map_f' hi hj, a5 i j (by omega) (by omega), hf.a_f i j (by omega) (by omega)]
    have hz := f2 i j (by omega) (by omega)
    have w1 := hact _ _ (by nlinarith [pow_pos hM0 3] : (1 : ℝ) ≤ 4 * (M * (M * M))) hz
    have k3 : M ≤ M ^ 3 := by simpa using pw 1 3 (by norm_num)
    have k5 : 20 * M ^ 3 ≤ M ^ 3 * M ^ 2 := absorb hM (by norm_num) (by positivity)
    have q5 : M ^ 3 * M ^ 2 = M ^ 5 := by ring
    have q3 : M * (M * M) = M ^ 3 := by ring
    have b5 := hb 5 (by omega)
    rw [q5] at k5
    have w2 := sub_within w1 (hy i j (by omega) (by omega)) (by rw [q3]; linarith)
    have hny : y.nr ≤ 2 ^ 53 := by
      have : y.nr = x.nr := by omega
      rw [this]
      have h50 : (x.nr : ℝ) ≤ 2 ^ 53 := (hrows.trans hM50.le).trans (pow_le_pow_right₀ (by norm_num) (by norm_num))
      exact_mod_cast h50
    have w3 := div_within w2 (by omega : 0 < y.nr) hny (by rw [q3]; linarith)
    exact within_mono w3 (by rw [q3]; linarith)
  obtain ⟨d1, d2, d3⟩ := hdelta
  have e6 : out.W.nr = out.pa.nc := hbk.wnr
  have e7 := hbk.grad_nr
  have e8 := hbk.grad_nc
  have e9 := hbk.r_nr
  have e10 := hbk.r_nc
  have k7 : 8 * M ^ 7 ≤ M ^ 7 * M ^ 2 := absorb hM (by norm_num) (by positivity)
  have q9 : M ^ 7 * M ^ 2 = M ^ 9 := by ring
  rw [q9] at k7
  have b9 := hb 9 (by omega)
  have p7 : 0 ≤ M ^ 7 := by positivity
  have k2 : M ^ 2 ≤ M ^ 7 := pw 2 7 (by norm_num)
  -- the output gradient
  have hgrad : ∀ i j, i < out2.grad.nr → j < out2.grad.nc → Within (M ^ 10) (out2.grad.f i j) := by
    intro i j hi hj
    have k10 : 12 * M ^ 7 ≤ M ^ 7 * M ^ 2 := absorb hM (by norm_num) p7
    rw [q9] at k10
    rw [hbk.grad i j (by omega) (by omega)]
    have w1 := dot_within (F := F) (a := M) (b := M ^ 5) (M := M) (n := out2.delta.nr) (fun k hk => f1 k i (by omega) (by omega)) (fun k hk => d3 k j hk (by omega)) hM0.le (by positivity)
      (by rw [d1, g1]; exact hrows) hM50 (by rw [show M * (M * M ^ 5) = M ^ 7 by ring]; exact hb 7 (by omega))
    have w2 := mul_within hmod.lambda (hmod.weights i j (by omega) (by rw [hW]; omega)) (by rw [show M * M = M ^ 2 by ring]; linarith)
    refine within_mono (add_within w1 w2 ?_) ?_
    · rw [show M * (M * M ^ 5) = M ^ 7 by ring, show M * M = M ^ 2 by ring]
      linarith
    · rw [show M * (M * M ^ 5) = M ^ 7 by ring, show M * M = M ^ 2 by ring]
      have := pw 9 10 (by norm_num)
      linarith
  -- back to the hidden layers
  have hd : ∀ i j, i < d.nr → j < d.nc → Within (M ^ 8) (d.f i j) := by
    intro i j hi hj
    rw [hbk.r_f i j hi hj]
    have w1 := dot_within (F := F) (a := M ^ 5) (b := M) (M := M) (n := out2.delta.nc) (fun k hk => d3 i k (by omega) hk) (fun k hk => hmod.weights (j + 1) k (by omega) (by rw [hW]; omega)) (by positivity)
      hM0.le (by rw [d2]; exact hout.units) hM50 (by rw [show M * (M ^ 5 * M) = M ^ 7 by ring]; exact hb 7 (by omega))
    refine within_mono w1 ?_
    rw [show M * (M ^ 5 * M) = M ^ 7 by ring, show M ^ 8 = M ^ 7 * M by ring]
    nlinarith
  have hlen : hid.length = n.hidden.length := g3
  have hG : M ^ 8 * (M ^ 4) ^ hid.length * M ^ 6 = M ^ (14 + 4 * n.hidden.length) := by
    rw [hlen, ← pow_mul, ← pow_add, ← pow_add]
    congr 1
    omega
  have hG2 : M ^ (14 + 4 * n.hidden.length) * M ^ 2 = M ^ (16 + 4 * n.hidden.length) := by
    rw [← pow_add]
    congr 1
    omega
  obtain ⟨_, t2⟩ := hiddenBackward_within hM hM50 hrows (one_le_pow₀ hM1) h7 (by rw [hG]; exact hb _ (by omega)) g4 hd
  rw [hG] at t2
  have hM14 : M ≤ M ^ (14 + 4 * n.hidden.length) := by simpa using pw 1 (14 + 4 * n.hidden.length) (by omega)
  have hfin := hiddenUpdate_within hM hM14 (by rw [hG2]; exact hs) h9 t2
  rw [hG2] at hfin
  refine ⟨fun i j hi hj => ?_, hfin⟩
  have hb2 := hbk.same
  have h8 : out2.toLayer.update = .ok L3 := h8
  have hmod2 : Moderate M out2.toLayer := hmod.same hb2.2.2.2.1 hb2.1 hb2.2.1
  have hu := layer_update hM (by simpa using pw 1 10 (by norm_num)) (by rw [show M ^ 10 * M ^ 2 = M ^ 12 by ring]; exact hb 12 (by omega)) hmod2 hgrad h8 i j hi hj
  exact within_mono hu (by rw [show M ^ 10 * M ^ 2 = M ^ 12 by ring]; exact pw 12 _ (by omega))

end
/-! ## A concrete case -/
noncomputable section

/-- One hidden unit with `tanh` and one quadratic output unit; all weights and the learning rates are 1. -/
def Witness.tanhNet : Net Witness.T :=
  ⟨[{ Witness.layer (Witness.full 2 1 1) with actfunc := ⟨Act.tanhF, Act.tanhG⟩ }], { Witness.layer (Witness.full 2 1 1) with cost := Quadratic.cost, costd := Quadratic.costd, y := Mat.empty }⟩

theorem Witness.tanhNet_trains : ∃ n', Witness.tanhNet.trainOn (Witness.full 1 1 1) (Witness.full 1 1 1) = .ok n' := ⟨_, rfl⟩

/-- The hypotheses of `C76_train` are met with `M` = 8. -/
example : ∃ n', Witness.tanhNet.trainOn (Witness.full 1 1 1) (Witness.full 1 1 1) = .ok n' ∧ Number (n'.output.W.f 0 0) := by
  obtain ⟨n', h⟩ := Witness.tanhNet_trains
  have h1 : Within 8 (1 : Witness.T) := one_within (by norm_num)
  have h0 : Within 8 (0 : Witness.T) := ⟨0, val_zero, by norm_num⟩
  have hfull : ∀ r c i j, i < r → j < c → Within 8 ((Witness.full r c 1).f i j) := fun r c i j hi hj => by
    rw [Witness.full, Mat.of_f' hi hj]
    exact h1
  have hm : ∀ L : Layer Witness.T, L.W = Witness.full 2 1 1 → L.lrate = 1 → L.lambda = 0 → Moderate 8 L := fun L h1' h2 h3 =>
    ⟨by rw [h1']; show ((2 : ℕ) : ℝ) ≤ 8; norm_num, by rw [h1']; show ((1 : ℕ) : ℝ) ≤ 8; norm_num, by rw [h1']; exact fun i j => hfull 2 1 i j, by rw [h2]; exact h1, by rw [h3]; exact h0⟩
  have hbig : (8 : ℝ) ^ (16 + 4 * Witness.tanhNet.hidden.length) ≤ sumMax := by
    refine le_trans ?_ sumMax_big
    show (8 : ℝ) ^ 20 ≤ 2 ^ 200
    norm_num
  have ht := C76_train (M := 8) (le_refl _) (by norm_num) hbig (fun L hL => by
      have : L = { Witness.layer (Witness.full 2 1 1) with actfunc := ⟨Act.tanhF, Act.tanhG⟩ } := by simpa [Witness.tanhNet] using hL
      subst this
      exact ⟨hm _ rfl rfl rfl, bounded_library.1⟩)
    (hm _ rfl rfl rfl) (fun B z _ hz => hz) (.inl rfl) (by show ((1 : ℕ) : ℝ) ≤ 8; norm_num) (fun i j => hfull 1 1 i j) (fun i j => hfull 1 1 i j) h
  have hsz : n'.output.W.nr = 2 ∧ n'.output.W.nc = 1 := by cases h; exact ⟨rfl, rfl⟩
  exact ⟨n', h, within_num (ht.1 0 0 (by omega) (by omega))⟩

end
end Nnet.NN.Flt
