import Verif.NN.PropsReload
/-!
# C117: small changes of the input
-/
namespace Nnet.NN
open Finset
noncomputable section

namespace Spec

/-- `g` bounds how much a layer can enlarge a change of its input: `K` bounds the slopes of the activation, `S` the sum of the absolute weights of every unit (without the bias), and `g = K * S`. -/
def Gain (l : (ℝ → ℝ) × Mat ℝ) (g : ℝ) : Prop :=
  ∃ K S : ℝ, 0 ≤ K ∧ (∀ u v, |l.1 u - l.1 v| ≤ K * |u - v|) ∧ (∀ j < l.2.nc, ∑ k ∈ range (l.2.nr - 1), |l.2.f (k + 1) j| ≤ S) ∧ g = K * S

end Spec

theorem dense_gain {l : (ℝ → ℝ) × Mat ℝ} {g ε : ℝ} {x x' : Mat ℝ} {i i' : Nat} (hg : Spec.Gain l g) (hε : 0 ≤ ε) (hW : l.2.nr = x.nc + 1) (hc : x'.nc = x.nc) (hi : i < x.nr) (hi' : i' < x'.nr)
    (h : ∀ k < x.nc, |x.f i k - x'.f i' k| ≤ ε) : ∀ j < l.2.nc, |(Spec.dense l.1 l.2 x).f i j - (Spec.dense l.1 l.2 x').f i' j| ≤ g * ε := by
  obtain ⟨K, S, hK, hs, hS, rfl⟩ := hg
  intro j hj
  have hb := hS j hj
  rw [hW, Nat.add_sub_cancel] at hb
  unfold Spec.dense
  rw [Mat.of_f' hi hj, Mat.of_f' hi' hj, hc]
  refine (hs _ _).trans ?_
  rw [mul_assoc]
  refine mul_le_mul_of_nonneg_left ?_ hK
  rw [add_sub_add_left_eq_sub, ← sum_sub_distrib]
  refine (abs_sum_le_sum_abs _ _).trans ?_
  calc ∑ k ∈ range x.nc, |x.f i k * l.2.f (k + 1) j - x'.f i' k * l.2.f (k + 1) j| ≤ ∑ k ∈ range x.nc, |l.2.f (k + 1) j| * ε := sum_le_sum (fun k hk => by
        rw [← sub_mul, abs_mul, mul_comm]
        exact mul_le_mul_of_nonneg_left (h k (mem_range.1 hk)) (abs_nonneg _))
    _ = (∑ k ∈ range x.nc, |l.2.f (k + 1) j|) * ε := by rw [sum_mul]
    _ ≤ S * ε := mul_le_mul_of_nonneg_right hb hε

theorem gain_nonneg {l : (ℝ → ℝ) × Mat ℝ} {g : ℝ} (hg : Spec.Gain l g) (hc : 0 < l.2.nc) : 0 ≤ g := by
  obtain ⟨K, S, hK, -, hS, rfl⟩ := hg
  exact mul_nonneg hK ((sum_nonneg (fun _ _ => abs_nonneg _)).trans (hS 0 hc))

theorem denseNet_gain : ∀ {ls : List ((ℝ → ℝ) × Mat ℝ)} {gs : List ℝ} {p q : Nat} {ε : ℝ} {x x' : Mat ℝ} {i i' : Nat}, List.Forall₂ Spec.Gain ls gs → 0 ≤ ε → Spec.Fits p (ls.map (·.2)) q →
    x.nc = p → x'.nc = p → i < x.nr → i' < x'.nr → (∀ k < p, |x.f i k - x'.f i' k| ≤ ε) →
    ∀ j < q, |(Spec.denseNet ls x).f i j - (Spec.denseNet ls x').f i' j| ≤ gs.prod * ε
  | [], _, p, q, ε, x, x', i, i', hg, hε, hf, hc, hc', hi, hi', h => by
    cases hg
    intro j hj
    have : p = q := hf
    simpa [Spec.denseNet] using h j (by omega)
  | l :: ls, _, p, q, ε, x, x', i, i', .cons (b := g) (l₂ := gs) hg hgs, hε, hf, hc, hc', hi, hi', h => by
    obtain ⟨h1, h2, h3⟩ := hf
    have h0 := gain_nonneg hg h2
    intro j hj
    have := denseNet_gain (p := l.2.nc) (q := q) (ε := g * ε) (x := Spec.dense l.1 l.2 x) (x' := Spec.dense l.1 l.2 x') (i := i) (i' := i') hgs (mul_nonneg h0 hε) h3 rfl rfl hi hi'
      (dense_gain hg hε (by rw [hc]; exact h1) (by rw [hc, hc']) hi hi' (by rw [hc]; exact h)) j hj
    rw [List.prod_cons, mul_comm g, mul_assoc]
    exact this

/-- **C117** (outputs). If two samples, perhaps in different batches, differ by at most `ε` in every feature, the outputs of a network for them differ by at most `ε` times the product of the gains of
its layers. -/
theorem C117_outputs {junk junk' : Nat → Nat → ℝ} {s s1 s2 : Store} {n n1 n2 : Net} {p q : Nat} {x x' out out' : Mat ℝ} {i i' : Nat} {gs : List ℝ} {ε : ℝ} (h : n.WF s p q)
    (hg : List.Forall₂ Spec.Gain (n.params s) gs) (hc : x.nc = p) (hc' : x'.nc = p) (hi : i < x.nr) (hi' : i' < x'.nr) (hx : ∀ k < p, |x.f i k - x'.f i' k| ≤ ε)
    (h1 : n.forwardprop junk s x = .ok (out, s1, n1)) (h2 : n.forwardprop junk' s x' = .ok (out', s2, n2)) : ∀ j < q, |out.f i j - out'.f i' j| ≤ gs.prod * ε := by
  obtain ⟨_, _, e1, -⟩ := C28_network (junk := junk) h (show 0 < x.nr by omega) hc
  obtain ⟨_, _, e2, -⟩ := C28_network (junk := junk') h (show 0 < x'.nr by omega) hc'
  rw [e1] at h1; rw [e2] at h2
  cases h1; cases h2
  refine denseNet_gain hg ((abs_nonneg _).trans (hx 0 h.pos)) ?_ hc hc' hi hi' hx
  have := h.fits
  unfold Net.params
  rw [List.map_map]
  exact this

/-- **C117** (predictions). A sample whose best output leads every other output by more than twice that bound keeps its class under every change of at most `ε` in every feature. -/
theorem C117_predictions {junk junk' : Nat → Nat → ℝ} {s s0 s1 s2 : Store} {n n0 n1 n2 : Net} {p q : Nat} {x x' out r r' : Mat ℝ} {i i' c : Nat} {gs : List ℝ} {ε : ℝ} (h : n.WF s p q)
    (hg : List.Forall₂ Spec.Gain (n.params s) gs) (hc : x.nc = p) (hc' : x'.nc = p) (hi : i < x.nr) (hi' : i' < x'.nr) (hx : ∀ k < p, |x.f i k - x'.f i' k| ≤ ε)
    (h0 : n.forwardprop junk s x = .ok (out, s0, n0)) (hq : c < q) (hm : ∀ j < q, j ≠ c → out.f i j + 2 * (gs.prod * ε) < out.f i c)
    (h1 : n.predict junk s x = .ok (r, s1, n1)) (h2 : n.predict junk' s x' = .ok (r', s2, n2)) : r.f i 0 = c ∧ r'.f i' 0 = c := by
  obtain ⟨_, _, e0, -⟩ := C28_network (junk := junk) h (show 0 < x.nr by omega) hc
  rw [e0] at h0
  cases h0
  have hfit : Spec.Fits p ((n.params s).map (·.2)) q := by
    have := h.fits
    unfold Net.params
    rw [List.map_map]
    exact this
  have hd := denseNet_gain hg ((abs_nonneg _).trans (hx 0 h.pos)) hfit hc hc' hi hi' hx
  have hε : 0 ≤ gs.prod * ε := (abs_nonneg _).trans (hd c hq)
  obtain ⟨r1, _, _, e1, -, -, -, k1⟩ := C32_predict (junk := junk) h (show 0 < x.nr by omega) hc
  obtain ⟨r2, _, _, e2, -, -, -, k2⟩ := C32_predict (junk := junk') h (show 0 < x'.nr by omega) hc'
  rw [e1] at h1; rw [e2] at h2
  cases h1; cases h2
  obtain ⟨k, ek, -, hk, hmax, -⟩ := k1 i hi
  obtain ⟨k', ek', -, hk', hmax', -⟩ := k2 i' hi'
  refine ⟨?_, ?_⟩
  · by_cases hkc : k = c
    · rw [ek, hkc]
    · have := hm k hk hkc
      have := hmax c hq
      linarith
  · by_cases hkc : k' = c
    · rw [ek', hkc]
    · have a1 := hm k' hk' hkc
      have a2 := hmax' c hq
      have a3 := abs_le.1 (hd c hq)
      have a4 := abs_le.1 (hd k' hk')
      linarith

/-- **C117** (gains). The gains of layers with the activations of the library. -/
theorem C117_gains : ∀ f ∈ [(Act.identity, (1 : ℝ)), (Act.sigmoid, 1 / 4), (Act.arctan, 1), (Act.tanhyperbolic, 1), (Act.bipolarsigmoid, 1 / 2), (Act.comploglog, 1), (Act.lecuntanh, 1.7159 * 2 / 3),
    (Act.hardtanh, 1), (Act.absolute, 1), (Act.relu, 1), (Act.relucos, 2), (Act.relusin, 2), (Act.smoothrelu, 1)], ∀ (W : Mat ℝ) (S : ℝ),
    (∀ j < W.nc, ∑ k ∈ range (W.nr - 1), |W.f (k + 1) j| ≤ S) → Spec.Gain (f.1.act, W) (f.2 * S) := by
  intro f hf W S hS
  refine ⟨f.2, S, ?_, C86_slopes f hf, hS, rfl⟩
  simp only [List.mem_cons, List.not_mem_nil, or_false] at hf
  rcases hf with rfl | rfl | rfl | rfl | rfl | rfl | rfl | rfl | rfl | rfl | rfl | rfl | rfl <;> norm_num

/-- **C117** (sharp). The bound is attained: in a network without activations whose weights are not negative and where every unit has the same sum of weights, raising all features by `ε` raises every
output by exactly `ε` times the product of these sums. -/
theorem C117_sharp : ∀ {Ws : List (Mat ℝ)} {Ss : List ℝ} {p q : Nat} {ε : ℝ} {x x' : Mat ℝ} {i : Nat}, List.Forall₂ (fun (W : Mat ℝ) S => (∀ k < W.nr - 1, ∀ j < W.nc, 0 ≤ W.f (k + 1) j) ∧
      ∀ j < W.nc, ∑ k ∈ range (W.nr - 1), W.f (k + 1) j = S) Ws Ss → Spec.Fits p Ws q → x.nc = p → x'.nc = p → i < x.nr → i < x'.nr → (∀ k < p, x'.f i k = x.f i k + ε) →
    List.Forall₂ Spec.Gain (Ws.map (fun W => (Act.identity.act, W))) Ss ∧
      ∀ j < q, (Spec.denseNet (Ws.map (fun W => (Act.identity.act, W))) x').f i j = (Spec.denseNet (Ws.map (fun W => (Act.identity.act, W))) x).f i j + Ss.prod * ε
  | [], _, p, q, ε, x, x', i, hW, hf, hc, hc', hi, hi', h => by
    cases hW
    refine ⟨.nil, fun j hj => ?_⟩
    have : p = q := hf
    simpa [Spec.denseNet] using h j (by omega)
  | W :: Ws, _, p, q, ε, x, x', i, .cons (b := S) (l₂ := Ss) hW hWs, hf, hc, hc', hi, hi', h => by
    obtain ⟨h1, h2, h3⟩ := hf
    have hstep : ∀ k < W.nc, (Spec.dense Act.identity.act W x').f i k = (Spec.dense Act.identity.act W x).f i k + S * ε := by
      intro j hj
      unfold Spec.dense
      rw [Mat.of_f' hi hj, Mat.of_f' hi' hj, hc, hc']
      show _ + _ = _ + _ + _
      rw [add_assoc, sum_congr rfl (fun k hk => by rw [h k (mem_range.1 hk), add_mul] : ∀ k ∈ range p, x'.f i k * W.f (k + 1) j = x.f i k * W.f (k + 1) j + ε * W.f (k + 1) j), sum_add_distrib, ← mul_sum]
      have := hW.2 j hj
      rw [h1, Nat.add_sub_cancel] at this
      rw [this, mul_comm ε]
    obtain ⟨g, e⟩ := C117_sharp (p := W.nc) (q := q) (ε := S * ε) (x := Spec.dense Act.identity.act W x) (x' := Spec.dense Act.identity.act W x') (i := i) hWs h3 rfl rfl hi hi' hstep
    refine ⟨.cons ⟨1, S, zero_le_one, fun u v => by show |u - v| ≤ _; rw [one_mul], fun j hj => ?_, (one_mul S).symm⟩ g, fun j hj => ?_⟩
    · rw [← hW.2 j hj]
      exact le_of_eq (sum_congr rfl (fun k hk => abs_of_nonneg (hW.1 k (mem_range.1 hk) j hj)))
    · rw [List.prod_cons, mul_comm S, mul_assoc]
      exact e j hj

/-- A case of the hypotheses: the 2-3-2 network of the examples, with gains 3/4 and 9. -/
theorem exNet_gain : List.Forall₂ Spec.Gain (exNet.params exStore) [1 / 4 * 3, 1 * 9] := by
  refine .cons (C117_gains (Act.sigmoid, 1 / 4) (by simp) _ 3 ?_) (.cons (C117_gains (Act.identity, 1) (by simp) _ 9 ?_) .nil)
  · intro j hj
    have hj : j < 3 := hj
    show ∑ k ∈ range 2, |(Mat.of 3 3 (fun i j => (i : ℝ) - j)).f (k + 1) j| ≤ 3
    rw [sum_range_succ, sum_range_one, Mat.of_f' (by omega) hj, Mat.of_f' (by omega) hj]
    interval_cases j <;> norm_num
  · intro j hj
    have hj : j < 2 := hj
    show ∑ k ∈ range 3, |(Mat.of 4 2 (fun i j => (i : ℝ) + j)).f (k + 1) j| ≤ 9
    rw [sum_range_succ, sum_range_succ, sum_range_one, Mat.of_f' (by omega) hj, Mat.of_f' (by omega) hj, Mat.of_f' (by omega) hj]
    interval_cases j <;> norm_num

/-- It puts every sample into class 1, and no change of at most 1/14 in every feature can alter that. -/
example (junk : Nat → Nat → ℝ) (x x' : Mat ℝ) (hc : x.nc = 2) (hc' : x'.nc = 2) (h0 : 0 < x.nr) (h0' : 0 < x'.nr) (hx : ∀ k < 2, |x.f 0 k - x'.f 0 k| ≤ 1 / 14) :
    ∃ r' s2 n2, exNet.predict junk exStore x' = .ok (r', s2, n2) ∧ r'.f 0 0 = 1 := by
  obtain ⟨s0, n0, e0, -⟩ := C28_network (junk := junk) exNet_wf h0 hc
  obtain ⟨r, s1, n1, e1, -⟩ := C32_predict (junk := junk) exNet_wf h0 hc
  obtain ⟨r', s2, n2, e2, -⟩ := C32_predict (junk := junk) exNet_wf h0' hc'
  refine ⟨r', s2, n2, e2, ?_⟩
  have := (C117_predictions (c := 1) exNet_wf exNet_gain hc hc' h0 h0' hx e0 (by omega) (fun j hj hne => by
    have : j = 0 := by omega
    subst this
    show (Spec.dense Act.identity.act (Mat.of 4 2 (fun i j => (i : ℝ) + j)) (Spec.dense Act.sigmoid.act (Mat.of 3 3 (fun i j => (i : ℝ) - j)) x)).f 0 0 + 2 * ([1 / 4 * 3, 1 * 9].prod * (1 / 14)) <
      (Spec.dense Act.identity.act (Mat.of 4 2 (fun i j => (i : ℝ) + j)) (Spec.dense Act.sigmoid.act (Mat.of 3 3 (fun i j => (i : ℝ) - j)) x)).f 0 1
    generalize hy : Spec.dense Act.sigmoid.act (Mat.of 3 3 (fun i j => (i : ℝ) - j)) x = y
    have yr : y.nr = x.nr := by rw [← hy]; rfl
    have yc : y.nc = 3 := by rw [← hy]; rfl
    have pos : ∀ k < 3, 0 < y.f 0 k := fun k hk => by
      rw [← hy]
      unfold Spec.dense
      rw [Mat.of_f' h0 (by exact hk)]
      exact (Act.C26_sigmoid.1 _).1
    have val : ∀ j < 2, (Spec.dense Act.identity.act (Mat.of 4 2 (fun i j => (i : ℝ) + j)) y).f 0 j = (j : ℝ) + (y.f 0 0 * (1 + j) + y.f 0 1 * (2 + j) + y.f 0 2 * (3 + j)) := fun j hj => by
      unfold Spec.dense
      rw [Mat.of_f' (by omega) (by exact hj), yc, Mat.of_f' (by omega) hj]
      show _ + _ = _
      rw [sum_range_succ, sum_range_succ, sum_range_one, Mat.of_f' (by omega) hj, Mat.of_f' (by omega) hj, Mat.of_f' (by omega) hj]
      push_cast
      ring
    rw [val 0 (by omega), val 1 (by omega)]
    have := pos 0 (by omega)
    have := pos 1 (by omega)
    have := pos 2 (by omega)
    norm_num
    linarith) e1 e2).2
  rw [this]
  norm_num

end
end Nnet.NN
