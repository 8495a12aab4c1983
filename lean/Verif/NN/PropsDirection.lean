import Verif.NN.PropsForward
import Verif.NN.PropsAct
import Verif.NN.PropsCollapse
import Mathlib.Tactic.Ring
import Mathlib.Tactic.FieldSimp
import Mathlib.Tactic.IntervalCases
/-!
# C118: the direction of influence
-/
namespace Nnet.NN
open Finset
noncomputable section

namespace Spec

/-- A direction for each of many numbers: up (1) or down (-1). -/
def Directions (τ : Nat → ℝ) : Prop := ∀ k, τ k = 1 ∨ τ k = -1

/-- From the directions `τ` of the inputs of a stack of layers to the directions `τ'` of its outputs: every layer has a non-decreasing activation, and directions of its units such that a weight from an
input to a unit is not negative if their directions agree and not positive otherwise. Biases are free. -/
def Directed : (Nat → ℝ) → List ((ℝ → ℝ) × Mat ℝ) → (Nat → ℝ) → Prop
  | τ, [], τ' => τ = τ'
  | τ, (act, W) :: ls, τ' => ∃ τ1, Directions τ1 ∧ Monotone act ∧ (∀ k < W.nr - 1, ∀ j < W.nc, 0 ≤ τ k * τ1 j * W.f (k + 1) j) ∧ Directed τ1 ls τ'

end Spec

theorem dense_directed {act : ℝ → ℝ} {W x x' : Mat ℝ} {τ τ1 : Nat → ℝ} {i i' : Nat} (hτ : Spec.Directions τ) (hτ1 : Spec.Directions τ1) (hm : Monotone act)
    (hw : ∀ k < W.nr - 1, ∀ j < W.nc, 0 ≤ τ k * τ1 j * W.f (k + 1) j) (hW : W.nr = x.nc + 1) (hc : x'.nc = x.nc) (hi : i < x.nr) (hi' : i' < x'.nr)
    (h : ∀ k < x.nc, 0 ≤ τ k * (x'.f i' k - x.f i k)) : ∀ j < W.nc, 0 ≤ τ1 j * ((Spec.dense act W x').f i' j - (Spec.dense act W x).f i j) := by
  intro j hj
  unfold Spec.dense
  rw [Mat.of_f' hi hj, Mat.of_f' hi' hj, hc]
  have key : 0 ≤ τ1 j * (∑ k ∈ range x.nc, x'.f i' k * W.f (k + 1) j - ∑ k ∈ range x.nc, x.f i k * W.f (k + 1) j) := by
    rw [← sum_sub_distrib, mul_sum]
    refine sum_nonneg (fun k hk => ?_)
    have hk := mem_range.1 hk
    have h1 := mul_nonneg (h k hk) (hw k (by omega) j hj)
    have sq : τ k * τ k = 1 := by rcases hτ k with e | e <;> rw [e] <;> norm_num
    have : τ k * (x'.f i' k - x.f i k) * (τ k * τ1 j * W.f (k + 1) j) = (τ k * τ k) * (τ1 j * (x'.f i' k * W.f (k + 1) j - x.f i k * W.f (k + 1) j)) := by ring
    rw [this, sq, one_mul] at h1
    exact h1
  rcases hτ1 j with e | e <;> rw [e] at key ⊢
  · have := hm (show W.f 0 j + ∑ k ∈ range x.nc, x.f i k * W.f (k + 1) j ≤ W.f 0 j + ∑ k ∈ range x.nc, x'.f i' k * W.f (k + 1) j by linarith)
    linarith
  · have := hm (show W.f 0 j + ∑ k ∈ range x.nc, x'.f i' k * W.f (k + 1) j ≤ W.f 0 j + ∑ k ∈ range x.nc, x.f i k * W.f (k + 1) j by linarith)
    linarith

theorem denseNet_directed : ∀ {ls : List ((ℝ → ℝ) × Mat ℝ)} {τ τ' : Nat → ℝ} {p q : Nat} {x x' : Mat ℝ} {i i' : Nat}, Spec.Directions τ → Spec.Directed τ ls τ' → Spec.Fits p (ls.map (·.2)) q →
    x.nc = p → x'.nc = p → i < x.nr → i' < x'.nr → (∀ k < p, 0 ≤ τ k * (x'.f i' k - x.f i k)) →
    ∀ j < q, 0 ≤ τ' j * ((Spec.denseNet ls x').f i' j - (Spec.denseNet ls x).f i j)
  | [], τ, τ', p, q, x, x', i, i', hτ, hd, hf, hc, hc', hi, hi', h => by
    have e : τ = τ' := hd
    have : p = q := hf
    intro j hj
    simpa [Spec.denseNet, e] using h j (by omega)
  | (act, W) :: ls, τ, τ', p, q, x, x', i, i', hτ, hd, hf, hc, hc', hi, hi', h => by
    obtain ⟨h1, h2, h3⟩ := hf
    obtain ⟨τ1, d1, d2, d3, d4⟩ := hd
    exact denseNet_directed (p := W.nc) (q := q) (x := Spec.dense act W x) (x' := Spec.dense act W x') (i := i) (i' := i') d1 d4 h3 rfl rfl hi hi'
      (dense_directed hτ d1 d2 d3 (by rw [hc]; exact h1) (by rw [hc, hc']) hi hi' (by rw [hc]; exact h))

/-- **C118** (direction). If the features of a sample are moved in their directions, all by any amounts or not at all, then no output moves against its direction. -/
theorem C118_direction {junk junk' : Nat → Nat → ℝ} {s s1 s2 : Store} {n n1 n2 : Net} {p q : Nat} {x x' out out' : Mat ℝ} {i i' : Nat} {τ τ' : Nat → ℝ} (h : n.WF s p q)
    (hτ : Spec.Directions τ) (hd : Spec.Directed τ (n.params s) τ') (hc : x.nc = p) (hc' : x'.nc = p) (hi : i < x.nr) (hi' : i' < x'.nr) (hx : ∀ k < p, 0 ≤ τ k * (x'.f i' k - x.f i k))
    (h1 : n.forwardprop junk s x = .ok (out, s1, n1)) (h2 : n.forwardprop junk' s x' = .ok (out', s2, n2)) : ∀ j < q, 0 ≤ τ' j * (out'.f i' j - out.f i j) := by
  obtain ⟨_, _, e1, -⟩ := C28_network (junk := junk) h (show 0 < x.nr by omega) hc
  obtain ⟨_, _, e2, -⟩ := C28_network (junk := junk') h (show 0 < x'.nr by omega) hc'
  rw [e1] at h1; rw [e2] at h2
  cases h1; cases h2
  refine denseNet_directed hτ hd ?_ hc hc' hi hi' hx
  have := h.fits
  unfold Net.params
  rw [List.map_map]
  exact this

/-- **C118** (weights that are not negative). In a network with non-decreasing activations and no negative weight (biases may be), raising features never lowers an output. -/
theorem C118_monotone {junk junk' : Nat → Nat → ℝ} {s s1 s2 : Store} {n n1 n2 : Net} {p q : Nat} {x x' out out' : Mat ℝ} {i i' : Nat} (h : n.WF s p q)
    (hw : ∀ L ∈ n.layers s, Monotone L.actfunc.act ∧ ∀ k < L.W.nr - 1, ∀ j < L.W.nc, 0 ≤ L.W.f (k + 1) j) (hc : x.nc = p) (hc' : x'.nc = p) (hi : i < x.nr) (hi' : i' < x'.nr)
    (hx : ∀ k < p, x.f i k ≤ x'.f i' k) (h1 : n.forwardprop junk s x = .ok (out, s1, n1)) (h2 : n.forwardprop junk' s x' = .ok (out', s2, n2)) : ∀ j < q, out.f i j ≤ out'.f i' j := by
  have hd : Spec.Directed (fun _ => 1) (n.params s) (fun _ => 1) := by
    unfold Net.params
    generalize n.layers s = Ls at hw
    induction Ls with
    | nil => exact rfl
    | cons L Ls ih =>
      obtain ⟨a, b⟩ := hw L List.mem_cons_self
      exact ⟨fun _ => 1, fun _ => Or.inl rfl, a, fun k hk j hj => by have := b k hk j hj; simpa using this, ih (fun L' h' => hw L' (List.mem_cons_of_mem _ h'))⟩
  intro j hj
  have := C118_direction h (fun _ => Or.inl rfl) hd hc hc' hi hi' (fun k hk => by have := hx k hk; linarith) h1 h2 j hj
  linarith

/-- **C118** (activations). The non-decreasing activations of the library; the others are not. -/
theorem C118_activations : (∀ f ∈ [Act.identity, Act.sigmoid, Act.arctan, Act.tanhyperbolic, Act.bipolarsigmoid, Act.comploglog, Act.lecuntanh, Act.hardtanh, Act.relu, Act.smoothrelu], Monotone f.act) ∧
    ∀ f ∈ [Act.absolute, Act.relucos, Act.relusin], ¬ Monotone f.act := by
  constructor
  · intro f hf
    simp only [List.mem_cons, List.not_mem_nil, or_false] at hf
    have htanh : Monotone Real.tanh := (Act.C26_tanh.2).monotone
    rcases hf with rfl | rfl | rfl | rfl | rfl | rfl | rfl | rfl | rfl | rfl
    · exact fun a b h => h
    · exact Act.C26_sigmoid.2.monotone
    · exact Real.arctan_strictMono.monotone
    · exact htanh
    · exact Act.C26_bipolarsigmoid.2.monotone
    · exact Act.C26_comploglog.2.monotone
    · intro a b h
      show 1.7159 * Real.tanh (2 / 3 * a) ≤ 1.7159 * Real.tanh (2 / 3 * b)
      exact mul_le_mul_of_nonneg_left (htanh (by linarith)) (by norm_num)
    · intro a b h
      exact max_le_max_left _ (min_le_min_left _ h)
    · intro a b h
      show (if a ≥ 0 then a else 0) ≤ (if b ≥ 0 then b else 0)
      split_ifs <;> linarith
    · intro a b h
      show Real.log (1 + Real.exp a) ≤ Real.log (1 + Real.exp b)
      exact Real.log_le_log (by positivity) (by linarith [Real.exp_le_exp.2 h])
  · intro f hf hm
    simp only [List.mem_cons, List.not_mem_nil, or_false] at hf
    have hpi := Real.pi_pos
    rcases hf with rfl | rfl | rfl
    · have h := hm (show (-1 : ℝ) ≤ 0 by norm_num)
      change |(-1 : ℝ)| ≤ |(0 : ℝ)| at h
      norm_num at h
    · have h := hm (show (-(2 * Real.pi) : ℝ) ≤ -Real.pi by linarith)
      change max 0 (-(2 * Real.pi)) + Real.cos (-(2 * Real.pi)) ≤ max 0 (-Real.pi) + Real.cos (-Real.pi) at h
      rw [max_eq_left (by linarith), max_eq_left (by linarith), Real.cos_neg, Real.cos_neg, Real.cos_two_pi, Real.cos_pi] at h
      norm_num at h
    · have h := hm (show (-Real.pi : ℝ) ≤ -(Real.pi / 2) by linarith)
      change max 0 (-Real.pi) + Real.sin (-Real.pi) ≤ max 0 (-(Real.pi / 2)) + Real.sin (-(Real.pi / 2)) at h
      rw [max_eq_left (by linarith), max_eq_left (by linarith), Real.sin_neg, Real.sin_neg, Real.sin_pi, Real.sin_pi_div_two] at h
      norm_num at h

theorem directed_last : ∀ {ls : List ((ℝ → ℝ) × Mat ℝ)} {τ τ' : Nat → ℝ}, Spec.Directions τ → Spec.Directed τ ls τ' → Spec.Directions τ'
  | [], _, _, h, hd => by have e : _ = _ := hd; rw [← e]; exact h
  | (_, _) :: _, _, _, _, ⟨_, d1, _, _, d4⟩ => directed_last d1 d4

/-- **C118** (no exclusive or). Whatever the directions are and however many layers there are, no output of a network with directions is larger for both `(0, 1)` and `(1, 0)` than for `(0, 0)` and `(1, 1)`,
or smaller: no threshold on an output computes the exclusive or of two features, or its negation. -/
theorem C118_xor {junk : Nat → Nat → ℝ} {s s1 : Store} {n n1 : Net} {q : Nat} {out : Mat ℝ} {τ τ' : Nat → ℝ} (h : n.WF s 2 q) (hτ : Spec.Directions τ) (hd : Spec.Directed τ (n.params s) τ')
    (h1 : n.forwardprop junk s Spec.xorX = .ok (out, s1, n1)) {j : Nat} (hj : j < q) (θ : ℝ) :
    ¬ (out.f 0 j < θ ∧ θ < out.f 1 j ∧ θ < out.f 2 j ∧ out.f 3 j < θ) ∧ ¬ (θ < out.f 0 j ∧ out.f 1 j < θ ∧ out.f 2 j < θ ∧ θ < out.f 3 j) := by
  have f : ∀ i < 4, ∀ k < 2, Spec.xorX.f i k = if k = 0 then (if i = 2 ∨ i = 3 then 1 else 0) else (if i = 1 ∨ i = 3 then 1 else 0) := fun i hi k hk => by
    unfold Spec.xorX; rw [Mat.of_f' hi hk]
  have key : ∀ i < 4, ∀ i' < 4, (∀ k < 2, 0 ≤ τ k * (Spec.xorX.f i' k - Spec.xorX.f i k)) → 0 ≤ τ' j * (out.f i' j - out.f i j) := fun i hi i' hi' hx =>
    C118_direction h hτ hd (show Spec.xorX.nc = 2 from rfl) rfl (show i < 4 from hi) (show i' < 4 from hi') hx h1 h1 j hj
  have ht' := directed_last hτ hd j
  rcases hτ 1 with e | e
  · have a := key 0 (by omega) 1 (by omega) (fun k hk => by rw [f 1 (by omega) k hk, f 0 (by omega) k hk]; interval_cases k <;> norm_num [e])
    have b := key 2 (by omega) 3 (by omega) (fun k hk => by rw [f 2 (by omega) k hk, f 3 (by omega) k hk]; interval_cases k <;> norm_num [e])
    constructor <;> rintro ⟨c0, c1, c2, c3⟩
    · rcases ht' with t | t <;> rw [t] at a b <;> linarith
    · rcases ht' with t | t <;> rw [t] at a b <;> linarith
  · have a := key 1 (by omega) 0 (by omega) (fun k hk => by rw [f 1 (by omega) k hk, f 0 (by omega) k hk]; interval_cases k <;> norm_num [e])
    have b := key 3 (by omega) 2 (by omega) (fun k hk => by rw [f 2 (by omega) k hk, f 3 (by omega) k hk]; interval_cases k <;> norm_num [e])
    constructor <;> rintro ⟨c0, c1, c2, c3⟩
    · rcases ht' with t | t <;> rw [t] at a b <;> linarith
    · rcases ht' with t | t <;> rw [t] at a b <;> linarith

/-- A case of the hypotheses: the 2-3-2 network of the examples with weights `i * j` in its hidden layer. -/
example (junk junk' : Nat → Nat → ℝ) := fun (s1 s2 : Store) (n1 n2 : Net) (x x' out out' : Mat ℝ) =>
  C118_monotone (junk := junk) (junk' := junk') (s := fun _ => ⟨exLayer Act.sigmoid (Mat.of 3 3 (fun i j => (i : ℝ) * j)), .dense⟩) (s1 := s1) (s2 := s2) (n := exNet) (n1 := n1) (n2 := n2)
    (p := 2) (q := 2) (x := x) (x' := x') (out := out) (out' := out') (i := 0) (i' := 0)
    ⟨by simp [exNet], fun _ _ => rfl, by omega, by simp [Net.layers, Net.hiddenLayers, exNet, exLayer, Spec.Fits]⟩ (by
      intro L hL
      simp [Net.layers, Net.hiddenLayers, exNet] at hL
      rcases hL with rfl | rfl
      · refine ⟨C118_activations.1 Act.sigmoid (by simp), fun k hk j hj => ?_⟩
        have hk : k < 2 := hk
        show 0 ≤ (Mat.of 3 3 (fun i j => (i : ℝ) * j)).f (k + 1) j
        rw [Mat.of_f' (by omega) (by exact hj)]
        positivity
      · refine ⟨C118_activations.1 Act.identity (by simp), fun k hk j hj => ?_⟩
        have hk : k < 3 := hk
        show 0 ≤ (Mat.of 4 2 (fun i j => (i : ℝ) + j)).f (k + 1) j
        rw [Mat.of_f' (by omega) (by exact hj)]
        positivity)

end
end Nnet.NN
