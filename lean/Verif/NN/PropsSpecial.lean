import Verif.NN.PropsCost
import Verif.NN.TrainLemmas
/-!
# C45 the normalising layer, C46 the softmax layer
-/
namespace Nnet.NN
open Finset
noncomputable section

/-! ## C45 -/

/-- `M` is the largest and `m` the smallest entry of `x`. -/
def Spec.Extremes (x : Mat ℝ) (M m : ℝ) : Prop :=
  (∀ i j, i < x.nr → j < x.nc → x.f i j ≤ M ∧ m ≤ x.f i j) ∧ (∃ i j, i < x.nr ∧ j < x.nc ∧ x.f i j = M) ∧ ∃ i j, i < x.nr ∧ j < x.nc ∧ x.f i j = m

theorem extremes_unique {x : Mat ℝ} {M m M' m' : ℝ} (h : Spec.Extremes x M m) (h' : Spec.Extremes x M' m') : M = M' ∧ m = m' := by
  obtain ⟨a, ⟨i, j, hi, hj, e1⟩, ⟨k, l, hk, hl, e2⟩⟩ := h
  obtain ⟨a', ⟨i', j', hi', hj', e1'⟩, ⟨k', l', hk', hl', e2'⟩⟩ := h'
  have h1 := (a' i j hi hj).1
  have h2 := (a i' j' hi' hj').1
  have h3 := (a' k l hk hl).2
  have h4 := (a k' l' hk' hl').2
  constructor <;> linarith

theorem maxmin_ok {x : Mat ℝ} (hr : 0 < x.nr) (hc : 0 < x.nc) : ∃ M m, x.maxElem = .ok M ∧ x.minElem = .ok m ∧ Spec.Extremes x M m := by
  have hne : (Finset.range x.nr ×ˢ Finset.range x.nc).Nonempty := ⟨(0, 0), by simp [hr, hc]⟩
  refine ⟨_, _, dif_pos hne, dif_pos hne, ?_, ?_, ?_⟩
  · intro i j hi hj
    have hm : (i, j) ∈ Finset.range x.nr ×ˢ Finset.range x.nc := by simp [hi, hj]
    exact ⟨Finset.le_sup' (fun p : Nat × Nat => x.f p.1 p.2) hm, Finset.inf'_le (fun p : Nat × Nat => x.f p.1 p.2) hm⟩
  · obtain ⟨p, hp, e⟩ := Finset.exists_mem_eq_sup' hne (fun p : Nat × Nat => x.f p.1 p.2)
    rw [Finset.mem_product, mem_range, mem_range] at hp
    exact ⟨p.1, p.2, hp.1, hp.2, e.symm⟩
  · obtain ⟨p, hp, e⟩ := Finset.exists_mem_eq_inf' hne (fun p : Nat × Nat => x.f p.1 p.2)
    rw [Finset.mem_product, mem_range, mem_range] at hp
    exact ⟨p.1, p.2, hp.1, hp.2, e.symm⟩

/-- A call of a layer's `forwardprop` or `backprop`. -/
inductive Spec.PassCall where
  | forward (x : Mat ℝ)
  | backward (d : Mat ℝ)

/-- Make the calls one after the other on a layer; the results of the calls in order. -/
def HLayer.calls (junk : Nat → Nat → ℝ) : HLayer → List Spec.PassCall → Res (List (Mat ℝ) × HLayer)
  | h, [] => .ok ([], h)
  | h, .forward x :: cs => do
    let (r, h) ← h.forwardprop junk x
    let (rs, h) ← h.calls junk cs
    .ok (r :: rs, h)
  | h, .backward d :: cs => do
    let (r, h) ← h.backprop junk d
    let (rs, h) ← h.calls junk cs
    .ok (r :: rs, h)

/-- The matrix `x` with every entry divided by `c`. -/
def Spec.scaled (x : Mat ℝ) (c : ℝ) : Mat ℝ := Mat.of x.nr x.nc (fun i j => x.f i j / c)

theorem divS_scaled (x : Mat ℝ) (c : ℝ) : x.divS c = Spec.scaled x c := rfl

theorem norm_forward (junk : Nat → Nat → ℝ) (L : Layer) (v : ℝ) {x : Mat ℝ} (hr : 0 < x.nr) (hc : 0 < x.nc) {M m : ℝ} (he : Spec.Extremes x M m) :
    ∃ L', (HLayer.mk L (.norm v)).forwardprop junk x = .ok (Spec.scaled x (if v = 0 then M - m else v), ⟨L', .norm (if v = 0 then M - m else v)⟩) := by
  obtain ⟨M', m', h1, h2, he'⟩ := maxmin_ok hr hc
  obtain ⟨rfl, rfl⟩ := extremes_unique he he'
  unfold HLayer.forwardprop Norm.forwardprop
  simp only
  rw [h1, ok_bind, h2, ok_bind]
  exact ⟨_, rfl⟩

theorem calls_forward {junk : Nat → Nat → ℝ} (h : HLayer) (x : Mat ℝ) (cs : List Spec.PassCall) : h.calls junk (.forward x :: cs) = (do
    let (r, h) ← h.forwardprop junk x
    let (rs, h) ← h.calls junk cs
    .ok (r :: rs, h)) := rfl

theorem calls_backward {junk : Nat → Nat → ℝ} (h : HLayer) (d : Mat ℝ) (cs : List Spec.PassCall) : h.calls junk (.backward d :: cs) = (do
    let (r, h) ← h.backprop junk d
    let (rs, h) ← h.calls junk cs
    .ok (r :: rs, h)) := rfl

theorem calls_append {junk : Nat → Nat → ℝ} : ∀ (a b : List Spec.PassCall) (h : HLayer), h.calls junk (a ++ b) = (do
    let (rs, h) ← h.calls junk a
    let (qs, h) ← h.calls junk b
    .ok (rs ++ qs, h))
  | [], b, h => by
    show _ = (do let (qs, h) ← h.calls junk b; .ok ([] ++ qs, h) : Res _)
    show h.calls junk b = _
    cases h.calls junk b <;> rfl
  | .forward x :: a, b, h => by
    rw [List.cons_append]
    rw [calls_forward, calls_forward]
    cases h.forwardprop junk x with
    | error e => rfl
    | ok r =>
      simp only [ok_bind]
      rw [calls_append a b r.2]
      cases r.2.calls junk a with
      | error e => rfl
      | ok q =>
        simp only [ok_bind]
        cases q.2.calls junk b <;> rfl
  | .backward d :: a, b, h => by
    rw [List.cons_append]
    rw [calls_backward, calls_backward]
    cases h.backprop junk d with
    | error e => rfl
    | ok r =>
      simp only [ok_bind]
      rw [calls_append a b r.2]
      cases r.2.calls junk a with
      | error e => rfl
      | ok q =>
        simp only [ok_bind]
        cases q.2.calls junk b <;> rfl

theorem norm_forwards {junk : Nat → Nat → ℝ} {v : ℝ} (hv : v ≠ 0) : ∀ (xs : List (Mat ℝ)) (L : Layer), (∀ x ∈ xs, 0 < x.nr ∧ 0 < x.nc) →
    ∃ L', (HLayer.mk L (.norm v)).calls junk (xs.map .forward) = .ok (xs.map (fun x => Spec.scaled x v), ⟨L', .norm v⟩)
  | [], L, _ => ⟨L, rfl⟩
  | x :: xs, L, h => by
    obtain ⟨hr, hc⟩ := h x (by simp)
    obtain ⟨M, m, -, -, he⟩ := maxmin_ok hr hc
    obtain ⟨L1, h1⟩ := norm_forward junk L v hr hc he
    rw [if_neg hv] at h1
    obtain ⟨L2, h2⟩ := norm_forwards hv xs L1 (fun y hy => h y (by simp [hy]))
    refine ⟨L2, ?_⟩
    rw [List.map_cons]
    unfold HLayer.calls
    rw [h1, ok_bind]
    simp only
    rw [h2, ok_bind]
    rfl

theorem norm_kind {junk : Nat → Nat → ℝ} : ∀ (cs : List Spec.PassCall) (L : Layer) (v : ℝ) (rs : List (Mat ℝ)) (h' : HLayer),
    (HLayer.mk L (.norm v)).calls junk cs = .ok (rs, h') → ∃ L' v', h' = ⟨L', .norm v'⟩ ∧ rs.length = cs.length
  | [], L, v, rs, h', h => by cases h; exact ⟨L, v, rfl, rfl⟩
  | .forward x :: cs, L, v, rs, h', h => by
    unfold HLayer.calls at h
    obtain ⟨⟨r, h1⟩, e1, h⟩ := bind_eq_ok h
    obtain ⟨⟨rs', h2⟩, e2, h⟩ := bind_eq_ok h
    cases h
    unfold HLayer.forwardprop at e1
    obtain ⟨⟨r', L1, v1⟩, e3, e1⟩ := bind_eq_ok e1
    cases e1
    obtain ⟨L', v', h, hl⟩ := norm_kind cs _ _ _ _ e2
    exact ⟨L', v', h, by simp [hl]⟩
  | .backward d :: cs, L, v, rs, h', h => by
    unfold HLayer.calls at h
    obtain ⟨⟨r, h1⟩, e1, h⟩ := bind_eq_ok h
    obtain ⟨⟨rs', h2⟩, e2, h⟩ := bind_eq_ok h
    cases h
    cases e1
    obtain ⟨L', v', h, hl⟩ := norm_kind cs _ _ _ _ e2
    exact ⟨L', v', h, by simp [hl]⟩

/-- **C45, after the first backward pass.** Take any history of calls of a normalising layer that ends with `backprop`. Then for any further inputs
`x :: xs`, `forwardprop` divides each of them by the spread (largest minus smallest entry) of the *first* one, `x`, and the `backprop` that follows divides by the same
number and makes the layer ready for the next input. (`x` must not be constant: its spread would be 0.) -/
theorem C45_history {junk : Nat → Nat → ℝ} {L : Layer} {v0 : ℝ} {pre : List Spec.PassCall} {d0 d : Mat ℝ} {rs : List (Mat ℝ)} {h1 : HLayer}
    (hpre : (HLayer.mk L (.norm v0)).calls junk (pre ++ [.backward d0]) = .ok (rs, h1)) {x : Mat ℝ} {xs : List (Mat ℝ)} {M m : ℝ}
    (he : Spec.Extremes x M m) (hne : m < M) (hxs : ∀ y ∈ xs, 0 < y.nr ∧ 0 < y.nc) :
    ∃ h2, (HLayer.mk L (.norm v0)).calls junk ((pre ++ [.backward d0]) ++ (.forward x :: xs.map .forward ++ [.backward d])) =
      .ok (rs ++ ((x :: xs).map (fun y => Spec.scaled y (M - m)) ++ [Spec.scaled d (M - m)]), h2) ∧
      ∀ {x' : Mat ℝ} {M' m' : ℝ}, Spec.Extremes x' M' m' → ∃ h3, h2.forwardprop junk x' = .ok (Spec.scaled x' (M' - m'), h3) := by
  have hz : ∃ L1, h1 = ⟨L1, .norm 0⟩ := by
    rw [calls_append] at hpre
    obtain ⟨⟨rs1, g1⟩, e1, hpre⟩ := bind_eq_ok hpre
    obtain ⟨⟨rs2, g2⟩, e2, hpre⟩ := bind_eq_ok hpre
    cases hpre
    obtain ⟨L', v', rfl, -⟩ := norm_kind _ _ _ _ _ e1
    cases e2
    exact ⟨L', rfl⟩
  obtain ⟨L1, rfl⟩ := hz
  have hpos : M - m ≠ 0 := by intro h; linarith
  obtain ⟨i, j, hi, hj, -⟩ := he.2.1
  obtain ⟨L2, h2⟩ := norm_forward junk L1 0 (by omega) (by omega) he
  rw [if_pos rfl] at h2
  obtain ⟨L3, h3⟩ := norm_forwards (junk := junk) hpos xs L2 hxs
  refine ⟨⟨L3, .norm 0⟩, ?_, ?_⟩
  · rw [calls_append, hpre, ok_bind]
    simp only
    rw [List.cons_append]
    unfold HLayer.calls
    rw [h2, ok_bind]
    simp only
    rw [calls_append, h3, ok_bind]
    rfl
  · intro x' M' m' he'
    obtain ⟨i, j, hi, hj, -⟩ := he'.2.1
    obtain ⟨L4, h4⟩ := norm_forward junk L3 0 (x := x') (by omega) (by omega) he'
    rw [if_pos rfl] at h4
    exact ⟨_, h4⟩

/-- The entries of the input that sets the factor span exactly 1 afterwards. -/
theorem C45_span {x : Mat ℝ} {M m : ℝ} (he : Spec.Extremes x M m) (hne : m < M) :
    ∃ M' m', Spec.Extremes (Spec.scaled x (M - m)) M' m' ∧ M' - m' = 1 := by
  have hpos : 0 < M - m := by linarith
  obtain ⟨a, ⟨i, j, hi, hj, e1⟩, ⟨k, l, hk, hl, e2⟩⟩ := he
  refine ⟨M / (M - m), m / (M - m), ⟨?_, ⟨i, j, hi, hj, ?_⟩, ⟨k, l, hk, hl, ?_⟩⟩, ?_⟩
  · intro i j (hi : i < x.nr) (hj : j < x.nc)
    unfold Spec.scaled
    rw [Mat.of_f' hi hj]
    exact ⟨div_le_div_of_nonneg_right (a i j hi hj).1 hpos.le, div_le_div_of_nonneg_right (a i j hi hj).2 hpos.le⟩
  · unfold Spec.scaled
    rw [Mat.of_f' hi hj, e1]
  · unfold Spec.scaled
    rw [Mat.of_f' hk hl, e2]
  · rw [← sub_div, div_self hpos.ne']

/-- **C45 is false before the first backward pass.** The constructor and the copy constructor leave the factor uninitialised, and whatever value other than 0 happens to be in
memory is used instead of the spread of the input: the first input `0 1` can become any multiple of itself. -/
theorem C45_refuted (junk : Nat → Nat → ℝ) (L : Layer) (c : ℝ) (hc : c ≠ 0) (hc1 : c ≠ 1) : ∃ (x r : Mat ℝ) (h : HLayer), Spec.Extremes x 1 0 ∧
    (HLayer.mk L (.norm c)).forwardprop junk x = .ok (r, h) ∧ r = Spec.scaled x c ∧ r ≠ Spec.scaled x (1 - 0) := by
  have he : Spec.Extremes (Mat.of 1 2 (fun _ j => (j : ℝ))) 1 0 := by
    refine ⟨?_, ⟨0, 1, by show 0 < 1; omega, by show 1 < 2; omega, ?_⟩, ⟨0, 0, by show 0 < 1; omega, by show 0 < 2; omega, ?_⟩⟩
    · intro i j (hi : i < 1) (hj : j < 2)
      rw [Mat.of_f' hi hj]
      rcases (by omega : j = 0 ∨ j = 1) with rfl | rfl <;> norm_num
    · rw [Mat.of_f' (by omega) (by omega)]; norm_num
    · rw [Mat.of_f' (by omega) (by omega)]; norm_num
  obtain ⟨L', h⟩ := norm_forward junk L c (x := Mat.of 1 2 (fun _ j => (j : ℝ))) (by show 0 < 1; omega) (by show 0 < 2; omega) he
  rw [if_neg hc] at h
  refine ⟨_, _, _, he, h, rfl, fun hh => ?_⟩
  have key : ∀ c : ℝ, (Spec.scaled (Mat.of 1 2 (fun _ j => (j : ℝ))) c).f 0 1 = 1 / c := by
    intro c
    unfold Spec.scaled
    rw [Mat.of_f' (by show 0 < 1; omega) (by show 1 < 2; omega), Mat.of_f' (by omega) (by omega)]
    norm_num
  have := congrArg (fun m : Mat ℝ => m.f 0 1) hh
  simp only [key] at this
  rw [div_eq_div_iff hc (by norm_num)] at this
  norm_num at this
  exact hc1 this.symm

/-- The hypotheses of `C45_history` are met: a layer fresh from a backward pass, inputs `0 1` and then `5`. -/
example (junk : Nat → Nat → ℝ) (d : Mat ℝ) : ∃ rs h1, (HLayer.mk Layer.default (.norm 7)).calls junk ([] ++ [.backward d]) = .ok (rs, h1) ∧
    ∃ x M m, Spec.Extremes x M m ∧ m < M ∧ ∀ y ∈ [Mat.of 1 1 (fun _ _ => (5 : ℝ))], 0 < y.nr ∧ 0 < y.nc := by
  obtain ⟨x, r, h, he, -⟩ := C45_refuted junk Layer.default 7 (by norm_num) (by norm_num)
  refine ⟨_, _, rfl, x, 1, 0, he, by norm_num, ?_⟩
  intro y hy
  rw [List.mem_singleton.1 hy]
  exact ⟨Nat.one_pos, Nat.one_pos⟩

/-! ## C46 -/

/-- Row-wise softmax, written out: `exp x_ij` over the sum of the exponentials in the row. -/
def Spec.softmaxRows (x : Mat ℝ) : Mat ℝ := Mat.of x.nr x.nc (fun i j => Real.exp (x.f i j) / ∑ k ∈ range x.nc, Real.exp (x.f i k))

theorem softmaxL_ok (x : Mat ℝ) : SoftmaxL.forwardprop x = .ok (Spec.softmaxRows x) := by
  unfold SoftmaxL.forwardprop
  have h : repeatM (rowsum (exponential x)) 1 ((exponential x).nc : Int) =
      .ok ((rowsum (exponential x)).repmat 1 x.nc) := by
    unfold repeatM
    rw [if_pos ⟨by norm_num, by positivity⟩]
    rfl
  simp only
  rw [h, ok_bind, Mat.ediv_ok (by show x.nr = x.nr * 1; omega) (by show x.nc = 1 * x.nc; omega)]
  congr 1
  unfold Spec.softmaxRows
  show Mat.of x.nr x.nc _ = _
  apply Mat.of_congr
  intro i j hi hj
  have e1 : (exponential x).f i j = Real.exp (x.f i j) := Mat.map_f' hi hj
  have e2 : ((rowsum (exponential x)).repmat 1 x.nc).f i j = ∑ k ∈ range x.nc, Real.exp (x.f i k) := by
    unfold Mat.repmat
    rw [Mat.of_f' (by show i < x.nr * 1; omega) (by show j < 1 * x.nc; omega)]
    show (Mat.of x.nr 1 _).f (i % x.nr) (j % 1) = _
    rw [Nat.mod_eq_of_lt hi, Nat.mod_one, Mat.of_f' hi (by omega)]
    exact sum_congr rfl fun k hk => Mat.map_f' hi (mem_range.1 hk)
  rw [e1, e2]

/-- **C46, forward.** `SoftmaxLayer::forwardprop` never throws; entry `(i, j)` is `exp x_ij` over the sum of the row's exponentials. Entries are positive, every
row sums to 1, a larger input gives a larger output in the same row, and adding a constant to a row (any, even a different one for every row) changes nothing. -/
theorem C46_forward (junk : Nat → Nat → ℝ) (L : Layer) (p x : Mat ℝ) : ∃ r h, (HLayer.mk L (.softmax p)).forwardprop junk x = .ok (r, h) ∧ r.nr = x.nr ∧ r.nc = x.nc ∧
    (∀ i j, i < x.nr → j < x.nc → r.f i j = Real.exp (x.f i j) / ∑ k ∈ range x.nc, Real.exp (x.f i k)) ∧
    (∀ i j, i < x.nr → j < x.nc → 0 < r.f i j) ∧ (∀ i, i < x.nr → 0 < x.nc → ∑ j ∈ range x.nc, r.f i j = 1) ∧
    (∀ i j k, i < x.nr → j < x.nc → k < x.nc → (x.f i j < x.f i k ↔ r.f i j < r.f i k)) ∧
    ∀ c : Nat → ℝ, ∃ h', (HLayer.mk L (.softmax p)).forwardprop junk (Mat.of x.nr x.nc fun i j => x.f i j + c i) = .ok (r, h') := by
  have hS : ∀ i, 0 < x.nc → 0 < ∑ k ∈ range x.nc, Real.exp (x.f i k) := fun i hc => sumExp_pos hc _
  have hf : ∀ y : Mat ℝ, (HLayer.mk L (.softmax p)).forwardprop junk y = .ok (Spec.softmaxRows y, ⟨L, .softmax (Spec.softmaxRows y)⟩) := by
    intro y
    unfold HLayer.forwardprop
    simp only
    rw [softmaxL_ok, ok_bind]
  refine ⟨_, _, hf x, rfl, rfl, fun i j hi hj => Mat.of_f' hi hj, ?_, ?_, ?_, ?_⟩
  · intro i j hi hj
    unfold Spec.softmaxRows
    rw [Mat.of_f' hi hj]
    exact div_pos (Real.exp_pos _) (hS i (by omega))
  · intro i hi hc
    have : ∑ j ∈ range x.nc, (Spec.softmaxRows x).f i j = ∑ j ∈ range x.nc, Real.exp (x.f i j) / ∑ k ∈ range x.nc, Real.exp (x.f i k) :=
      sum_congr rfl fun j hj => Mat.of_f' hi (mem_range.1 hj)
    rw [this, ← Finset.sum_div, div_self (hS i hc).ne']
  · intro i j k hi hj hk
    unfold Spec.softmaxRows
    rw [Mat.of_f' hi hj, Mat.of_f' hi hk, div_lt_div_iff_of_pos_right (hS i (by omega)), Real.exp_lt_exp]
  · intro c
    suffices hs : Spec.softmaxRows (Mat.of x.nr x.nc fun i j => x.f i j + c i) = Spec.softmaxRows x from ⟨_, by rw [hf, hs]⟩
    unfold Spec.softmaxRows
    show Mat.of x.nr x.nc _ = _
    apply Mat.of_congr
    intro i j hi hj
    have h1 : ∑ k ∈ range x.nc, Real.exp ((Mat.of x.nr x.nc fun i j => x.f i j + c i).f i k) = (∑ k ∈ range x.nc, Real.exp (x.f i k)) * Real.exp (c i) := by
      rw [Finset.sum_mul]
      refine sum_congr rfl fun k hk => ?_
      rw [Mat.of_f' hi (mem_range.1 hk), Real.exp_add]
    show _ / ∑ k ∈ range x.nc, Real.exp ((Mat.of x.nr x.nc fun i j => x.f i j + c i).f i k) = _
    rw [h1, Mat.of_f' hi hj, Real.exp_add, mul_div_mul_right _ _ (Real.exp_pos _).ne']

/-- `D` is the transposed Jacobian of row-wise softmax at `x` applied to `delta`: `D_ij` is the derivative, with respect to the input `x_ij`, of the sum of `delta_ik` times
output `(i, k)`. -/
def Spec.SoftmaxJacobian (x delta D : Mat ℝ) : Prop :=
  D.nr = x.nr ∧ D.nc = x.nc ∧ ∀ i j, i < x.nr → j < x.nc →
    HasDerivAt (fun t => ∑ k ∈ range x.nc, delta.f i k * (Spec.softmaxRows (x.put i j t)).f i k) (D.f i j) (x.f i j)

theorem softmax_jacobian {x delta D : Mat ℝ} (h : Spec.SoftmaxJacobian x delta D) {i : Nat} (hi : i < x.nr) : ∑ j ∈ range x.nc, D.f i j = 0 := by
  rcases Nat.eq_zero_or_pos x.nc with hc0 | hc
  · rw [hc0]; rfl
  set S := ∑ k ∈ range x.nc, Real.exp (x.f i k) with hS
  have hSpos : 0 < S := sumExp_pos hc _
  let e : Nat → ℝ := fun k => Real.exp (x.f i k)
  have key : ∀ j ∈ range x.nc, D.f i j = (delta.f i j * e j * S - (∑ k ∈ range x.nc, delta.f i k * e k) * e j) / S ^ 2 := by
    intro j hjm
    have hj := mem_range.1 hjm
    have hd := h.2.2 i j hi hj
    have hput : ∀ t k, k < x.nc → (x.put i j t).f i k = if k = j then t else x.f i k := by
      intro t k hk
      unfold Mat.put
      rw [Mat.of_f' hi hk]
      by_cases hkj : k = j
      · rw [if_pos ⟨rfl, hkj⟩, if_pos hkj]
      · rw [if_neg (fun hh => hkj hh.2), if_neg hkj]
    have hE : ∀ t, ∑ k ∈ range x.nc, Real.exp ((x.put i j t).f i k) = S - e j + Real.exp t := by
      intro t
      have e1 : ∑ k ∈ range x.nc, Real.exp ((x.put i j t).f i k) = ∑ k ∈ range x.nc, (e k + if k = j then Real.exp t - e j else 0) := by
        refine sum_congr rfl fun k hk => ?_
        rw [hput t k (mem_range.1 hk)]
        by_cases hkj : k = j
        · subst hkj; simp
        · simp [hkj, e]
      rw [e1, sum_add_distrib, Finset.sum_ite_eq' (range x.nc) j, if_pos hjm]
      show S + _ = _
      ring
    have hN : ∀ t, ∑ k ∈ range x.nc, delta.f i k * Real.exp ((x.put i j t).f i k) =
        (∑ k ∈ range x.nc, delta.f i k * e k) - delta.f i j * e j + delta.f i j * Real.exp t := by
      intro t
      have e1 : ∑ k ∈ range x.nc, delta.f i k * Real.exp ((x.put i j t).f i k) =
          ∑ k ∈ range x.nc, (delta.f i k * e k + if k = j then delta.f i j * Real.exp t - delta.f i j * e j else 0) := by
        refine sum_congr rfl fun k hk => ?_
        rw [hput t k (mem_range.1 hk)]
        by_cases hkj : k = j
        · subst hkj; simp
        · simp [hkj, e]
      rw [e1, sum_add_distrib, Finset.sum_ite_eq' (range x.nc) j, if_pos hjm]
      ring
    have hfun : (fun t => ∑ k ∈ range x.nc, delta.f i k * (Spec.softmaxRows (x.put i j t)).f i k) =
        fun t => ((∑ k ∈ range x.nc, delta.f i k * e k) - delta.f i j * e j + delta.f i j * Real.exp t) / (S - e j + Real.exp t) := by
      funext t
      rw [← hN, ← hE, Finset.sum_div]
      refine sum_congr rfl fun k hk => ?_
      unfold Spec.softmaxRows
      rw [Mat.of_f' (by exact hi) (by exact mem_range.1 hk), mul_div_assoc]
      rfl
    rw [hfun] at hd
    have hden : S - e j + Real.exp (x.f i j) = S := by show S - e j + e j = S; ring
    have hd2 : HasDerivAt (fun t => ((∑ k ∈ range x.nc, delta.f i k * e k) - delta.f i j * e j + delta.f i j * Real.exp t) / (S - e j + Real.exp t))
        (((delta.f i j * Real.exp (x.f i j)) * (S - e j + Real.exp (x.f i j)) -
          ((∑ k ∈ range x.nc, delta.f i k * e k) - delta.f i j * e j + delta.f i j * Real.exp (x.f i j)) * Real.exp (x.f i j)) / (S - e j + Real.exp (x.f i j)) ^ 2)
        (x.f i j) := by
      refine HasDerivAt.div ?_ ?_ (by rw [hden]; exact hSpos.ne')
      · exact ((Real.hasDerivAt_exp _).const_mul _).const_add _
      · exact (Real.hasDerivAt_exp _).const_add _
    rw [hd.unique hd2, hden]
    congr 1
    show delta.f i j * e j * S - ((∑ k ∈ range x.nc, delta.f i k * e k) - delta.f i j * e j + delta.f i j * e j) * e j = _
    ring
  rw [Finset.sum_congr rfl key, ← Finset.sum_div, Finset.sum_sub_distrib, ← Finset.sum_mul, ← Finset.mul_sum]
  rw [show (∑ k ∈ range x.nc, e k) = S from rfl, sub_self, zero_div]

/-- **C46 is false for the backward pass, for every input and every delta.** `SoftmaxLayer::backprop` returns the softmax of the delta it is given, whatever was fed forward; its rows
sum to 1, the rows of the true derivative sum to 0, so it is never right. -/
theorem C46_backward_refuted (junk : Nat → Nat → ℝ) (L : Layer) (p x delta D : Mat ℝ) (hr : 0 < x.nr) (hc : 0 < x.nc) (hd1 : delta.nr = x.nr) (hd2 : delta.nc = x.nc)
    (hD : Spec.SoftmaxJacobian x delta D) :
    ∃ r h, (HLayer.mk L (.softmax p)).backprop junk delta = .ok (r, h) ∧ r = Spec.softmaxRows delta ∧ r ≠ D := by
  refine ⟨Spec.softmaxRows delta, ⟨L, .softmax p⟩, ?_, rfl, fun he => ?_⟩
  · unfold HLayer.backprop
    simp only
    rw [show SoftmaxL.backprop delta = .ok (Spec.softmaxRows delta) from softmaxL_ok delta, ok_bind]
  · obtain ⟨r, h, hf, -, -, -, -, hsum, -⟩ := C46_forward junk L p delta
    have h1 := hsum 0 (by omega) (by omega)
    have h2 : (HLayer.mk L (.softmax p)).forwardprop junk delta = .ok (Spec.softmaxRows delta, ⟨L, .softmax (Spec.softmaxRows delta)⟩) := by
      unfold HLayer.forwardprop
      simp only
      rw [softmaxL_ok, ok_bind]
    rw [h2] at hf
    cases hf
    have h0 := softmax_jacobian hD hr
    rw [← he, ← hd2, h1] at h0
    norm_num at h0

/-- A Jacobian to compare with exists: for one column the output is constantly 1 and the derivative 0. -/
example : Spec.SoftmaxJacobian (Mat.of 1 1 (fun _ _ => 3)) (Mat.of 1 1 (fun _ _ => 2)) (Mat.of 1 1 (fun _ _ => 0)) := by
  refine ⟨rfl, rfl, ?_⟩
  intro i j (hi : i < 1) (hj : j < 1)
  obtain rfl : i = 0 := by omega
  obtain rfl : j = 0 := by omega
  rw [Mat.of_f' hi hj]
  have : (fun t => ∑ k ∈ range (Mat.of 1 1 (fun _ _ => (3 : ℝ))).nc, (Mat.of 1 1 (fun _ _ => (2 : ℝ))).f 0 k *
      (Spec.softmaxRows ((Mat.of 1 1 (fun _ _ => (3 : ℝ))).put 0 0 t)).f 0 k) = fun _ => 2 := by
    funext t
    show ∑ k ∈ range 1, _ = _
    rw [sum_range_one, Mat.of_f' hi hj]
    unfold Spec.softmaxRows
    rw [Mat.of_f' (by exact hi) (by exact hj)]
    show (2 : ℝ) * (_ / ∑ k ∈ range 1, _) = 2
    rw [sum_range_one, div_self (Real.exp_pos _).ne', mul_one]
  rw [this]
  exact hasDerivAt_const _ _

end
end Nnet.NN
