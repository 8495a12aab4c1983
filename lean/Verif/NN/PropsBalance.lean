import Verif.NN.PropsCollapse
import Verif.NN.PropsDead
/-!
# C103: networks with positively homogeneous activations: rescaling a unit, and the balance of its weights in training
-/
namespace Nnet.NN
open Finset
noncomputable section

/-! ## Specification -/

/-- `f (c z) = c f z` for `c > 0`. -/
def Spec.PosHom (f : ℝ → ℝ) : Prop := ∀ c z : ℝ, 0 < c → f (c * z) = c * f z

/-- The layers `V'`, `W'` come from the consecutive layers `V`, `W` by multiplying the bias and the weights into unit `j` by `c j` and dividing the weights out of it by `c j`. -/
structure Spec.Rescaled (c : Nat → ℝ) (V W V' W' : Mat ℝ) : Prop where
  v_nr : V'.nr = V.nr
  v_nc : V'.nc = V.nc
  w_nr : W'.nr = W.nr
  w_nc : W'.nc = W.nc
  into : ∀ i < V.nr, ∀ j < V.nc, V'.f i j = c j * V.f i j
  bias : ∀ k < W.nc, W'.f 0 k = W.f 0 k
  out : ∀ j < V.nc, ∀ k < W.nc, W'.f (j + 1) k = W.f (j + 1) k / c j

/-! ## Lemmas -/

theorem dense_rescaled {c : Nat → ℝ} {a b : ℝ → ℝ} {V W V' W' x : Mat ℝ} (ha : Spec.PosHom a) (hr : Spec.Rescaled c V W V' W') (hc : ∀ j < V.nc, 0 < c j) (hV : V.nr = x.nc + 1) :
    Spec.dense b W' (Spec.dense a V' x) = Spec.dense b W (Spec.dense a V x) := by
  have hin : ∀ i < x.nr, ∀ j < V.nc, (Spec.dense a V' x).f i j = c j * (Spec.dense a V x).f i j := by
    intro i hi j hj
    rw [dense_at hi (by rw [hr.v_nc]; exact hj), dense_at hi hj, ← ha _ _ (hc j hj), hr.into 0 (by omega) j hj, mul_add, mul_sum]
    congr 2
    refine sum_congr rfl fun k hk => ?_
    rw [hr.into (k + 1) (by have := mem_range.1 hk; omega) j hj]
    ring
  refine Mat.ext' rfl hr.w_nc fun i k hi hk => ?_
  replace hi : i < x.nr := hi
  replace hk : k < W'.nc := hk
  have hk' : k < W.nc := by rw [← hr.w_nc]; exact hk
  rw [dense_at (by exact hi) hk, dense_at (by exact hi) hk', hr.bias k hk']
  congr 2
  rw [show (Spec.dense a V' x).nc = V.nc from hr.v_nc, show (Spec.dense a V x).nc = V.nc from rfl]
  refine sum_congr rfl fun j hj => ?_
  have hj := mem_range.1 hj
  rw [hin i hi j hj, hr.out j hj k hk']
  have := (hc j hj).ne'
  field_simp

theorem denseNet_rescaled {c : Nat → ℝ} {a b : ℝ → ℝ} {V W V' W' : Mat ℝ} {pre post : List ((ℝ → ℝ) × Mat ℝ)} (ha : Spec.PosHom a) (hr : Spec.Rescaled c V W V' W') (hc : ∀ j < V.nc, 0 < c j) {p q : Nat}
    {x : Mat ℝ} (hx : x.nc = p) (hf : Spec.Fits p ((pre ++ (a, V) :: (b, W) :: post).map (·.2)) q) :
    Spec.denseNet (pre ++ (a, V') :: (b, W') :: post) x = Spec.denseNet (pre ++ (a, V) :: (b, W) :: post) x := by
  induction pre generalizing p x with
  | nil =>
    show Spec.denseNet post (Spec.dense b W' (Spec.dense a V' x)) = Spec.denseNet post (Spec.dense b W (Spec.dense a V x))
    rw [dense_rescaled ha hr hc (by rw [hx]; exact hf.1)]
  | cons l pre ih => exact ih (p := l.2.nc) (x := Spec.dense l.1 l.2 x) rfl hf.2.2

theorem fits_rescaled {c : Nat → ℝ} {a b : ℝ → ℝ} {V W V' W' : Mat ℝ} {pre post : List ((ℝ → ℝ) × Mat ℝ)} (hr : Spec.Rescaled c V W V' W') {p q : Nat}
    (hf : Spec.Fits p ((pre ++ (a, V) :: (b, W) :: post).map (·.2)) q) : Spec.Fits p ((pre ++ (a, V') :: (b, W') :: post).map (·.2)) q := by
  refine fits_congr ?_ hf
  simp [hr.v_nr, hr.v_nc, hr.w_nr, hr.w_nc]

/-- What holds of two consecutive layers after `backprop`. -/
def Bal (A B : Layer) : Prop := (∀ z, z * A.actfunc.actd z = A.actfunc.act z) → ∀ j < A.W.nc,
  ∑ i ∈ range A.W.nr, A.W.f i j * (A.grad.f i j - A.lambda * A.W.f i j) = ∑ k ∈ range B.W.nc, B.W.f (j + 1) k * (B.grad.f (j + 1) k - B.lambda * B.W.f (j + 1) k)

theorem ones1_dot {W x : Mat ℝ} {i j : Nat} (hi : i < x.nr) (hj : j < W.nc) (hW : W.nr = x.nc + 1) : ∑ k ∈ range W.nr, W.f k j * (ones1 x).f i k = (Spec.pre W x).f i j := by
  unfold Spec.pre
  rw [Mat.of_f' hi hj, hW, sum_range_succ', add_comm]
  unfold ones1
  rw [Mat.of_f' hi (by omega), if_pos rfl, mul_one]
  congr 1
  refine sum_congr rfl fun k hk => ?_
  rw [Mat.of_f' hi (by have := mem_range.1 hk; omega), if_neg (by omega), Nat.add_sub_cancel, mul_comm]

theorem bal_core {L M : Layer} {x D : Mat ℝ} (hL : L.W.nr = x.nc + 1) (hM : M.W.nr = L.W.nc + 1) (h1 : D.nr = x.nr) (h2 : D.nc = M.W.nc) (hf : ∀ z, z * L.actfunc.actd z = L.actfunc.act z) {j : Nat} (hj : j < L.W.nc) :
    ∑ i ∈ range L.W.nr, L.W.f i j * (Layer.gradOf (ones1 x) ((L.fwd x).dz (Layer.backOf D M.W))).f i j = ∑ k ∈ range M.W.nc, M.W.f (j + 1) k * (Layer.gradOf (ones1 (L.fwd x).a) D).f (j + 1) k := by
  have hb : ∀ t < x.nr, (Layer.backOf D M.W).f t j = ∑ k ∈ range M.W.nc, D.f t k * M.W.f (j + 1) k := by
    intro t ht
    unfold Layer.backOf
    rw [Mat.of_f' (by omega) (by omega), h2]
  have e1 : ∀ i ∈ range L.W.nr, L.W.f i j * (Layer.gradOf (ones1 x) ((L.fwd x).dz (Layer.backOf D M.W))).f i j =
      ∑ t ∈ range x.nr, (L.W.f i j * (ones1 x).f t i) * (L.actfunc.actd ((Spec.pre L.W x).f t j) * ∑ k ∈ range M.W.nc, D.f t k * M.W.f (j + 1) k) := by
    intro i hi
    unfold Layer.gradOf
    rw [Mat.of_f' (by show i < x.nc + 1; have := mem_range.1 hi; omega) (by show j < M.W.nr - 1; omega), mul_sum]
    refine sum_congr rfl fun t ht => ?_
    have ht : t < x.nr := mem_range.1 ht
    unfold Layer.dz
    rw [Mat.of_f' (by show t < D.nr; omega) (by show j < M.W.nr - 1; omega), hb t ht]
    show _ * (_ * (_ * L.actfunc.actd ((Spec.pre L.W x).f t j))) = _
    ring
  have e2 : ∀ k ∈ range M.W.nc, M.W.f (j + 1) k * (Layer.gradOf (ones1 (L.fwd x).a) D).f (j + 1) k = ∑ t ∈ range x.nr, L.actfunc.act ((Spec.pre L.W x).f t j) * (D.f t k * M.W.f (j + 1) k) := by
    intro k hk
    unfold Layer.gradOf
    rw [Mat.of_f' (by show j + 1 < L.W.nc + 1; omega) (by have := mem_range.1 hk; omega), mul_sum]
    refine sum_congr rfl fun t ht => ?_
    have ht : t < x.nr := mem_range.1 ht
    unfold ones1
    rw [Mat.of_f' (by exact ht) (by show j + 1 < L.W.nc + 1; omega), if_neg (by omega), Nat.add_sub_cancel]
    show _ * (((Spec.pre L.W x).map L.actfunc.act).f t j * _) = _
    rw [Mat.map_f' (by exact ht) (by exact hj)]
    ring
  rw [sum_congr rfl e1, sum_congr rfl e2, sum_comm, sum_comm (s := range M.W.nc)]
  refine sum_congr rfl fun t ht => ?_
  have ht : t < x.nr := mem_range.1 ht
  rw [← sum_mul, ones1_dot ht hj hL, ← mul_sum, ← mul_assoc, hf]

/-- `Bal` in the form in which the backward pass leaves two layers. -/
theorem bal_pair {L M B : Layer} {x D : Mat ℝ} (hL : L.W.nr = x.nc + 1) (hM : M.W.nr = L.W.nc + 1) (h1 : D.nr = x.nr) (h2 : D.nc = M.W.nc) (b1 : B.W = M.W) (b2 : B.lambda = M.lambda)
    (b3 : B.grad = (M.fwd (L.fwd x).a).regGrad D) : Bal ((L.fwd x).bwd (Layer.backOf D M.W)) B := by
  intro hf j hj
  replace hf : ∀ z, z * L.actfunc.actd z = L.actfunc.act z := hf
  replace hj : j < L.W.nc := hj
  rw [b1, b2, b3]
  show ∑ i ∈ range L.W.nr, L.W.f i j * (((L.fwd x).regGrad ((L.fwd x).dz (Layer.backOf D M.W))).f i j - L.lambda * L.W.f i j) = _
  have e := bal_core (L := L) (M := M) (x := x) (D := D) hL hM h1 h2 hf hj
  refine Eq.trans (sum_congr rfl fun i hi => ?_) (e.trans (sum_congr rfl fun k hk => ?_))
  · unfold Layer.regGrad
    rw [Mat.of_f' (by exact mem_range.1 hi) (by exact hj)]
    show _ * (_ + L.lambda * L.W.f i j - L.lambda * L.W.f i j) = _
    rw [add_sub_cancel_right]
    rfl
  · unfold Layer.regGrad
    rw [Mat.of_f' (by show j + 1 < M.W.nr; omega) (by exact mem_range.1 hk)]
    show _ = _ * (_ + M.lambda * M.W.f (j + 1) k - M.lambda * M.W.f (j + 1) k)
    rw [add_sub_cancel_right]
    rfl

theorem bal_all : ∀ {Hs : List Layer} {o : Layer} {x D : Mat ℝ} {p q : Nat}, Spec.Fits p ((Hs ++ [o]).map (·.W)) q → x.nc = p → D.nr = x.nr → D.nc = q → ∀ {l : Nat} {A B : Layer},
    (bwdNet (fwdL Hs x) (o.fwd (outL Hs x)) D)[l]? = some A → (bwdNet (fwdL Hs x) (o.fwd (outL Hs x)) D)[l + 1]? = some B → Bal A B
  | [], o, x, D, p, q, _, _, _, _, l, A, B, _, hB => by simp [bwdNet, fwdL, bwdL] at hB
  | L :: Ls, o, x, D, p, q, hf, hx, h1, h2, l, A, B, hA, hB => by
    have hb : bwdNet (fwdL (L :: Ls) x) (o.fwd (outL (L :: Ls) x)) D =
      (L.fwd x).bwd (bwdL (fwdL Ls (L.fwd x).a) (Layer.backOf D o.W)).2 :: bwdNet (fwdL Ls (L.fwd x).a) (o.fwd (outL Ls (L.fwd x).a)) D := rfl
    rw [hb] at hA hB
    simp only [List.cons_append, List.map_cons, Spec.Fits] at hf
    cases l with
    | succ l => exact bal_all (Hs := Ls) (o := o) (x := (L.fwd x).a) hf.2.2 rfl h1 h2 (by simpa using hA) (by simpa using hB)
    | zero =>
      simp only [List.getElem?_cons_zero, Option.some.injEq] at hA
      subst hA
      simp only [zero_add, List.getElem?_cons_succ] at hB
      cases Ls with
      | nil =>
        simp only [List.nil_append, List.map_cons, List.map_nil, Spec.Fits] at hf
        have : B = { o.fwd (L.fwd x).a with delta := D, grad := (o.fwd (L.fwd x).a).regGrad D } := by
          simpa [bwdNet, fwdL, bwdL, outL] using hB.symm
        subst this
        exact bal_pair (M := o) (by omega) (by omega) h1 (by omega) rfl rfl rfl
      | cons M Ms =>
        simp only [List.cons_append, List.map_cons, Spec.Fits] at hf
        have hb2 : bwdNet (fwdL (M :: Ms) (L.fwd x).a) (o.fwd (outL (M :: Ms) (L.fwd x).a)) D =
          (M.fwd (L.fwd x).a).bwd (bwdL (fwdL Ms (M.fwd (L.fwd x).a).a) (Layer.backOf D o.W)).2 :: bwdNet (fwdL Ms (M.fwd (L.fwd x).a).a) (o.fwd (outL Ms (M.fwd (L.fwd x).a).a)) D := rfl
        rw [hb2] at hB
        simp only [List.getElem?_cons_zero, Option.some.injEq] at hB
        subst hB
        obtain ⟨r, g1, g2, g3⟩ : ∃ r, Spec.Fits M.W.nc (Ms.map (·.W)) r ∧ o.W.nr = r + 1 ∧ o.W.nc = q := by
          have := hf.2.2.2.2
          rw [List.map_append, fits_append] at this
          obtain ⟨r, g1, g2⟩ := this
          exact ⟨r, g1, g2.1, g2.2.2⟩
        obtain ⟨d1, d2⟩ := bwdL_dims (Ls := fwdL Ms (M.fwd (L.fwd x).a).a) (d := Layer.backOf D o.W) (m := x.nr) (p := M.W.nc) (q := r) (by rw [fwdL_W]; exact g1) (by show D.nr = x.nr; omega)
          (by show o.W.nr - 1 = r; omega)
        exact bal_pair (M := M) (D := (M.fwd (L.fwd x).a).dz (bwdL (fwdL Ms (M.fwd (L.fwd x).a).a) (Layer.backOf D o.W)).2) (by omega) (by omega) d1 d2 rfl rfl rfl

/-! ## C103 -/

/-- **C103** (rescaling). Take a well-formed dense network with a hidden layer whose activation satisfies `f (c z) = c f z` for `c > 0`. Multiply the bias and the weights into each of its units `j` by
some `c j > 0` and divide the weights out of it by `c j`. The new network gives the same outputs and the same predictions on every input. -/
theorem C103_rescale {s s1 : Store} {n m : Net} {p q : Nat} {c : Nat → ℝ} {a b : ℝ → ℝ} {V W V' W' : Mat ℝ} {pre post : List ((ℝ → ℝ) × Mat ℝ)} (h : n.WF s p q)
    (hn : n.params s = pre ++ (a, V) :: (b, W) :: post) (hm : m.params s1 = pre ++ (a, V') :: (b, W') :: post) (hm1 : m.hidden.Nodup) (hm2 : ∀ id ∈ m.hidden, (s1 id).kind = .dense)
    (ha : Spec.PosHom a) (hc : ∀ j < V.nc, 0 < c j) (hr : Spec.Rescaled c V W V' W') :
    m.WF s1 p q ∧ ∀ (junk junk1 : Nat → Nat → ℝ) (x : Mat ℝ), 0 < x.nr → x.nc = p →
        (∃ out s' n' s1' m', n.forwardprop junk s x = .ok (out, s', n') ∧ m.forwardprop junk1 s1 x = .ok (out, s1', m')) ∧
        ∃ r s' n' s1' m', n.predict junk s x = .ok (r, s', n') ∧ m.predict junk1 s1 x = .ok (r, s1', m') := by
  have hf := h.fits
  have e : (n.layers s).map (·.W) = (n.params s).map (·.2) := by unfold Net.params; rw [List.map_map]; rfl
  have e1 : (m.layers s1).map (·.W) = (m.params s1).map (·.2) := by unfold Net.params; rw [List.map_map]; rfl
  rw [e, hn] at hf
  have hmw : m.WF s1 p q := ⟨hm1, hm2, h.pos, by rw [e1, hm]; exact fits_rescaled hr hf⟩
  refine ⟨hmw, fun junk junk1 x hx hxc => same_function junk junk1 h hmw hx hxc ?_⟩
  rw [hn, hm]
  exact denseNet_rescaled ha hr hc hxc hf

/-- **C103** (which activations). The identity, the rectifier and the absolute value are positively homogeneous, and the derivative the library uses for them satisfies `z f'(z) = f(z)` everywhere,
also at the kink. -/
theorem C103_activations : ∀ f ∈ [Act.identity, Act.relu, Act.absolute], Spec.PosHom f.act ∧ ∀ z, z * f.actd z = f.act z := by
  intro f hf
  simp only [List.mem_cons, List.not_mem_nil, or_false] at hf
  rcases hf with rfl | rfl | rfl
  · exact ⟨fun c z _ => rfl, fun z => mul_one z⟩
  · refine ⟨fun c z hc => ?_, fun z => ?_⟩
    · show (if c * z ≥ 0 then c * z else 0) = c * (if z ≥ 0 then z else 0)
      by_cases hz : z ≥ 0
      · rw [if_pos hz, if_pos (mul_nonneg hc.le hz)]
      · rw [if_neg hz, if_neg (by rw [ge_iff_le, not_le] at *; exact mul_neg_of_pos_of_neg hc hz), mul_zero]
    · show z * (if z ≥ 0 then 1 else 0) = (if z ≥ 0 then z else 0)
      split <;> simp
  · refine ⟨fun c z hc => ?_, fun z => ?_⟩
    · show |c * z| = c * |z|
      rw [abs_mul, abs_of_pos hc]
    · show z * (if z < 0 then -1 else 1) = |z|
      split
      · rw [abs_of_neg (by assumption)]; ring
      · rw [abs_of_nonneg (not_lt.1 (by assumption)), mul_one]

/-- **C103** (balance). In one training step `forwardprop(x); backprop(y); update()` of a well-formed dense network, with any cost, let layer `l` have one of these activations. For every unit `j` of
the layer, the change of the weights into the unit (bias included) and the change of the weights out of it are tied to each other: the inner product of the weights with their change, corrected for
regularisation and divided by the learning rate, is the same. -/
theorem C103_balance {junk : Nat → Nat → ℝ} {s : Store} {n : Net} {p q l j : Nat} {x y : Mat ℝ} {lr0 la0 lr1 la1 : ℝ} {f0 f1 : ActFunc ℝ} {W0 W1 : Mat ℝ} (h : n.WF s p q)
    (h0 : (Spec.model s n)[l]? = some (lr0, la0, f0, W0)) (h1 : (Spec.model s n)[l + 1]? = some (lr1, la1, f1, W1)) (hf : ∀ z, z * f0.actd z = f0.act z) (hj : j < W0.nc)
    (hr : 0 < x.nr) (hc : x.nc = p) (hyr : y.nr = x.nr) (hyc : y.nc = q) (hd : OutputLayer.DeltaOK n.output.costd) :
    ∃ s1 n1 W0' W1', n.trainOn junk s x y = .ok (s1, n1) ∧ (Spec.model s1 n1)[l]? = some (lr0, la0, f0, W0') ∧ (Spec.model s1 n1)[l + 1]? = some (lr1, la1, f1, W1') ∧
      lr1 * (∑ i ∈ range W0.nr, W0.f i j * (W0'.f i j - W0.f i j) + lr0 * la0 * ∑ i ∈ range W0.nr, W0.f i j ^ 2) =
      lr0 * (∑ k ∈ range W1.nc, W1.f (j + 1) k * (W1'.f (j + 1) k - W1.f (j + 1) k) + lr1 * la1 * ∑ k ∈ range W1.nc, W1.f (j + 1) k ^ 2) := by
  obtain ⟨d1, d2⟩ := outputZ_dims h hc
  obtain ⟨D, hD, hD1, hD2⟩ := hd y ((n.outputZ s x).map n.output.actfunc.act) (n.outputZ s x) (by rw [Mat.map_nr]; omega) (by rw [Mat.map_nc]; omega)
    (by omega) (by omega)
  obtain ⟨s1, n1, e1, b1, -, w1⟩ := trainOn_ok (junk := junk) h hr hc hD (by omega) (by omega)
  have hcore : (n.passed s x D).map Layer.core = Spec.model s n := bwdNet_core (n.hiddenLayers s) n.output.toLayer D x
  have hmod : Spec.model s1 n1 = ((n.passed s x D).map Layer.upd).map Layer.core := by
    show (n1.layers s1).map Layer.core = _
    rw [b1.layers]
  rw [← hcore, List.getElem?_map, Option.map_eq_some_iff] at h0 h1
  obtain ⟨A, hA, eA⟩ := h0
  obtain ⟨B, hB, eB⟩ := h1
  simp only [Layer.core, Prod.mk.injEq] at eA eB
  obtain ⟨rfl, rfl, rfl, rfl⟩ := eA
  obtain ⟨rfl, rfl, rfl, rfl⟩ := eB
  have hbal : Bal A B := bal_all (Hs := n.hiddenLayers s) (o := n.output.toLayer) (x := x) (D := D) (p := p) (q := q) h.fits hc (by omega) (by omega) hA hB
  refine ⟨s1, n1, A.upd.W, B.upd.W, e1, ?_, ?_, ?_⟩
  · rw [hmod, List.getElem?_map, List.getElem?_map, hA]; rfl
  · rw [hmod, List.getElem?_map, List.getElem?_map, hB]; rfl
  · have hb := hbal hf j hj
    have hup : ∀ (L : Layer) (i k : Nat), L.W.f i k * (L.upd.W.f i k - L.W.f i k) = - L.lrate * (L.W.f i k * L.grad.f i k) := by
      intro L i k
      by_cases hik : i < L.W.nr ∧ k < L.W.nc
      · show L.W.f i k * ((Mat.of L.W.nr L.W.nc (fun i j => L.W.f i j - L.lrate * L.grad.f i j)).f i k - _) = _
        rw [Mat.of_f' hik.1 hik.2]
        ring
      · rw [L.W.out _ _ hik]
        ring
    simp only [hup]
    simp only [mul_sub, sum_sub_distrib] at hb
    rw [← mul_sum, ← mul_sum]
    have q0 : ∑ i ∈ range A.W.nr, A.W.f i j * (A.lambda * A.W.f i j) = A.lambda * ∑ i ∈ range A.W.nr, A.W.f i j ^ 2 := by
      rw [mul_sum]; exact sum_congr rfl fun _ _ => by ring
    have q1 : ∑ k ∈ range B.W.nc, B.W.f (j + 1) k * (B.lambda * B.W.f (j + 1) k) = B.lambda * ∑ k ∈ range B.W.nc, B.W.f (j + 1) k ^ 2 := by
      rw [mul_sum]; exact sum_congr rfl fun _ _ => by ring
    rw [q0, q1] at hb
    linear_combination (-(A.lrate * B.lrate)) * hb

/-- **C103** (drift). With one learning rate and no regularisation, the squared length of the weights into a unit minus that of the weights out of it changes in a step only by the difference of the
squared lengths of the two changes. -/
theorem C103_drift {junk : Nat → Nat → ℝ} {s : Store} {n : Net} {p q l j : Nat} {x y : Mat ℝ} {lr : ℝ} {f0 f1 : ActFunc ℝ} {W0 W1 : Mat ℝ} (h : n.WF s p q)
    (h0 : (Spec.model s n)[l]? = some (lr, 0, f0, W0)) (h1 : (Spec.model s n)[l + 1]? = some (lr, 0, f1, W1)) (hf : ∀ z, z * f0.actd z = f0.act z) (hj : j < W0.nc) (hlr : lr ≠ 0)
    (hr : 0 < x.nr) (hc : x.nc = p) (hyr : y.nr = x.nr) (hyc : y.nc = q) (hd : OutputLayer.DeltaOK n.output.costd) :
    ∃ s1 n1 W0' W1', n.trainOn junk s x y = .ok (s1, n1) ∧ (Spec.model s1 n1)[l]? = some (lr, 0, f0, W0') ∧ (Spec.model s1 n1)[l + 1]? = some (lr, 0, f1, W1') ∧
      (∑ i ∈ range W0.nr, W0'.f i j ^ 2 - ∑ k ∈ range W1.nc, W1'.f (j + 1) k ^ 2) - (∑ i ∈ range W0.nr, W0.f i j ^ 2 - ∑ k ∈ range W1.nc, W1.f (j + 1) k ^ 2) =
      ∑ i ∈ range W0.nr, (W0'.f i j - W0.f i j) ^ 2 - ∑ k ∈ range W1.nc, (W1'.f (j + 1) k - W1.f (j + 1) k) ^ 2 := by
  obtain ⟨s1, n1, W0', W1', e1, e2, e3, e4⟩ := C103_balance (junk := junk) h h0 h1 hf hj hr hc hyr hyc hd
  refine ⟨s1, n1, W0', W1', e1, e2, e3, ?_⟩
  have hb := mul_left_cancel₀ hlr e4
  simp only [mul_zero, zero_mul, add_zero] at hb
  have q0 : ∑ i ∈ range W0.nr, W0'.f i j ^ 2 = ∑ i ∈ range W0.nr, W0.f i j ^ 2 + 2 * ∑ i ∈ range W0.nr, W0.f i j * (W0'.f i j - W0.f i j) + ∑ i ∈ range W0.nr, (W0'.f i j - W0.f i j) ^ 2 := by
    rw [mul_sum, ← sum_add_distrib, ← sum_add_distrib]; exact sum_congr rfl fun _ _ => by ring
  have q1 : ∑ k ∈ range W1.nc, W1'.f (j + 1) k ^ 2 = ∑ k ∈ range W1.nc, W1.f (j + 1) k ^ 2 + 2 * ∑ k ∈ range W1.nc, W1.f (j + 1) k * (W1'.f (j + 1) k - W1.f (j + 1) k) +
      ∑ k ∈ range W1.nc, (W1'.f (j + 1) k - W1.f (j + 1) k) ^ 2 := by
    rw [mul_sum, ← sum_add_distrib, ← sum_add_distrib]; exact sum_congr rfl fun _ _ => by ring
  rw [q0, q1]
  linear_combination 2 * hb

/-- A 1-1-1 linear network with rate `1/10`; `b` and `w` are bias and weight of the output. -/
def lin3Net (b w : ℝ) : Net := { tieNet (1 / 10) b w with hidden := [7] }

theorem lin3Net_wf (b w c e : ℝ) : (lin3Net c e).WF (tieStore (1 / 10) b w) 1 1 := by
  refine ⟨by simp [lin3Net], fun _ _ => rfl, by omega, ?_⟩
  simp [Net.layers, Net.hiddenLayers, lin3Net, tieNet, tieStore, lin11, exLayer, w21, Spec.Fits]

theorem upd_w21 {L : Layer} {b w g h : ℝ} (hW : L.W = w21 b w) (hg : L.grad = w21 g h) : L.upd.W = w21 (b - L.lrate * g) (w - L.lrate * h) := by
  have h1 := upd11 hW hg
  rw [Layer.update_ok ⟨by rw [hW, hg]; rfl, by rw [hW, hg]; rfl⟩] at h1
  exact congrArg Layer.W (Except.ok.inj h1)

theorem out11 {M0 M1 : Layer} {b w c e : ℝ} (h0 : M0.W = w21 b w) (a0 : M0.actfunc = Act.identity) (h1 : M1.W = w21 c e) (a1 : M1.actfunc = Act.identity) :
    outL [M0, M1] (m11 1) = m11 (c + (b + w) * e) := by
  show (M1.fwd (M0.fwd (m11 1)).a).a = _
  rw [fwd11 h0 a0, fwd11 h1 a1, one_mul]

/-- One training step on the sample `1` with label `0`, and the output for that sample afterwards. -/
theorem lin3_step (junk : Nat → Nat → ℝ) {b w c e o b' w' c' e' : ℝ} (ho : o = c + (b + w) * e) (hb : b' = b - 1 / 10 * (o * e)) (hw : w' = w - 1 / 10 * (o * e)) (hc : c' = c - 1 / 10 * o)
    (he : e' = e - 1 / 10 * ((b + w) * o)) :
    ∃ s1 n1 s2 n2, (lin3Net c e).trainOn junk (tieStore (1 / 10) b w) (m11 1) (m11 0) = .ok (s1, n1) ∧ n1.forwardprop junk s1 (m11 1) = .ok (m11 (c' + (b' + w') * e'), s2, n2) := by
  have hwf := lin3Net_wf b w c e
  have hh : (lin3Net c e).hiddenLayers (tieStore (1 / 10) b w) = [lin11 (1 / 10) b w] := rfl
  have hz : (lin3Net c e).outputZ (tieStore (1 / 10) b w) (m11 1) = m11 o := by
    unfold Net.outputZ
    rw [hh]
    show Spec.pre (w21 c e) (Spec.dense (lin11 (1 / 10) b w).actfunc.act (lin11 (1 / 10) b w).W (m11 1)) = _
    rw [← Layer.fwd_a, fwd11 (b := b) (w := w) rfl rfl]
    show Spec.pre (w21 c e) (m11 (b + 1 * w)) = _
    rw [pre11, ho, one_mul]
  have hD : (lin3Net c e).deltaOn (tieStore (1 / 10) b w) (m11 1) (m11 0) = .ok (m11 o) := by
    unfold Net.deltaOn
    rw [hz]
    show Quadratic.costd (m11 0) ((m11 o).map Act.identity.act) (m11 o) = _
    rw [id11]
    unfold Quadratic.costd
    rw [diff_costd (by rfl) (by rfl)]
    congr 1
    refine m11_ext rfl rfl ?_
    rw [Mat.of_f' (by show 0 < 1; omega) (by show 0 < 1; omega), m11_f, m11_f]
    show (o - 0) / ((1 : Nat) : ℝ) = o
    norm_num
  obtain ⟨s1, n1, e1, b1, -, w1⟩ := trainOn_ok (junk := junk) hwf (by show 0 < 1; omega) rfl hD rfl rfl
  obtain ⟨s2, n2, f1, -⟩ := C28_network (junk := junk) w1.wf (x := m11 1) (by show 0 < 1; omega) rfl
  refine ⟨s1, n1, s2, n2, e1, ?_⟩
  rw [f1]
  congr 2
  have hL : n1.layers s1 = ((lin3Net c e).passed (tieStore (1 / 10) b w) (m11 1) (m11 o)).map Layer.upd := b1.layers
  rw [← outL_net, hL]
  unfold Net.passed
  rw [hh]
  show outL [Layer.upd (((lin11 (1 / 10) b w).fwd (m11 1)).bwd (Layer.backOf (m11 o) (w21 c e))), Layer.upd { ((lin11 (1 / 10) c e).fwd ((lin11 (1 / 10) b w).fwd (m11 1)).a) with delta := m11 o, grad := ((lin11 (1 / 10) c e).fwd ((lin11 (1 / 10) b w).fwd (m11 1)).a).regGrad (m11 o) }] (m11 1) = _
  rw [back11, fwd11 (L := lin11 (1 / 10) b w) (b := b) (w := w) rfl rfl, fwd11 (L := lin11 (1 / 10) c e) (b := c) (w := e) rfl rfl, one_mul]
  refine out11 ?_ rfl ?_ rfl
  · refine (upd_w21 (b := b) (w := w) (g := o * e) (h := 1 * (o * e)) rfl ?_).trans ?_
    · show Layer.regGrad _ (Layer.dz _ (m11 (o * e))) = _
      rw [dz11 (by rfl)]
      exact reg11 (b := b) (w := w) (u := 1) rfl rfl rfl _
    · rw [hb, hw, one_mul]; rfl
  · refine (upd_w21 (b := c) (w := e) (g := o) (h := (b + w) * o) rfl ?_).trans ?_
    · exact reg11 (b := c) (w := e) (u := b + w) rfl rfl rfl _
    · rw [hc, he]; rfl

theorem rescaled_w21 (b w c e : ℝ) : Spec.Rescaled (fun _ => 2) (w21 b w) (w21 c e) (w21 (2 * b) (2 * w)) (w21 c (e / 2)) := by
  refine ⟨rfl, rfl, rfl, rfl, fun i hi j hj => ?_, fun k hk => ?_, fun j hj k hk => ?_⟩
  · replace hi : i < 2 := hi
    replace hj : j < 1 := hj
    obtain rfl : j = 0 := by omega
    rcases (show i = 0 ∨ i = 1 by omega) with rfl | rfl
    · rw [w21_f0, w21_f0]
    · rw [w21_f1, w21_f1]
  · replace hk : k < 1 := hk
    obtain rfl : k = 0 := by omega
    rw [w21_f0, w21_f0]
  · replace hj : j < 1 := hj
    replace hk : k < 1 := hk
    obtain rfl : j = 0 := by omega
    obtain rfl : k = 0 := by omega
    rw [w21_f1, w21_f1]

/-- **C103** (training is not invariant). Two networks related by rescaling, which agree on every input, need not agree any more after one training step on the same sample: here the output for that sample
becomes 0.62 in the one and 0.47 in the other. -/
theorem C103_training_differs (junk : Nat → Nat → ℝ) :
    (∀ (x : Mat ℝ), 0 < x.nr → x.nc = 1 → ∃ out s' n' s1' m', (lin3Net 0 1).forwardprop junk (tieStore (1 / 10) 0 1) x = .ok (out, s', n') ∧
      (lin3Net 0 (1 / 2)).forwardprop junk (tieStore (1 / 10) 0 2) x = .ok (out, s1', m')) ∧
    ∃ s1 n1 s2 n2 t1 m1 t2 m2, (lin3Net 0 1).trainOn junk (tieStore (1 / 10) 0 1) (m11 1) (m11 0) = .ok (s1, n1) ∧ n1.forwardprop junk s1 (m11 1) = .ok (m11 0.62, s2, n2) ∧
      (lin3Net 0 (1 / 2)).trainOn junk (tieStore (1 / 10) 0 2) (m11 1) (m11 0) = .ok (t1, m1) ∧ m1.forwardprop junk t1 (m11 1) = .ok (m11 0.47, t2, m2) := by
  constructor
  · intro x hr hc
    have hres := rescaled_w21 0 1 0 1
    rw [show (2 * 0 : ℝ) = 0 by norm_num, show (2 * 1 : ℝ) = 2 by norm_num] at hres
    exact ((C103_rescale (c := fun _ => 2) (pre := []) (post := []) (lin3Net_wf 0 1 0 1) (m := lin3Net 0 (1 / 2)) (s1 := tieStore (1 / 10) 0 2) (a := Act.identity.act) (b := Act.identity.act) rfl rfl
      (by simp [lin3Net]) (fun _ _ => rfl) (C103_activations _ (by simp)).1 (fun _ _ => by norm_num) hres).2 junk junk x hr hc).1
  · obtain ⟨s1, n1, s2, n2, e1, e2⟩ := lin3_step junk (b := 0) (w := 1) (c := 0) (e := 1) (o := 1) (b' := -(1 / 10)) (w' := 9 / 10) (c' := -(1 / 10)) (e' := 9 / 10) (by norm_num) (by norm_num) (by norm_num) (by norm_num) (by norm_num)
    obtain ⟨t1, m1, t2, m2, f1, f2⟩ := lin3_step junk (b := 0) (w := 2) (c := 0) (e := 1 / 2) (o := 1) (b' := -(1 / 20)) (w' := 39 / 20) (c' := -(1 / 10)) (e' := 3 / 10) (by norm_num) (by norm_num) (by norm_num) (by norm_num) (by norm_num)
    rw [show (-(1 / 10) + (-(1 / 10) + 9 / 10) * (9 / 10) : ℝ) = 0.62 by norm_num] at e2
    rw [show (-(1 / 10) + (-(1 / 20) + 39 / 20) * (3 / 10) : ℝ) = 0.47 by norm_num] at f2
    exact ⟨_, _, _, _, _, _, _, _, e1, e2, f1, f2⟩

/-- `C103_balance` and `C103_drift` apply to a 2-3-2 network with a rectified hidden layer and five samples. -/
example (junk : Nat → Nat → ℝ) : ∃ s1 n1 W0' W1', exNet.trainOn junk exStoreD exX exY = .ok (s1, n1) ∧ (Spec.model s1 n1)[0]? = some (1 / 10, 1 / 5, Act.relu, W0') ∧
    (Spec.model s1 n1)[1]? = some (1 / 10, 0, Act.identity, W1') :=
  have ⟨s1, n1, W0', W1', e1, e2, e3, _⟩ := C103_balance (junk := junk) (l := 0) (j := 2) (x := exX) (y := exY) exDead_wf rfl rfl (C103_activations Act.relu (by simp)).2 (by show 2 < 3; omega) (by show 0 < 5; omega) rfl rfl rfl C54_costs.1
  ⟨s1, n1, W0', W1', e1, e2, e3⟩

example (junk : Nat → Nat → ℝ) : ∃ s1 n1 W0' W1', (lin3Net 0 1).trainOn junk (tieStore (1 / 10) 0 1) (m11 1) (m11 0) = .ok (s1, n1) ∧ (Spec.model s1 n1)[0]? = some (1 / 10, 0, Act.identity, W0') ∧
    (Spec.model s1 n1)[1]? = some (1 / 10, 0, Act.identity, W1') :=
  have ⟨s1, n1, W0', W1', e1, e2, e3, _⟩ := C103_drift (junk := junk) (l := 0) (j := 0) (x := m11 1) (y := m11 0) (lin3Net_wf 0 1 0 1) rfl rfl (C103_activations Act.identity (by simp)).2 (by show 0 < 1; omega) (by show (1 / 10 : ℝ) ≠ 0; norm_num)
    (by show 0 < 1; omega) rfl rfl rfl C54_costs.1
  ⟨s1, n1, W0', W1', e1, e2, e3⟩

end
end Nnet.NN
