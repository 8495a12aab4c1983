import Verif.NN.PropsBalance
/-!
# C120: units that can be removed
-/
namespace Nnet.NN
open Finset
noncomputable section

/-! ## Specification -/

/-- The consecutive layers `V`, `W` come from the layers `V'`, `W'` by removing units of `V'`. `g j = some i`: unit `j` of `V'` has the bias and the incoming weights of unit `i` of `V`, and is merged into it: the
outgoing weights of all such units are added. `g j = none`: unit `j` is dropped, which is allowed if all its outgoing weights are 0, or if all its incoming weights are 0 and its constant output
`a (bias)` is added to the biases of the next layer. -/
structure Spec.Pruned (a : ℝ → ℝ) (g : Nat → Option Nat) (V' W' V W : Mat ℝ) : Prop where
  v_nr : V'.nr = V.nr
  w_nr : W.nr = V.nc + 1
  w_nc : W'.nc = W.nc
  into : ∀ j < V'.nc, ∀ i, g j = some i → i < V.nc ∧ ∀ r < V.nr, V'.f r j = V.f r i
  dropped : ∀ j < V'.nc, g j = none → (∀ k < W.nc, W'.f (j + 1) k = 0) ∨ ∀ r < V.nr, 0 < r → V'.f r j = 0
  out : ∀ i < V.nc, ∀ k < W.nc, W.f (i + 1) k = ∑ j ∈ (range V'.nc).filter (fun j => g j = some i), W'.f (j + 1) k
  bias : ∀ k < W.nc, W.f 0 k = W'.f 0 k + ∑ j ∈ (range V'.nc).filter (fun j => g j = none), a (V'.f 0 j) * W'.f (j + 1) k

/-! ## Lemmas -/

theorem dense_pruned {g : Nat → Option Nat} {a b : ℝ → ℝ} {V' W' V W x : Mat ℝ} (hr : Spec.Pruned a g V' W' V W) (hV : V'.nr = x.nc + 1) :
    Spec.dense b W (Spec.dense a V x) = Spec.dense b W' (Spec.dense a V' x) := by
  refine Mat.ext' rfl hr.w_nc.symm fun i k hi hk => ?_
  replace hi : i < x.nr := hi
  replace hk : k < W.nc := hk
  have hk' : k < W'.nc := by rw [hr.w_nc]; exact hk
  rw [dense_at (by exact hi) hk, dense_at (by exact hi) hk', hr.bias k hk]
  congr 1
  rw [show (Spec.dense a V x).nc = V.nc from rfl, show (Spec.dense a V' x).nc = V'.nc from rfl, add_assoc]
  congr 1
  -- split the units of the large layer into those dropped and those merged
  have hsplit : ∑ j ∈ range V'.nc, (Spec.dense a V' x).f i j * W'.f (j + 1) k =
      ∑ j ∈ (range V'.nc).filter (fun j => g j = none), (Spec.dense a V' x).f i j * W'.f (j + 1) k +
      ∑ j ∈ (range V'.nc).filter (fun j => ¬ g j = none), (Spec.dense a V' x).f i j * W'.f (j + 1) k := (sum_filter_add_sum_filter_not _ _ _).symm
  rw [hsplit]
  congr 1
  · refine sum_congr rfl fun j hj => ?_
    obtain ⟨hj, hg⟩ := mem_filter.1 hj
    have hj := mem_range.1 hj
    rcases hr.dropped j hj hg with h0 | h0
    · rw [h0 k hk, mul_zero, mul_zero]
    · rw [dense_at hi hj, sum_eq_zero, add_zero]
      intro c hc
      rw [h0 (c + 1) (by have := mem_range.1 hc; have := hr.v_nr; omega) (by omega), mul_zero]
  · have e1 : ∀ u ∈ range V.nc, (Spec.dense a V x).f i u * W.f (u + 1) k = ∑ j ∈ ((range V'.nc).filter (fun j => ¬ g j = none)).filter (fun j => g j = some u), (Spec.dense a V' x).f i j * W'.f (j + 1) k := by
      intro u hu
      have hu := mem_range.1 hu
      rw [hr.out u hu k hk, mul_sum]
      have : ((range V'.nc).filter (fun j => ¬ g j = none)).filter (fun j => g j = some u) = (range V'.nc).filter (fun j => g j = some u) := by
        rw [filter_filter]
        refine filter_congr fun j _ => ⟨fun h => h.2, fun h => ⟨by rw [h]; simp, h⟩⟩
      rw [this]
      refine sum_congr rfl fun j hj => ?_
      obtain ⟨hj, hg⟩ := mem_filter.1 hj
      have hj := mem_range.1 hj
      obtain ⟨-, hcol⟩ := hr.into j hj u hg
      have hnr := hr.v_nr
      rw [dense_at hi hu, dense_at hi hj, hcol 0 (by omega)]
      congr 3
      exact sum_congr rfl fun c hc => by rw [hcol (c + 1) (by have := mem_range.1 hc; omega)]
    rw [sum_congr rfl e1]
    have hmaps : ∀ j ∈ (range V'.nc).filter (fun j => ¬ g j = none), (g j).getD 0 ∈ range V.nc := by
      intro j hj
      obtain ⟨hj, hg⟩ := mem_filter.1 hj
      obtain ⟨u, hu⟩ := Option.ne_none_iff_exists'.1 hg
      rw [hu]
      exact mem_range.2 (hr.into j (mem_range.1 hj) u hu).1
    rw [← sum_fiberwise_of_maps_to hmaps]
    refine sum_congr rfl fun u _ => ?_
    refine sum_congr ?_ fun _ _ => rfl
    refine filter_congr fun j hj => ?_
    obtain ⟨v, hv⟩ := Option.ne_none_iff_exists'.1 (mem_filter.1 hj).2
    rw [hv]
    simp

theorem denseNet_pruned {g : Nat → Option Nat} {a b : ℝ → ℝ} {V' W' V W : Mat ℝ} {pre post : List ((ℝ → ℝ) × Mat ℝ)} (hr : Spec.Pruned a g V' W' V W) {p q : Nat}
    {x : Mat ℝ} (hx : x.nc = p) (hf : Spec.Fits p ((pre ++ (a, V') :: (b, W') :: post).map (·.2)) q) :
    Spec.denseNet (pre ++ (a, V) :: (b, W) :: post) x = Spec.denseNet (pre ++ (a, V') :: (b, W') :: post) x := by
  induction pre generalizing p x with
  | nil =>
    show Spec.denseNet post (Spec.dense b W (Spec.dense a V x)) = Spec.denseNet post (Spec.dense b W' (Spec.dense a V' x))
    rw [dense_pruned hr (by rw [hx]; exact hf.1)]
  | cons l pre ih => exact ih (p := l.2.nc) (x := Spec.dense l.1 l.2 x) rfl hf.2.2

theorem fits_pruned {g : Nat → Option Nat} {a b : ℝ → ℝ} {V' W' V W : Mat ℝ} {pre post : List ((ℝ → ℝ) × Mat ℝ)} (hr : Spec.Pruned a g V' W' V W) (h0 : 0 < V.nc) {p q : Nat}
    (hf : Spec.Fits p ((pre ++ (a, V') :: (b, W') :: post).map (·.2)) q) : Spec.Fits p ((pre ++ (a, V) :: (b, W) :: post).map (·.2)) q := by
  induction pre generalizing p with
  | nil =>
    obtain ⟨f1, f2, f3, f4, f5⟩ := hf
    refine ⟨?_, h0, hr.w_nr, ?_, ?_⟩
    · show V.nr = _; rw [← hr.v_nr]; exact f1
    · show 0 < W.nc; rw [← hr.w_nc]; exact f4
    · show Spec.Fits W.nc _ _; rw [← hr.w_nc]; exact f5
  | cons l pre ih => exact ⟨hf.1, hf.2.1, ih hf.2.2⟩

/-! ## C120 -/

/-- **C120** (removing units). From a hidden layer of a well-formed dense network, merge units with equal bias and incoming weights, and drop units without outgoing or without incoming weights. The smaller
network is well-formed and gives the same outputs and the same predictions on every input. Read from right to left: units of these kinds can be added without changing anything. -/
theorem C120_remove {s s1 : Store} {n m : Net} {p q : Nat} {g : Nat → Option Nat} {a b : ℝ → ℝ} {V' W' V W : Mat ℝ} {pre post : List ((ℝ → ℝ) × Mat ℝ)} (h : n.WF s p q)
    (hn : n.params s = pre ++ (a, V') :: (b, W') :: post) (hm : m.params s1 = pre ++ (a, V) :: (b, W) :: post) (hm1 : m.hidden.Nodup) (hm2 : ∀ id ∈ m.hidden, (s1 id).kind = .dense)
    (h0 : 0 < V.nc) (hr : Spec.Pruned a g V' W' V W) :
    m.WF s1 p q ∧ ∀ (junk junk1 : Nat → Nat → ℝ) (x : Mat ℝ), 0 < x.nr → x.nc = p →
        (∃ out s' n' s1' m', n.forwardprop junk s x = .ok (out, s', n') ∧ m.forwardprop junk1 s1 x = .ok (out, s1', m')) ∧
        ∃ r s' n' s1' m', n.predict junk s x = .ok (r, s', n') ∧ m.predict junk1 s1 x = .ok (r, s1', m') := by
  have hf := h.fits
  have e : (n.layers s).map (·.W) = (n.params s).map (·.2) := by unfold Net.params; rw [List.map_map]; rfl
  have e1 : (m.layers s1).map (·.W) = (m.params s1).map (·.2) := by unfold Net.params; rw [List.map_map]; rfl
  rw [e, hn] at hf
  have hmw : m.WF s1 p q := ⟨hm1, hm2, h.pos, by rw [e1, hm]; exact fits_pruned hr h0 hf⟩
  refine ⟨hmw, fun junk junk1 x hx hxc => same_function junk junk1 h hmw hx hxc ?_⟩
  rw [hn, hm]
  exact denseNet_pruned hr hxc hf

/-! ## Units of zero weights -/

/-- What holds of two consecutive layers after `backprop`. -/
def Sleep (A B : Layer) : Prop := A.actfunc.act 0 = 0 → ∀ j < A.W.nc, (∀ i < A.W.nr, A.W.f i j = 0) → (∀ k < B.W.nc, B.W.f (j + 1) k = 0) →
  (∀ i < A.W.nr, A.grad.f i j = 0) ∧ ∀ k < B.W.nc, B.grad.f (j + 1) k = 0

theorem sleep_pair {L M B : Layer} {x D : Mat ℝ} (hL : L.W.nr = x.nc + 1) (hM : M.W.nr = L.W.nc + 1) (h1 : D.nr = x.nr) (h2 : D.nc = M.W.nc) (b1 : B.W = M.W) (b2 : B.lambda = M.lambda)
    (b3 : B.grad = (M.fwd (L.fwd x).a).regGrad D) : Sleep ((L.fwd x).bwd (Layer.backOf D M.W)) B := by
  intro h0 j hj hin hout
  replace h0 : L.actfunc.act 0 = 0 := h0
  replace hj : j < L.W.nc := hj
  replace hin : ∀ i < L.W.nr, L.W.f i j = 0 := hin
  rw [b1] at hout ⊢
  rw [b3]
  have hb : ∀ t < x.nr, (Layer.backOf D M.W).f t j = 0 := by
    intro t ht
    unfold Layer.backOf
    rw [Mat.of_f' (by omega) (by omega), sum_eq_zero]
    intro k hk
    rw [hout k (by have := mem_range.1 hk; omega), mul_zero]
  constructor
  · intro i hi
    replace hi : i < L.W.nr := hi
    show ((L.fwd x).regGrad ((L.fwd x).dz (Layer.backOf D M.W))).f i j = 0
    unfold Layer.regGrad Layer.gradOf
    rw [Mat.of_f' (by exact hi) (by exact hj), Mat.of_f' (by show i < x.nc + 1; omega) (by show j < M.W.nr - 1; omega), sum_eq_zero]
    · show 0 + L.lambda * L.W.f i j = 0
      rw [hin i hi, mul_zero, add_zero]
    · intro t ht
      have ht : t < x.nr := mem_range.1 ht
      unfold Layer.dz
      rw [Mat.of_f' (by show t < D.nr; omega) (by show j < M.W.nr - 1; omega), hb t ht, zero_mul, mul_zero]
  · intro k hk
    unfold Layer.regGrad Layer.gradOf
    rw [Mat.of_f' (by show j + 1 < M.W.nr; omega) (by exact hk), Mat.of_f' (by show j + 1 < L.W.nc + 1; omega) (by omega), sum_eq_zero]
    · show 0 + M.lambda * M.W.f (j + 1) k = 0
      rw [hout k hk, mul_zero, add_zero]
    · intro t ht
      have ht : t < x.nr := mem_range.1 ht
      have : (M.fwd (L.fwd x).a).pa.f t (j + 1) = 0 := by
        show (ones1 ((Spec.pre L.W x).map L.actfunc.act)).f t (j + 1) = 0
        unfold ones1
        rw [Mat.of_f' (by exact ht) (by show j + 1 < L.W.nc + 1; omega), if_neg (by omega), Nat.add_sub_cancel, Mat.map_f' (by exact ht) (by exact hj)]
        unfold Spec.pre
        rw [Mat.of_f' ht hj, hin 0 (by omega), sum_eq_zero, add_zero, h0]
        intro c hc
        rw [hin (c + 1) (by have := mem_range.1 hc; omega), mul_zero]
      rw [this, zero_mul]

theorem sleep_all : ∀ {Hs : List Layer} {o : Layer} {x D : Mat ℝ} {p q : Nat}, Spec.Fits p ((Hs ++ [o]).map (·.W)) q → x.nc = p → D.nr = x.nr → D.nc = q → ∀ {l : Nat} {A B : Layer},
    (bwdNet (fwdL Hs x) (o.fwd (outL Hs x)) D)[l]? = some A → (bwdNet (fwdL Hs x) (o.fwd (outL Hs x)) D)[l + 1]? = some B → Sleep A B
  | [], o, x, D, p, q, _, _, _, _, l, A, B, _, hB => by simp [bwdNet, fwdL, bwdL] at hB
  | L :: Ls, o, x, D, p, q, hf, hx, h1, h2, l, A, B, hA, hB => by
    have hb : bwdNet (fwdL (L :: Ls) x) (o.fwd (outL (L :: Ls) x)) D =
      (L.fwd x).bwd (bwdL (fwdL Ls (L.fwd x).a) (Layer.backOf D o.W)).2 :: bwdNet (fwdL Ls (L.fwd x).a) (o.fwd (outL Ls (L.fwd x).a)) D := rfl
    rw [hb] at hA hB
    simp only [List.cons_append, List.map_cons, Spec.Fits] at hf
    cases l with
    | succ l => exact sleep_all (Hs := Ls) (o := o) (x := (L.fwd x).a) hf.2.2 rfl h1 h2 (by simpa using hA) (by simpa using hB)
    | zero =>
      simp only [List.getElem?_cons_zero, Option.some.injEq] at hA
      subst hA
      simp only [zero_add, List.getElem?_cons_succ] at hB
      cases Ls with
      | nil =>
        simp only [List.nil_append, List.map_cons, List.map_nil, Spec.Fits] at hf
        have : B = { o.fwd (L.fwd x).a with delta := D, grad := (o.fwd (L.fwd x).a).regGrad D } := by
          simpa [bwdNet, fwdL, bwdL, outL] using hB.symm
        subst this
        exact sleep_pair (M := o) (by omega) (by omega) h1 (by omega) rfl rfl rfl
      | cons M Ms =>
        simp only [List.cons_append, List.map_cons, Spec.Fits] at hf
        have hb2 : bwdNet (fwdL (M :: Ms) (L.fwd x).a) (o.fwd (outL (M :: Ms) (L.fwd x).a)) D =
          (M.fwd (L.fwd x).a).bwd (bwdL (fwdL Ms (M.fwd (L.fwd x).a).a) (Layer.backOf D o.W)).2 :: bwdNet (fwdL Ms (M.fwd (L.fwd x).a).a) (o.fwd (outL Ms (M.fwd (L.fwd x).a).a)) D := rfl
        rw [hb2] at hB
        simp only [List.getElem?_cons_zero, Option.some.injEq] at hB
        subst hB
        obtain ⟨r, g1, g2, g3⟩ : ∃ r, Spec.Fits M.W.nc (Ms.map (·.W)) r ∧ o.W.nr = r + 1 ∧ o.W.nc = q := by
          have := hf.2.2.2.2
          rw [List.map_append, fits_append] at this
          obtain ⟨r, g1, g2⟩ := this
          exact ⟨r, g1, g2.1, g2.2.2⟩
        obtain ⟨d1, d2⟩ := bwdL_dims (Ls := fwdL Ms (M.fwd (L.fwd x).a).a) (d := Layer.backOf D o.W) (m := x.nr) (p := M.W.nc) (q := r) (by rw [fwdL_W]; exact g1) (by show D.nr = x.nr; omega)
          (by show o.W.nr - 1 = r; omega)
        exact sleep_pair (M := M) (D := (M.fwd (L.fwd x).a).dz (bwdL (fwdL Ms (M.fwd (L.fwd x).a).a) (Layer.backOf D o.W)).2) (by omega) (by omega) d1 d2 rfl rfl rfl


namespace Spec

/-- Unit `j` of layer `l` (numbered from 0) has only zero weights: bias, incoming and outgoing. -/
def ZeroUnit (s : Store) (n : Net) (l j : Nat) : Prop := ∃ A B, (n.layers s)[l]? = some A ∧ (n.layers s)[l + 1]? = some B ∧ A.actfunc.act 0 = 0 ∧ j < A.W.nc ∧
  (∀ i < A.W.nr, A.W.f i j = 0) ∧ ∀ k < B.W.nc, B.W.f (j + 1) k = 0

end Spec

theorem sleep_step {junk : Nat → Nat → ℝ} {s : Store} {n : Net} {p q l j : Nat} {x y : Mat ℝ} (h : n.WF s p q) (hz : Spec.ZeroUnit s n l j)
    (hr : 0 < x.nr) (hc : x.nc = p) (hyr : y.nr = x.nr) (hyc : y.nc = q) (hd : OutputLayer.DeltaOK n.output.costd) :
    ∃ s1 n1, n.trainOn junk s x y = .ok (s1, n1) ∧ n1.WF s1 p q ∧ n1.output.costd = n.output.costd ∧ Spec.ZeroUnit s1 n1 l j := by
  obtain ⟨A0, B0, hA0, hB0, h0, hj, hin, hout⟩ := hz
  obtain ⟨d1, d2⟩ := outputZ_dims h hc
  obtain ⟨D, hD, hD1, hD2⟩ := hd y ((n.outputZ s x).map n.output.actfunc.act) (n.outputZ s x) (by rw [Mat.map_nr]; omega) (by rw [Mat.map_nc]; omega)
    (by omega) (by omega)
  obtain ⟨s1, n1, e1, b1, -, w1⟩ := trainOn_ok (junk := junk) h hr hc hD (by omega) (by omega)
  have hcore : (n.passed s x D).map Layer.core = (n.layers s).map Layer.core := bwdNet_core (n.hiddenLayers s) n.output.toLayer D x
  have key : ∀ {i : Nat} {C : Layer}, (n.layers s)[i]? = some C → ∃ A, (n.passed s x D)[i]? = some A ∧ A.core = C.core := by
    intro i C hC
    have : ((n.passed s x D).map Layer.core)[i]? = some C.core := by rw [hcore, List.getElem?_map, hC]; rfl
    rw [List.getElem?_map, Option.map_eq_some_iff] at this
    exact this
  obtain ⟨A, hA, eA⟩ := key hA0
  obtain ⟨B, hB, eB⟩ := key hB0
  simp only [Layer.core, Prod.mk.injEq] at eA eB
  have hs : Sleep A B := sleep_all (Hs := n.hiddenLayers s) (o := n.output.toLayer) (x := x) (D := D) (p := p) (q := q) h.fits hc (by omega) (by omega) hA hB
  rw [← eA.2.2.1] at h0
  rw [← eA.2.2.2] at hj hin
  rw [← eB.2.2.2] at hout
  obtain ⟨g1, g2⟩ := hs h0 j hj hin hout
  refine ⟨s1, n1, e1, w1.wf, b1.conf.ocostd, A.upd, B.upd, ?_, ?_, h0, hj, fun i hi => ?_, fun k hk => ?_⟩
  · rw [b1.layers, List.getElem?_map, hA]; rfl
  · rw [b1.layers, List.getElem?_map, hB]; rfl
  · replace hi : i < A.W.nr := hi
    show (Mat.of A.W.nr A.W.nc (fun i j => A.W.f i j - A.lrate * A.grad.f i j)).f i j = 0
    rw [Mat.of_f' hi hj, hin i hi, g1 i hi, mul_zero, sub_zero]
  · replace hk : k < B.W.nc := hk
    show (Mat.of B.W.nr B.W.nc (fun i j => B.W.f i j - B.lrate * B.grad.f i j)).f (j + 1) k = 0
    by_cases hjr : j + 1 < B.W.nr
    · rw [Mat.of_f' hjr hk, hout k hk, g2 k hk, mul_zero, sub_zero]
    · exact Mat.out _ _ _ (fun h => hjr h.1)

/-- **C120** (units of zero weights never learn). In a well-formed dense network with any cost, let a unit of a hidden layer have bias, incoming and outgoing weights 0, and an activation with value 0 at 0. All
training, with any batches and labels, leaves all these weights 0. -/
theorem C120_asleep {junk : Nat → Nat → ℝ} {p q l j : Nat} : ∀ {bs : List (Mat ℝ × Mat ℝ)} {s : Store} {n : Net}, n.WF s p q → Spec.ZeroUnit s n l j →
    OutputLayer.DeltaOK n.output.costd → Spec.BatchesFit p q bs → ∃ s1 n1, Net.trainAll junk bs s n = .ok (s1, n1) ∧ n1.WF s1 p q ∧ Spec.ZeroUnit s1 n1 l j
  | [], s, n, h, hz, _, _ => ⟨s, n, rfl, h, hz⟩
  | (x, y) :: bs, s, n, h, hz, hd, hb => by
    obtain ⟨b1, b2, b3, b4⟩ := hb (x, y) (by simp)
    obtain ⟨s1, n1, e1, w1, e2, z1⟩ := sleep_step (junk := junk) h hz b1 b2 b3 b4 hd
    obtain ⟨s2, n2, f1, f2, f3⟩ := C120_asleep (bs := bs) (junk := junk) w1 z1 (by rw [e2]; exact hd) (fun c hc => hb c (by simp [hc]))
    refine ⟨s2, n2, ?_, f2, f3⟩
    simp only [Net.trainAll]
    rw [e1, ok_bind]; exact f1

/-- **C120** (activations). The activations of the library with value 0 at 0, and those without. -/
theorem C120_activations : (∀ f ∈ [Act.identity, Act.arctan, Act.tanhyperbolic, Act.bipolarsigmoid, Act.lecuntanh, Act.hardtanh, Act.relu, Act.absolute, Act.relusin], f.act 0 = 0) ∧
    ∀ f ∈ [Act.sigmoid, Act.comploglog, Act.smoothrelu, Act.relucos], f.act 0 ≠ 0 := by
  constructor
  · intro f hf
    simp only [List.mem_cons, List.not_mem_nil, or_false] at hf
    rcases hf with rfl | rfl | rfl | rfl | rfl | rfl | rfl | rfl | rfl
    · rfl
    · exact Real.arctan_zero
    · exact Real.tanh_zero
    · show 2 / (1 + Real.exp (-0)) - 1 = 0
      rw [neg_zero, Real.exp_zero]; norm_num
    · show 1.7159 * Real.tanh (2 / 3 * 0) = 0
      rw [mul_zero, Real.tanh_zero, mul_zero]
    · show max (-1) (min 1 (0 : ℝ)) = 0
      norm_num
    · show (if (0 : ℝ) ≥ 0 then (0 : ℝ) else 0) = 0
      simp
    · exact abs_zero
    · show max 0 (0 : ℝ) + Real.sin 0 = 0
      rw [Real.sin_zero]; norm_num
  · intro f hf
    simp only [List.mem_cons, List.not_mem_nil, or_false] at hf
    rcases hf with rfl | rfl | rfl | rfl
    · show 1 / (1 + Real.exp (-0)) ≠ 0
      have := Real.exp_pos (-0)
      positivity
    · show 1 - Real.exp (-Real.exp 0) ≠ 0
      have := Real.exp_lt_exp.2 (show -Real.exp 0 < 0 by have := Real.exp_pos 0; linarith)
      have h0 := Real.exp_zero
      linarith
    · show Real.log (1 + Real.exp 0) ≠ 0
      exact (Real.log_pos (by have := Real.exp_pos 0; linarith)).ne'
    · show max 0 (0 : ℝ) + Real.cos 0 ≠ 0
      rw [Real.cos_zero]; norm_num

/-! ## Cases of the hypotheses -/

/-- Units 0 and 1 are equal, unit 2 has a bias but no incoming weights. -/
def bigV : Mat ℝ := Mat.of 3 3 (fun i j => if j < 2 then (i : ℝ) + 1 else if i = 0 then 5 else 0)
/-- The weights out of these units. -/
def bigW : Mat ℝ := Mat.of 4 2 (fun i j => (i : ℝ) + j)
/-- One unit is left. -/
def smallV : Mat ℝ := Mat.of 3 1 (fun i _ => (i : ℝ) + 1)
/-- Its weights. -/
def smallW : Mat ℝ := Mat.of 2 2 (fun i j => if i = 0 then bigW.f 0 j + Act.sigmoid.act 5 * bigW.f 3 j else bigW.f 1 j + bigW.f 2 j)

/-- The network of the examples with these weights. -/
def pruneNet (W : Mat ℝ) : Net := { exNet with output := { exNet.output with W := W } }

theorem prune_ex : Spec.Pruned Act.sigmoid.act (fun j => if j < 2 then some 0 else none) bigV bigW smallV smallW := by
  refine ⟨rfl, rfl, rfl, fun j hj i hg => ?_, fun j hj hg => ?_, fun i hi k hk => ?_, fun k hk => ?_⟩
  · replace hj : j < 3 := hj
    by_cases h2 : j < 2
    · rw [if_pos h2] at hg
      cases hg
      refine ⟨by show 0 < 1; omega, fun r hr => ?_⟩
      replace hr : r < 3 := hr
      unfold bigV smallV
      rw [Mat.of_f' hr hj, Mat.of_f' hr (by omega), if_pos h2]
    · rw [if_neg h2] at hg; cases hg
  · replace hj : j < 3 := hj
    by_cases h2 : j < 2
    · rw [if_pos h2] at hg; cases hg
    · refine Or.inr fun r hr h0 => ?_
      replace hr : r < 3 := hr
      unfold bigV
      rw [Mat.of_f' hr hj, if_neg h2, if_neg (by omega)]
  · replace hi : i < 1 := hi
    replace hk : k < 2 := hk
    obtain rfl : i = 0 := by omega
    have : (range bigV.nc).filter (fun j => (if j < 2 then some 0 else none) = some 0) = {0, 1} := by
      show (range 3).filter _ = _
      decide
    rw [this, sum_pair (by omega)]
    unfold smallW
    rw [Mat.of_f' (by omega) hk, if_neg (by omega)]
  · replace hk : k < 2 := hk
    have : (range bigV.nc).filter (fun j => (if j < 2 then some 0 else none : Option Nat) = none) = {2} := by
      show (range 3).filter _ = _
      decide
    rw [this, sum_singleton]
    have e : bigV.f 0 2 = 5 := by
      unfold bigV
      rw [Mat.of_f' (by omega) (by omega)]
      norm_num
    rw [e]
    unfold smallW
    rw [Mat.of_f' (by omega) hk, if_pos rfl]

example := C120_remove (n := pruneNet bigW) (m := pruneNet smallW) (s := fun _ => ⟨exLayer Act.sigmoid bigV, .dense⟩) (s1 := fun _ => ⟨exLayer Act.sigmoid smallV, .dense⟩) (p := 2) (q := 2)
  (pre := []) (post := []) (b := Act.identity.act) ⟨by simp [pruneNet, exNet], fun _ _ => rfl, by omega, by simp [Net.layers, Net.hiddenLayers, pruneNet, exNet, exLayer, bigV, bigW, Spec.Fits]⟩
  rfl rfl (by simp [pruneNet, exNet]) (fun _ _ => rfl) (by show 0 < 1; omega) prune_ex

/-- Training from zero weights: no hidden unit with such an activation ever learns anything. -/
example (junk : Nat → Nat → ℝ) (t : Nat) (j : Nat) (hj : j < 3) := C120_asleep (junk := junk) (n := pruneNet (Mat.of 4 2 (fun _ _ => 0))) (s := fun _ => ⟨exLayer Act.tanhyperbolic (Mat.of 3 3 (fun _ _ => 0)), .dense⟩)
  (p := 2) (q := 2) (l := 0) (j := j) (bs := List.replicate t (exX, exY)) ⟨by simp [pruneNet, exNet], fun _ _ => rfl, by omega, by simp [Net.layers, Net.hiddenLayers, pruneNet, exNet, exLayer, Spec.Fits]⟩
  ⟨_, _, rfl, rfl, C120_activations.1 Act.tanhyperbolic (by simp), hj, fun i hi => by
      show (Mat.of 3 3 (fun _ _ => (0 : ℝ))).f i j = 0
      rw [Mat.of_f' (by exact hi) hj], fun k hk => by
      show (Mat.of 4 2 (fun _ _ => (0 : ℝ))).f (j + 1) k = 0
      rw [Mat.of_f' (by omega) (by exact hk)]⟩ C54_costs.1
  (fun b hb => by rw [List.eq_of_mem_replicate hb]; exact ⟨by show 0 < 5; omega, rfl, rfl, rfl⟩)

end
end Nnet.NN
