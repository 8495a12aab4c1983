import Verif.NN.PropsRelabel
/-!
# C109: a common offset of the output weights of a softmax network
-/
namespace Nnet.NN
open Finset
noncomputable section

/-! ## Specification -/

/-- `W'` is `W` with the number `v i` added to every entry of row `i`: the weights of all classes are moved by the same vector `v`. -/
structure Spec.Offset (v : Nat → ℝ) (W W' : Mat ℝ) : Prop where
  nr : W'.nr = W.nr
  nc : W'.nc = W.nc
  at' : ∀ i < W.nr, ∀ j < W.nc, W'.f i j = W.f i j + v i

/-- The labels of each sample add up to one, as with one class per sample. -/
def Spec.RowsAddToOne (y : Mat ℝ) : Prop := ∀ i < y.nr, ∑ j ∈ range y.nc, y.f i j = 1

/-! ## Lemmas -/

theorem model_split {s : Store} {n : Net} {hs : List (ℝ × ℝ × ActFunc ℝ × Mat ℝ)} {lr la : ℝ} {f : ActFunc ℝ} {W : Mat ℝ} (h : Spec.model s n = hs ++ [(lr, la, f, W)]) :
    (n.hiddenLayers s).map Layer.core = hs ∧ n.output.lrate = lr ∧ n.output.lambda = la ∧ n.output.actfunc = f ∧ n.output.W = W := by
  have e : (n.layers s).map Layer.core = hs ++ [(lr, la, f, W)] := h
  unfold Net.layers at e
  rw [List.map_append] at e
  obtain ⟨h1, h2⟩ := List.append_inj' e rfl
  have h3 := List.singleton_injective h2
  simp only [Layer.core, Prod.mk.injEq] at h3
  exact ⟨h1, h3.1, h3.2.1, h3.2.2.1, h3.2.2.2⟩

theorem pre_offset {v : Nat → ℝ} {W W' x : Mat ℝ} (h : Spec.Offset v W W') (hW : W.nr = x.nc + 1) {i j : Nat} (hi : i < x.nr) (hj : j < W.nc) :
    (Spec.pre W' x).f i j = (Spec.pre W x).f i j + (v 0 + ∑ k ∈ range x.nc, x.f i k * v (k + 1)) := by
  unfold Spec.pre
  rw [Mat.of_f' hi (by rw [h.nc]; exact hj), Mat.of_f' hi hj, h.at' 0 (by omega) j hj]
  have : ∀ k ∈ range x.nc, x.f i k * W'.f (k + 1) j = x.f i k * W.f (k + 1) j + x.f i k * v (k + 1) := by
    intro k hk
    rw [h.at' (k + 1) (by have := mem_range.1 hk; omega) j hj]
    ring
  rw [sum_congr rfl this, sum_add_distrib]
  ring

theorem softmaxAt_offset {a b : Mat ℝ} {i j : Nat} {t : ℝ} (hn : b.nc = a.nc) (hj : j < a.nc) (h : ∀ k < a.nc, b.f i k = a.f i k + t) : Spec.softmaxAt b i j = Spec.softmaxAt a i j := by
  unfold Spec.softmaxAt
  have e : ∀ k ∈ range a.nc, Real.exp (b.f i k) = Real.exp (a.f i k) * Real.exp t := fun k hk => by rw [h k (mem_range.1 hk), Real.exp_add]
  rw [hn, sum_congr rfl e, h j hj, Real.exp_add, ← sum_mul]
  have := Real.exp_pos t
  field_simp

theorem softmaxAt_sum {a : Mat ℝ} (i : Nat) (h : 0 < a.nc) : ∑ j ∈ range a.nc, Spec.softmaxAt a i j = 1 := by
  unfold Spec.softmaxAt
  rw [← sum_div]
  exact div_self (sum_pos (fun k _ => Real.exp_pos _) ⟨0, mem_range.2 h⟩).ne'

theorem outputZ_offset {s s' : Store} {n n' : Net} {p q : Nat} {hs : List (ℝ × ℝ × ActFunc ℝ × Mat ℝ)} {lr la : ℝ} {f : ActFunc ℝ} {W W' : Mat ℝ} {v : Nat → ℝ} (h : n.WF s p q)
    (hm : Spec.model s n = hs ++ [(lr, la, f, W)]) (hm' : Spec.model s' n' = hs ++ [(lr, la, f, W')]) (ho : Spec.Offset v W W') {x : Mat ℝ} (hc : x.nc = p) :
    ∃ t : Nat → ℝ, (n'.outputZ s' x).nr = x.nr ∧ (n'.outputZ s' x).nc = q ∧ ∀ i < x.nr, ∀ j < q, (n'.outputZ s' x).f i j = (n.outputZ s x).f i j + t i := by
  obtain ⟨c1, -, -, -, c5⟩ := model_split hm
  obtain ⟨c1', -, -, -, c5'⟩ := model_split hm'
  obtain ⟨r, f1, f2, f3, f4⟩ := h.split
  have hd0 := outL_dims (Ls := n.hiddenLayers s) (x := x) (q := r) (by rw [hc]; exact f1)
  have hx : outL (n'.hiddenLayers s') x = outL (n.hiddenLayers s) x := outL_congr x (c1'.trans c1.symm)
  refine ⟨fun i => v 0 + ∑ k ∈ range (outL (n.hiddenLayers s) x).nc, (outL (n.hiddenLayers s) x).f i k * v (k + 1), ?_, ?_, fun i hi j hj => ?_⟩
  · rw [outputZ_eq, hx]; exact hd0.1
  · rw [outputZ_eq, c5']; exact ho.nc.trans (by rw [← c5]; exact f4)
  · rw [outputZ_eq, outputZ_eq, hx, c5, c5', pre_offset ho (by rw [← c5, hd0.2]; exact f2) (by rw [hd0.1]; exact hi) (by rw [← c5, f4]; exact hj)]

theorem passed_upd_core (s : Store) (n : Net) (x D : Mat ℝ) : ((n.passed s x D).map Layer.upd).map Layer.core =
    (((bwdL (fwdL (n.hiddenLayers s) x) (Layer.backOf D n.output.W)).1).map Layer.upd).map Layer.core ++ [(n.output.lrate, n.output.lambda, n.output.actfunc,
      Mat.of n.output.W.nr n.output.W.nc (fun i j => n.output.W.f i j - n.output.lrate * ((Layer.gradOf (ones1 (outL (n.hiddenLayers s) x)) D).f i j + n.output.lambda * n.output.W.f i j)))] := by
  unfold Net.passed bwdNet
  rw [List.map_append, List.map_append]
  congr 1
  simp only [List.map_cons, List.map_nil]
  have e : (Layer.upd { n.output.toLayer.fwd (outL (n.hiddenLayers s) x) with delta := D, grad := (n.output.toLayer.fwd (outL (n.hiddenLayers s) x)).regGrad D }).W =
      Mat.of n.output.W.nr n.output.W.nc (fun i j => n.output.W.f i j - n.output.lrate * ((Layer.gradOf (ones1 (outL (n.hiddenLayers s) x)) D).f i j + n.output.lambda * n.output.W.f i j)) := by
    refine Mat.ext' rfl rfl fun i j hi hj => ?_
    replace hi : i < n.output.W.nr := hi
    replace hj : j < n.output.W.nc := hj
    show (Mat.of n.output.W.nr n.output.W.nc (fun i j => n.output.W.f i j - n.output.lrate * ((n.output.toLayer.fwd (outL (n.hiddenLayers s) x)).regGrad D).f i j)).f i j = _
    rw [Mat.of_f' hi hj, Mat.of_f' hi hj]
    unfold Layer.regGrad
    rw [Mat.of_f' (by exact hi) (by exact hj)]
    rfl
  rw [← e]
  rfl

/-- One training step from softmax networks that differ by an offset. -/
theorem step_offset {junk junk' : Nat → Nat → ℝ} {s s' : Store} {n n' : Net} {p q : Nat} {x y : Mat ℝ} {hs : List (ℝ × ℝ × ActFunc ℝ × Mat ℝ)} {lr la : ℝ} {f : ActFunc ℝ} {W W' : Mat ℝ} {v : Nat → ℝ}
    (h : n.WF s p q) (h' : n'.WF s' p q) (hm : Spec.model s n = hs ++ [(lr, la, f, W)]) (hm' : Spec.model s' n' = hs ++ [(lr, la, f, W')]) (ho : Spec.Offset v W W') (hf : ∀ z, f.act z = z)
    (hs1 : n.output.costd = Softmax.costd) (hs2 : n'.output.costd = Softmax.costd) (hr : 0 < x.nr) (hc : x.nc = p) (hyr : y.nr = x.nr) (hyc : y.nc = q) (hy : Spec.RowsAddToOne y) :
    ∃ s1 n1 s2 n2 hs1 V V', n.trainOn junk s x y = .ok (s1, n1) ∧ n'.trainOn junk' s' x y = .ok (s2, n2) ∧ Spec.model s1 n1 = hs1 ++ [(lr, la, f, V)] ∧ Spec.model s2 n2 = hs1 ++ [(lr, la, f, V')] ∧
      Spec.Offset (fun i => (1 - lr * la) * v i) V V' ∧ n1.WF s1 p q ∧ n2.WF s2 p q ∧ n1.output.costd = Softmax.costd ∧ n2.output.costd = Softmax.costd ∧ n1.cost = n.cost ∧ n2.cost = n'.cost ∧
      V.nc = q ∧ V.nr = W.nr ∧ ∀ i < W.nr, ∑ j ∈ range q, V.f i j = (1 - lr * la) * ∑ j ∈ range q, W.f i j := by
  obtain ⟨c1, c2, c3, c4, c5⟩ := model_split hm
  obtain ⟨c1', c2', c3', c4', c5'⟩ := model_split hm'
  obtain ⟨d1, d2⟩ := outputZ_dims h hc
  obtain ⟨r, f1, f2, f3, f4⟩ := h.split
  have hd0 := outL_dims (Ls := n.hiddenLayers s) (x := x) (q := r) (by rw [hc]; exact f1)
  obtain ⟨t, t1, t2, t3⟩ := outputZ_offset h hm hm' ho hc
  have hx : outL (n'.hiddenLayers s') x = outL (n.hiddenLayers s) x := outL_congr x (c1'.trans c1.symm)
  have hmap : ∀ m : Mat ℝ, m.map f.act = m := fun m => Mat.ext' rfl rfl fun i j hi hj => by rw [Mat.map_f' (by exact hi) (by exact hj), hf]
  have hq : 0 < q := by rw [← f4]; exact f3
  obtain ⟨D, hDd⟩ : ∃ D, D = Mat.of x.nr q (fun i j => (Spec.softmaxAt (n.outputZ s x) i j - y.f i j) / y.nr) := ⟨_, rfl⟩
  have hD : n.deltaOn s x y = .ok D := by
    unfold Net.deltaOn
    rw [hs1, c4, hmap, softmax_costd (by omega) (by omega), d1, d2, hDd]
  have hD' : n'.deltaOn s' x y = .ok D := by
    unfold Net.deltaOn
    rw [hs2, c4', hmap, softmax_costd (by omega) (by omega), t1, t2, hDd]
    congr 1
    refine Mat.ext' rfl rfl fun i j hi hj => ?_
    rw [Mat.of_f' (by exact hi) (by exact hj), Mat.of_f' (by exact hi) (by exact hj), softmaxAt_offset (by omega) (by rw [d2]; exact hj) (fun k hk => t3 i hi k (by omega))]
  have hDr : D.nr = x.nr := by rw [hDd]; rfl
  have hDc : D.nc = q := by rw [hDd]; rfl
  have hsum : ∀ i < x.nr, ∑ j ∈ range q, D.f i j = 0 := by
    intro i hi
    have e : ∀ j ∈ range q, D.f i j = (Spec.softmaxAt (n.outputZ s x) i j - y.f i j) / y.nr := fun j hj => by rw [hDd, Mat.of_f' hi (mem_range.1 hj)]
    rw [sum_congr rfl e, ← sum_div, sum_sub_distrib]
    have e1 := softmaxAt_sum (a := n.outputZ s x) i (by omega)
    rw [d2] at e1
    have e2 := hy i (by omega)
    rw [hyc] at e2
    rw [e1, e2, sub_self, zero_div]
  have hback : Layer.backOf D W' = Layer.backOf D W := by
    unfold Layer.backOf
    rw [ho.nr]
    refine Mat.ext' rfl rfl fun i k hi hk => ?_
    replace hi : i < x.nr := by rw [← hDr]; exact hi
    replace hk : k < W.nr - 1 := hk
    rw [Mat.of_f' (by omega) hk, Mat.of_f' (by omega) hk, hDc]
    have e : ∀ j ∈ range q, D.f i j * W'.f (k + 1) j = D.f i j * W.f (k + 1) j + D.f i j * v (k + 1) := by
      intro j hj
      rw [ho.at' (k + 1) (by omega) j (by rw [← c5, f4]; exact mem_range.1 hj)]
      ring
    rw [sum_congr rfl e, sum_add_distrib, ← sum_mul, hsum i hi, zero_mul, add_zero]
  obtain ⟨s1, n1, e1, b1, -, w1⟩ := trainOn_ok (junk := junk) h hr hc hD hDr hDc
  obtain ⟨s2, n2, e2, b2, -, w2⟩ := trainOn_ok (junk := junk') h' hr hc hD' hDr hDc
  have m1 : Spec.model s1 n1 = ((n.passed s x D).map Layer.upd).map Layer.core := by
    show (n1.layers s1).map Layer.core = _
    rw [b1.layers]
  have m2 : Spec.model s2 n2 = ((n'.passed s' x D).map Layer.upd).map Layer.core := by
    show (n2.layers s2).map Layer.core = _
    rw [b2.layers]
  have hWn : W.nc = q := by rw [← c5]; exact f4
  have hWr : W.nr = r + 1 := by rw [← c5]; exact f2
  refine ⟨s1, n1, s2, n2, (((bwdL (fwdL (n.hiddenLayers s) x) (Layer.backOf D W)).1).map Layer.upd).map Layer.core,
    Mat.of W.nr W.nc (fun i j => W.f i j - lr * ((Layer.gradOf (ones1 (outL (n.hiddenLayers s) x)) D).f i j + la * W.f i j)),
    Mat.of W'.nr W'.nc (fun i j => W'.f i j - lr * ((Layer.gradOf (ones1 (outL (n.hiddenLayers s) x)) D).f i j + la * W'.f i j)), e1, e2, ?_, ?_, ?_, w1.wf, w2.wf, ?_, ?_, b1.conf.cost, b2.conf.cost, ?_, rfl, ?_⟩
  · rw [m1, passed_upd_core, c2, c3, c4, c5]
  · rw [m2, passed_upd_core, c2', c3', c4', c5', hback, bwdL_congr _ _ (c1'.trans c1.symm), hx]
  · refine ⟨ho.nr, ho.nc, fun i hi j hj => ?_⟩
    replace hi : i < W.nr := hi
    replace hj : j < W.nc := hj
    rw [Mat.of_f' (by rw [ho.nr]; exact hi) (by rw [ho.nc]; exact hj), Mat.of_f' hi hj, ho.at' i hi j hj]
    ring
  · rw [b1.conf.ocostd, hs1]
  · rw [b2.conf.ocostd, hs2]
  · exact hWn
  · intro i hi
    have e : ∀ j ∈ range q, (Mat.of W.nr W.nc (fun i j => W.f i j - lr * ((Layer.gradOf (ones1 (outL (n.hiddenLayers s) x)) D).f i j + la * W.f i j))).f i j =
        (1 - lr * la) * W.f i j - lr * ∑ t ∈ range x.nr, (ones1 (outL (n.hiddenLayers s) x)).f t i * D.f t j := by
      intro j hj
      have hj := mem_range.1 hj
      rw [Mat.of_f' hi (by omega)]
      unfold Layer.gradOf
      rw [Mat.of_f' (by show i < (outL (n.hiddenLayers s) x).nc + 1; omega) (by omega), show (ones1 (outL (n.hiddenLayers s) x)).nr = x.nr from hd0.1]
      ring
    rw [sum_congr rfl e, sum_sub_distrib, ← mul_sum, ← mul_sum, sum_comm]
    rw [sum_eq_zero (s := range x.nr) fun t ht => by rw [← mul_sum, hsum t (mem_range.1 ht), mul_zero], mul_zero, sub_zero]

theorem train_offset {junk junk' : Nat → Nat → ℝ} {p q : Nat} {lr la : ℝ} {f : ActFunc ℝ} (hf : ∀ z, f.act z = z) :
    ∀ {bs : List (Mat ℝ × Mat ℝ)} {s s' : Store} {n n' : Net} {hs : List (ℝ × ℝ × ActFunc ℝ × Mat ℝ)} {W W' : Mat ℝ} {v : Nat → ℝ}, n.WF s p q → n'.WF s' p q →
    Spec.model s n = hs ++ [(lr, la, f, W)] → Spec.model s' n' = hs ++ [(lr, la, f, W')] → Spec.Offset v W W' → n.output.costd = Softmax.costd → n'.output.costd = Softmax.costd →
    Spec.BatchesFit p q bs → (∀ b ∈ bs, Spec.RowsAddToOne b.2) →
    ∃ s1 n1 s2 n2 hs1 V V', Net.trainAll junk bs s n = .ok (s1, n1) ∧ Net.trainAll junk' bs s' n' = .ok (s2, n2) ∧ Spec.model s1 n1 = hs1 ++ [(lr, la, f, V)] ∧
      Spec.model s2 n2 = hs1 ++ [(lr, la, f, V')] ∧ Spec.Offset (fun i => (1 - lr * la) ^ bs.length * v i) V V' ∧ n1.WF s1 p q ∧ n2.WF s2 p q ∧ n1.cost = n.cost ∧ n2.cost = n'.cost ∧
      V.nr = W.nr ∧ ∀ i < W.nr, ∑ j ∈ range q, V.f i j = (1 - lr * la) ^ bs.length * ∑ j ∈ range q, W.f i j
  | [], s, s', n, n', hs, W, W', v, h, h', hm, hm', ho, _, _, _, _ =>
    ⟨s, n, s', n', hs, W, W', rfl, rfl, hm, hm', by simpa using ho, h, h', rfl, rfl, rfl, fun i _ => by simp⟩
  | (x, y) :: bs, s, s', n, n', hs, W, W', v, h, h', hm, hm', ho, g1, g2, hb, hy => by
    obtain ⟨b1, b2, b3, b4⟩ := hb (x, y) (by simp)
    obtain ⟨s1, n1, s2, n2, hs1, V, V', e1, e2, e3, e4, e5, e6, e7, e8, e9, e10, e11, -, e13, e14⟩ :=
      step_offset (junk := junk) (junk' := junk') h h' hm hm' ho hf g1 g2 b1 b2 b3 b4 (hy (x, y) (by simp))
    obtain ⟨s3, n3, s4, n4, hs3, U, U', i1, i2, i3, i4, i5, i6, i7, i8, i9, i10, i11⟩ := train_offset (junk := junk) (junk' := junk') hf (bs := bs) e6 e7 e3 e4 e5 e8 e9
      (fun c hc => hb c (by simp [hc])) (fun c hc => hy c (by simp [hc]))
    refine ⟨s3, n3, s4, n4, hs3, U, U', ?_, ?_, i3, i4, ?_, i6, i7, i8.trans e10, i9.trans e11, i10.trans e13, fun i hi => ?_⟩
    · simp only [Net.trainAll]
      rw [e1, ok_bind]; exact i1
    · simp only [Net.trainAll]
      rw [e2, ok_bind]; exact i2
    · have : (fun i => (1 - lr * la) ^ ((x, y) :: bs).length * v i) = fun i => (1 - lr * la) ^ bs.length * ((1 - lr * la) * v i) := by
        funext i
        rw [List.length_cons, pow_succ]
        ring
      rw [this]
      exact i5
    · rw [i11 i (by omega), e14 i hi, List.length_cons, pow_succ]
      ring

theorem firstMax_unique {u w : Nat → ℝ} {q k l : Nat} {t : ℝ} (h : ∀ j < q, w j = u j + t) (hk : Spec.FirstMax u q k) (hl : Spec.FirstMax w q l) : l = k := by
  obtain ⟨k1, k2, k3⟩ := hk
  obtain ⟨l1, l2, l3⟩ := hl
  rcases lt_trichotomy l k with hlt | rfl | hlt
  · have a := k3 l hlt
    have b := l2 k k1
    rw [h _ k1, h _ l1] at b
    linarith
  · rfl
  · have a := l3 k hlt
    have b := k2 l l1
    rw [h _ k1, h _ l1] at a
    linarith

theorem out_z {s : Store} {n : Net} (x : Mat ℝ) (hf : ∀ z, n.output.actfunc.act z = z) : outL (n.layers s) x = n.outputZ s x := by
  unfold Net.layers
  rw [outL_append, outputZ_eq]
  show (Spec.pre n.output.W (outL (n.hiddenLayers s) x)).map n.output.actfunc.act = _
  exact Mat.ext' rfl rfl fun i j hi hj => by rw [Mat.map_f' (by exact hi) (by exact hj), hf]

/-! ## C109 -/

/-- **C109** (offset). Take two well-formed dense networks with softmax outputs that differ only in the weights of the output, by the same vector `v` for all classes. Train both on the same batches,
with any regularisation, labels adding up to one for each sample. Their hidden weights stay equal and the output weights still differ by a common vector, `v` times `(1 - rate * lambda)` for each batch;
both predict the same classes for every input, and report the same cost for all labels. -/
theorem C109_offset {junk junk' : Nat → Nat → ℝ} {p q : Nat} {lr la : ℝ} {f : ActFunc ℝ} {bs : List (Mat ℝ × Mat ℝ)} {s s' : Store} {n n' : Net} {hs : List (ℝ × ℝ × ActFunc ℝ × Mat ℝ)} {W W' : Mat ℝ}
    {v : Nat → ℝ} (h : n.WF s p q) (h' : n'.WF s' p q) (hm : Spec.model s n = hs ++ [(lr, la, f, W)]) (hm' : Spec.model s' n' = hs ++ [(lr, la, f, W')]) (ho : Spec.Offset v W W') (hf : ∀ z, f.act z = z)
    (hd : n.output.costd = Softmax.costd) (hd' : n'.output.costd = Softmax.costd) (hk : n.cost = Softmax.cost) (hk' : n'.cost = Softmax.cost) (hb : Spec.BatchesFit p q bs)
    (hy : ∀ b ∈ bs, Spec.RowsAddToOne b.2) :
    ∃ s1 n1 s2 n2 hs1 V V', Net.trainAll junk bs s n = .ok (s1, n1) ∧ Net.trainAll junk' bs s' n' = .ok (s2, n2) ∧ Spec.model s1 n1 = hs1 ++ [(lr, la, f, V)] ∧
      Spec.model s2 n2 = hs1 ++ [(lr, la, f, V')] ∧ Spec.Offset (fun i => (1 - lr * la) ^ bs.length * v i) V V' ∧
      ∀ x : Mat ℝ, 0 < x.nr → x.nc = p →
        (∃ R t1 m1 R' t2 m2, n1.predict junk s1 x = .ok (R, t1, m1) ∧ n2.predict junk' s2 x = .ok (R', t2, m2) ∧ ∀ i < x.nr, R'.f i 0 = R.f i 0) ∧
        ∀ y : Mat ℝ, y.nr = x.nr → y.nc = q → ∃ J, n1.costOf junk s1 x y = .ok J ∧ n2.costOf junk' s2 x y = .ok J := by
  obtain ⟨s1, n1, s2, n2, hs1, V, V', e1, e2, e3, e4, e5, e6, e7, e8, e9, -, -⟩ := train_offset (junk := junk) (junk' := junk') hf h h' hm hm' ho hd hd' hb hy
  refine ⟨s1, n1, s2, n2, hs1, V, V', e1, e2, e3, e4, e5, fun x hr hc => ?_⟩
  have a1 : n1.output.actfunc = f := (model_split e3).2.2.2.1
  have a2 : n2.output.actfunc = f := (model_split e4).2.2.2.1
  obtain ⟨t, t1, t2, t3⟩ := outputZ_offset e6 e3 e4 e5 hc
  obtain ⟨d1, d2⟩ := outputZ_dims e6 hc
  have o1 := out_z (s := s1) (n := n1) x (by rw [a1]; exact hf)
  have o2 := out_z (s := s2) (n := n2) x (by rw [a2]; exact hf)
  constructor
  · obtain ⟨R, u1, v1, r1, r2, r3, r4, r5⟩ := C32_predict (junk := junk) e6 hr hc
    obtain ⟨R', u2, v2, r1', r2', r3', r4', r5'⟩ := C32_predict (junk := junk') e7 hr hc
    rw [show Spec.denseNet (n1.params s1) x = n1.outputZ s1 x from (outL_eq_denseNet _ _).symm.trans o1] at r5
    rw [show Spec.denseNet (n2.params s2) x = n2.outputZ s2 x from (outL_eq_denseNet _ _).symm.trans o2] at r5'
    refine ⟨R, u1, v1, R', u2, v2, r1, r1', fun i hi => ?_⟩
    obtain ⟨k, a1, -, a3⟩ := r5 i hi
    obtain ⟨k', b1, -, b3⟩ := r5' i hi
    rw [a1, b1, firstMax_unique (t := t i) (fun j hj => t3 i hi j hj) a3 b3]
  · intro y hyr hyc
    obtain ⟨w1, m1, g1, b1, -⟩ := Net.forwardprop_ok (junk := junk) e6 hr hc
    obtain ⟨w2, m2, g2, b2, -⟩ := Net.forwardprop_ok (junk := junk') e7 hr hc
    rw [o1] at g1
    rw [o2] at g2
    refine ⟨sumall (Mat.of y.nr y.nc (fun i j => -(y.f i j * Real.log (Spec.softmaxAt (n1.outputZ s1 x) i j)) / y.nr)), ?_, ?_⟩
    · unfold Net.costOf
      rw [g1, ok_bind]
      unfold Net.computecost
      simp only [b1.conf.cost, e8, hk, softmax_cost (y := y) (h := n1.outputZ s1 x) (by omega) (by omega), ok_bind]
    · unfold Net.costOf
      rw [g2, ok_bind]
      unfold Net.computecost
      simp only [b2.conf.cost, e9, hk', softmax_cost (y := y) (h := n2.outputZ s2 x) (by omega) (by omega), ok_bind]
      congr 2
      refine Mat.ext' rfl rfl fun i j hi hj => ?_
      replace hi : i < y.nr := hi
      replace hj : j < y.nc := hj
      rw [Mat.of_f' hi hj, Mat.of_f' hi hj, softmaxAt_offset (by omega) (by omega) (fun k hk => t3 i (by omega) k (by omega))]

/-- **C109** (sums). In training such a network the sum over the classes of the weights from each hidden unit, and of the biases, is multiplied by `1 - rate * lambda` for each batch. Without
regularisation it never changes. -/
theorem C109_sums {junk : Nat → Nat → ℝ} {p q : Nat} {lr la : ℝ} {f : ActFunc ℝ} {bs : List (Mat ℝ × Mat ℝ)} {s : Store} {n : Net} {hs : List (ℝ × ℝ × ActFunc ℝ × Mat ℝ)} {W : Mat ℝ}
    (h : n.WF s p q) (hm : Spec.model s n = hs ++ [(lr, la, f, W)]) (hf : ∀ z, f.act z = z) (hd : n.output.costd = Softmax.costd) (hb : Spec.BatchesFit p q bs) (hy : ∀ b ∈ bs, Spec.RowsAddToOne b.2) :
    ∃ s1 n1 hs1 V, Net.trainAll junk bs s n = .ok (s1, n1) ∧ Spec.model s1 n1 = hs1 ++ [(lr, la, f, V)] ∧
      ∀ i < W.nr, ∑ j ∈ range q, V.f i j = (1 - lr * la) ^ bs.length * ∑ j ∈ range q, W.f i j := by
  obtain ⟨s1, n1, s2, n2, hs1, V, V', e1, e2, e3, e4, e5, e6, e7, e8, e9, e10, e11⟩ := train_offset (junk := junk) (junk' := junk) (v := fun _ => 0) hf h h hm hm ⟨rfl, rfl, fun i _ j _ => (add_zero _).symm⟩ hd hd hb hy
  exact ⟨s1, n1, hs1, V, e1, e3, e11⟩

/-- **C109** (other labels). With labels of any kind, one step on a batch moves the sum of the biases by the rate times the amount by which the labels of a sample exceed one on average: so the sum
stays the same, for a non-zero rate, only if the labels of a sample add up to one on average. -/
theorem C109_labels {junk : Nat → Nat → ℝ} {p q : Nat} {lr : ℝ} {f : ActFunc ℝ} {s : Store} {n : Net} {hs : List (ℝ × ℝ × ActFunc ℝ × Mat ℝ)} {W x y : Mat ℝ}
    (h : n.WF s p q) (hm : Spec.model s n = hs ++ [(lr, 0, f, W)]) (hd : n.output.costd = Softmax.costd) (hr : 0 < x.nr) (hc : x.nc = p) (hyr : y.nr = x.nr) (hyc : y.nc = q) :
    ∃ s1 n1 hs1 V, n.trainOn junk s x y = .ok (s1, n1) ∧ Spec.model s1 n1 = hs1 ++ [(lr, 0, f, V)] ∧
      ∑ j ∈ range q, V.f 0 j = ∑ j ∈ range q, W.f 0 j + lr * ((∑ i ∈ range y.nr, ∑ j ∈ range q, y.f i j) / y.nr - 1) := by
  obtain ⟨c1, c2, c3, c4, c5⟩ := model_split hm
  obtain ⟨d1, d2⟩ := outputZ_dims h hc
  obtain ⟨r, f1, f2, f3, f4⟩ := h.split
  have hd0 := outL_dims (Ls := n.hiddenLayers s) (x := x) (q := r) (by rw [hc]; exact f1)
  have hq : 0 < q := by rw [← f4]; exact f3
  have hWn : W.nc = q := by rw [← c5]; exact f4
  have hWr : W.nr = r + 1 := by rw [← c5]; exact f2
  obtain ⟨a, ha⟩ : ∃ a, a = (n.outputZ s x).map n.output.actfunc.act := ⟨_, rfl⟩
  have ha1 : a.nr = x.nr := by rw [ha, Mat.map_nr]; exact d1
  have ha2 : a.nc = q := by rw [ha, Mat.map_nc]; exact d2
  have hD : n.deltaOn s x y = .ok (Mat.of a.nr a.nc (fun i j => (Spec.softmaxAt a i j - y.f i j) / y.nr)) := by
    unfold Net.deltaOn
    rw [hd, ← ha, softmax_costd (by omega) (by omega)]
  obtain ⟨s1, n1, e1, b1, -, w1⟩ := trainOn_ok (junk := junk) h hr hc hD ha1 ha2
  have m1 : Spec.model s1 n1 = ((n.passed s x (Mat.of a.nr a.nc (fun i j => (Spec.softmaxAt a i j - y.f i j) / y.nr))).map Layer.upd).map Layer.core := by
    show (n1.layers s1).map Layer.core = _
    rw [b1.layers]
  rw [passed_upd_core, c2, c3, c4, c5] at m1
  refine ⟨s1, n1, _, _, e1, m1, ?_⟩
  have e : ∀ j ∈ range q, (Mat.of W.nr W.nc (fun i j => W.f i j - lr * ((Layer.gradOf (ones1 (outL (n.hiddenLayers s) x)) (Mat.of a.nr a.nc (fun i j => (Spec.softmaxAt a i j - y.f i j) / y.nr))).f i j
      + 0 * W.f i j))).f 0 j = W.f 0 j - lr * ∑ t ∈ range x.nr, (Spec.softmaxAt a t j - y.f t j) / y.nr := by
    intro j hj
    have hj := mem_range.1 hj
    rw [Mat.of_f' (by omega) (by omega)]
    unfold Layer.gradOf
    rw [Mat.of_f' (by show 0 < (outL (n.hiddenLayers s) x).nc + 1; omega) (by show j < a.nc; omega), show (ones1 (outL (n.hiddenLayers s) x)).nr = x.nr from hd0.1, zero_mul, add_zero]
    congr 2
    refine sum_congr rfl fun t ht => ?_
    have ht := mem_range.1 ht
    unfold ones1
    rw [Mat.of_f' (by omega) (by omega), Mat.of_f' (by omega) (by omega), if_pos rfl, one_mul]
  rw [sum_congr rfl e, sum_sub_distrib, ← mul_sum, sum_comm]
  have e2 : ∀ t ∈ range x.nr, ∑ j ∈ range q, (Spec.softmaxAt a t j - y.f t j) / (y.nr : ℝ) = (1 - ∑ j ∈ range q, y.f t j) / y.nr := by
    intro t ht
    rw [← sum_div, sum_sub_distrib, ← ha2, softmaxAt_sum t (by omega)]
  have hp : (0 : ℝ) < x.nr := by exact_mod_cast hr
  rw [sum_congr rfl e2, ← sum_div, sum_sub_distrib, sum_const, card_range, nsmul_eq_mul, mul_one, hyr]
  field_simp
  ring

end
end Nnet.NN
