import Verif.NN.TrainLemmas
import Verif.NN.PropsCost
/-!
# C59: the order of the samples in a batch does not matter
-/
namespace Nnet.NN
open Finset
noncomputable section

/-! ## Specification -/

/-- The rows of `m` in another order: row `i` is row `π i` of `m`. -/
def Spec.reorder (m : Mat ℝ) (π : Equiv.Perm Nat) : Mat ℝ := Mat.of m.nr m.nc (fun i j => m.f (π i) j)

/-- `π` permutes the first `m` numbers. -/
def Spec.Permutes (π : Equiv.Perm Nat) (m : Nat) : Prop := ∀ i, i < m → π i < m

/-- `forwardprop(x); backprop(y); update()` for every batch in turn. -/
def Net.trainAll (junk : Nat → Nat → ℝ) : List (Mat ℝ × Mat ℝ) → Store → Net → Res (Store × Net)
  | [], s, n => .ok (s, n)
  | (x, y) :: bs, s, n => do
    let (s, n) ← n.trainOn junk s x y
    Net.trainAll junk bs s n

/-! ## Lemmas -/

open Spec

theorem reorder_f {m : Mat ℝ} {π : Equiv.Perm Nat} {i j : Nat} (hi : i < m.nr) (hj : j < m.nc) : (reorder m π).f i j = m.f (π i) j := Mat.of_f' hi hj

theorem Spec.Permutes.iff {π : Equiv.Perm Nat} {m : Nat} (h : Permutes π m) (i : Nat) : i < m ↔ π i < m := by
  refine ⟨h i, fun hi => ?_⟩
  have hs : (range m).image π = range m := by
    apply Finset.eq_of_subset_of_card_le
    · intro a ha
      obtain ⟨b, hb, rfl⟩ := mem_image.1 ha
      exact mem_range.2 (h b (mem_range.1 hb))
    · rw [card_image_of_injective _ π.injective]
  have : π i ∈ (range m).image π := by rw [hs]; exact mem_range.2 hi
  obtain ⟨b, hb, e⟩ := mem_image.1 this
  rw [← π.injective e]
  exact mem_range.1 hb

/-- A sum over the rows does not depend on their order. -/
theorem sum_reorder {π : Equiv.Perm Nat} {m : Nat} (h : Permutes π m) (g : Nat → ℝ) : ∑ i ∈ range m, g (π i) = ∑ i ∈ range m, g i :=
  Finset.sum_equiv π (fun i => by rw [mem_range, mem_range]; exact h.iff i) (fun _ _ => rfl)

theorem map_reorder {m : Mat ℝ} {π : Equiv.Perm Nat} (h : Permutes π m.nr) (g : ℝ → ℝ) : (reorder m π).map g = reorder (m.map g) π := by
  refine Mat.ext' rfl rfl fun a b ha hb => ?_
  replace ha : a < m.nr := ha
  replace hb : b < m.nc := hb
  rw [reorder_f (m := m.map g) (by exact ha) (by exact hb), Mat.map_f' (m := reorder m π) (by exact ha) (by exact hb), reorder_f ha hb, Mat.map_f' (m := m) (h a ha) hb]

theorem ones1_reorder {x : Mat ℝ} {π : Equiv.Perm Nat} (h : Permutes π x.nr) : ones1 (reorder x π) = reorder (ones1 x) π := by
  refine Mat.ext' rfl rfl fun a b ha hb => ?_
  replace ha : a < x.nr := ha
  replace hb : b < x.nc + 1 := hb
  rw [reorder_f (by exact ha) (by exact hb)]
  unfold ones1
  rw [Mat.of_f' (by exact ha) (by exact hb), Mat.of_f' (h a ha) hb]
  split
  · rfl
  · rw [reorder_f ha (by omega)]

theorem pre_reorder {W x : Mat ℝ} {π : Equiv.Perm Nat} (h : Permutes π x.nr) : Spec.pre W (reorder x π) = reorder (Spec.pre W x) π := by
  refine Mat.ext' rfl rfl fun a b ha hb => ?_
  replace ha : a < x.nr := ha
  replace hb : b < W.nc := hb
  rw [reorder_f (by exact ha) (by exact hb)]
  unfold Spec.pre
  rw [Mat.of_f' (by exact ha) (by exact hb), Mat.of_f' (h a ha) hb]
  congr 1
  refine sum_congr rfl fun k hk => ?_
  rw [reorder_f ha (by exact mem_range.1 hk)]

theorem fwd_a_reorder {L : Layer} {x : Mat ℝ} {π : Equiv.Perm Nat} (h : Permutes π x.nr) : (L.fwd (reorder x π)).a = reorder (L.fwd x).a π := by
  show (Spec.pre L.W (reorder x π)).map _ = reorder ((Spec.pre L.W x).map _) π
  rw [pre_reorder h, map_reorder (by exact h)]

theorem outL_reorder : ∀ (Ls : List Layer) {x : Mat ℝ} {π : Equiv.Perm Nat}, Permutes π x.nr → outL Ls (reorder x π) = reorder (outL Ls x) π
  | [], _, _, _ => rfl
  | L :: Ls, x, π, h => by
    show outL Ls (L.fwd (reorder x π)).a = reorder (outL Ls (L.fwd x).a) π
    rw [fwd_a_reorder h]
    exact outL_reorder Ls (x := (L.fwd x).a) h

theorem dz_reorder {L : Layer} {x d : Mat ℝ} {π : Equiv.Perm Nat} (h : Permutes π x.nr) (h1 : d.nr = x.nr) (h2 : d.nc = L.W.nc) :
    (L.fwd (reorder x π)).dz (reorder d π) = reorder ((L.fwd x).dz d) π := by
  refine Mat.ext' rfl rfl fun a b ha hb => ?_
  replace ha : a < d.nr := ha
  replace hb : b < d.nc := hb
  have hπ : π a < d.nr := by rw [h1] at ha ⊢; exact h a ha
  rw [reorder_f (by exact ha) (by exact hb)]
  unfold Layer.dz
  rw [Mat.of_f' (by exact ha) (by exact hb), Mat.of_f' hπ hb, reorder_f ha hb]
  show _ * L.actfunc.actd ((Spec.pre L.W (reorder x π)).f a b) = _ * L.actfunc.actd ((Spec.pre L.W x).f (π a) b)
  rw [pre_reorder h, reorder_f (by show a < x.nr; omega) (by show b < L.W.nc; omega)]

theorem backOf_reorder {D W : Mat ℝ} {π : Equiv.Perm Nat} (h : Permutes π D.nr) : Layer.backOf (reorder D π) W = reorder (Layer.backOf D W) π := by
  refine Mat.ext' rfl rfl fun a b ha hb => ?_
  replace ha : a < D.nr := ha
  replace hb : b < W.nr - 1 := hb
  rw [reorder_f (by exact ha) (by exact hb)]
  unfold Layer.backOf
  rw [Mat.of_f' (by exact ha) (by exact hb), Mat.of_f' (h a ha) hb]
  refine sum_congr rfl fun k hk => ?_
  rw [reorder_f ha (by exact mem_range.1 hk)]

theorem gradOf_reorder {pa D : Mat ℝ} {π : Equiv.Perm Nat} (h : Permutes π pa.nr) (hD : D.nr = pa.nr) : Layer.gradOf (reorder pa π) (reorder D π) = Layer.gradOf pa D := by
  refine Mat.ext' rfl rfl fun a b ha hb => ?_
  replace ha : a < pa.nc := ha
  replace hb : b < D.nc := hb
  unfold Layer.gradOf
  rw [Mat.of_f' (by exact ha) (by exact hb), Mat.of_f' ha hb, ← sum_reorder h]
  refine sum_congr rfl fun i hi => ?_
  have := mem_range.1 hi
  rw [reorder_f (by exact this) ha, reorder_f (by rw [hD]; exact this) hb]

/-- What matters of a layer for later training: rate, regularisation, activation, weights, and the gradient the update uses. -/
def Layer.gcore (L : Layer) : (ℝ × ℝ × ActFunc ℝ × Mat ℝ) × Mat ℝ := (L.core, L.grad)

theorem regGrad_reorder {L : Layer} {x D : Mat ℝ} {π : Equiv.Perm Nat} (h : Permutes π x.nr) (hD : D.nr = x.nr) :
    (L.fwd (reorder x π)).regGrad (reorder D π) = (L.fwd x).regGrad D := by
  unfold Layer.regGrad
  show Mat.of _ _ (fun i j => (Layer.gradOf (ones1 (reorder x π)) (reorder D π)).f i j + _) = _
  rw [ones1_reorder h, gradOf_reorder (pa := ones1 x) (by exact h) (by exact hD)]
  rfl

theorem bwdL_reorder : ∀ {Ls : List Layer} {x d : Mat ℝ} {q : Nat} {π : Equiv.Perm Nat}, Spec.Fits x.nc (Ls.map (·.W)) q → Permutes π x.nr → d.nr = x.nr → d.nc = q →
    (bwdL (fwdL Ls (reorder x π)) (reorder d π)).2 = reorder (bwdL (fwdL Ls x) d).2 π ∧
      (bwdL (fwdL Ls (reorder x π)) (reorder d π)).1.map Layer.gcore = (bwdL (fwdL Ls x) d).1.map Layer.gcore
  | [], _, _, _, _, _, _, _, _ => ⟨rfl, rfl⟩
  | L :: Ls, x, d, q, π, hf, hi, h1, h2 => by
    simp only [List.map_cons, Spec.Fits] at hf
    have ih := bwdL_reorder (Ls := Ls) (x := (L.fwd x).a) (d := d) (π := π) hf.2.2 hi h1 h2
    obtain ⟨hb1, hb2⟩ := bwdL_dims (Ls := fwdL Ls (L.fwd x).a) (d := d) (m := x.nr) (p := L.W.nc) (q := q) (by rw [fwdL_W]; exact hf.2.2) h1 h2
    constructor
    · show Layer.backOf ((L.fwd (reorder x π)).dz (bwdL (fwdL Ls (L.fwd (reorder x π)).a) (reorder d π)).2) L.W =
        reorder (Layer.backOf ((L.fwd x).dz (bwdL (fwdL Ls (L.fwd x).a) d).2) L.W) π
      rw [fwd_a_reorder hi, ih.1, dz_reorder hi hb1 hb2, backOf_reorder (by show Permutes π (bwdL _ _).2.nr; rw [hb1]; exact hi)]
    · show Layer.gcore ((L.fwd (reorder x π)).bwd (bwdL (fwdL Ls (L.fwd (reorder x π)).a) (reorder d π)).2) ::
          (bwdL (fwdL Ls (L.fwd (reorder x π)).a) (reorder d π)).1.map Layer.gcore =
        Layer.gcore ((L.fwd x).bwd (bwdL (fwdL Ls (L.fwd x).a) d).2) :: (bwdL (fwdL Ls (L.fwd x).a) d).1.map Layer.gcore
      rw [fwd_a_reorder hi, ih.2, ih.1]
      congr 1
      unfold Layer.gcore
      refine Prod.ext rfl ?_
      show (L.fwd (reorder x π)).regGrad _ = (L.fwd x).regGrad _
      rw [dz_reorder hi hb1 hb2, regGrad_reorder hi (by exact hb1)]

theorem rowMat_reorder {m : Mat ℝ} {π : Equiv.Perm Nat} {i : Nat} (hi : i < m.nr) : (reorder m π).rowMat i = m.rowMat (π i) := by
  unfold Mat.rowMat
  refine Mat.of_congr fun a b _ hb => ?_
  exact reorder_f hi hb

/-- An output that treats the rows separately does not care about their order. -/
theorem costd_reorder {costd : MatFuncD} (hd : Spec.RowMean costd) {y a z D : Mat ℝ} {π : Equiv.Perm Nat} (h : Permutes π y.nr) (h1 : a.nr = y.nr) (h2 : a.nc = y.nc) (h3 : z.nr = y.nr)
    (h4 : z.nc = y.nc) (hr : 0 < y.nr) (hD : costd y a z = .ok D) : costd (reorder y π) (reorder a π) (reorder z π) = .ok (reorder D π) := by
  obtain ⟨D1, e1, d1, d2, r1⟩ := hd y a z h1 h2 h3 h4 hr
  rw [hD] at e1
  cases e1
  obtain ⟨D2, e2, d3, d4, r2⟩ := hd (reorder y π) (reorder a π) (reorder z π) h1 h2 h3 h4 hr
  rw [e2]
  congr 1
  refine Mat.ext' (d3.trans d1.symm) (d4.trans d2.symm) fun i j hi hj => ?_
  replace hi : i < y.nr := by rw [d3] at hi; exact hi
  replace hj : j < y.nc := by rw [d4] at hj; exact hj
  have q1 := r2 i hi
  rw [rowMat_reorder hi, rowMat_reorder (by omega), rowMat_reorder (by omega), r1 (π i) (h i hi)] at q1
  have q2 := congrArg (fun m : Mat ℝ => m.f 0 j) (Except.ok.inj q1)
  rw [Mat.smul_f, Mat.smul_f, rowMat_f _ (by omega), rowMat_f _ (by rw [d4]; exact hj)] at q2
  rw [reorder_f (by omega) (by omega)]
  have hne : ((reorder y π).nr : ℝ) ≠ 0 := by
    have : (reorder y π).nr = y.nr := rfl
    rw [this]; exact_mod_cast hr.ne'
  exact (mul_left_cancel₀ hne q2).symm

/-- What matters of a network for later training. -/
def Net.core (s : Store) (n : Net) : List (ℝ × ℝ × ActFunc ℝ × Mat ℝ) × MatFuncD := ((n.layers s).map Layer.core, n.output.costd)

theorem fwd_congr {L M : Layer} (x : Mat ℝ) (h : L.core = M.core) : (L.fwd x).a = (M.fwd x).a ∧ (L.fwd x).pa = (M.fwd x).pa ∧ (L.fwd x).z = (M.fwd x).z ∧ (L.fwd x).core = (M.fwd x).core := by
  unfold Layer.core at h
  simp only [Prod.mk.injEq] at h
  obtain ⟨h1, h2, h3, h4⟩ := h
  unfold Layer.fwd Layer.core
  simp only [h1, h2, h3, h4, and_self]

theorem bwd_congr {L M : Layer} (x d : Mat ℝ) (h : L.core = M.core) : (L.fwd x).bwd d = (M.fwd x).bwd d ∧ (L.fwd x).dz d = (M.fwd x).dz d := by
  unfold Layer.core at h
  simp only [Prod.mk.injEq] at h
  obtain ⟨h1, h2, h3, h4⟩ := h
  unfold Layer.fwd Layer.bwd Layer.dz Layer.regGrad
  simp only [h1, h2, h3, h4, and_self]

theorem outL_congr : ∀ {Ls Ms : List Layer} (x : Mat ℝ), Ls.map Layer.core = Ms.map Layer.core → outL Ls x = outL Ms x
  | [], [], _, _ => rfl
  | [], _ :: _, _, h => by simp at h
  | _ :: _, [], _, h => by simp at h
  | L :: Ls, M :: Ms, x, h => by
    simp only [List.map_cons, List.cons.injEq] at h
    show outL Ls (L.fwd x).a = outL Ms (M.fwd x).a
    rw [(fwd_congr x h.1).1]
    exact outL_congr _ h.2

theorem bwdL_congr : ∀ {Ls Ms : List Layer} (x d : Mat ℝ), Ls.map Layer.core = Ms.map Layer.core → bwdL (fwdL Ls x) d = bwdL (fwdL Ms x) d
  | [], [], _, _, _ => rfl
  | [], _ :: _, _, _, h => by simp at h
  | _ :: _, [], _, _, h => by simp at h
  | L :: Ls, M :: Ms, x, d, h => by
    simp only [List.map_cons, List.cons.injEq] at h
    have hW : L.W = M.W := congrArg (fun c : ℝ × ℝ × ActFunc ℝ × Mat ℝ => c.2.2.2) h.1
    show ((L.fwd x).bwd (bwdL (fwdL Ls (L.fwd x).a) d).2 :: (bwdL (fwdL Ls (L.fwd x).a) d).1, Layer.backOf ((L.fwd x).dz (bwdL (fwdL Ls (L.fwd x).a) d).2) L.W) =
      ((M.fwd x).bwd (bwdL (fwdL Ms (M.fwd x).a) d).2 :: (bwdL (fwdL Ms (M.fwd x).a) d).1, Layer.backOf ((M.fwd x).dz (bwdL (fwdL Ms (M.fwd x).a) d).2) M.W)
    rw [(fwd_congr x h.1).1, bwdL_congr _ d h.2, (bwd_congr x _ h.1).1, (bwd_congr x _ h.1).2, hW]

theorem core_split {s s' : Store} {n n' : Net} (h : n.core s = n'.core s') :
    (n.hiddenLayers s).map Layer.core = (n'.hiddenLayers s').map Layer.core ∧ n.output.toLayer.core = n'.output.toLayer.core ∧ n.output.costd = n'.output.costd := by
  unfold Net.core at h
  obtain ⟨h1, h2⟩ := Prod.ext_iff.1 h
  simp only at h1 h2
  unfold Net.layers at h1
  rw [List.map_append, List.map_append] at h1
  obtain ⟨h3, h4⟩ := List.append_inj' h1 rfl
  exact ⟨h3, List.singleton_injective h4, h2⟩

theorem upd_core_of_gcore {Ls Ms : List Layer} (h : Ls.map Layer.gcore = Ms.map Layer.gcore) : (Ls.map Layer.upd).map Layer.core = (Ms.map Layer.upd).map Layer.core := by
  have : Layer.core ∘ Layer.upd = (fun g : (ℝ × ℝ × ActFunc ℝ × Mat ℝ) × Mat ℝ =>
      (g.1.1, g.1.2.1, g.1.2.2.1, Mat.of g.1.2.2.2.nr g.1.2.2.2.nc (fun i j => g.1.2.2.2.f i j - g.1.1 * g.2.f i j))) ∘ Layer.gcore := by
    funext L; rfl
  rw [List.map_map, List.map_map, this, ← List.map_map, ← List.map_map, h]

/-- One training step on the same samples in another order, from alike networks. -/
theorem step_reorder {junk junk' : Nat → Nat → ℝ} {s s' : Store} {n n' : Net} {p q : Nat} {x y : Mat ℝ} {π : Equiv.Perm Nat} (h : n.WF s p q) (h' : n'.WF s' p q)
    (hcore : n.core s = n'.core s') (hr : 0 < x.nr) (hc : x.nc = p) (hyr : y.nr = x.nr) (hyc : y.nc = q) (hd : Spec.RowMean n.output.costd) (hπ : Permutes π x.nr) :
    ∃ s1 n1 s2 n2, n.trainOn junk s x y = .ok (s1, n1) ∧ n'.trainOn junk' s' (reorder x π) (reorder y π) = .ok (s2, n2) ∧ n1.core s1 = n2.core s2 ∧
      n1.WF s1 p q ∧ n2.WF s2 p q ∧ n1.output.costd = n.output.costd := by
  obtain ⟨c1, c2, c3⟩ := core_split hcore
  obtain ⟨d1, d2⟩ := outputZ_dims h hc
  have hW : n.output.W = n'.output.W := congrArg (fun c : ℝ × ℝ × ActFunc ℝ × Mat ℝ => c.2.2.2) c2
  have hact : n.output.actfunc = n'.output.actfunc := congrArg (fun c : ℝ × ℝ × ActFunc ℝ × Mat ℝ => c.2.2.1) c2
  obtain ⟨D, hD, hD1, hD2, -⟩ := hd y ((n.outputZ s x).map n.output.actfunc.act) (n.outputZ s x) (by rw [Mat.map_nr]; omega) (by rw [Mat.map_nc]; omega)
    (by omega) (by omega) (by omega)
  have hz : n'.outputZ s' (reorder x π) = reorder (n.outputZ s x) π := by
    have hπ' : Permutes π (outL (n.hiddenLayers s) x).nr := by
      rw [outputZ_eq] at d1
      have : (outL (n.hiddenLayers s) x).nr = x.nr := d1
      rw [this]; exact hπ
    rw [outputZ_eq, outputZ_eq, ← hW, ← outL_congr _ c1, outL_reorder _ hπ, pre_reorder hπ']
  have hD' : n'.deltaOn s' (reorder x π) (reorder y π) = .ok (reorder D π) := by
    unfold Net.deltaOn
    rw [hz, ← c3, ← hact, map_reorder (by rw [d1]; exact hπ)]
    exact costd_reorder hd (by rw [hyr]; exact hπ) (by rw [Mat.map_nr]; omega) (by rw [Mat.map_nc]; omega) (by omega) (by omega) (by omega) hD
  obtain ⟨s1, n1, e1, b1, -, w1⟩ := trainOn_ok (junk := junk) h hr hc hD (by omega) (by omega)
  obtain ⟨s2, n2, e2, b2, -, w2⟩ := trainOn_ok (junk := junk') h' (by exact hr) (by exact hc) hD' (show D.nr = x.nr by omega) (show D.nc = q by omega)
  refine ⟨s1, n1, s2, n2, e1, e2, ?_, w1.wf, w2.wf, b1.conf.ocostd⟩
  unfold Net.core
  refine Prod.ext ?_ (by simp only; rw [b1.conf.ocostd, b2.conf.ocostd, c3])
  simp only
  rw [b1.layers, b2.layers]
  refine upd_core_of_gcore ?_
  obtain ⟨r, f1, f2, f3, f4⟩ := h.split
  have hd0 := outL_dims (Ls := n.hiddenLayers s) (x := x) (q := r) (by rw [hc]; exact f1)
  unfold Net.passed bwdNet
  rw [List.map_append, List.map_append]
  congr 1
  · show _ = List.map Layer.gcore (bwdL (fwdL (n'.hiddenLayers s') (reorder x π)) (Layer.backOf (reorder D π) n'.output.W)).1
    rw [← bwdL_congr _ _ c1, ← hW, backOf_reorder (by rw [hD1, hyr]; exact hπ)]
    exact (bwdL_reorder (d := Layer.backOf D n.output.W) (q := r) (by rw [hc]; exact f1) hπ (show D.nr = x.nr by omega) (show n.output.W.nr - 1 = r by omega)).2.symm
  · rw [← outL_congr _ c1, outL_reorder _ hπ]
    simp only [List.map_cons, List.map_nil]
    congr 1
    unfold Layer.gcore
    refine Prod.ext c2 ?_
    show (n.output.toLayer.fwd _).regGrad D = (n'.output.toLayer.fwd _).regGrad (reorder D π)
    have : (n'.output.toLayer.fwd (reorder (outL (n.hiddenLayers s) x) π)).regGrad (reorder D π) =
        (n.output.toLayer.fwd (reorder (outL (n.hiddenLayers s) x) π)).regGrad (reorder D π) := by
      unfold Layer.regGrad
      have hl : n.output.lambda = n'.output.lambda := congrArg (fun c : ℝ × ℝ × ActFunc ℝ × Mat ℝ => c.2.1) c2
      show Mat.of n'.output.W.nr n'.output.W.nc (fun i j => _ + n'.output.lambda * n'.output.W.f i j) = Mat.of n.output.W.nr n.output.W.nc (fun i j => _ + n.output.lambda * n.output.W.f i j)
      rw [← hW, ← hl]
      rfl
    rw [this, regGrad_reorder (by rw [hd0.1]; exact hπ) (by omega)]

/-! ## C59 -/

/-- **C59** (training). A well-formed dense network with an output that treats the rows separately, trained on any sequence of batches, ends with the same
weights in every layer as when the rows of every batch (samples and labels together) come in any other order. -/
theorem C59_training {junk junk' : Nat → Nat → ℝ} {p q : Nat} : ∀ {bs : List (Mat ℝ × Mat ℝ × Equiv.Perm Nat)} {s : Store} {n : Net}, n.WF s p q → Spec.RowMean n.output.costd →
    (∀ b ∈ bs, 0 < b.1.nr ∧ b.1.nc = p ∧ b.2.1.nr = b.1.nr ∧ b.2.1.nc = q ∧ Permutes b.2.2 b.1.nr) →
    ∃ s1 n1 s2 n2, Net.trainAll junk (bs.map (fun b => (b.1, b.2.1))) s n = .ok (s1, n1) ∧
      Net.trainAll junk' (bs.map (fun b => (reorder b.1 b.2.2, reorder b.2.1 b.2.2))) s n = .ok (s2, n2) ∧
      (n1.hiddenLayers s1).map (·.W) = (n2.hiddenLayers s2).map (·.W) ∧ n1.output.W = n2.output.W := by
  have key : ∀ {bs : List (Mat ℝ × Mat ℝ × Equiv.Perm Nat)} {s s' : Store} {n n' : Net}, n.WF s p q → n'.WF s' p q → n.core s = n'.core s' → Spec.RowMean n.output.costd →
      (∀ b ∈ bs, 0 < b.1.nr ∧ b.1.nc = p ∧ b.2.1.nr = b.1.nr ∧ b.2.1.nc = q ∧ Permutes b.2.2 b.1.nr) →
      ∃ s1 n1 s2 n2, Net.trainAll junk (bs.map (fun b => (b.1, b.2.1))) s n = .ok (s1, n1) ∧
        Net.trainAll junk' (bs.map (fun b => (reorder b.1 b.2.2, reorder b.2.1 b.2.2))) s' n' = .ok (s2, n2) ∧ n1.core s1 = n2.core s2 := by
    intro bs
    induction bs with
    | nil => intro s s' n n' _ _ hcore _ _; exact ⟨s, n, s', n', rfl, rfl, hcore⟩
    | cons b bs ih =>
      intro s s' n n' h h' hcore hd hb
      obtain ⟨b1, b2, b3, b4, b5⟩ := hb b (by simp)
      obtain ⟨s1, n1, s2, n2, e1, e2, e3, w1, w2, e4⟩ := step_reorder (junk := junk) (junk' := junk') h h' hcore b1 b2 b3 b4 hd b5
      obtain ⟨s3, n3, s4, n4, e5, e6, e7⟩ := ih w1 w2 e3 (by rw [e4]; exact hd) (fun c hc => hb c (by simp [hc]))
      refine ⟨s3, n3, s4, n4, ?_, ?_, e7⟩
      · simp only [List.map_cons, Net.trainAll]
        rw [e1, ok_bind]; exact e5
      · simp only [List.map_cons, Net.trainAll]
        rw [e2, ok_bind]; exact e6
  intro bs s n h hd hb
  obtain ⟨s1, n1, s2, n2, e1, e2, e3⟩ := key h h rfl hd hb
  obtain ⟨c1, c2, -⟩ := core_split e3
  have := congrArg (List.map (fun c : ℝ × ℝ × ActFunc ℝ × Mat ℝ => c.2.2.2)) c1
  simp only [List.map_map] at this
  exact ⟨s1, n1, s2, n2, e1, e2, this, congrArg (fun c : ℝ × ℝ × ActFunc ℝ × Mat ℝ => c.2.2.2) c2⟩

/-- **C59** (prediction). The output rows come in the order of the samples. -/
theorem C59_prediction {junk junk' : Nat → Nat → ℝ} {s : Store} {n : Net} {p q : Nat} {x : Mat ℝ} {π : Equiv.Perm Nat} (h : n.WF s p q) (hr : 0 < x.nr) (hc : x.nc = p) (hπ : Permutes π x.nr) :
    ∃ out s1 n1 s2 n2, n.forwardprop junk s x = .ok (out, s1, n1) ∧ n.forwardprop junk' s (reorder x π) = .ok (reorder out π, s2, n2) := by
  obtain ⟨s1, n1, e1, -⟩ := Net.forwardprop_ok (junk := junk) h hr hc
  obtain ⟨s2, n2, e2, -⟩ := Net.forwardprop_ok (junk := junk') (x := reorder x π) h (by exact hr) (by exact hc)
  rw [outL_reorder _ hπ] at e2
  exact ⟨_, s1, n1, s2, n2, e1, e2⟩

end
end Nnet.NN
