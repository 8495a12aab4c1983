import Verif.NN.PropsResume
import Verif.NN.PropsBatch
import Verif.NN.PropsBatchCost
import Mathlib.Algebra.BigOperators.Group.Finset.Basic
/-!
# C97: a batch counts only through the proportions of its samples
-/
namespace Nnet.NN
open Finset
noncomputable section
open scoped Classical

/-! ## Specification -/

/-- How many rows of the batch `(x, y)` are the sample `u` with the label `v`. -/
def Spec.occurrences (x y u v : Mat ℝ) : Nat := ((range x.nr).filter (fun i => x.rowMat i = u ∧ y.rowMat i = v)).card

/-- Two batches in which every (sample, label) pair makes up the same share of the rows: the order and the number of repetitions may differ. -/
def Spec.SameMix (b b' : Mat ℝ × Mat ℝ) : Prop :=
  ∀ u v, (Spec.occurrences b.1 b.2 u v : ℝ) / b.1.nr = (Spec.occurrences b'.1 b'.2 u v : ℝ) / b'.1.nr

/-- A non-empty batch for a network of `p` inputs and `q` outputs. -/
def Spec.FitBatch (p q : Nat) (b : Mat ℝ × Mat ℝ) : Prop := 0 < b.1.nr ∧ b.1.nc = p ∧ b.2.nr = b.1.nr ∧ b.2.nc = q

/-! ## Lemmas -/

theorem sum_occurrences {x y : Mat ℝ} (F : Mat ℝ × Mat ℝ → ℝ) (P : Finset (Mat ℝ × Mat ℝ)) (hP : ∀ i < x.nr, (x.rowMat i, y.rowMat i) ∈ P) :
    ∑ i ∈ range x.nr, F (x.rowMat i, y.rowMat i) = ∑ w ∈ P, (Spec.occurrences x y w.1 w.2 : ℝ) * F w := by
  rw [← sum_fiberwise_of_maps_to (s := range x.nr) (t := P) (g := fun i => (x.rowMat i, y.rowMat i)) (fun i hi => hP i (mem_range.1 hi))]
  refine sum_congr rfl fun w _ => ?_
  rw [sum_congr rfl (g := fun _ => F w) (fun i hi => by rw [(mem_filter.1 hi).2]), sum_const, nsmul_eq_mul]
  congr 2
  unfold Spec.occurrences
  congr 1
  ext i
  simp only [mem_filter, mem_range, Prod.ext_iff]

theorem average_mix {b b' : Mat ℝ × Mat ℝ} (h : Spec.SameMix b b') (F : Mat ℝ × Mat ℝ → ℝ) :
    (∑ i ∈ range b.1.nr, F (b.1.rowMat i, b.2.rowMat i)) / b.1.nr = (∑ i ∈ range b'.1.nr, F (b'.1.rowMat i, b'.2.rowMat i)) / b'.1.nr := by
  set P : Finset (Mat ℝ × Mat ℝ) := (range b.1.nr).image (fun i => (b.1.rowMat i, b.2.rowMat i)) ∪ (range b'.1.nr).image (fun i => (b'.1.rowMat i, b'.2.rowMat i)) with hP
  rw [sum_occurrences F P (fun i hi => mem_union_left _ (mem_image.2 ⟨i, mem_range.2 hi, rfl⟩)),
    sum_occurrences F P (fun i hi => mem_union_right _ (mem_image.2 ⟨i, mem_range.2 hi, rfl⟩)), sum_div, sum_div]
  refine sum_congr rfl fun w _ => ?_
  rw [mul_div_right_comm, h, mul_div_right_comm]

/-- The gradient entry of hidden layer `l` that a `gradPass` leaves, as a function of the sample. -/
def hidGrad (junk : Nat → Nat → ℝ) (s : Store) (n : Net) (l a b : Nat) (w : Mat ℝ × Mat ℝ) : ℝ :=
  match n.gradPass junk s w.1 w.2 with
  | .ok (S, N) => match N.gethidden S l with
    | .ok B => B.grad.f a b
    | .error _ => 0
  | .error _ => 0

def outGrad (junk : Nat → Nat → ℝ) (s : Store) (n : Net) (a b : Nat) (w : Mat ℝ × Mat ℝ) : ℝ :=
  match n.gradPass junk s w.1 w.2 with
  | .ok (_, N) => N.output.grad.f a b
  | .error _ => 0

/-- `C56_average` with the sample gradients as functions of the sample. -/
theorem average_fun {junk : Nat → Nat → ℝ} {s : Store} {n : Net} {p q : Nat} {b : Mat ℝ × Mat ℝ} (h : n.WF s p q) (hb : Spec.FitBatch p q b) (hd : Spec.RowMean n.output.costd) :
    ∃ s2 n2, n.gradPass junk s b.1 b.2 = .ok (s2, n2) ∧
      (∀ l L, n.gethidden s l = .ok L → ∃ B, n2.gethidden s2 l = .ok B ∧ ∀ i < L.W.nr, ∀ j < L.W.nc,
        B.grad.f i j = (∑ k ∈ range b.1.nr, hidGrad junk s n l i j (b.1.rowMat k, b.2.rowMat k)) / b.1.nr) ∧
      (∀ i < n.output.W.nr, ∀ j < n.output.W.nc, n2.output.grad.f i j = (∑ k ∈ range b.1.nr, outGrad junk s n i j (b.1.rowMat k, b.2.rowMat k)) / b.1.nr) := by
  obtain ⟨s2, n2, S, N, e1, e2, e3, e4⟩ := C56_average (junk := junk) h hb.1 hb.2.1 hb.2.2.1 hb.2.2.2 hd
  refine ⟨s2, n2, e1, fun l L hL => ?_, fun i hi j hj => ?_⟩
  · obtain ⟨B, Bi, g1, g2, g3⟩ := e3 l L hL
    refine ⟨B, g1, fun i hi j hj => ?_⟩
    rw [g3 i hi j hj]
    congr 1
    refine sum_congr rfl fun k hk => ?_
    have hk' := mem_range.1 hk
    unfold hidGrad
    simp only [e2 k hk', g2 k hk']
  · rw [e4 i hi j hj]
    congr 1
    refine sum_congr rfl fun k hk => ?_
    unfold outGrad
    simp only [e2 k (mem_range.1 hk)]

theorem bwdL_grad_dims : ∀ {Ls : List Layer} {x d : Mat ℝ} {l : Nat} {L B : Layer}, Ls[l]? = some L → (bwdL (fwdL Ls x) d).1[l]? = some B → B.grad.nr = L.W.nr ∧ B.grad.nc = L.W.nc
  | [], _, _, _, _, _, h, _ => by simp at h
  | M :: Ls, x, d, 0, L, B, h, h' => by
    simp only [List.getElem?_cons_zero, Option.some.injEq] at h
    subst h
    cases Option.some.inj h'
    exact ⟨rfl, rfl⟩
  | M :: Ls, x, d, l + 1, L, B, h, h' => by
    simp only [List.getElem?_cons_succ] at h
    exact bwdL_grad_dims (x := (M.fwd x).a) (d := d) h h'

theorem bwdL_length : ∀ (Ls : List Layer) (x d : Mat ℝ), (bwdL (fwdL Ls x) d).1.length = Ls.length
  | [], _, _ => rfl
  | M :: Ls, x, d => by
    show (bwdL (fwdL Ls (M.fwd x).a) d).1.length + 1 = Ls.length + 1
    rw [bwdL_length]

/-- One training step from one network on two batches of the same mix. -/
theorem step_mix_same {junk : Nat → Nat → ℝ} {s : Store} {n : Net} {p q : Nat} {b b' : Mat ℝ × Mat ℝ} (h : n.WF s p q) (hb : Spec.FitBatch p q b) (hb' : Spec.FitBatch p q b')
    (hm : Spec.SameMix b b') (hd : Spec.RowMean n.output.costd) :
    ∃ s1 n1 s2 n2, n.trainOn junk s b.1 b.2 = .ok (s1, n1) ∧ n.trainOn junk s b'.1 b'.2 = .ok (s2, n2) ∧ n1.core s1 = n2.core s2 ∧
      n1.WF s1 p q ∧ n2.WF s2 p q ∧ n1.output.costd = n.output.costd := by
  obtain ⟨d1, d2⟩ := outputZ_dims (x := b.1) h hb.2.1
  obtain ⟨d1', d2'⟩ := outputZ_dims (x := b'.1) h hb'.2.1
  have q1 := hb.1; have q2 := hb.2.2.1; have q3 := hb.2.2.2
  have q1' := hb'.1; have q2' := hb'.2.2.1; have q3' := hb'.2.2.2
  obtain ⟨D, hD, hD1, hD2, -⟩ := hd b.2 ((n.outputZ s b.1).map n.output.actfunc.act) (n.outputZ s b.1) (by rw [Mat.map_nr]; omega) (by rw [Mat.map_nc]; omega)
    (by omega) (by omega) (by omega)
  obtain ⟨D', hD', hD1', hD2', -⟩ := hd b'.2 ((n.outputZ s b'.1).map n.output.actfunc.act) (n.outputZ s b'.1) (by rw [Mat.map_nr]; omega) (by rw [Mat.map_nc]; omega)
    (by omega) (by omega) (by omega)
  obtain ⟨s1, n1, e1, b1, -, w1⟩ := trainOn_ok (junk := junk) h hb.1 hb.2.1 hD (by omega) (by omega)
  obtain ⟨s2, n2, e2, b2, -, w2⟩ := trainOn_ok (junk := junk) h hb'.1 hb'.2.1 hD' (by omega) (by omega)
  obtain ⟨_, _, t2, m2, f1, f2, -, -, f5, f6⟩ := forward_backward (junk := junk) h hb.1 hb.2.1 hb.2.2.1 hD (by omega) (by omega)
  obtain ⟨_, _, t2', m2', f1', f2', -, -, f5', f6'⟩ := forward_backward (junk := junk) h hb'.1 hb'.2.1 hb'.2.2.1 hD' (by omega) (by omega)
  obtain ⟨u, m, g1, g2, g3⟩ := average_fun (junk := junk) h hb hd
  obtain ⟨u', m', g1', g2', g3'⟩ := average_fun (junk := junk) h hb' hd
  unfold Net.gradPass at g1 g1'
  rw [f1, ok_bind] at g1
  rw [f1', ok_bind] at g1'
  obtain ⟨rfl, rfl⟩ := Prod.ext_iff.1 (Except.ok.inj (f2.symm.trans g1))
  obtain ⟨rfl, rfl⟩ := Prod.ext_iff.1 (Except.ok.inj (f2'.symm.trans g1'))
  refine ⟨s1, n1, s2, n2, e1, e2, ?_, w1.wf, w2.wf, b1.conf.ocostd⟩
  unfold Net.core
  refine Prod.ext ?_ (by simp only; rw [b1.conf.ocostd, b2.conf.ocostd])
  simp only
  rw [b1.layers, b2.layers]
  refine upd_core_of_gcore ?_
  unfold Net.passed bwdNet
  rw [List.map_append, List.map_append]
  congr 1
  · show List.map Layer.gcore (bwdL (fwdL (n.hiddenLayers s) b.1) (Layer.backOf D n.output.W)).1 = List.map Layer.gcore (bwdL (fwdL (n.hiddenLayers s) b'.1) (Layer.backOf D' n.output.W)).1
    refine List.ext_getElem? fun l => ?_
    rw [List.getElem?_map, List.getElem?_map]
    cases hL : (n.hiddenLayers s)[l]? with
    | none =>
      have hl := List.getElem?_eq_none_iff.1 hL
      rw [List.getElem?_eq_none_iff.2 (by rw [bwdL_length]; exact hl), List.getElem?_eq_none_iff.2 (by rw [bwdL_length]; exact hl)]
    | some L =>
      obtain ⟨B, hB, v1, v2, v3, v4⟩ := bwd_get (x := b.1) (d := Layer.backOf D n.output.W) hL
      obtain ⟨B', hB', v1', v2', v3', v4'⟩ := bwd_get (x := b'.1) (d := Layer.backOf D' n.output.W) hL
      obtain ⟨z1, z2⟩ := bwdL_grad_dims hL hB
      obtain ⟨z1', z2'⟩ := bwdL_grad_dims hL hB'
      rw [hB, hB']
      simp only [Option.map_some]
      congr 1
      unfold Layer.gcore Layer.core
      rw [v1, v2, v3, v4, v1', v2', v3', v4']
      congr 1
      refine Mat.ext' (by rw [z1, z1']) (by rw [z2, z2']) fun i j hi hj => ?_
      obtain ⟨C, c1, c2⟩ := g2 l L (gethidden_of hL)
      obtain ⟨C', c1', c2'⟩ := g2' l L (gethidden_of hL)
      have k1 := hiddenLayer_get c1
      have k1' := hiddenLayer_get c1'
      rw [f5, hB] at k1
      rw [f5', hB'] at k1'
      cases k1; cases k1'
      rw [c2 i (by omega) j (by omega), c2' i (by omega) j (by omega)]
      exact average_mix hm _
  · simp only [List.map_cons, List.map_nil]
    congr 1
    unfold Layer.gcore
    refine Prod.ext rfl ?_
    show (n.output.toLayer.fwd _).regGrad D = (n.output.toLayer.fwd _).regGrad D'
    have k : n2.output.toLayer = n2.output.toLayer := rfl
    have k1 : m2.output.grad = (n.output.toLayer.fwd (outL (n.hiddenLayers s) b.1)).regGrad D := by rw [f6]
    have k1' : m2'.output.grad = (n.output.toLayer.fwd (outL (n.hiddenLayers s) b'.1)).regGrad D' := by rw [f6']
    refine Mat.ext' rfl rfl fun i j hi hj => ?_
    have hi' : i < n.output.W.nr := hi
    have hj' : j < n.output.W.nc := hj
    rw [← k1, ← k1', g3 i hi' j hj', g3' i hi' j hj']
    exact average_mix hm _

/-- One training step on batches of the same mix, from alike networks. -/
theorem step_mix {junk junk' : Nat → Nat → ℝ} {s s' : Store} {n n' : Net} {p q : Nat} {b b' : Mat ℝ × Mat ℝ} (h : n.WF s p q) (h' : n'.WF s' p q) (hcore : n.core s = n'.core s')
    (hb : Spec.FitBatch p q b) (hb' : Spec.FitBatch p q b') (hm : Spec.SameMix b b') (hd : Spec.RowMean n.output.costd) :
    ∃ s1 n1 s2 n2, n.trainOn junk s b.1 b.2 = .ok (s1, n1) ∧ n'.trainOn junk' s' b'.1 b'.2 = .ok (s2, n2) ∧ n1.core s1 = n2.core s2 ∧
      n1.WF s1 p q ∧ n2.WF s2 p q ∧ n1.output.costd = n.output.costd := by
  obtain ⟨s1, n1, s2, n2, e1, e2, e3, w1, -, c⟩ := step_mix_same (junk := junk) h hb hb' hm hd
  have hπ : ∀ k, Spec.Permutes (Equiv.refl Nat) k := fun k i hi => hi
  obtain ⟨s3, n3, s4, n4, e4, e5, e6, -, w4, -⟩ := step_reorder (junk := junk) (junk' := junk') h h' hcore hb'.1 hb'.2.1 hb'.2.2.1 hb'.2.2.2 hd (hπ b'.1.nr)
  have hre : ∀ m : Mat ℝ, Spec.reorder m (Equiv.refl Nat) = m := fun m => Mat.ext' rfl rfl fun i j hi hj => reorder_f (by exact hi) (by exact hj)
  rw [hre, hre] at e5
  rw [e2] at e4
  cases Except.ok.inj e4
  exact ⟨s1, n1, s4, n4, e1, e5, e3.trans e6, w1, w4, c⟩

/-! ## C97 -/

/-- **C97** (training). A well-formed dense network with an output that treats the rows separately, trained on two sequences of batches in which corresponding
batches have the same mix of samples (in any order, each repeated any number of times as long as the shares agree), ends with the same weights. -/
theorem C97_training {junk junk' : Nat → Nat → ℝ} {p q : Nat} {s : Store} {n : Net} {bs bs' : List (Mat ℝ × Mat ℝ)} (h : n.WF s p q) (hd : Spec.RowMean n.output.costd)
    (hb : ∀ b ∈ bs, Spec.FitBatch p q b) (hb' : ∀ b ∈ bs', Spec.FitBatch p q b) (hm : List.Forall₂ Spec.SameMix bs bs') :
    ∃ s1 n1 s2 n2, Net.trainAll junk bs s n = .ok (s1, n1) ∧ Net.trainAll junk' bs' s n = .ok (s2, n2) ∧
      (n1.hiddenLayers s1).map (·.W) = (n2.hiddenLayers s2).map (·.W) ∧ n1.output.W = n2.output.W := by
  have key : ∀ {bs bs' : List (Mat ℝ × Mat ℝ)}, List.Forall₂ Spec.SameMix bs bs' → ∀ {s s' : Store} {n n' : Net}, n.WF s p q → n'.WF s' p q → n.core s = n'.core s' →
      Spec.RowMean n.output.costd → (∀ b ∈ bs, Spec.FitBatch p q b) → (∀ b ∈ bs', Spec.FitBatch p q b) →
      ∃ s1 n1 s2 n2, Net.trainAll junk bs s n = .ok (s1, n1) ∧ Net.trainAll junk' bs' s' n' = .ok (s2, n2) ∧ n1.core s1 = n2.core s2 := by
    intro bs bs' hm
    induction hm with
    | nil => intro s s' n n' _ _ hcore _ _ _; exact ⟨s, n, s', n', rfl, rfl, hcore⟩
    | cons hm _ ih =>
      intro s s' n n' h h' hcore hd hb hb'
      obtain ⟨s1, n1, s2, n2, e1, e2, e3, w1, w2, e4⟩ := step_mix (junk := junk) (junk' := junk') h h' hcore (hb _ (by simp)) (hb' _ (by simp)) hm hd
      obtain ⟨s3, n3, s4, n4, e5, e6, e7⟩ := ih w1 w2 e3 (by rw [e4]; exact hd) (fun c hc => hb c (by simp [hc])) (fun c hc => hb' c (by simp [hc]))
      refine ⟨s3, n3, s4, n4, ?_, ?_, e7⟩
      · simp only [Net.trainAll]
        rw [e1, ok_bind]; exact e5
      · simp only [Net.trainAll]
        rw [e2, ok_bind]; exact e6
  obtain ⟨s1, n1, s2, n2, e1, e2, e3⟩ := key hm h h rfl hd hb hb'
  obtain ⟨c1, c2, -⟩ := core_split e3
  have := congrArg (List.map (fun c : ℝ × ℝ × ActFunc ℝ × Mat ℝ => c.2.2.2)) c1
  simp only [List.map_map] at this
  exact ⟨s1, n1, s2, n2, e1, e2, this, congrArg (fun c : ℝ × ℝ × ActFunc ℝ × Mat ℝ => c.2.2.2) c2⟩

/-- The cost of one prediction against its label, as a function of the pair. -/
def rowCost (n : Net) (w : Mat ℝ × Mat ℝ) : ℝ :=
  match n.computecost w.1 w.2 with
  | .ok c => c
  | .error _ => 0

/-- **C97** (cost). `computecost` gives two batches of predictions the same value when the (prediction, label) pairs come in the same shares. -/
theorem C97_cost {n : Net} {b b' : Mat ℝ × Mat ℝ} (hc : Spec.CostMean n.cost) (h1 : b.2.nr = b.1.nr) (h2 : b.2.nc = b.1.nc) (hr : 0 < b.1.nr)
    (h1' : b'.2.nr = b'.1.nr) (h2' : b'.2.nc = b'.1.nc) (hr' : 0 < b'.1.nr) (hm : Spec.SameMix b b') :
    ∃ c, n.computecost b.1 b.2 = .ok c ∧ n.computecost b'.1 b'.2 = .ok c := by
  obtain ⟨c, ci, e1, e2, e3⟩ := C60_computecost hc h1 h2 (by omega)
  obtain ⟨d, di, f1, f2, f3⟩ := C60_computecost hc h1' h2' (by omega)
  refine ⟨c, e1, ?_⟩
  rw [f1]
  congr 1
  have g : c = (∑ i ∈ range b.1.nr, rowCost n (b.1.rowMat i, b.2.rowMat i)) / b.1.nr := by
    rw [e3, h1]
    congr 1
    refine sum_congr rfl fun i hi => ?_
    have := e2 i (by rw [h1]; exact mem_range.1 hi)
    unfold rowCost
    simp only [this]
  have g' : d = (∑ i ∈ range b'.1.nr, rowCost n (b'.1.rowMat i, b'.2.rowMat i)) / b'.1.nr := by
    rw [f3, h1']
    congr 1
    refine sum_congr rfl fun i hi => ?_
    have := f2 i (by rw [h1']; exact mem_range.1 hi)
    unfold rowCost
    simp only [this]
  rw [g, g']
  exact (average_mix hm _).symm

/-- A batch written `k` times one after the other. -/
def Spec.repeated (k : Nat) (m : Mat ℝ) : Mat ℝ := Mat.of (k * m.nr) m.nc (fun i j => m.f (i % m.nr) j)

theorem repeated_row {k i : Nat} {m : Mat ℝ} (hi : i < k * m.nr) : (Spec.repeated k m).rowMat i = m.rowMat (i % m.nr) := by
  refine Mat.ext' rfl rfl fun a j ha hj => ?_
  replace ha : a < 1 := ha
  obtain rfl : a = 0 := by omega
  replace hj : j < m.nc := hj
  rw [rowMat_f _ (by exact hj), rowMat_f _ hj]
  exact Mat.of_f' hi hj

theorem card_mod_block (N : Nat) (hN : 0 < N) (P : Nat → Prop) [DecidablePred P] : ∀ k : Nat, ((range (k * N)).filter (fun i => P (i % N))).card = k * ((range N).filter P).card
  | 0 => by simp
  | k + 1 => by
    have e : (k + 1) * N = k * N + N := by ring
    rw [e, range_eq_Ico, ← Ico_union_Ico_eq_Ico (Nat.zero_le (k * N)) (Nat.le_add_right _ N), filter_union, card_union_of_disjoint, ← range_eq_Ico, card_mod_block N hN P k]
    · have : ((Ico (k * N) (k * N + N)).filter (fun i => P (i % N))).card = ((range N).filter P).card := by
        symm
        refine card_bij (fun i _ => k * N + i) ?_ ?_ ?_
        · intro i hi
          obtain ⟨h1, h2⟩ := mem_filter.1 hi
          have h3 := mem_range.1 h1
          refine mem_filter.2 ⟨mem_Ico.2 ⟨by omega, by omega⟩, ?_⟩
          rwa [Nat.mul_add_mod_of_lt h3]
        · intro i _ j _ hij
          exact Nat.add_left_cancel hij
        · intro i hi
          obtain ⟨h1, h2⟩ := mem_filter.1 hi
          obtain ⟨h3, h4⟩ := mem_Ico.1 h1
          have h5 : i % N = i - k * N := by
            have : i = k * N + (i - k * N) := by omega
            conv_lhs => rw [this]
            exact Nat.mul_add_mod_of_lt (by omega)
          refine ⟨i - k * N, mem_filter.2 ⟨mem_range.2 (by omega), ?_⟩, by omega⟩
          rw [← h5]; exact h2
      rw [this]; ring
    · rw [disjoint_left]
      intro i h1 h2
      have h3 := mem_Ico.1 (mem_filter.1 h1).1
      have h4 := mem_Ico.1 (mem_filter.1 h2).1
      omega

/-- **C97** (duplicated data). A batch repeated any positive number of times has the mix of the batch. -/
theorem C97_repeated {k : Nat} {x y : Mat ℝ} (hk : 0 < k) (hr : 0 < x.nr) (hyr : y.nr = x.nr) : Spec.SameMix (x, y) (Spec.repeated k x, Spec.repeated k y) := by
  intro u v
  have e : Spec.occurrences (Spec.repeated k x) (Spec.repeated k y) u v = k * Spec.occurrences x y u v := by
    unfold Spec.occurrences
    have hB := card_mod_block x.nr hr (fun i => x.rowMat i = u ∧ y.rowMat i = v) k
    refine Eq.trans ?_ (hB.trans ?_)
    swap
    · congr!
    show (filter _ (range (k * x.nr))).card = _
    congr 1
    ext i
    rw [mem_filter, mem_filter]
    refine and_congr_right fun hi => ?_
    have hi' := mem_range.1 hi
    rw [repeated_row hi', repeated_row (by rw [hyr]; exact hi'), hyr]
  show _ / (x.nr : ℝ) = (Spec.occurrences (Spec.repeated k x) (Spec.repeated k y) u v : ℝ) / ((k * x.nr : Nat) : ℝ)
  rw [e]
  have h1 : (k : ℝ) ≠ 0 := by exact_mod_cast hk.ne'
  have h2 : (x.nr : ℝ) ≠ 0 := by exact_mod_cast hr.ne'
  push_cast
  field_simp

/-- **C97** (duplicated data, training). Writing every batch `k` times over changes nothing of what training makes of the network. -/
theorem C97_duplicates {junk junk' : Nat → Nat → ℝ} {p q : Nat} {s : Store} {n : Net} {bs : List (Mat ℝ × Mat ℝ)} {k : Nat} (hk : 0 < k) (h : n.WF s p q) (hd : Spec.RowMean n.output.costd)
    (hb : ∀ b ∈ bs, Spec.FitBatch p q b) :
    ∃ s1 n1 s2 n2, Net.trainAll junk bs s n = .ok (s1, n1) ∧ Net.trainAll junk' (bs.map (fun b => (Spec.repeated k b.1, Spec.repeated k b.2))) s n = .ok (s2, n2) ∧
      (n1.hiddenLayers s1).map (·.W) = (n2.hiddenLayers s2).map (·.W) ∧ n1.output.W = n2.output.W := by
  refine C97_training h hd hb ?_ ?_
  · intro c hc
    obtain ⟨b, hb1, rfl⟩ := List.mem_map.1 hc
    obtain ⟨h1, h2, h3, h4⟩ := hb b hb1
    exact ⟨Nat.mul_pos hk h1, h2, by show k * b.2.nr = k * b.1.nr; rw [h3], h4⟩
  · rw [List.forall₂_map_right_iff, List.forall₂_same]
    intro b hb1
    obtain ⟨h1, h2, h3, h4⟩ := hb b hb1
    exact C97_repeated hk h1 h3

/-- The hypotheses hold of a concrete network and a batch written three times. -/
example : exNet.WF exStore 2 2 ∧ Spec.RowMean exNet.output.costd ∧ Spec.FitBatch 2 2 (exX, exY) ∧ Spec.FitBatch 2 2 (Spec.repeated 3 exX, Spec.repeated 3 exY) ∧
    Spec.SameMix (exX, exY) (Spec.repeated 3 exX, Spec.repeated 3 exY) ∧ (Spec.repeated 3 exX).nr = 15 ∧ exX.nr = 5 ∧
    ∃ s1 n1 s2 n2, Net.trainAll (fun _ _ => 0) [(exX, exY), (exX, exY)] exStore exNet = .ok (s1, n1) ∧
      Net.trainAll (fun _ _ => 0) ([(exX, exY), (exX, exY)].map (fun b => (Spec.repeated 3 b.1, Spec.repeated 3 b.2))) exStore exNet = .ok (s2, n2) ∧
      (n1.hiddenLayers s1).map (·.W) = (n2.hiddenLayers s2).map (·.W) ∧ n1.output.W = n2.output.W := by
  have hb : Spec.FitBatch 2 2 (exX, exY) := ⟨by show 0 < 5; omega, rfl, rfl, rfl⟩
  exact ⟨exNet_wf, C56_outputs.1, hb, ⟨by show 0 < 15; omega, rfl, rfl, rfl⟩, C97_repeated (by omega) hb.1 rfl, rfl, rfl,
    C97_duplicates (by omega) exNet_wf C56_outputs.1 (by intro b hb'; simp at hb'; subst hb'; exact hb)⟩

/-- Costs of a concrete batch and its double. -/
example : ∃ c, exNet.computecost exX exX = .ok c ∧ exNet.computecost (Spec.repeated 2 exX) (Spec.repeated 2 exX) = .ok c :=
  C97_cost (b := (exX, exX)) (b' := (Spec.repeated 2 exX, Spec.repeated 2 exX)) C60_costs.1 rfl rfl (by show 0 < 5; omega) rfl rfl (by show 0 < 10; omega)
    (C97_repeated (by omega) (by show 0 < 5; omega) rfl)

end
end Nnet.NN
