import Verif.NN.PropsResume
import Verif.NN.PropsAct
import Verif.NN.PropsCost
import Verif.NN.PropsTied
/-!
# C99: with regularisation the weights stay bounded for ever
-/
namespace Nnet.NN
open Finset
noncomputable section

/-! ## Specification -/

/-- Values and derivatives of the activation stay within `A`. -/
def Spec.TameAct (A : ℝ) (f : ActFunc ℝ) : Prop := ∀ z, |f.act z| ≤ A ∧ |f.actd z| ≤ A

/-- An output layer whose delta is at most `1 / N` everywhere for labels between 0 and 1 (`N` rows). -/
def Spec.UnitDelta (f : ActFunc ℝ) (costd : MatFuncD) : Prop :=
  ∀ y z : Mat ℝ, z.nr = y.nr → z.nc = y.nc → (∀ i < y.nr, ∀ j < y.nc, 0 ≤ y.f i j ∧ y.f i j ≤ 1) →
    ∃ D, costd y (z.map f.act) z = .ok D ∧ D.nr = y.nr ∧ D.nc = y.nc ∧ ∀ i < y.nr, ∀ j < y.nc, |D.f i j| ≤ 1 / y.nr

/-- A batch for `p` inputs and `q` outputs with inputs within `A` and labels between 0 and 1. -/
structure Spec.UnitBatch (A : ℝ) (p q : Nat) (b : Mat ℝ × Mat ℝ) : Prop where
  pos : 0 < b.1.nr
  inputs : b.1.nc = p
  rows : b.2.nr = b.1.nr
  outputs : b.2.nc = q
  bounded : ∀ i < b.1.nr, ∀ j < b.1.nc, |b.1.f i j| ≤ A
  labels : ∀ i < b.2.nr, ∀ j < b.2.nc, 0 ≤ b.2.f i j ∧ b.2.f i j ≤ 1

/-- Regularisation is on and does not overshoot. -/
structure Spec.Regularised (L : Layer) : Prop where
  lambda : 0 < L.lambda
  rate : 0 ≤ L.lrate
  small : L.lrate * L.lambda ≤ 1

/-! ## Lemmas -/

/-- What of a layer decides the bounds. -/
def Layer.dkey (L : Layer) : ℝ × ℝ × ActFunc ℝ × Nat × Nat := (L.lambda, L.lrate, L.actfunc, L.W.nr, L.W.nc)

/-- Bounds of the weights of the hidden layers with keys `ks` when they start within `M`, and of the delta that leaves them, given the bound `d` of the delta that enters them. -/
def wbounds (A M : ℝ) : List (ℝ × ℝ × ActFunc ℝ × Nat × Nat) → ℝ → List ℝ × ℝ
  | [], d => ([], d)
  | k :: ks, d => (max M (A * (A * (wbounds A M ks d).2) / k.1) :: (wbounds A M ks d).1,
      k.2.2.2.2 * max M (A * (A * (wbounds A M ks d).2) / k.1) * (A * (wbounds A M ks d).2))

/-- All weights of the layer are within `b`. -/
def Within (b : ℝ) (L : Layer) : Prop := ∀ i j, |L.W.f i j| ≤ b

/-- The columns of `D` have absolute sums at most `d`. -/
def ColSums (d : ℝ) (D : Mat ℝ) : Prop := ∀ j, ∑ i ∈ range D.nr, |D.f i j| ≤ d

theorem abs_ones1 {A : ℝ} {x : Mat ℝ} (hA : 1 ≤ A) (hx : ∀ i < x.nr, ∀ j < x.nc, |x.f i j| ≤ A) (i j : Nat) : |(ones1 x).f i j| ≤ A := by
  by_cases h : i < x.nr ∧ j < x.nc + 1
  · unfold ones1
    rw [Mat.of_f' h.1 h.2]
    split
    · simpa using hA
    · exact hx i h.1 (j - 1) (by omega)
  · rw [Mat.out _ i j (by exact h)]
    simp; linarith

theorem abs_gradOf {A d : ℝ} {pa D : Mat ℝ} (hpa : ∀ i j, |pa.f i j| ≤ A) (hnr : D.nr = pa.nr) (hD : ColSums d D) (hA : 0 ≤ A) (hd : 0 ≤ d) (a b : Nat) :
    |(Layer.gradOf pa D).f a b| ≤ A * d := by
  by_cases h : a < pa.nc ∧ b < D.nc
  · unfold Layer.gradOf
    rw [Mat.of_f' h.1 h.2]
    refine (abs_sum_le_sum_abs _ _).trans ?_
    calc ∑ i ∈ range pa.nr, |pa.f i a * D.f i b| ≤ ∑ i ∈ range pa.nr, A * |D.f i b| := by
          refine sum_le_sum fun i _ => ?_
          rw [abs_mul]
          exact mul_le_mul_of_nonneg_right (hpa i a) (abs_nonneg _)
      _ = A * ∑ i ∈ range D.nr, |D.f i b| := by rw [mul_sum, hnr]
      _ ≤ A * d := mul_le_mul_of_nonneg_left (hD b) hA
  · rw [Mat.out _ a b (by exact h), abs_zero]
    exact mul_nonneg hA hd

theorem colSums_backOf {d B : ℝ} {D W : Mat ℝ} (hD : ColSums d D) (hW : ∀ i j, |W.f i j| ≤ B) (hd : 0 ≤ d) : ColSums (D.nc * B * d) (Layer.backOf D W) := by
  have hB : 0 ≤ B := (abs_nonneg _).trans (hW 0 0)
  intro k
  by_cases hk : k < W.nr - 1
  · show ∑ i ∈ range D.nr, _ ≤ _
    calc ∑ i ∈ range D.nr, |(Layer.backOf D W).f i k| ≤ ∑ i ∈ range D.nr, ∑ j ∈ range D.nc, |D.f i j| * B := by
          refine sum_le_sum fun i hi => ?_
          unfold Layer.backOf
          rw [Mat.of_f' (mem_range.1 hi) hk]
          refine (abs_sum_le_sum_abs _ _).trans (sum_le_sum fun j _ => ?_)
          rw [abs_mul]
          exact mul_le_mul_of_nonneg_left (hW _ _) (abs_nonneg _)
      _ = ∑ j ∈ range D.nc, (∑ i ∈ range D.nr, |D.f i j|) * B := by
          rw [sum_comm]
          exact sum_congr rfl fun j _ => (sum_mul _ _ _).symm
      _ ≤ ∑ _j ∈ range D.nc, d * B := sum_le_sum fun j _ => mul_le_mul_of_nonneg_right (hD j) hB
      _ = D.nc * B * d := by rw [sum_const, card_range, nsmul_eq_mul]; ring
  · have : ∀ i, (Layer.backOf D W).f i k = 0 := fun i => Mat.out _ i k (by rintro ⟨-, h⟩; exact hk h)
    simp only [this, abs_zero, sum_const_zero]
    positivity

theorem colSums_dz {A d : ℝ} {L : Layer} {D : Mat ℝ} (hf : Spec.TameAct A L.actfunc) (hD : ColSums d D) (hA : 0 ≤ A) : ColSums (A * d) (L.dz D) := by
  intro j
  show ∑ i ∈ range D.nr, _ ≤ _
  calc ∑ i ∈ range D.nr, |(L.dz D).f i j| ≤ ∑ i ∈ range D.nr, A * |D.f i j| := by
        refine sum_le_sum fun i _ => ?_
        by_cases h : i < D.nr ∧ j < D.nc
        · unfold Layer.dz
          rw [Mat.of_f' h.1 h.2, abs_mul, mul_comm]
          exact mul_le_mul_of_nonneg_right (hf _).2 (abs_nonneg _)
        · rw [Mat.out _ i j (by exact h), abs_zero]
          positivity
    _ = A * ∑ i ∈ range D.nr, |D.f i j| := by rw [mul_sum]
    _ ≤ A * d := mul_le_mul_of_nonneg_left (hD j) hA

/-- One regularised step does not leave the bound. -/
theorem upd_within {L : Layer} {D : Mat ℝ} {M G : ℝ} (hr : Spec.Regularised L) (hW : Within (max M (G / L.lambda)) L) (hG : ∀ a b, |(Layer.gradOf L.pa D).f a b| ≤ G) :
    Within (max M (G / L.lambda)) (Layer.upd { L with delta := D, grad := L.regGrad D }) := by
  intro i j
  set B := max M (G / L.lambda) with hB
  have hB0 : 0 ≤ B := (abs_nonneg _).trans (hW 0 0)
  by_cases h : i < L.W.nr ∧ j < L.W.nc
  · have e : (Layer.upd { L with delta := D, grad := L.regGrad D }).W.f i j = (1 - L.lrate * L.lambda) * L.W.f i j - L.lrate * (Layer.gradOf L.pa D).f i j := by
      show (Mat.of L.W.nr L.W.nc _).f i j = _
      rw [Mat.of_f' h.1 h.2]
      unfold Layer.regGrad
      rw [Mat.of_f' h.1 h.2]
      ring
    rw [e]
    have h1 : |(1 - L.lrate * L.lambda) * L.W.f i j| ≤ (1 - L.lrate * L.lambda) * B := by
      rw [abs_mul, abs_of_nonneg (by linarith [hr.small])]
      exact mul_le_mul_of_nonneg_left (hW i j) (by linarith [hr.small])
    have h2 : |L.lrate * (Layer.gradOf L.pa D).f i j| ≤ L.lrate * (L.lambda * B) := by
      rw [abs_mul, abs_of_nonneg hr.rate]
      refine mul_le_mul_of_nonneg_left ((hG i j).trans ?_) hr.rate
      have : G / L.lambda ≤ B := le_max_right _ _
      rw [div_le_iff₀ hr.lambda] at this
      linarith
    refine (abs_sub _ _).trans ?_
    nlinarith
  · rw [Mat.out _ i j (by exact h), abs_zero]
    exact hB0

theorem fwd_a_tame {A : ℝ} {L : Layer} (hf : Spec.TameAct A L.actfunc) (x : Mat ℝ) (i : Nat) (hi : i < (L.fwd x).a.nr) (j : Nat) (hj : j < (L.fwd x).a.nc) : |(L.fwd x).a.f i j| ≤ A := by
  show |((Spec.pre L.W x).map L.actfunc.act).f i j| ≤ A
  rw [Mat.map_f' (by exact hi) (by exact hj)]
  exact (hf _).1

/-- A training step keeps the hidden layers within their bounds. -/
theorem hidden_within {A M : ℝ} (hA : 1 ≤ A) : ∀ {Ls : List Layer} {x d : Mat ℝ} {q : Nat} {d0 : ℝ}, Spec.Fits x.nc (Ls.map (·.W)) q → (∀ i < x.nr, ∀ j < x.nc, |x.f i j| ≤ A) →
    (∀ L ∈ Ls, Spec.TameAct A L.actfunc ∧ Spec.Regularised L) → d.nr = x.nr → d.nc = q → 0 ≤ d0 → ColSums d0 d →
    List.Forall₂ Within (wbounds A M (Ls.map Layer.dkey) d0).1 Ls →
    List.Forall₂ Within (wbounds A M (Ls.map Layer.dkey) d0).1 ((bwdL (fwdL Ls x) d).1.map Layer.upd) ∧ ColSums (wbounds A M (Ls.map Layer.dkey) d0).2 (bwdL (fwdL Ls x) d).2 ∧
      0 ≤ (wbounds A M (Ls.map Layer.dkey) d0).2 ∧ ((bwdL (fwdL Ls x) d).1.map Layer.upd).map Layer.dkey = Ls.map Layer.dkey
  | [], x, d, q, d0, _, _, _, _, _, h0, hd, _ => ⟨List.Forall₂.nil, hd, h0, rfl⟩
  | L :: Ls, x, d, q, d0, hf, hx, hL, h1, h2, h0, hd, hw => by
    simp only [List.map_cons, Spec.Fits] at hf
    rw [List.map_cons] at hw
    obtain ⟨hw1, hw2⟩ := List.forall₂_cons.1 hw
    obtain ⟨ht, hreg⟩ := hL L (by simp)
    obtain ⟨i1, i2, i3, i4⟩ := hidden_within hA (Ls := Ls) (x := (L.fwd x).a) (d := d) (q := q) (d0 := d0) hf.2.2 (fwd_a_tame ht x) (fun K hK => hL K (by simp [hK])) h1 h2 h0 hd hw2
    obtain ⟨hb1, hb2⟩ := bwdL_dims (Ls := fwdL Ls (L.fwd x).a) (d := d) (m := x.nr) (p := L.W.nc) (q := q) (by rw [fwdL_W]; exact hf.2.2) h1 h2
    set e := (bwdL (fwdL Ls (L.fwd x).a) d).2 with he
    set D := (L.fwd x).dz e with hD
    have hA0 : 0 ≤ A := by linarith
    have hcs : ColSums (A * (wbounds A M (Ls.map Layer.dkey) d0).2) D := colSums_dz (L := L.fwd x) (by exact ht) i2 hA0
    have hg : ∀ a b, |(Layer.gradOf (L.fwd x).pa D).f a b| ≤ A * (A * (wbounds A M (Ls.map Layer.dkey) d0).2) :=
      fun a b => abs_gradOf (abs_ones1 hA hx) (by exact hb1) hcs hA0 (by positivity) a b
    have hup := upd_within (L := L.fwd x) (D := D) (M := M) ⟨hreg.lambda, hreg.rate, hreg.small⟩ (by exact hw1) hg
    refine ⟨?_, ?_, ?_, ?_⟩
    · show List.Forall₂ Within _ (Layer.upd ((L.fwd x).bwd e) :: (bwdL (fwdL Ls (L.fwd x).a) d).1.map Layer.upd)
      exact List.Forall₂.cons hup i1
    · show ColSums _ (Layer.backOf D L.W)
      have := colSums_backOf (D := D) (W := L.W) hcs hw1 (by positivity)
      have hnc : D.nc = L.W.nc := hb2
      rw [hnc] at this
      exact this
    · have : (0 : ℝ) ≤ max M (A * (A * (wbounds A M (Ls.map Layer.dkey) d0).2) / L.lambda) := (abs_nonneg _).trans (hw1 0 0)
      show (0 : ℝ) ≤ L.W.nc * max M (A * (A * (wbounds A M (Ls.map Layer.dkey) d0).2) / L.lambda) * (A * (wbounds A M (Ls.map Layer.dkey) d0).2)
      positivity
    · show Layer.dkey (Layer.upd ((L.fwd x).bwd e)) :: ((bwdL (fwdL Ls (L.fwd x).a) d).1.map Layer.upd).map Layer.dkey = Layer.dkey L :: Ls.map Layer.dkey
      rw [i4]
      rfl

theorem within_of_start {A M : ℝ} : ∀ {Ls : List Layer} {d0 : ℝ}, (∀ L ∈ Ls, ∀ i j, |L.W.f i j| ≤ M) → List.Forall₂ Within (wbounds A M (Ls.map Layer.dkey) d0).1 Ls
  | [], _, _ => List.Forall₂.nil
  | L :: Ls, d0, h => List.Forall₂.cons (fun i j => (h L (by simp) i j).trans (le_max_left _ _)) (within_of_start fun K hK => h K (by simp [hK]))

/-- Bound of the weights of the output layer. -/
def obound (A M : ℝ) (o : OutputLayer) : ℝ := max M (A * 1 / o.lambda)

/-- The state that training keeps. -/
structure Bounded (A M : ℝ) (p q : Nat) (ks : List (ℝ × ℝ × ActFunc ℝ × Nat × Nat)) (ok : ℝ × ℝ × ActFunc ℝ × Nat × Nat) (cd : MatFuncD) (s : Store) (n : Net) : Prop where
  wf : n.WF s p q
  keys : (n.hiddenLayers s).map Layer.dkey = ks
  okey : n.output.toLayer.dkey = ok
  costd : n.output.costd = cd
  hid : List.Forall₂ Within (wbounds A M ks (q * max M (A * 1 / ok.1) * 1)).1 (n.hiddenLayers s)
  out : Within (max M (A * 1 / ok.1)) n.output.toLayer

theorem bounded_step {A M : ℝ} {p q : Nat} {ks : List (ℝ × ℝ × ActFunc ℝ × Nat × Nat)} {ok : ℝ × ℝ × ActFunc ℝ × Nat × Nat} {cd : MatFuncD} {junk : Nat → Nat → ℝ} {s : Store} {n : Net} {b : Mat ℝ × Mat ℝ} (hA : 1 ≤ A)
    (hks : ∀ k ∈ ks, Spec.TameAct A k.2.2.1 ∧ 0 < k.1 ∧ 0 ≤ k.2.1 ∧ k.2.1 * k.1 ≤ 1) (hok : 0 < ok.1 ∧ 0 ≤ ok.2.1 ∧ ok.2.1 * ok.1 ≤ 1) (hcd : Spec.UnitDelta ok.2.2.1 cd)
    (h : Bounded A M p q ks ok cd s n) (hb : Spec.UnitBatch A p q b) :
    ∃ s' n', n.trainOn junk s b.1 b.2 = .ok (s', n') ∧ Bounded A M p q ks ok cd s' n' := by
  have hk1 : n.output.lambda = ok.1 := by rw [← h.okey]; rfl
  have hk2 : n.output.lrate = ok.2.1 := by rw [← h.okey]; rfl
  have hk3 : n.output.actfunc = ok.2.2.1 := by rw [← h.okey]; rfl
  have hA0 : 0 ≤ A := by linarith
  have q1 := hb.pos; have q2 := hb.inputs; have q3 := hb.rows; have q4 := hb.outputs
  obtain ⟨d1, d2⟩ := outputZ_dims (x := b.1) h.wf hb.inputs
  obtain ⟨D, hD, hD1, hD2, hD3⟩ := hcd b.2 (n.outputZ s b.1) (by omega) (by omega) hb.labels
  rw [← hk3, ← h.costd] at hD
  have hpos : (0 : ℝ) < b.2.nr := by exact_mod_cast (by omega : 0 < b.2.nr)
  have hcol : ColSums 1 D := by
    intro j
    by_cases hj : j < D.nc
    · calc ∑ i ∈ range D.nr, |D.f i j| ≤ ∑ _i ∈ range D.nr, 1 / (b.2.nr : ℝ) := sum_le_sum fun i hi => hD3 i (by rw [← hD1]; exact mem_range.1 hi) j (by omega)
        _ = 1 := by rw [sum_const, card_range, nsmul_eq_mul, hD1]; field_simp
    · have : ∀ i, D.f i j = 0 := fun i => Mat.out _ i j (by rintro ⟨-, h⟩; exact hj h)
      simp only [this, abs_zero, sum_const_zero]
      norm_num
  obtain ⟨s1, n1, e1, b1, -, w1⟩ := trainOn_ok (junk := junk) h.wf hb.pos hb.inputs hD (by omega) (by omega)
  refine ⟨s1, n1, e1, ?_⟩
  obtain ⟨r, f1, f2, f3, f4⟩ := h.wf.split
  have hd0 := outL_dims (Ls := n.hiddenLayers s) (x := b.1) (q := r) (by rw [q2]; exact f1)
  have hB0 : 0 ≤ max M (A * 1 / ok.1) := (abs_nonneg _).trans (h.out 0 0)
  have hcb := colSums_backOf hcol h.out (by norm_num)
  have hDq : D.nc = q := by omega
  rw [hDq] at hcb
  have hmem : ∀ L ∈ n.hiddenLayers s, Spec.TameAct A L.actfunc ∧ Spec.Regularised L := by
    intro L hL
    have : L.dkey ∈ ks := by rw [← h.keys]; exact List.mem_map_of_mem hL
    obtain ⟨t1, t2, t3, t4⟩ := hks _ this
    exact ⟨t1, t2, t3, t4⟩
  have hh := hidden_within (A := A) (M := M) hA (Ls := n.hiddenLayers s) (x := b.1) (d := Layer.backOf D n.output.W) (q := r) (d0 := q * max M (A * 1 / ok.1) * 1)
    (by rw [q2]; exact f1) hb.bounded hmem (by show D.nr = _; omega) (by show n.output.W.nr - 1 = r; omega) (by positivity) (by exact hcb) (by rw [h.keys]; exact h.hid)
  rw [h.keys] at hh
  have hlay := b1.layers
  unfold Net.passed bwdNet at hlay
  unfold Net.layers at hlay
  rw [List.map_append] at hlay
  obtain ⟨l1, l2⟩ := List.append_inj' hlay rfl
  have l1' : n1.hiddenLayers s1 = (bwdL (fwdL (n.hiddenLayers s) b.1) (Layer.backOf D n.output.W)).1.map Layer.upd := l1
  have l2' : n1.output.toLayer = Layer.upd { n.output.toLayer.fwd (outL (n.hiddenLayers s) b.1) with delta := D, grad := (n.output.toLayer.fwd (outL (n.hiddenLayers s) b.1)).regGrad D } :=
    List.singleton_injective l2
  have hxo : ∀ i < (outL (n.hiddenLayers s) b.1).nr, ∀ j < (outL (n.hiddenLayers s) b.1).nc, |(outL (n.hiddenLayers s) b.1).f i j| ≤ A := by
    have key : ∀ (Ls : List Layer) (x : Mat ℝ), (∀ i < x.nr, ∀ j < x.nc, |x.f i j| ≤ A) → (∀ L ∈ Ls, Spec.TameAct A L.actfunc) → ∀ i < (outL Ls x).nr, ∀ j < (outL Ls x).nc, |(outL Ls x).f i j| ≤ A := by
      intro Ls
      induction Ls with
      | nil => intro x hx _; exact hx
      | cons L Ls ih => intro x hx hL; exact ih _ (fwd_a_tame (hL L (by simp)) x) fun K hK => hL K (by simp [hK])
    exact key _ _ hb.bounded fun L hL => (hmem L hL).1
  have hout : Within (max M (A * 1 / ok.1)) n1.output.toLayer := by
    rw [l2', ← hk1]
    refine upd_within (L := n.output.toLayer.fwd (outL (n.hiddenLayers s) b.1)) ⟨by show 0 < n.output.lambda; rw [hk1]; exact hok.1, by show 0 ≤ n.output.lrate; rw [hk2]; exact hok.2.1,
      by show n.output.lrate * n.output.lambda ≤ 1; rw [hk1, hk2]; exact hok.2.2⟩ (by rw [show (n.output.toLayer.fwd (outL (n.hiddenLayers s) b.1)).lambda = ok.1 from hk1]; exact h.out)
      fun a c => ?_
    exact abs_gradOf (abs_ones1 hA hxo) (by show D.nr = (outL (n.hiddenLayers s) b.1).nr; omega) hcol hA0 (by norm_num) a c
  refine ⟨w1.wf, ?_, ?_, b1.conf.ocostd.trans h.costd, ?_, hout⟩
  · rw [l1', hh.2.2.2]
  · rw [l2', ← h.okey]; rfl
  · rw [l1']; exact hh.1

theorem forall₂_within {bl : List ℝ} {Ls : List Layer} (h : List.Forall₂ Within bl Ls) {L : Layer} (hL : L ∈ Ls) : ∃ b ∈ bl, Within b L := by
  induction h with
  | nil => simp at hL
  | cons h1 _ ih =>
    rcases List.mem_cons.1 hL with rfl | hL
    · exact ⟨_, by simp, h1⟩
    · obtain ⟨b, h2, h3⟩ := ih hL
      exact ⟨b, by simp [h2], h3⟩

/-! ## C99 -/

/-- **C99** (networks). Take a well-formed dense network whose hidden activations and their derivatives stay within `A`, with an output whose delta is bounded by `1 / N`, and with regularisation
on in every layer (`lambda > 0`, `lrate * lambda ≤ 1`). There is a bound `B` on all its weights that holds for ever: after training on any sequence of batches, of any length, with inputs within
`A` and labels in `[0, 1]`. -/
theorem C99_bounded {A : ℝ} {p q : Nat} {s : Store} {n : Net} (hA : 1 ≤ A) (h : n.WF s p q) (hact : ∀ L ∈ n.hiddenLayers s, Spec.TameAct A L.actfunc)
    (hreg : ∀ L ∈ n.layers s, Spec.Regularised L) (hd : Spec.UnitDelta n.output.actfunc n.output.costd) :
    ∃ B : ℝ, ∀ (junk : Nat → Nat → ℝ) (bs : List (Mat ℝ × Mat ℝ)), (∀ b ∈ bs, Spec.UnitBatch A p q b) →
      ∃ s' n', Net.trainAll junk bs s n = .ok (s', n') ∧ ∀ L ∈ n'.layers s', ∀ i j, |L.W.f i j| ≤ B := by
  obtain ⟨M, hM⟩ : ∃ M : ℝ, ∀ L ∈ n.layers s, ∀ i j, |L.W.f i j| ≤ M := by
    have hone : ∀ W : Mat ℝ, ∃ M : ℝ, ∀ i j, |W.f i j| ≤ M := by
      intro W
      refine ⟨∑ i ∈ range W.nr, ∑ j ∈ range W.nc, |W.f i j|, fun i j => ?_⟩
      by_cases hij : i < W.nr ∧ j < W.nc
      · refine le_trans ?_ (single_le_sum (f := fun i => ∑ j ∈ range W.nc, |W.f i j|) (fun i _ => sum_nonneg fun j _ => abs_nonneg _) (mem_range.2 hij.1))
        exact single_le_sum (f := fun j => |W.f i j|) (fun j _ => abs_nonneg _) (mem_range.2 hij.2)
      · rw [Mat.out _ i j hij, abs_zero]
        exact sum_nonneg fun i _ => sum_nonneg fun j _ => abs_nonneg _
    have key : ∀ Ls : List Layer, ∃ M : ℝ, ∀ L ∈ Ls, ∀ i j, |L.W.f i j| ≤ M := by
      intro Ls
      induction Ls with
      | nil => exact ⟨0, by simp⟩
      | cons L Ls ih =>
        obtain ⟨M, hM⟩ := ih
        obtain ⟨K, hK⟩ := hone L.W
        refine ⟨max K M, fun P hP i j => ?_⟩
        rcases List.mem_cons.1 hP with rfl | hP
        · exact (hK i j).trans (le_max_left _ _)
        · exact (hM P hP i j).trans (le_max_right _ _)
    exact key _
  set ks := (n.hiddenLayers s).map Layer.dkey with hks
  set ok := n.output.toLayer.dkey with hok
  have hmh : ∀ L ∈ n.hiddenLayers s, L ∈ n.layers s := fun L hL => by unfold Net.layers; simp [hL]
  have hmo : n.output.toLayer ∈ n.layers s := by unfold Net.layers; simp
  have hks' : ∀ k ∈ ks, Spec.TameAct A k.2.2.1 ∧ 0 < k.1 ∧ 0 ≤ k.2.1 ∧ k.2.1 * k.1 ≤ 1 := by
    intro k hk
    obtain ⟨L, hL, rfl⟩ := List.mem_map.1 hk
    have := hreg L (hmh L hL)
    exact ⟨hact L hL, this.lambda, this.rate, this.small⟩
  have hok' : 0 < ok.1 ∧ 0 ≤ ok.2.1 ∧ ok.2.1 * ok.1 ≤ 1 := ⟨(hreg _ hmo).lambda, (hreg _ hmo).rate, (hreg _ hmo).small⟩
  have h0 : Bounded A M p q ks ok n.output.costd s n :=
    ⟨h, rfl, rfl, rfl, within_of_start fun L hL => hM L (hmh L hL), fun i j => (hM _ hmo i j).trans (le_max_left _ _)⟩
  set bl := (wbounds A M ks (q * max M (A * 1 / ok.1) * 1)).1 with hbl
  obtain ⟨B, hB1, hB2⟩ : ∃ B : ℝ, max M (A * 1 / ok.1) ≤ B ∧ ∀ b ∈ bl, b ≤ B := by
    have key : ∀ (l : List ℝ) (c : ℝ), ∃ B : ℝ, c ≤ B ∧ ∀ b ∈ l, b ≤ B := by
      intro l c
      induction l with
      | nil => exact ⟨c, le_rfl, by simp⟩
      | cons a l ih =>
        obtain ⟨B, h1, h2⟩ := ih
        refine ⟨max a B, h1.trans (le_max_right _ _), fun b hb => ?_⟩
        rcases List.mem_cons.1 hb with rfl | hb
        · exact le_max_left _ _
        · exact (h2 b hb).trans (le_max_right _ _)
    exact key bl _
  refine ⟨B, fun junk bs hbs => ?_⟩
  have run : ∀ (bs : List (Mat ℝ × Mat ℝ)) (t : Store) (m : Net), Bounded A M p q ks ok n.output.costd t m → (∀ b ∈ bs, Spec.UnitBatch A p q b) →
      ∃ s' n', Net.trainAll junk bs t m = .ok (s', n') ∧ Bounded A M p q ks ok n.output.costd s' n' := by
    intro bs
    induction bs with
    | nil => intro t m hm _; exact ⟨t, m, rfl, hm⟩
    | cons b bs ih =>
      intro t m hm hb
      obtain ⟨t1, m1, e1, hm1⟩ := bounded_step (junk := junk) hA hks' hok' hd hm (hb b (by simp))
      obtain ⟨t2, m2, e2, hm2⟩ := ih t1 m1 hm1 fun c hc => hb c (by simp [hc])
      refine ⟨t2, m2, ?_, hm2⟩
      simp only [Net.trainAll]
      rw [e1, ok_bind]
      exact e2
  obtain ⟨s', n', e, hb⟩ := run bs s n h0 hbs
  refine ⟨s', n', e, fun L hL i j => ?_⟩
  unfold Net.layers at hL
  rcases List.mem_append.1 hL with hL | hL
  · obtain ⟨b, hbm, hw⟩ := forall₂_within hb.hid hL
    exact (hw i j).trans (hB2 b hbm)
  · rw [List.mem_singleton.1 hL]
    exact (hb.out i j).trans hB1

/-- **C99** (the library's activations). The bounded activations of the library and their derivatives stay within 2. -/
theorem C99_activations : ∀ f ∈ [Act.sigmoid, Act.arctan, Act.tanhyperbolic, Act.bipolarsigmoid, Act.comploglog, Act.lecuntanh, Act.hardtanh], Spec.TameAct 2 f := by
  have hs : ∀ z, 0 ≤ Act.sigmoid.actd z ∧ Act.sigmoid.actd z ≤ 1 := by
    intro z
    show 0 ≤ Real.exp (-z) / (1 + Real.exp (-z)) / (1 + Real.exp (-z)) ∧ Real.exp (-z) / (1 + Real.exp (-z)) / (1 + Real.exp (-z)) ≤ 1
    have := Real.exp_pos (-z)
    refine ⟨by positivity, ?_⟩
    rw [div_div, div_le_one (by positivity)]
    nlinarith
  intro f hf z
  simp only [List.mem_cons, List.not_mem_nil, or_false] at hf
  rcases hf with rfl | rfl | rfl | rfl | rfl | rfl | rfl
  · have h1 := Act.C26_sigmoid.1 z
    have h2 := hs z
    exact ⟨abs_le.2 ⟨by linarith, by linarith⟩, abs_le.2 ⟨by linarith, by linarith⟩⟩
  · have h1 := Act.C26_arctan.1 z
    have hpi := Real.pi_le_four
    refine ⟨abs_le.2 ⟨by linarith, by linarith⟩, ?_⟩
    show |1 / (1 + z * z)| ≤ 2
    have : 0 < 1 + z * z := by nlinarith [mul_self_nonneg z]
    rw [abs_of_pos (by positivity), div_le_iff₀ this]
    nlinarith [mul_self_nonneg z]
  · have h1 := Act.C26_tanh.1 z
    refine ⟨abs_le.2 ⟨by linarith, by linarith⟩, ?_⟩
    show |1 - Act.tanhyperbolic.act z * Act.tanhyperbolic.act z| ≤ 2
    exact abs_le.2 ⟨by nlinarith, by nlinarith [mul_self_nonneg (Act.tanhyperbolic.act z)]⟩
  · have h1 := Act.C26_bipolarsigmoid.1 z
    refine ⟨abs_le.2 ⟨by linarith, by linarith⟩, ?_⟩
    show |(1 - Act.bipolarsigmoid.act z * Act.bipolarsigmoid.act z) / 2| ≤ 2
    exact abs_le.2 ⟨by nlinarith, by nlinarith [mul_self_nonneg (Act.bipolarsigmoid.act z)]⟩
  · have h1 := Act.C26_comploglog.1 z
    refine ⟨abs_le.2 ⟨by linarith, by linarith⟩, ?_⟩
    show |Real.exp z * Real.exp (-Real.exp z)| ≤ 2
    have h2 := Real.exp_pos z
    have h3 : Real.exp z * Real.exp (-Real.exp z) ≤ 1 := by
      rw [Real.exp_neg, ← div_eq_mul_inv, div_le_one (Real.exp_pos _)]
      linarith [Real.add_one_le_exp (Real.exp z)]
    rw [abs_of_pos (by positivity)]
    linarith
  · have h1 := Act.C26_lecuntanh.1 z
    refine ⟨abs_le.2 ⟨by linarith, by linarith⟩, ?_⟩
    show |1.14393333 * 4 / (Real.exp (2 / 3 * z) + Real.exp (-(2 / 3 * z))) / (Real.exp (2 / 3 * z) + Real.exp (-(2 / 3 * z)))| ≤ 2
    have h2 := Real.exp_pos (2 / 3 * z)
    have h3 := Real.exp_pos (-(2 / 3 * z))
    have h4 : Real.exp (2 / 3 * z) * Real.exp (-(2 / 3 * z)) = 1 := by rw [← Real.exp_add]; simp
    rw [abs_of_pos (by positivity), div_div, div_le_iff₀ (by positivity)]
    nlinarith [sq_nonneg (Real.exp (2 / 3 * z) - Real.exp (-(2 / 3 * z)))]
  · have h1 := Act.C26_hardtanh.1 z
    refine ⟨abs_le.2 ⟨by linarith, by linarith⟩, ?_⟩
    show |if z ≥ -1 ∧ z ≤ 1 then (1 : ℝ) else 0| ≤ 2
    split <;> norm_num

/-- **C99** (the library's outputs). The deltas of the cross-entropy and quadratic outputs with sigmoid activation, and of the softmax output with any activation, are bounded by `1 / N`. -/
theorem C99_outputs : Spec.UnitDelta Act.sigmoid CrossEntropy.costd ∧ Spec.UnitDelta Act.sigmoid Quadratic.costd ∧ ∀ f, Spec.UnitDelta f Softmax.costd := by
  have hsig : ∀ y z : Mat ℝ, z.nr = y.nr → z.nc = y.nc → (∀ i < y.nr, ∀ j < y.nc, 0 ≤ y.f i j ∧ y.f i j ≤ 1) → ∀ i < y.nr, ∀ j < y.nc,
      |(Mat.of (z.map Act.sigmoid.act).nr (z.map Act.sigmoid.act).nc (fun i j => ((z.map Act.sigmoid.act).f i j - y.f i j) / (y.nr : ℝ))).f i j| ≤ 1 / y.nr := by
    intro y z h1 h2 hy i hi j hj
    rw [Mat.of_f' (by rw [Mat.map_nr]; omega) (by rw [Mat.map_nc]; omega), Mat.map_f' (by omega) (by omega), abs_div, Nat.abs_cast]
    refine div_le_div_of_nonneg_right ?_ (by positivity)
    have h3 := Act.C26_sigmoid.1 (z.f i j)
    have h4 := hy i hi j hj
    exact abs_le.2 ⟨by linarith, by linarith⟩
  refine ⟨fun y z h1 h2 hy => ?_, fun y z h1 h2 hy => ?_, fun f y z h1 h2 hy => ?_⟩
  · exact ⟨_, diff_costd (by rw [Mat.map_nr]; exact h1) (by rw [Mat.map_nc]; exact h2), h1, h2, hsig y z h1 h2 hy⟩
  · exact ⟨_, diff_costd (by rw [Mat.map_nr]; exact h1) (by rw [Mat.map_nc]; exact h2), h1, h2, hsig y z h1 h2 hy⟩
  · refine ⟨_, softmax_costd (by rw [Mat.map_nr]; exact h1) (by rw [Mat.map_nc]; exact h2), h1, h2, fun i hi j hj => ?_⟩
    rw [Mat.of_f' (by rw [Mat.map_nr]; omega) (by rw [Mat.map_nc]; omega), abs_div, Nat.abs_cast]
    refine div_le_div_of_nonneg_right ?_ (by positivity)
    have h4 := hy i hi j hj
    have h5 : 0 ≤ Spec.softmaxAt (z.map f.act) i j ∧ Spec.softmaxAt (z.map f.act) i j ≤ 1 := by
      unfold Spec.softmaxAt
      have hs : Real.exp ((z.map f.act).f i j) ≤ ∑ k ∈ range (z.map f.act).nc, Real.exp ((z.map f.act).f i k) :=
        single_le_sum (f := fun k => Real.exp ((z.map f.act).f i k)) (fun k _ => (Real.exp_pos _).le) (mem_range.2 (by rw [Mat.map_nc]; omega))
      have hp := Real.exp_pos ((z.map f.act).f i j)
      exact ⟨div_nonneg hp.le (by linarith), div_le_one_of_le₀ hs (by linarith)⟩
    exact abs_le.2 ⟨by linarith, by linarith⟩

/-! ### Without regularisation -/

/-- A network with one input, no hidden layer and one sigmoid output with the cross-entropy cost, rate `r`, regularisation `l`, bias and weight `u`. -/
def logNet (r l u : ℝ) : Net :=
  { result := .empty, cost := CrossEntropy.cost, costd := CrossEntropy.costd, input := exLayer Act.identity .empty, hidden := [],
    output := { exLayer Act.sigmoid (w21 u u) with lrate := r, lambda := l, cost := CrossEntropy.cost, costd := CrossEntropy.costd, y := .empty } }

/-- The bias and the weight after `t` steps on the sample 1 with label 1, without regularisation. -/
def logSeq (r : ℝ) : Nat → ℝ
  | 0 => 0
  | t + 1 => logSeq r t + r * (1 - Act.sigmoid.act (2 * logSeq r t))

theorem log_step (junk : Nat → Nat → ℝ) {s : Store} {n : Net} {r u : ℝ} (hh : n.hidden = []) (hW : n.output.W = w21 u u) (ha : n.output.actfunc = Act.sigmoid) (hl : n.output.lambda = 0) (hr : n.output.lrate = r)
    (hc : n.output.costd = CrossEntropy.costd) :
    ∃ n', n.trainOn junk s (m11 1) (m11 1) = .ok (s, n') ∧ n'.hidden = [] ∧ n'.output.W = w21 (u + r * (1 - Act.sigmoid.act (2 * u))) (u + r * (1 - Act.sigmoid.act (2 * u))) ∧
      n'.output.actfunc = Act.sigmoid ∧ n'.output.lambda = 0 ∧ n'.output.lrate = r ∧ n'.output.costd = CrossEntropy.costd := by
  set a := Act.sigmoid.act (2 * u) with haa
  set o1 : OutputLayer := { n.output with pa := ones1 (m11 1), z := m11 (2 * u), a := m11 a } with ho1
  have hfw : n.output.forwardprop (m11 1) = .ok (m11 a, o1) := by
    rw [OutputLayer.forwardprop_ok (by show 0 < 1; omega) (by show 0 < 1; omega) (by rw [hW]; rfl)]
    have hpre : Spec.pre n.output.W (m11 1) = m11 (2 * u) := by rw [hW, pre11]; congr 1; ring
    have hmap : (m11 (2 * u)).map Act.sigmoid.act = m11 a := by
      refine m11_ext rfl rfl ?_
      rw [Mat.map_f' (by show 0 < 1; omega) (by show 0 < 1; omega), m11_f]
    have hf : n.output.toLayer.fwd (m11 1) = o1.toLayer := by
      unfold Layer.fwd
      rw [hpre]
      have hm2 : (m11 (2 * u)).map n.output.actfunc.act = m11 a := by rw [ha, hmap]
      rw [hm2]
    rw [hf]
  have hq : o1.costd (m11 1) o1.a o1.z = .ok (m11 (a - 1)) := by
    show n.output.costd (m11 1) (m11 a) (m11 (2 * u)) = _
    rw [hc]
    unfold CrossEntropy.costd
    rw [diff_costd (by rfl) (by rfl)]
    congr 1
    refine m11_ext rfl rfl ?_
    rw [Mat.of_f' (by show 0 < 1; omega) (by show 0 < 1; omega), m11_f, m11_f]
    show (a - 1) / ((1 : Nat) : ℝ) = a - 1
    simp
  have hb := OutputLayer.backprop_ok (o := o1) (m := 1) (y := m11 1) (D := m11 (a - 1)) ⟨rfl, by show 2 = n.output.W.nr; rw [hW]; rfl, rfl, by show 1 = n.output.W.nc; rw [hW]; rfl, rfl, by show 1 = n.output.W.nc; rw [hW]; rfl⟩
    (by show 1 ≤ n.output.W.nr; rw [hW]; show 1 ≤ 2; omega) hq rfl (by show 1 = n.output.W.nc; rw [hW]; rfl)
  have hg : (o1.bwd (m11 1) (m11 (a - 1))).grad = w21 (a - 1) (1 * (a - 1)) := reg11 (L := o1.toLayer) (b := u) (w := u) hW hl rfl (a - 1)
  refine ⟨{ n with input := (InputLayer.forwardprop n.input (m11 1)).2, result := m11 a, output := { (o1.bwd (m11 1) (m11 (a - 1))) with W := w21 (u + r * (1 - a)) (u + r * (1 - a)) } },
    ?_, hh, rfl, ha, hl, hr, hc⟩
  unfold Net.trainOn
  have hfwd : n.forwardprop junk s (m11 1) = .ok (m11 a, s, { n with input := (InputLayer.forwardprop n.input (m11 1)).2, output := o1, result := m11 a }) := by
    unfold Net.forwardprop
    show (do
      let (current, s) ← Net.hiddenForward junk n.hidden s (m11 1)
      let (result, output) ← n.output.forwardprop current
      .ok (result, s, { n with input := (InputLayer.forwardprop n.input (m11 1)).2, output := output, result := result }) : Res _) = _
    have hhf : Net.hiddenForward junk n.hidden s (m11 1) = .ok (m11 1, s) := by rw [hh]; rfl
    rw [hhf, ok_bind]
    simp only
    rw [hfw, ok_bind]
  rw [hfwd, ok_bind]
  simp only
  unfold Net.backprop
  simp only
  rw [hb, ok_bind]
  simp only
  rw [hh]
  show (do
    let (s, n) ← (Except.ok (s, _) : Res (Store × Net))
    n.update s) = _
  rw [ok_bind]
  unfold Net.update
  simp only
  rw [upd11 (b := u) (w := u) (by exact hW) hg, ok_bind]
  show Except.ok (s, _) = Except.ok (s, _)
  have hrr : (o1.bwd (m11 1) (m11 (a - 1))).toLayer.lrate = r := hr
  rw [hrr]
  have e1 : u - r * (a - 1) = u + r * (1 - a) := by ring
  have e2 : u - r * (1 * (a - 1)) = u + r * (1 - a) := by ring
  rw [e1, e2]

theorem log_run (junk : Nat → Nat → ℝ) (s : Store) {r : ℝ} : ∀ (t k : Nat) {n : Net}, n.hidden = [] → n.output.W = w21 (logSeq r k) (logSeq r k) → n.output.actfunc = Act.sigmoid → n.output.lambda = 0 →
    n.output.lrate = r → n.output.costd = CrossEntropy.costd →
    ∃ n', Net.trainAll junk (List.replicate t (m11 1, m11 1)) s n = .ok (s, n') ∧ n'.output.W = w21 (logSeq r (k + t)) (logSeq r (k + t))
  | 0, k, n, _, hW, _, _, _, _ => ⟨n, rfl, hW⟩
  | t + 1, k, n, hh, hW, ha, hl, hr, hc => by
    obtain ⟨n1, e1, h1, h2, h3, h4, h5, h6⟩ := log_step junk (s := s) hh hW ha hl hr hc
    obtain ⟨n2, e2, k2⟩ := log_run junk s (r := r) t (k + 1) h1 h2 h3 h4 h5 h6
    refine ⟨n2, ?_, by rw [k2]; congr 2 <;> omega⟩
    rw [List.replicate_succ]
    simp only [Net.trainAll]
    rw [e1, ok_bind]
    exact e2

/-- **C99** (regularisation is needed). Without it (`lambda = 0`) no bound holds for ever: whatever the learning rate `r > 0`, training a one-unit sigmoid network with the cross-entropy cost on the
single sample 1 with label 1 carries its weight beyond every bound. -/
theorem C99_lambda_needed (junk : Nat → Nat → ℝ) (s : Store) {r : ℝ} (hr : 0 < r) (B : ℝ) :
    Spec.UnitBatch 2 1 1 (m11 1, m11 1) ∧ ∃ t n', Net.trainAll junk (List.replicate t (m11 1, m11 1)) s (logNet r 0 0) = .ok (s, n') ∧ B < n'.output.W.f 1 0 := by
  refine ⟨⟨by show 0 < 1; omega, rfl, rfl, rfl, ?_, ?_⟩, ?_⟩
  · intro i hi j hj
    obtain rfl : i = 0 := by have : i < 1 := hi; omega
    obtain rfl : j = 0 := by have : j < 1 := hj; omega
    rw [show (m11 1, m11 1).1.f 0 0 = (1 : ℝ) from m11_f 1]
    norm_num
  · intro i hi j hj
    obtain rfl : i = 0 := by have : i < 1 := hi; omega
    obtain rfl : j = 0 := by have : j < 1 := hj; omega
    rw [show (m11 1, m11 1).2.f 0 0 = (1 : ℝ) from m11_f 1]
    norm_num
  obtain ⟨t, ht⟩ : ∃ t, B < logSeq r t := by
    by_contra hcon
    push Not at hcon
    have hδ : 0 < r * (1 - Act.sigmoid.act (2 * B)) := mul_pos hr (by linarith [(Act.C26_sigmoid.1 (2 * B)).2])
    have hgrow : ∀ t : Nat, t * (r * (1 - Act.sigmoid.act (2 * B))) ≤ logSeq r t := by
      intro t
      induction t with
      | zero => simp [logSeq]
      | succ t ih =>
        have h1 : Act.sigmoid.act (2 * logSeq r t) ≤ Act.sigmoid.act (2 * B) := Act.C26_sigmoid.2.monotone (by linarith [hcon t])
        have h2 := mul_le_mul_of_nonneg_left (show 1 - Act.sigmoid.act (2 * B) ≤ 1 - Act.sigmoid.act (2 * logSeq r t) by linarith) hr.le
        show ((t + 1 : Nat) : ℝ) * _ ≤ logSeq r t + r * (1 - Act.sigmoid.act (2 * logSeq r t))
        push_cast
        linarith
    obtain ⟨t, ht⟩ := exists_nat_gt (B / (r * (1 - Act.sigmoid.act (2 * B))))
    rw [div_lt_iff₀ hδ] at ht
    linarith [hgrow t, hcon t]
  obtain ⟨n', e, k⟩ := log_run junk s (r := r) t 0 (n := logNet r 0 0) rfl rfl rfl rfl rfl rfl
  refine ⟨t, n', e, ?_⟩
  rw [k, w21_f1, Nat.zero_add]
  exact ht

/-- The hypotheses of `C99_bounded` hold of a concrete network (the one above with `lambda = 1`) and of one with a hidden layer. -/
example : (logNet (1 / 2) 1 3).WF exStore 1 1 ∧ (∀ L ∈ (logNet (1 / 2) 1 3).layers exStore, Spec.Regularised L) ∧
    ∃ B : ℝ, ∀ t, ∃ s' n', Net.trainAll (fun _ _ => 0) (List.replicate t (m11 1, m11 1)) exStore (logNet (1 / 2) 1 3) = .ok (s', n') ∧ ∀ L ∈ n'.layers s', ∀ i j, |L.W.f i j| ≤ B := by
  have hw : (logNet (1 / 2) 1 3).WF exStore 1 1 := by
    refine ⟨by simp [logNet], by simp [logNet], by omega, ?_⟩
    simp [Net.layers, Net.hiddenLayers, logNet, exLayer, w21, Spec.Fits]
  have hreg : ∀ L ∈ (logNet (1 / 2) 1 3).layers exStore, Spec.Regularised L := by
    intro L hL
    simp only [Net.layers, Net.hiddenLayers, logNet, List.map_nil, List.nil_append, List.mem_singleton] at hL
    subst hL
    refine ⟨?_, ?_, ?_⟩ <;> norm_num
  refine ⟨hw, hreg, ?_⟩
  obtain ⟨B, hB⟩ := C99_bounded (A := 2) (by norm_num) hw (by simp [logNet, Net.hiddenLayers]) hreg C99_outputs.1
  refine ⟨B, fun t => hB _ _ fun b hb => ?_⟩
  rw [List.eq_of_mem_replicate hb]
  exact (C99_lambda_needed (fun _ _ => 0) exStore one_pos 0).1

/-- A 2-3-2 network with a sigmoid hidden layer, a softmax output and regularisation meets the hypotheses. -/
example : ∃ (s : Store) (n : Net), n.WF s 2 2 ∧ n.hidden = [7] ∧ (∀ L ∈ n.hiddenLayers s, Spec.TameAct 2 L.actfunc) ∧ (∀ L ∈ n.layers s, Spec.Regularised L) ∧ Spec.UnitDelta n.output.actfunc n.output.costd := by
  refine ⟨fun _ => ⟨{ exLayer Act.sigmoid (Mat.of 3 3 (fun i j => (i : ℝ) - j)) with lambda := 1 / 2 }, .dense⟩,
    { exNet with output := { exNet.output with lambda := 1 / 3, cost := Softmax.cost, costd := Softmax.costd } }, ⟨by simp [exNet], fun _ _ => rfl, by omega, ?_⟩, rfl, ?_, ?_, C99_outputs.2.2 _⟩
  · simp [Net.layers, Net.hiddenLayers, exNet, exLayer, Spec.Fits]
  · intro L hL
    simp only [Net.hiddenLayers, exNet, List.map_cons, List.map_nil, List.mem_singleton] at hL
    subst hL
    exact C99_activations Act.sigmoid (by simp)
  · intro L hL
    simp only [Net.layers, Net.hiddenLayers, exNet, List.map_cons, List.map_nil, List.cons_append, List.nil_append, List.mem_cons, List.not_mem_nil, or_false] at hL
    rcases hL with rfl | rfl
    · refine ⟨?_, ?_, ?_⟩ <;> norm_num [exLayer]
    · refine ⟨?_, ?_, ?_⟩ <;> norm_num [exLayer]

end
end Nnet.NN
