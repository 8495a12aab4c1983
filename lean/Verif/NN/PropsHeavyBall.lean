import Verif.NN.PropsConvex
import Verif.NN.PropsMomentum
import Verif.NN.PropsSafe
/-!
# C91: training with momentum converges
-/
namespace Nnet.NN
open Finset
noncomputable section

/-! ## Specification -/

/-- The program after constructing `MomentumTrainer(nnet number k, mom)` and calling `feeddata(x, y)` `t` times. -/
def Spec.momentumAfter (junk : Nat → Nat → ℝ) (w : World) (k : Nat) (mom : ℝ) (x y : Mat ℝ) (t : Nat) : Res (World × MomentumTrainer) :=
  feedAll (fun w (t : MomentumTrainer) => t.feeddata junk w) w (MomentumTrainer.new w k mom) (List.replicate t (x, y))

/-! ## One call -/

variable {junk : Nat → Nat → ℝ} {w : World} {k : Nat} {mom : ℝ} {p q : Nat} {x y : Mat ℝ} {l : Spec.Loss}

/-- What a trainer of a network without hidden layers satisfies between two calls. -/
structure MReady (w : World) (t : MomentumTrainer) (k : Nat) (mom : ℝ) (p q : Nat) (l : Spec.Loss) (η lam : ℝ) : Prop where
  net : t.nnet = k
  mom : t.momentum = mom
  nodecay : t.usedecay = false
  nohid : t.hgrads = []
  rows : t.ograd.nr = p + 1
  cols : t.ograd.nc = q
  shallow : Spec.Shallow w.store (w.nets k) p q l
  rate : (w.nets k).output.lrate = η
  lam : (w.nets k).output.lambda = lam

theorem shallow_mstep {t : MomentumTrainer} {η lam : ℝ} (h : MReady w t k mom p q l η lam) (b : Spec.Batch x y p q l) :
    ∃ w' t', t.feeddata junk w x y = .ok (w', t') ∧ MReady w' t' k mom p q l η lam ∧
      GD.MStep x.nr (p + 1) q (Spec.withOne x) (fun i => l.deriv q (y.f i)) lam η mom (w.nets k).output.W.f t.ograd.f (w'.nets k).output.W.f t'.ograd.f := by
  obtain ⟨h1, h2, h3, h4, h5, h6, h, hη, hlam⟩ := h
  set n := w.nets k with hn
  set s := w.store with hs
  obtain ⟨w1, w2, w3⟩ := shallow_dims h
  have hc := b.cols
  have hr := b.rows
  have hyr := b.lrows
  have hyc := b.lcols
  set Z := Spec.pre n.output.W x with hZ
  have z2 : Z.nc = q := w2
  set D := Mat.of Z.nr Z.nc (fun i j => l.deriv y.nc (y.f i) (Z.f i) j / y.nr) with hDdef
  have hD : n.output.costd y (outL (n.layers s) x) (n.outputZ s x) = .ok D := by
    rw [h.costd, shallow_out h]
    exact loss_costd l (by rw [← hZ]; show x.nr = _; omega) (by rw [← hZ]; omega)
  have hDa := hD
  rw [outL_layers] at hDa
  obtain ⟨s1, n1, s2, n2, e1, e2, hb, -, hrd⟩ := passes_ok (junk := junk) h.wf hr hc hDa (by show x.nr = _; omega) (by show Z.nc = _; omega)
  have hhl : n.hiddenLayers s = [] := by unfold Net.hiddenLayers; rw [h.nohidden]; rfl
  have hp : n.passed s x D = [{ n.output.toLayer.fwd x with delta := D, grad := (n.output.toLayer.fwd x).regGrad D }] := by
    unfold Net.passed bwdNet
    rw [hhl]
    rfl
  have hh : n2.hidden = [] := by rw [hb.conf.hidden]; exact h.nohidden
  have hlay := hb.layers
  rw [hp] at hlay
  have hl2 : n2.layers s2 = [n2.output.toLayer] := by unfold Net.layers Net.hiddenLayers; rw [hh]; rfl
  rw [hl2] at hlay
  have hL : n2.output.toLayer = { n.output.toLayer.fwd x with delta := D, grad := (n.output.toLayer.fwd x).regGrad D } := by simpa using hlay
  have hW2 : n2.output.W = n.output.W := by rw [hL]; rfl
  have hG2 : n2.output.grad = (n.output.toLayer.fwd x).regGrad D := by rw [hL]
  have g1 : n2.output.grad.nr = p + 1 := by rw [hG2]; exact w1
  have g2 : n2.output.grad.nc = q := by rw [hG2]; exact w2
  set og := Mat.of (t.ograd.smul t.momentum).nr (t.ograd.smul t.momentum).nc (fun i j => (t.ograd.smul t.momentum).f i j + (n2.output.grad.smul (1 - t.momentum)).f i j) with hog
  have eog : (t.ograd.smul t.momentum).add (n2.output.grad.smul (1 - t.momentum)) = .ok og := Mat.add_ok (by simp; omega) (by simp; omega)
  have og1 : og.nr = p + 1 := by rw [hog]; simp; exact h5
  have og2 : og.nc = q := by rw [hog]; simp; exact h6
  have eup : n2.updateWith s2 og [] = .ok (s2, { n2 with output := { n2.output with toLayer := n2.output.toLayer.updWith og } }) := by
    unfold Net.updateWith
    rw [Layer.updateWith_ok (by rw [og1, hW2]; omega) (by rw [og2, hW2]; omega), ok_bind, hh]
    rfl
  set w' := w.put k s2 { n2 with output := { n2.output with toLayer := n2.output.toLayer.updWith og } } with hw'
  have hput : w'.nets k = { n2 with output := { n2.output with toLayer := n2.output.toLayer.updWith og } } := by rw [hw']; simp [World.put]
  have hfeed : t.feeddata junk w x y = .ok (w', { t with toTrainer := t.toTrainer.count, ograd := og, hgrads := [] }) := by
    unfold MomentumTrainer.feeddata
    simp only
    rw [show t.count.nnet = k from h1, ← hn, ← hs]
    rw [show t.count.decay s n = (s, n) by unfold Trainer.decay; rw [if_neg (by intro hh; rw [show t.count.usedecay = false from h3] at hh; exact absurd hh.1 (by simp))]]
    simp only
    rw [e1, ok_bind]
    simp only
    rw [e2, ok_bind]
    simp only
    rw [eog, ok_bind, h4]
    show (do let (s, n) ← n2.updateWith s2 og []; _) = _
    rw [eup]
    rfl
  have hst := C42_step (p := p) (q := q) (by rw [h1]; exact h.wf) hr hc hfeed
  rw [h1] at hst
  refine ⟨w', _, hfeed, ⟨h1, h2, h3, rfl, og1, og2, ⟨hst.2.2.1, ?_, ?_, ?_, ?_⟩, ?_, ?_⟩, fun a ha j hj => ?_, fun a ha j hj => ?_⟩
  · rw [hput]; exact hh
  · rw [hput]; show n2.output.actfunc = _; rw [hL]; exact h.act
  · rw [hput]; show n2.output.costd = _; rw [hb.conf.ocostd]; exact h.costd
  · rw [hput]; show n2.cost = _; rw [hb.conf.cost]; exact h.cost
  · rw [hput]; show n2.output.lrate = _; rw [hL]; exact hη
  · rw [hput]; show n2.output.lambda = _; rw [hL]; exact hlam
  · show og.f a j = _
    rw [hog, Mat.of_f' (by simp; omega) (by simp; omega), Mat.smul_f, Mat.smul_f, h2, hG2]
    congr 2
    unfold Layer.regGrad
    rw [Mat.of_f' (by show a < n.output.W.nr; omega) (by show j < n.output.W.nc; omega)]
    show (Layer.gradOf (ones1 x) D).f a j + n.output.lambda * n.output.W.f a j = _
    unfold GD.grad Layer.gradOf
    rw [Mat.of_f' (by show a < x.nc + 1; omega) (by show j < Z.nc; omega), Finset.sum_div, hlam]
    congr 1
    refine Finset.sum_congr rfl fun i hi => ?_
    replace hi : i < x.nr := Finset.mem_range.1 hi
    rw [hDdef, Mat.of_f' (by show i < x.nr; omega) (by omega), hyr, hyc]
    rw [loss_deriv_congr l (y.f i) (v := GD.pred (p + 1) (Spec.withOne x) n.output.W.f i) (fun a ha => by rw [← hc]; exact shallow_pre _ _ hi (by omega)) hj]
    rw [mul_div_assoc]
    congr 1
    unfold ones1 Spec.withOne
    rw [Mat.of_f' hi (by omega)]
  · rw [hst.1, Mat.of_f' (by rw [← hn]; omega) (by rw [← hn]; omega), hput]
    show _ - n2.output.lrate * og.f a j = _ - η * og.f a j
    rw [hL]
    show _ - n.output.lrate * _ = _
    rw [hη]

theorem feedAll_snoc {T : Type} (feed : World → T → Mat ℝ → Mat ℝ → Res (World × T)) (d : Mat ℝ × Mat ℝ) : ∀ (ds : List (Mat ℝ × Mat ℝ)) (w : World) (t : T),
    feedAll feed w t (ds ++ [d]) = (do let (w, t) ← feedAll feed w t ds; feed w t d.1 d.2)
  | [], w, t => by
    show (do let (w, t) ← feed w t d.1 d.2; feedAll feed w t []) = feed w t d.1 d.2
    cases feed w t d.1 d.2 <;> rfl
  | e :: ds, w, t => by
    show (do let (w, t) ← feed w t e.1 e.2; feedAll feed w t (ds ++ [d])) = (do let (w, t) ← (do let (w, t) ← feed w t e.1 e.2; feedAll feed w t ds); feed w t d.1 d.2)
    cases feed w t e.1 e.2 with
    | error _ => rfl
    | ok r => exact feedAll_snoc feed d ds r.1 r.2

/-- The run of a momentum trainer. -/
theorem shallow_mrun (h : Spec.Shallow w.store (w.nets k) p q l) (b : Spec.Batch x y p q l) :
    ∃ R : Nat → World × MomentumTrainer, R 0 = (w, MomentumTrainer.new w k mom) ∧ (∀ t, Spec.momentumAfter junk w k mom x y t = .ok (R t)) ∧
      (∀ t, MReady (R t).1 (R t).2 k mom p q l (w.nets k).output.lrate (w.nets k).output.lambda) ∧
      GD.MRun x.nr (p + 1) q (Spec.withOne x) (fun i => l.deriv q (y.f i)) (w.nets k).output.lambda (w.nets k).output.lrate mom (fun t => ((R t).1.nets k).output.W.f) (fun t => (R t).2.ograd.f) := by
  obtain ⟨d1, d2, -⟩ := shallow_dims h
  have r0 : MReady w (MomentumTrainer.new w k mom) k mom p q l (w.nets k).output.lrate (w.nets k).output.lambda :=
    ⟨rfl, rfl, rfl, by simp [MomentumTrainer.new, MomentumTrainer.initmomentum, Trainer.new, h.nohidden], d1, d2, h, rfl, rfl⟩
  have key : ∀ t, ∃ r : World × MomentumTrainer, Spec.momentumAfter junk w k mom x y t = .ok r ∧ MReady r.1 r.2 k mom p q l (w.nets k).output.lrate (w.nets k).output.lambda := by
    intro t
    induction t with
    | zero => exact ⟨_, rfl, r0⟩
    | succ t ih =>
      obtain ⟨r, e1, r1⟩ := ih
      obtain ⟨w', t', e2, r2, -⟩ := shallow_mstep (junk := junk) r1 b
      refine ⟨(w', t'), ?_, r2⟩
      unfold Spec.momentumAfter at e1 ⊢
      rw [List.replicate_succ', feedAll_snoc, e1]
      exact e2
  choose R e1 r1 using key
  refine ⟨R, (Except.ok.inj (e1 0)).symm, e1, r1, ⟨fun t => ?_⟩⟩
  obtain ⟨w', t', e2, -, st⟩ := shallow_mstep (junk := junk) (r1 t) b
  have e3 := e1 (t + 1)
  unfold Spec.momentumAfter at e3
  have e4 := e1 t
  unfold Spec.momentumAfter at e4
  rw [List.replicate_succ', feedAll_snoc, e4] at e3
  have : R (t + 1) = (w', t') := by
    have e5 : (R t).2.feeddata junk (R t).1 x y = .ok (R (t + 1)) := e3
    rw [e2] at e5
    exact (Except.ok.inj e5).symm
  rw [this]
  exact st

/-! ## C91 -/

open Filter Topology

/-- **C91** (energy). With momentum `mom < 1` and `lrate * (curvature * mean (1 + |x|^2) + lambda) ≤ 2` no call raises the penalised cost plus `lrate * mom / (2 (1 - mom))` times the squared length of the averaged gradient;
`computecost` reports the cost at every time. -/
theorem C91_energy (h : Spec.Shallow w.store (w.nets k) p q l) (b : Spec.Batch x y p q l) (hm : 0 ≤ mom) (hm1 : mom < 1) (h0 : 0 ≤ (w.nets k).output.lrate)
    (h2 : (w.nets k).output.lrate * (l.curvature * Spec.meanSquare x + (w.nets k).output.lambda) ≤ 2) :
    ∃ R : Nat → World × MomentumTrainer, (∀ t, Spec.momentumAfter junk w k mom x y t = .ok (R t)) ∧
      (∀ t, (do let (out, _, n) ← ((R t).1.nets k).forwardprop junk (R t).1.store x; n.computecost out y : Res ℝ) = .ok (Spec.trainCost l x y ((R t).1.nets k).output.W.f)) ∧
      Antitone fun t => Spec.penalised l (w.nets k).output.lambda x y ((R t).1.nets k).output.W.f +
        (w.nets k).output.lrate * mom / (2 * (1 - mom)) * Spec.squares (p + 1) q (R t).2.ograd.f := by
  obtain ⟨R, -, e1, r1, run⟩ := shallow_mrun (junk := junk) (mom := mom) h b
  refine ⟨R, e1, fun t => shallow_cost (r1 t).shallow b, ?_⟩
  simp only [penalised_obj l _ b]
  rw [meanSquare_eq, b.cols] at h2
  exact GD.mrun_antitone (loss_good l (shallow_q h) y.f b.labels) (curvature_nonneg l) h0 hm hm1 h2 run

/-- **C91** (optimum). With `mom < 1` and `lrate * (curvature * mean (1 + |x|^2) + lambda) < 2` the penalised cost converges to the smallest that any weights reach, and if some weights reach it then the weights
converge to weights that reach it. -/
theorem C91_optimal (h : Spec.Shallow w.store (w.nets k) p q l) (b : Spec.Batch x y p q l) (hm : 0 ≤ mom) (hm1 : mom < 1) (hlam : 0 ≤ (w.nets k).output.lambda) (h0 : 0 < (w.nets k).output.lrate)
    (h2 : (w.nets k).output.lrate * (l.curvature * Spec.meanSquare x + (w.nets k).output.lambda) < 2) :
    ∃ R : Nat → World × MomentumTrainer, (∀ t, Spec.momentumAfter junk w k mom x y t = .ok (R t)) ∧
      Tendsto (fun t => Spec.penalised l (w.nets k).output.lambda x y ((R t).1.nets k).output.W.f) atTop (𝓝 (⨅ V, Spec.penalised l (w.nets k).output.lambda x y V)) ∧
      ∀ V, (∀ U, Spec.penalised l (w.nets k).output.lambda x y V ≤ Spec.penalised l (w.nets k).output.lambda x y U) →
        ∃ V', (∀ U, Spec.penalised l (w.nets k).output.lambda x y V' ≤ Spec.penalised l (w.nets k).output.lambda x y U) ∧
          ∀ a < p + 1, ∀ j < q, Tendsto (fun t => ((R t).1.nets k).output.W.f a j) atTop (𝓝 (V' a j)) := by
  obtain ⟨R, -, e1, r1, run⟩ := shallow_mrun (junk := junk) (mom := mom) h b
  rw [meanSquare_eq, b.cols] at h2
  have g := loss_good l (shallow_q h) y.f b.labels
  obtain ⟨B, hB⟩ := penalised_bdd hlam (shallow_q h) b
  have opt := GD.mrun_optimal g (curvature_nonneg l) hlam h0 hm hm1 h2 (fun V => hB ⟨V, rfl⟩) run
  have conv := fun V => GD.mrun_converges (V := V) g (curvature_nonneg l) hlam h0 hm hm1 h2 run
  simp only [← penalised_obj l _ b] at opt conv
  exact ⟨R, e1, opt, conv⟩

/-- **C91** (regularised). With `lambda > 0` the weights converge to the only optimum. -/
theorem C91_regularised (h : Spec.Shallow w.store (w.nets k) p q l) (b : Spec.Batch x y p q l) (hm : 0 ≤ mom) (hm1 : mom < 1) (hlam : 0 < (w.nets k).output.lambda) (h0 : 0 < (w.nets k).output.lrate)
    (h2 : (w.nets k).output.lrate * (l.curvature * Spec.meanSquare x + (w.nets k).output.lambda) < 2) :
    ∃ (R : Nat → World × MomentumTrainer) (V : Nat → Nat → ℝ), (∀ t, Spec.momentumAfter junk w k mom x y t = .ok (R t)) ∧
      (∀ U, Spec.penalised l (w.nets k).output.lambda x y V ≤ Spec.penalised l (w.nets k).output.lambda x y U) ∧
      (∀ U, (∀ U', Spec.penalised l (w.nets k).output.lambda x y U ≤ Spec.penalised l (w.nets k).output.lambda x y U') → ∀ a < p + 1, ∀ j < q, U a j = V a j) ∧
      ∀ a < p + 1, ∀ j < q, Tendsto (fun t => ((R t).1.nets k).output.W.f a j) atTop (𝓝 (V a j)) := by
  set lam := (w.nets k).output.lambda with hl
  -- the optimum, from plain training at a smaller rate
  set η' := 1 / (l.curvature * Spec.meanSquare x + lam) with hη'
  have hms : 0 ≤ Spec.meanSquare x := by
    unfold Spec.meanSquare
    exact div_nonneg (sum_nonneg fun i _ => add_nonneg zero_le_one (sum_nonneg fun _ _ => sq_nonneg _)) (Nat.cast_nonneg _)
  have ha : 0 < l.curvature * Spec.meanSquare x + lam := by have := mul_nonneg (curvature_nonneg l) hms; linarith
  have hsh : Spec.Shallow w.store { w.nets k with output := { (w.nets k).output with lrate := η' } } p q l := ⟨⟨h.wf.nodup, h.wf.dense, h.wf.pos, by
    have := h.wf.fits
    unfold Net.layers Net.hiddenLayers at this ⊢
    rw [List.map_append] at this ⊢
    exact this⟩, h.nohidden, h.act, h.costd, h.cost⟩
  obtain ⟨-, V, -, v1, v2, -⟩ := C88_converges (junk := junk) hsh b hlam (by show 0 < η'; rw [hη']; positivity) (by
    show η' * _ ≤ 1
    rw [hη', one_div, inv_mul_cancel₀ ha.ne'])
  obtain ⟨R, e1, -, conv⟩ := C91_optimal (junk := junk) h b hm hm1 hlam.le h0 h2
  obtain ⟨V', u1, u2⟩ := conv V v1
  exact ⟨R, V, e1, v1, v2, fun a ha j hj => by rw [← v2 V' u1 a ha j hj]; exact u2 a ha j hj⟩

theorem shallow_mfits (h : Spec.Shallow w.store (w.nets k) p q l) (b : Spec.Batch x y p q l) (hm : 0 ≤ mom) (hm1 : mom < 1) (hlam : (w.nets k).output.lambda = 0) (h0 : 0 < (w.nets k).output.lrate)
    (h1 : (w.nets k).output.lrate * (l.curvature * Spec.meanSquare x) < 2)
    (V : Nat → Nat → ℝ) (hV : ∀ i < x.nr, Tendsto (fun a : ℝ => l.sample q (y.f i) (fun j => a * GD.pred (p + 1) (Spec.withOne x) V i j)) atTop (𝓝 0)) {ε : ℝ} (hε : 0 < ε) :
    ∃ T, ∀ t ≥ T, ∃ r, Spec.momentumAfter junk w k mom x y t = .ok r ∧ Spec.Shallow r.1.store (r.1.nets k) p q l ∧
      ∀ i < x.nr, l.sample q (y.f i) (GD.pred (p + 1) (Spec.withOne x) (r.1.nets k).output.W.f i) < ε := by
  obtain ⟨R, -, e1, r1, run⟩ := shallow_mrun (junk := junk) (mom := mom) h b
  have h1' : (w.nets k).output.lrate * (l.curvature * Spec.meanSquare x + (w.nets k).output.lambda) < 2 := by rw [hlam, add_zero]; exact h1
  rw [meanSquare_eq, b.cols] at h1'
  obtain ⟨B, hB⟩ := penalised_bdd hlam.ge (shallow_q h) b
  have opt := GD.mrun_optimal (loss_good l (shallow_q h) y.f b.labels) (curvature_nonneg l) hlam.ge h0 hm hm1 h1' (fun V => hB ⟨V, rfl⟩) run
  rw [hlam] at opt
  obtain ⟨T, hT⟩ := fits_of_optimal (shallow_q h) b opt V hV hε
  exact ⟨T, fun t ht => ⟨R t, e1 t, (r1 t).shallow, hT t ht⟩⟩

/-- **C91** (separable classes, softmax). If some weights tell the classes apart, then from some call on `predict` returns the class of every sample. -/
theorem C91_separable_softmax (h : Spec.Shallow w.store (w.nets k) p q .softmax) (hr : 0 < x.nr) (hc : x.nc = p) (hyr : y.nr = x.nr) (hyc : y.nc = q) (hm : 0 ≤ mom) (hm1 : mom < 1)
    (c : Nat → Nat) (hcl : ∀ i < x.nr, c i < q) (hy : ∀ i < x.nr, ∀ j < q, y.f i j = if j = c i then 1 else 0)
    (hlam : (w.nets k).output.lambda = 0) (h0 : 0 < (w.nets k).output.lrate) (h1 : (w.nets k).output.lrate * Spec.meanSquare x < 4)
    (V : Nat → Nat → ℝ) (hV : ∀ i < x.nr, ∀ j < q, j ≠ c i → V 0 j + ∑ a ∈ range p, x.f i a * V (a + 1) j < V 0 (c i) + ∑ a ∈ range p, x.f i a * V (a + 1) (c i)) :
    ∃ T, ∀ t ≥ T, ∃ w' t' r s' n', Spec.momentumAfter junk w k mom x y t = .ok (w', t') ∧ (w'.nets k).predict junk w'.store x = .ok (r, s', n') ∧ ∀ i < x.nr, r.f i 0 = c i := by
  obtain ⟨T, hT⟩ := shallow_mfits (junk := junk) h (softmax_batch hr hc hyr hyc hcl hy) hm hm1 hlam h0 (by show (w.nets k).output.lrate * (1 / 2 * _) < 2; linarith) V
    (fun i hi => softmax_vanishes (hcl i hi) (hy i hi) fun j hj hne => by rw [pred_bias _ _ _ _ hc, pred_bias _ _ _ _ hc]; exact hV i hi j hj hne) (Real.log_pos (show (1 : ℝ) < 2 by norm_num))
  refine ⟨T, fun t ht => ?_⟩
  obtain ⟨⟨w', t'⟩, e1, e2, e3⟩ := hT t ht
  obtain ⟨r, s2, n2, f1, f2⟩ := softmax_predicts (junk := junk) e2 hr hc hcl hy e3
  exact ⟨w', t', r, s2, n2, e1, f1, f2⟩

/-- **C91** (separable labels, logistic). If some weights give every output of every sample the right sign, then from some call on every output is on the right side of 1/2. -/
theorem C91_separable_logistic (h : Spec.Shallow w.store (w.nets k) p q .logistic) (hr : 0 < x.nr) (hc : x.nc = p) (hyr : y.nr = x.nr) (hyc : y.nc = q) (hm : 0 ≤ mom) (hm1 : mom < 1)
    (hy : ∀ i < x.nr, ∀ j < q, y.f i j = 0 ∨ y.f i j = 1)
    (hlam : (w.nets k).output.lambda = 0) (h0 : 0 < (w.nets k).output.lrate) (h1 : (w.nets k).output.lrate * Spec.meanSquare x < 8)
    (V : Nat → Nat → ℝ) (hV : ∀ i < x.nr, ∀ j < q, (y.f i j = 1 → 0 < V 0 j + ∑ a ∈ range p, x.f i a * V (a + 1) j) ∧ (y.f i j = 0 → V 0 j + ∑ a ∈ range p, x.f i a * V (a + 1) j < 0)) :
    ∃ T, ∀ t ≥ T, ∃ w' t' r s' n', Spec.momentumAfter junk w k mom x y t = .ok (w', t') ∧ (w'.nets k).forwardprop junk w'.store x = .ok (r, s', n') ∧
      ∀ i < x.nr, ∀ j < q, (y.f i j = 1 → 1 / 2 < r.f i j) ∧ (y.f i j = 0 → r.f i j < 1 / 2) := by
  have b : Spec.Batch x y p q .logistic := ⟨hr, hc, hyr, hyc, fun i hi j hj => by rcases hy i hi j hj with e | e <;> rw [e] <;> norm_num⟩
  obtain ⟨T, hT⟩ := shallow_mfits (junk := junk) h b hm hm1 hlam h0 (by show (w.nets k).output.lrate * (1 / 4 * _) < 2; linarith) V
    (fun i hi => logistic_vanishes (hy i hi) fun j hj => by rw [pred_bias _ _ _ _ hc]; exact hV i hi j hj) (Real.log_pos (show (1 : ℝ) < 2 by norm_num))
  refine ⟨T, fun t ht => ?_⟩
  obtain ⟨⟨w', t'⟩, e1, e2, e3⟩ := hT t ht
  obtain ⟨r, s2, n2, f1, f2⟩ := logistic_sides (junk := junk) e2 hr hc hy e3
  exact ⟨w', t', r, s2, n2, e1, f1, f2⟩

/-- The hypotheses are met: momentum 9/10, two classes told apart by the sign of the sample, zero weights at first. -/
example (junk : Nat → Nat → ℝ) (w : World) (hw : w.nets 0 = shNet .softmax 2 0) :
    ∃ T, ∀ t ≥ T, ∃ w' t' r s' n', Spec.momentumAfter junk w 0 (9 / 10) shX (Mat.of 2 2 (fun i j => if j = i then 1 else 0)) t = .ok (w', t') ∧ (w'.nets 0).predict junk w'.store shX = .ok (r, s', n') ∧
      ∀ i < 2, r.f i 0 = i :=
  C91_separable_softmax (junk := junk) (p := 1) (q := 2) (by rw [hw]; exact shNet_shallow .softmax (by omega) 0 _) (x := shX) (y := Mat.of 2 2 (fun i j => if j = i then 1 else 0)) (by show 0 < 2; omega) rfl rfl rfl
    (by norm_num) (by norm_num) (fun i => i) (fun i hi => hi)
    (fun i hi j hj => by rw [Mat.of_f' (by exact hi) hj]) (by rw [hw]; rfl) (by rw [hw]; norm_num [shNet]) (by rw [hw, shX_mean]; norm_num [shNet])
    (fun k j => if k = 1 then (if j = 0 then -1 else 1) else 0) (fun i hi j hj hne => by
      replace hi : i < 2 := hi
      simp only [sum_range_one, shX_f hi]
      interval_cases i <;> interval_cases j <;> simp_all <;> norm_num)

/-- The weights of regularised outputs converge. -/
example (junk : Nat → Nat → ℝ) (w : World) (l : Spec.Loss) (hl : l ≠ .quadratic) (hw : w.nets 0 = shNet l 2 (1 / 2)) : ∃ (R : Nat → World × MomentumTrainer) (V : Nat → Nat → ℝ),
    (∀ t, Spec.momentumAfter junk w 0 (9 / 10) shX (Mat.of 2 2 (fun i j => if j = i then 1 else 0)) t = .ok (R t)) ∧ ∀ a < 2, ∀ j < 2, Tendsto (fun t => ((R t).1.nets 0).output.W.f a j) atTop (𝓝 (V a j)) := by
  obtain ⟨R, V, h1, -, -, h2⟩ := C91_regularised (junk := junk) (mom := 9 / 10) (k := 0) (by rw [hw]; exact shNet_shallow l (by omega) (1 / 2) _) (shBatch l) (by norm_num) (by norm_num) (by rw [hw]; norm_num [shNet])
    (by rw [hw]; norm_num [shNet]) (by
      rw [shX_mean, hw]
      cases l
      · exact absurd rfl hl
      · norm_num [shNet, Spec.Loss.curvature]
      · norm_num [shNet, Spec.Loss.curvature])
  exact ⟨R, V, h1, h2⟩

end
end Nnet.NN
