import Verif.NN.PropsSafe
/-!
# C44: copying trainers; a concrete counterexample to C43
-/
namespace Nnet.NN
open Finset
noncomputable section

/-! ## C44 -/

/-- **C44, class Trainer.** The copy constructor and the assignment give an equal trainer. -/
theorem C44_trainer (self t : Trainer) : t.copyCtor = t ∧ Trainer.assign self t = t := ⟨rfl, rfl⟩

/-- **C44, assignment of the other classes.** An assigned `SGDTrainer` or `MomentumTrainer` equals the original; an assigned `BatchTrainer` has the same
configuration and does the same from then on (it keeps its own copy of the last data, which nothing reads). -/
theorem C44_assign :
    (∀ self t : Trainer, SGD.assign self t = t) ∧ (∀ self t : MomentumTrainer, MomentumTrainer.assign self t = t) ∧
    (∀ self t : BatchTrainer, (BatchTrainer.assign self t).toTrainer = t.toTrainer ∧ (BatchTrainer.assign self t).batchsize = t.batchsize ∧
      ∀ junk w x y, (BatchTrainer.assign self t).feeddata junk w x y = t.feeddata junk w x y) :=
  ⟨fun _ _ => rfl, fun _ _ => rfl, fun _ _ => ⟨rfl, rfl, fun _ _ _ _ => rfl⟩⟩

/-- What the copy constructors of `SGDTrainer`, `BatchTrainer` and `MomentumTrainer` keep and lose: the network, decay parameters, batch size, momentum
and directions are kept; the iteration count is reset to 0 and decay is switched on. So the copy is equal to the original exactly when the original
has decay on and has never been used. (The full property says it always is; that is false.) -/
theorem C44_copy_partial (t : Trainer) (b : BatchTrainer) (m : MomentumTrainer) :
    (SGD.copyCtor t = { t with iters := 0, usedecay := true } ∧ (SGD.copyCtor t = t ↔ t.iters = 0 ∧ t.usedecay = true)) ∧
    (b.copyCtor.toTrainer = { b.toTrainer with iters := 0, usedecay := true } ∧ b.copyCtor.batchsize = b.batchsize ∧
      (b.copyCtor.toTrainer = b.toTrainer ↔ b.iters = 0 ∧ b.usedecay = true)) ∧
    (m.copyCtor = { m with iters := 0, usedecay := true } ∧ (m.copyCtor = m ↔ m.iters = 0 ∧ m.usedecay = true)) := by
  have key : ∀ t : Trainer, SGD.copyCtor t = t ↔ t.iters = 0 ∧ t.usedecay = true := by
    intro t
    constructor
    · intro h
      rw [← h]
      exact ⟨rfl, rfl⟩
    · rintro ⟨h1, h2⟩
      cases t
      simp only at h1 h2
      subst h1; subst h2
      rfl
  refine ⟨⟨rfl, key t⟩, ⟨rfl, rfl, key b.toTrainer⟩, rfl, ?_⟩
  constructor
  · intro h
    rw [← h]
    exact ⟨rfl, rfl⟩
  · rintro ⟨h1, h2⟩
    have := (key m.toTrainer).2 ⟨h1, h2⟩
    cases m
    unfold MomentumTrainer.copyCtor
    unfold SGD.copyCtor at this
    simp only at this
    rw [MomentumTrainer.mk.injEq]
    exact ⟨this, rfl, rfl, rfl⟩

theorem count_iters (t : Trainer) : t.count.iters = (t.iters + 1) % 2 ^ 64 := rfl

/-- **C44 is false for decaying trainers.** Take an `SGDTrainer` that has been used for `step - 1 ≥ 1` calls and copy it: at the next call the original
sets every learning rate to `r0 exp(-k step)`, the copy leaves them all as they are. -/
theorem C44_refuted {junk : Nat → Nat → ℝ} {w w1 w2 : World} {t t1 t2 : Trainer} {x y : Mat ℝ} (hd : t.usedecay = true) (h1 : 1 ≤ t.iters)
    (hs : t.iters + 1 = t.step) (hl : t.step < 2 ^ 64) (e1 : SGD.feeddata junk w t x y = .ok (w1, t1))
    (e2 : SGD.feeddata junk w (SGD.copyCtor t) x y = .ok (w2, t2)) :
    (w1.nets t.nnet).AllRates w1.store (t.r0 * Real.exp (-t.k * t.step)) ∧ SameRates w.store (w.nets t.nnet) w2.store (w2.nets t.nnet) := by
  have a := C39_sgd_call e1
  have b := C39_sgd_call e2
  refine ⟨(a.now hd ?_).2, b.otherwise ?_⟩
  · rw [a.iters, Nat.mod_eq_of_lt (by omega), hs]
  · rintro ⟨_, h⟩
    rw [b.iters] at h
    replace h : (0 + 1) % 2 ^ 64 = t.step := h
    norm_num at h
    omega

/-- A trainer without decay (`step` 0) that wraps its counter during the calls is excluded by the bound on the number of calls. -/
theorem C44_nodecay {junk : Nat → Nat → ℝ} : ∀ (ds : List (Mat ℝ × Mat ℝ)) (w : World) (t u : Trainer), t.usedecay = false → u.nnet = t.nnet → u.step = 0 →
    u.iters + ds.length < 2 ^ 64 →
    (feedAll (fun w t => SGD.feeddata junk w t) w u ds).map Prod.fst = (feedAll (fun w t => SGD.feeddata junk w t) w t ds).map Prod.fst
  | [], _, _, _, _, _, _, _ => rfl
  | d :: ds, w, t, u, h1, h2, h3, h4 => by
    have hu : u.count.decay w.store (w.nets u.count.nnet) = (w.store, w.nets t.nnet) := by
      unfold Trainer.decay
      rw [if_neg ?_]
      · rw [show u.count.nnet = t.nnet from h2]
      · rintro ⟨_, h⟩
        rw [count_iters, Nat.mod_eq_of_lt (by simp only [List.length_cons] at h4; omega)] at h
        replace h : u.iters + 1 = u.step := h
        omega
    have ht : t.count.decay w.store (w.nets t.count.nnet) = (w.store, w.nets t.nnet) := by
      unfold Trainer.decay
      rw [if_neg]
      · rfl
      · rintro ⟨h, _⟩
        rw [show t.count.usedecay = t.usedecay from rfl, h1] at h
        cases h
    have hfu : SGD.feeddata junk w u d.1 d.2 = (do let (s, n) ← SGD.trainRows junk d.1 d.2 w.store (w.nets t.nnet); .ok (w.put t.nnet s n, u.count)) := by
      unfold SGD.feeddata
      simp only
      rw [hu, show u.count.nnet = t.nnet from h2]
    have hft : SGD.feeddata junk w t d.1 d.2 = (do let (s, n) ← SGD.trainRows junk d.1 d.2 w.store (w.nets t.nnet); .ok (w.put t.nnet s n, t.count)) := by
      unfold SGD.feeddata
      simp only
      rw [ht]
      rfl
    unfold feedAll
    rw [hfu, hft]
    cases SGD.trainRows junk d.1 d.2 w.store (w.nets t.nnet) with
    | error e => rfl
    | ok r =>
      simp only [ok_bind]
      refine C44_nodecay ds _ t.count u.count h1 h2 h3 ?_
      rw [count_iters, Nat.mod_eq_of_lt (by simp only [List.length_cons] at h4; omega)]
      simp only [List.length_cons] at h4
      omega

/-- **C44 for `SGDTrainer` without decay.** A copy of a trainer made without decay does to the network exactly what the original would do, over any
sequence of fewer than 2^64 calls, however often the original has been used. -/
theorem C44_sgd_nodecay {junk : Nat → Nat → ℝ} (t : Trainer) (h1 : t.usedecay = false) (h2 : t.step = 0) (ds : List (Mat ℝ × Mat ℝ)) (h3 : ds.length < 2 ^ 64)
    (w : World) :
    (feedAll (fun w t => SGD.feeddata junk w t) w (SGD.copyCtor t) ds).map Prod.fst = (feedAll (fun w t => SGD.feeddata junk w t) w t ds).map Prod.fst :=
  C44_nodecay ds w t (SGD.copyCtor t) h1 rfl h2 (by show 0 + ds.length < 2 ^ 64; omega)

/-! ## C43: a concrete counterexample -/

/-- Gradients after a call of `MomentumTrainer::feeddata` are those of the backward pass. -/
theorem momentum_grads {junk : Nat → Nat → ℝ} {w w' : World} {t t' : MomentumTrainer} {x y : Mat ℝ} {p q : Nat} (hnd : t.usedecay = false)
    (hw : (w.nets t.nnet).WF w.store p q) (hr : 0 < x.nr) (hc : x.nc = p) (h : t.feeddata junk w x y = .ok (w', t')) :
    ∃ D, (w.nets t.nnet).deltaOn w.store x y = .ok D ∧
      ((w'.nets t.nnet).layers w'.store).map (·.grad) = ((w.nets t.nnet).passed w.store x D).map (·.grad) := by
  unfold MomentumTrainer.feeddata at h
  simp only at h
  rw [show t.count.nnet = t.nnet from rfl] at h
  have hdec : t.count.decay w.store (w.nets t.nnet) = (w.store, w.nets t.nnet) := by
    unfold Trainer.decay
    rw [if_neg]
    rintro ⟨h, _⟩
    rw [show t.count.usedecay = t.usedecay from rfl, hnd] at h
    cases h
  rw [hdec] at h
  obtain ⟨⟨r, s1, n1⟩, h1, h⟩ := bind_eq_ok h
  obtain ⟨⟨s2, n2⟩, h2, h⟩ := bind_eq_ok h
  obtain ⟨og, h3, h⟩ := bind_eq_ok h
  obtain ⟨hg, h4, h⟩ := bind_eq_ok h
  obtain ⟨⟨s3, n3⟩, h5, h⟩ := bind_eq_ok h
  cases h
  rw [put_nets]
  obtain ⟨D, hD, hD1, hD2⟩ := delta_of_ok hw hr hc h1 h2
  obtain ⟨s1', n1', s2', n2', e1, e2, hb, hres, hrd⟩ := passes_ok (junk := junk) hw hr hc hD hD1 hD2
  simp only at h1 h2
  rw [h1] at e1
  cases e1
  rw [h2] at e2
  cases e2
  refine ⟨D, hD, ?_⟩
  have h5' := h5
  unfold Net.updateWith at h5'
  obtain ⟨L5, h6, h5'⟩ := bind_eq_ok h5'
  obtain ⟨s5, h7, h5'⟩ := bind_eq_ok h5'
  have hgf := gradsFit_of_ok hrd.wf.nodup hrd.wf.dense h7
  have hod : og.nr = n2.output.W.nr ∧ og.nc = n2.output.W.nc := by
    unfold Layer.updateWith at h6
    obtain ⟨_, h8, _⟩ := bind_eq_ok h6
    have := sub_spec h8
    exact ⟨this.1, this.2⟩
  obtain ⟨s3', n3', e3, hb3, _, _, hout3⟩ := Net.updateWith_ok hrd.wf hod.1 hod.2 hgf
  rw [h5] at e3
  cases e3
  show (n3.layers s3).map (·.grad) = _
  rw [hb3.layers, ← hb.layers]
  have key : ∀ (Ls : List Layer) (gs : List (Mat ℝ)), GradsFit Ls gs → (List.zipWith Layer.updWith Ls gs).map (·.grad) = Ls.map (·.grad) := by
    intro Ls
    induction Ls with
    | nil => intro gs _; rfl
    | cons L Ls ih =>
      intro gs hf
      cases gs with
      | nil => exact hf.elim
      | cons g gs =>
        simp only [List.zipWith_cons_cons, List.map_cons]
        rw [ih gs hf.2.2]
        rfl
  unfold Net.layers
  rw [List.map_append, List.map_append, key (n2.hiddenLayers s2) _ hgf]
  rfl

/-- A 1-1-1 linear network with weights 0, 0 and 0, 1. -/
def linNet : Net :=
  { result := .empty, cost := Quadratic.cost, costd := Quadratic.costd, input := exLayer Act.identity .empty, hidden := [7],
    output := { exLayer Act.identity (Mat.of 2 1 (fun i _ => (i : ℝ))) with cost := Quadratic.cost, costd := Quadratic.costd, y := .empty } }

/-- Its hidden layer. -/
def linStore : Store := fun _ => ⟨exLayer Act.identity (Mat.of 2 1 (fun _ _ => 0)), .dense⟩

/-- The program with this network. -/
def linWorld : World := ⟨fun _ => linNet, linStore⟩

/-- One sample: input 1, label 1. -/
def linX : Mat ℝ := Mat.of 1 1 (fun _ _ => 1)

theorem linNet_wf : linNet.WF linStore 1 1 := by
  refine ⟨by simp [linNet], fun _ _ => rfl, by omega, ?_⟩
  simp [Net.layers, Net.hiddenLayers, linNet, linStore, exLayer, Spec.Fits]

theorem lin_hidden : (outL (linNet.hiddenLayers linStore) linX).f 0 0 = 0 := by
  show (((Spec.pre (Mat.of 2 1 (fun _ _ => (0 : ℝ))) linX).map Act.identity.act)).f 0 0 = 0
  rw [Mat.map_f' (by show 0 < 1; omega) (by show 0 < 1; omega)]
  unfold Spec.pre
  rw [Mat.of_f' (by show 0 < 1; omega) (by show 0 < 1; omega), show linX.nc = 1 from rfl, sum_range_one]
  rw [Mat.of_f' (by omega) (by omega), Mat.of_f' (by omega) (by omega)]
  show (0 : ℝ) + _ * 0 = 0
  ring

theorem lin_z : (linNet.outputZ linStore linX).f 0 0 = 0 := by
  rw [outputZ_eq]
  unfold Spec.pre
  rw [Mat.of_f' (by show 0 < 1; omega) (by show 0 < 1; omega)]
  rw [show (outL (linNet.hiddenLayers linStore) linX).nc = 1 from rfl, sum_range_one, lin_hidden]
  rw [show linNet.output.W = Mat.of 2 1 (fun i _ => (i : ℝ)) from rfl, Mat.of_f' (by omega) (by omega)]
  norm_num

theorem lin_delta {D : Mat ℝ} (hD : linNet.deltaOn linStore linX linX = .ok D) : D.nr = 1 ∧ D.nc = 1 ∧ D.f 0 0 = -1 := by
  replace hD : Quadratic.costd linX ((linNet.outputZ linStore linX).map Act.identity.act) (linNet.outputZ linStore linX) = .ok D := hD
  unfold Quadratic.costd at hD
  rw [diff_costd (by rfl) (by rfl)] at hD
  cases hD
  refine ⟨rfl, rfl, ?_⟩
  rw [Mat.of_f' (by show 0 < 1; omega) (by show 0 < 1; omega), Mat.map_f' (by show 0 < 1; omega) (by show 0 < 1; omega), lin_z]
  unfold linX
  rw [Mat.of_f' (by omega) (by omega)]
  show ((0 : ℝ) - 1) / ((1 : Nat) : ℝ) = -1
  norm_num

theorem lin_grad {D : Mat ℝ} (h1 : D.nr = 1) (h2 : D.nc = 1) (h0 : D.f 0 0 = -1) :
    (((linStore 7).base.fwd linX).regGrad (((linStore 7).base.fwd linX).dz (Layer.backOf D linNet.output.W))).f 0 0 = -1 := by
  unfold Layer.regGrad Layer.gradOf
  rw [Mat.of_f' (by show 0 < 2; omega) (by show 0 < 1; omega), Mat.of_f' (by show 0 < 2; omega) (by show 0 < 2 - 1; omega)]
  rw [show ((linStore 7).base.fwd linX).pa.nr = 1 from rfl, sum_range_one]
  have hpa : ((linStore 7).base.fwd linX).pa.f 0 0 = 1 := by
    show (ones1 linX).f 0 0 = 1
    unfold ones1
    rw [Mat.of_f' (by show 0 < 1; omega) (by show 0 < 2; omega)]
    simp
  rw [hpa]
  unfold Layer.dz
  rw [Mat.of_f' (by show 0 < D.nr; omega) (by show 0 < 2 - 1; omega)]
  unfold Layer.backOf
  rw [Mat.of_f' (by omega) (by show 0 < 2 - 1; omega), h2, sum_range_one, h0]
  rw [show linNet.output.W = Mat.of 2 1 (fun i _ => (i : ℝ)) from rfl, Mat.of_f' (by omega) (by omega)]
  show (1 : ℝ) * (-1 * ((0 + 1 : Nat) : ℝ) * 1) + 0 * _ = -1
  norm_num

/-- **C43 is false.** A trainer without momentum, two calls with the same sample: the hidden layer's direction in the second call is not the average of
the two gradients. -/
theorem C43_counterexample (junk : Nat → Nat → ℝ) : ∃ (before after : Nat → World) (T : Nat → MomentumTrainer) (g : Nat → Layer) (G : Mat ℝ),
    Spec.Calls junk 2 before after T (fun _ => linX) (fun _ => linX) ∧ before 0 = linWorld ∧ before 1 = after 0 ∧ T 0 = MomentumTrainer.new linWorld 0 0 ∧
    (∀ k ≤ 1, ((after k).nets 0).gethidden (after k).store 0 = .ok (g k)) ∧ (T 2).hgrads[0]? = some G ∧
    G.f 0 0 ≠ ((g 0).grad.f 0 0 + (g 1).grad.f 0 0) / 2 := by
  have hb0 := C54_new_trainers linWorld 0 2 0 0 0 0 5 (by norm_num) (.momentum (.new linWorld 0 0)) (by simp)
  obtain ⟨-, hg0, -⟩ := hb0
  obtain ⟨s1, n1, t1, e1, hr1, hk1, ht1, hg1⟩ := momentum_kept (junk := junk) (w := linWorld) (t := MomentumTrainer.new linWorld 0 0) (p := 1) (q := 1) (x := linX) (y := linX)
    linNet_wf C54_costs.1 (by show 0 < 1; omega) rfl rfl rfl hg0 (by norm_num [MomentumTrainer.new, MomentumTrainer.initmomentum, Trainer.new])
  have hn1 : t1.nnet = 0 := by rw [show t1.nnet = t1.toTrainer.nnet from rfl, ht1]; rfl
  have hi1 : t1.iters = 1 := by rw [show t1.iters = t1.toTrainer.iters from rfl, ht1]; rfl
  have hput : ((linWorld.put (MomentumTrainer.new linWorld 0 0).nnet s1 n1).nets t1.nnet) = n1 := by rw [hn1]; rfl
  obtain ⟨s2, n2, t2, e2, hr2, hk2, ht2, hg2⟩ := momentum_kept (junk := junk) (w := linWorld.put (MomentumTrainer.new linWorld 0 0).nnet s1 n1) (t := t1) (p := 1) (q := 1)
    (x := linX) (y := linX) (by rw [hput]; exact hr1.wf) (by rw [hput, hk1.conf.ocostd]; exact C54_costs.1) (by show 0 < 1; omega) rfl rfl rfl
    (by rw [hput, hg1, hg0]; exact hk1.shapes.symm) (by rw [hi1]; norm_num)
  let before : Nat → World := fun k => if k = 0 then linWorld else linWorld.put 0 s1 n1
  let after : Nat → World := fun k => if k = 0 then linWorld.put 0 s1 n1 else (linWorld.put 0 s1 n1).put t1.nnet s2 n2
  let T : Nat → MomentumTrainer := fun k => if k = 0 then .new linWorld 0 0 else if k = 1 then t1 else t2
  have hcalls : Spec.Calls junk 2 before after T (fun _ => linX) (fun _ => linX) := by
    intro k hk
    match k with
    | 0 => exact e1
    | 1 => exact e2
  have hh1 : n1.hidden = [7] := hk1.conf.hidden
  have ha0 : ((after 0).nets 0).gethidden (after 0).store 0 = .ok (s1 7).base := by
    show n1.gethidden s1 0 = _
    unfold Net.gethidden vecAt
    rw [hh1]
    rfl
  have hh2 : n2.hidden = [7] := by rw [hk2.conf.hidden, hput, hh1]
  have ha1 : ((after 1).nets 0).gethidden (after 1).store 0 = .ok (s2 7).base := by
    show (((linWorld.put 0 s1 n1).put t1.nnet s2 n2).nets 0).gethidden s2 0 = _
    rw [hn1, put_nets]
    unfold Net.gethidden vecAt
    rw [hh2]
    rfl
  let g : Nat → Layer := fun k => if k = 0 then (s1 7).base else (s2 7).base
  have hg : ∀ k ≤ 1, ((after k).nets 0).gethidden (after k).store 0 = .ok (g k) := by
    intro k hk
    rcases (by omega : k = 0 ∨ k = 1) with rfl | rfl
    · exact ha0
    · exact ha1
  obtain ⟨G, -, hG, -, -⟩ := C43_direction hcalls (w0 := linWorld) (t0 := Trainer.new 0) rfl rfl (by norm_num) (l := 0) (by show 0 < 1; omega) (t := 1) (by omega)
  refine ⟨before, after, T, g, G, hcalls, rfl, rfl, rfl, hg, hG, fun hne => ?_⟩
  have hiff := (C43_refuted hcalls (w0 := linWorld) (t0 := Trainer.new 0) rfl rfl (by norm_num) (l := 0) (by show 0 < 1; omega) (t := 1) (by omega) hg hG 0 0).1
    (by rw [sum_range_succ, sum_range_one]; exact_mod_cast hne)
  rw [sum_range_one] at hiff
  replace hiff : (s1 7).base.grad.f 0 0 = 0 := hiff
  obtain ⟨D, hD, hgr⟩ := momentum_grads rfl linNet_wf (by show 0 < 1; omega) rfl e1
  have hgrad : some (s1 7).base.grad = ((linNet.passed linStore linX D).map (·.grad)).head? := by
    have : ((n1.layers s1).map (·.grad)).head? = ((linNet.passed linStore linX D).map (·.grad)).head? := congrArg List.head? hgr
    rw [← this]
    unfold Net.layers Net.hiddenLayers
    rw [hh1]
    rfl
  obtain ⟨hD1, hD2, hD0⟩ := lin_delta hD
  have hpass : ((linNet.passed linStore linX D).map (·.grad)).head? =
      some (((linStore 7).base.fwd linX).regGrad (((linStore 7).base.fwd linX).dz (Layer.backOf D linNet.output.W))) := rfl
  rw [hpass] at hgrad
  rw [Option.some.inj hgrad, lin_grad hD1 hD2 hD0] at hiff
  norm_num at hiff

end
end Nnet.NN
