import Verif.NN.PropsSizes
/-!
# C57: asking for the cost never breaks a training call that fits
-/
namespace Nnet.NN
open Finset
noncomputable section

/-- One of the library's cost functions. -/
def Spec.LibraryCost (cost : MatFunc) : Prop :=
  cost = Quadratic.cost ∨ cost = CrossEntropy.cost ∨ cost = Softmax.cost ∨ cost = KullbackLeibler.cost

theorem decay_keeps {s : Store} {n : Net} (t : Trainer) : (t.decay s n).2.cost = n.cost ∧ (t.decay s n).2.output.costd = n.output.costd ∧
    (t.decay s n).2.result = n.result := by
  unfold Trainer.decay
  split <;> exact ⟨rfl, rfl, rfl⟩

theorem trainOn_result {junk : Nat → Nat → ℝ} {s : Store} {n : Net} {p q : Nat} {x y : Mat ℝ} (h : n.WF s p q) (hd : OutputLayer.DeltaOK n.output.costd)
    (hr : 0 < x.nr) (hc : x.nc = p) (hyr : y.nr = x.nr) (hyc : y.nc = q) :
    ∃ s' n', n.trainOn junk s x y = .ok (s', n') ∧ n'.cost = n.cost ∧ n'.result.nr = y.nr ∧ n'.result.nc = y.nc := by
  obtain ⟨d1, d2⟩ := outputZ_dims h hc
  obtain ⟨D, hD, hD1, hD2⟩ := hd y ((n.outputZ s x).map n.output.actfunc.act) (n.outputZ s x) (by rw [Mat.map_nr]; omega) (by rw [Mat.map_nc]; omega)
    (by omega) (by omega)
  obtain ⟨s', n', e, hb, hres, _⟩ := trainOn_ok (junk := junk) (D := D) h hr hc hD (by omega) (by omega)
  obtain ⟨o1, o2⟩ := outL_dims (Ls := n.layers s) (x := x) (q := q) (by rw [hc]; exact h.fits)
  exact ⟨s', n', e, hb.conf.cost, by rw [hres]; omega, by rw [hres]; omega⟩

theorem cost_succeeds {n : Net} {y : Mat ℝ} (hl : Spec.LibraryCost n.cost) (h1 : n.result.nr = y.nr) (h2 : n.result.nc = y.nc) :
    ∃ c, n.computecost n.getresult y = .ok c := (C67_cost hl n.result y).1 ⟨h1, h2⟩

/-- The whole sample as one batch. -/
theorem batch_whole (m : Mat ℝ) : Spec.batch m m.nr 0 = m := by
  unfold Spec.batch
  refine Mat.ext' rfl rfl fun i j hi hj => ?_
  rw [Mat.of_f' (by exact hi) (by exact hj)]
  simp [Nat.mod_eq_of_lt (show i < m.nr from hi)]

theorem batches_whole {x y : Mat ℝ} (hr : 0 < x.nr) (hy : y.nr = x.nr) : Spec.batches x y x.nr = [(x, y)] := by
  unfold Spec.batches Spec.ceilDiv
  rw [if_pos (Nat.mod_self _), Nat.div_self hr]
  simp only [List.range_one, List.map_cons, List.map_nil]
  rw [batch_whole]
  conv_lhs => rw [← hy]
  rw [batch_whole]

/-- Everything the call needs: a well-formed dense network, a library cost at its output, samples and labels of the right size. -/
structure Spec.CallFits (w : World) (id p q : Nat) (x y : Mat ℝ) : Prop where
  wf : (w.nets id).WF w.store p q
  cost : Spec.LibraryCost (w.nets id).cost
  costd : Spec.LibraryCostd (w.nets id).output.costd
  rows : 0 < x.nr
  inputs : x.nc = p
  labels : y.nr = x.nr
  outputs : y.nc = q

theorem trainer_cost_ok {junk : Nat → Nat → ℝ} {w : World} {p q : Nat} {x y : Mat ℝ} {t : Trainer} (h : Spec.CallFits w t.nnet p q x y) (cc : Bool) :
    ∃ c w' t', t.feedcost junk w x y cc = .ok (c, w', t') := by
  obtain ⟨c1, c2, -⟩ := decay_keeps (s := w.store) (n := w.nets t.nnet) t.count
  obtain ⟨s', n', e, k1, k2, k3⟩ := trainOn_result (junk := junk) (decay_wf h.wf t.count) (by rw [c2]; exact (library_cases h.costd).2) h.rows h.inputs h.labels h.outputs
  obtain ⟨c, hc⟩ := cost_succeeds (n := n') (y := y) (by rw [k1, c1]; exact h.cost) k2 k3
  unfold Trainer.feedcost Trainer.feeddata
  simp only
  rw [show t.count.nnet = t.nnet from rfl, e, ok_bind, ok_bind]
  simp only
  rw [show t.count.nnet = t.nnet from rfl, put_nets]
  cases cc
  · exact ⟨_, _, _, rfl⟩
  · rw [if_pos rfl, hc]
    exact ⟨_, _, _, rfl⟩

theorem momentum_cost_ok {junk : Nat → Nat → ℝ} {w : World} {p q : Nat} {x y : Mat ℝ} {t : MomentumTrainer} (h : Spec.CallFits w t.nnet p q x y)
    (hg : (t.hgrads ++ [t.ograd]).map dims = (w.nets t.nnet).shapes w.store) (hit : t.iters + 1 < 2 ^ 64) (cc : Bool) :
    ∃ c w' t', t.feedcost junk w x y cc = .ok (c, w', t') := by
  obtain ⟨s', n', t', e, hrd, hk, ht, -⟩ := momentum_kept (junk := junk) h.wf (library_cases h.costd).2 h.rows h.inputs h.labels h.outputs hg hit
  obtain ⟨-, -, -, hres, -⟩ := C42_step h.wf h.rows h.inputs e
  have hn : t'.nnet = t.nnet := by rw [show t'.nnet = t'.toTrainer.nnet from rfl, ht]; rfl
  rw [put_nets] at hres
  obtain ⟨o1, o2⟩ := outL_dims (Ls := (w.nets t.nnet).layers w.store) (x := x) (q := q) (by rw [h.inputs]; exact h.wf.fits)
  obtain ⟨c, hc⟩ := cost_succeeds (n := n') (y := y) (by rw [hk.conf.cost]; exact h.cost) (by rw [hres, o1, h.labels]) (by rw [hres, o2, h.outputs])
  unfold MomentumTrainer.feedcost
  rw [e, ok_bind]
  simp only
  rw [hn, put_nets]
  cases cc
  · exact ⟨_, _, _, rfl⟩
  · rw [if_pos rfl, hc]
    exact ⟨_, _, _, rfl⟩

theorem costRows_ok {junk : Nat → Nat → ℝ} {p q : Nat} {x y : Mat ℝ} {s : Store} {n : Net} (h : n.WF s p q) (hl : Spec.LibraryCost n.cost)
    (hc : x.nc = p) (hyr : y.nr = x.nr) (hyc : y.nc = q) : ∃ r, SGD.costRows junk x y s n = .ok r := by
  unfold SGD.costRows
  obtain ⟨r, e, -⟩ := loop_inv (n := x.nr) (body := fun i (st : ℝ × Store × Net) => do
    let xi ← x.row i
    let (_, s, n) ← st.2.2.predict junk st.2.1 xi
    let yi ← y.row i
    let c ← n.computecost n.getresult yi
    .ok (st.1 + c, s, n)) (s := (0, s, n)) (fun _ st => st.2.2.WF st.2.1 p q ∧ st.2.2.cost = n.cost) ⟨h, rfl⟩ (by
    rintro i ⟨c0, s0, n0⟩ hi ⟨hw, hcost⟩
    simp only at hw hcost ⊢
    rw [row_ok hi, ok_bind]
    obtain ⟨r, s1, n1, e1, -, -, hres, -⟩ := C32_predict (junk := junk) (x := x.rowMat i) hw (by show 0 < 1; omega) (by exact hc)
    obtain ⟨r', s1', n1', e1', hw1, -, hcf, -⟩ := query_ok (junk := junk) (c := .predict (x.rowMat i)) hw (by show 0 < 1; omega) (by exact hc)
    replace e1' : n0.predict junk s0 (x.rowMat i) = .ok (r', s1', n1') := e1'
    rw [e1] at e1'
    cases e1'
    rw [e1, ok_bind]
    simp only
    rw [row_ok (by omega), ok_bind]
    obtain ⟨-, -, -, -, o1, o2⟩ := C28_network (junk := junk) (x := x.rowMat i) hw (by show 0 < 1; omega) (by exact hc)
    obtain ⟨c, ec⟩ := cost_succeeds (n := n1) (y := y.rowMat i) (by rw [hcf.cost, hcost]; exact hl)
      (by show n1.getresult.nr = _; rw [hres, o1]; rfl) (by show n1.getresult.nc = _; rw [hres, o2, ← hyc]; rfl)
    rw [ec, ok_bind]
    exact ⟨_, rfl, hw1, by rw [hcf.cost, hcost]⟩)
  exact ⟨r, e⟩

theorem sgd_cost_ok {junk : Nat → Nat → ℝ} {w : World} {p q : Nat} {x y : Mat ℝ} {t : Trainer} (h : Spec.CallFits w t.nnet p q x y) (cc : Bool) :
    ∃ c w' t', SGD.feedcost junk w t x y cc = .ok (c, w', t') := by
  obtain ⟨c1, c2, -⟩ := decay_keeps (s := w.store) (n := w.nets t.nnet) t.count
  have hne : Spec.samples x y ≠ [] := by
    intro he
    have := congrArg List.length he
    have h0 := h.rows
    simp [Spec.samples] at this
    omega
  obtain ⟨s', n', e, hrd, hk⟩ := trainSeq_kept (junk := junk) (m := 1) (ds := Spec.samples x y) (decay_wf h.wf t.count) (by rw [c2]; exact (library_cases h.costd).2) (by
    intro d hd
    obtain ⟨i, hi, rfl⟩ := List.mem_map.1 hd
    exact ⟨by show 0 < 1; omega, h.inputs, rfl, h.outputs, rfl⟩) hne
  unfold SGD.feedcost
  rw [C40_rows (by rw [h.labels]), e, ok_bind, ok_bind]
  simp only
  cases cc
  · exact ⟨_, _, _, rfl⟩
  · rw [if_pos rfl, show t.count.nnet = t.nnet from rfl, put_nets]
    obtain ⟨⟨c, s2, n2⟩, e2⟩ := costRows_ok (junk := junk) (x := x) (y := y) hrd.wf (by rw [hk.conf.cost, c1]; exact h.cost) h.inputs h.labels h.outputs
    rw [show (w.put t.nnet s' n').store = s' from rfl, e2, ok_bind]
    exact ⟨_, _, _, rfl⟩

theorem batch_cost_ok {junk : Nat → Nat → ℝ} {w : World} {p q : Nat} {x y : Mat ℝ} {t : BatchTrainer} (h : Spec.CallFits w t.nnet p q x y)
    (hb : t.batchsize = x.nr) (hr : 2 ≤ x.nr) (hit : t.iters < 2 ^ 64) (hq : 0 < q) (cc : Bool) :
    ∃ c w' t', t.feedcost junk w x y cc = .ok (c, w', t') := by
  obtain ⟨s', n', e, k1, k2, k3⟩ := trainOn_result (junk := junk) h.wf (library_cases h.costd).2 h.rows h.inputs h.labels h.outputs
  unfold BatchTrainer.feedcost
  rw [C41_batches hb hr (by omega) h.labels (by rw [h.inputs]; exact h.wf.pos) (by rw [h.outputs]; exact hq) hit, batches_whole h.rows h.labels]
  unfold Net.trainSeq Net.trainSeq
  rw [e, ok_bind, ok_bind, ok_bind]
  simp only
  set t' : BatchTrainer := { t with x := x, y := y, iters := (t.iters + Spec.ceilDiv x.nr x.nr) % 2 ^ 64 } with ht'
  rw [show t'.nnet = t.nnet from rfl, put_nets]
  obtain ⟨c1, -, c3⟩ := decay_keeps (s := s') (n := n') t'.toTrainer
  obtain ⟨c, hc⟩ := cost_succeeds (n := (t'.toTrainer.decay s' n').2) (y := y) (by rw [c1, k1]; exact h.cost) (by rw [c3]; exact k2) (by rw [c3]; exact k3)
  obtain ⟨v, e2, -⟩ := loop_inv (n := (x.nr + t'.batchsize.toNat - 1) / t'.batchsize.toNat) (s := (0 : ℝ)) (body := fun _ (c : ℝ) =>
    if cc = true then do
      let v ← (t'.toTrainer.decay s' n').2.computecost (t'.toTrainer.decay s' n').2.getresult y
      .ok (c + v)
    else .ok c) (fun _ _ => True) trivial (by
      intro i a _ _
      cases cc
      · exact ⟨_, rfl, trivial⟩
      · rw [if_pos rfl, hc]
        exact ⟨_, rfl, trivial⟩)
  rw [e2, ok_bind]
  exact ⟨_, _, _, rfl⟩

/-- **C57, no call fails.** On a well-formed dense network with one of the library's outputs, `feeddata(x, y, ccost)` with samples and labels of the
right sizes succeeds, whether or not the cost is asked for, for Trainer, SGDTrainer, MomentumTrainer, and BatchTrainer if the batch size is the number
of samples (for every other batch size asking for the cost fails, `C57_batch_refuted`). -/
theorem C57_succeeds {junk : Nat → Nat → ℝ} {w : World} {id p q : Nat} {x y : Mat ℝ} (h : Spec.CallFits w id p q x y) (cc : Bool) :
    (∀ t : Trainer, t.nnet = id → ∃ c w' t', t.feedcost junk w x y cc = .ok (c, w', t')) ∧
    (∀ t : Trainer, t.nnet = id → ∃ c w' t', SGD.feedcost junk w t x y cc = .ok (c, w', t')) ∧
    (∀ t : MomentumTrainer, (AnyTrainer.momentum t).Belongs id ((w.nets id).shapes w.store) 1 → ∃ c w' t', t.feedcost junk w x y cc = .ok (c, w', t')) ∧
    (∀ t : BatchTrainer, t.nnet = id → t.iters < 2 ^ 64 → t.batchsize = x.nr → 2 ≤ x.nr → 0 < q → ∃ c w' t', t.feedcost junk w x y cc = .ok (c, w', t')) := by
  refine ⟨?_, ?_, ?_, ?_⟩
  · rintro t rfl; exact trainer_cost_ok h cc
  · rintro t rfl; exact sgd_cost_ok h cc
  · rintro t ⟨rfl, h1, h2⟩; exact momentum_cost_ok h h1 h2 cc
  · rintro t rfl h1 h2 h3 h4; exact batch_cost_ok h h2 h3 h1 h4 cc

end
end Nnet.NN
