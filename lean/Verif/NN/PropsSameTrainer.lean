import Verif.NN.PropsFeedCost
import Verif.NN.PropsExn
import Verif.NN.WitnessTrain
/-!
# C83: when the trainers agree

A `BatchTrainer` whose batch size is the number of samples does in every call what a `Trainer` does. A call of a `MomentumTrainer` moves the weights by a fixed share of what a
`Trainer` would do from the same state, plus the momentum of the direction it remembers.
-/
namespace Nnet.NN
open Finset
noncomputable section

/-! ## Specification -/

/-- The share of a `Trainer`'s step that a `MomentumTrainer` takes in layer `l` in its call number `iters + 1`: `1 - momentum`; but without momentum, in a hidden layer, `1 / (iters + 1)`. -/
def Spec.share (momentum : ℝ) (iters hidden l : Nat) : ℝ := if momentum = 0 ∧ l < hidden then 1 / ((iters + 1 : Nat) : ℝ) else 1 - momentum

/-- The data of the calls: each has `b` samples and `b` labels, with at least one column. -/
def Spec.OfSize (b : Nat) (ds : List (Mat ℝ × Mat ℝ)) : Prop := ∀ d ∈ ds, d.1.nr = b ∧ d.2.nr = b ∧ 0 < d.1.nc ∧ 0 < d.2.nc

/-! ## Batches -/

theorem ceilDiv_self {b : Nat} (hb : 0 < b) : Spec.ceilDiv b b = 1 := by
  unfold Spec.ceilDiv
  rw [if_pos (Nat.mod_self b), Nat.div_self hb]

theorem batch_call {junk : Nat → Nat → ℝ} {w : World} {t : BatchTrainer} {x y : Mat ℝ} (hb : 2 ≤ x.nr) (htb : t.batchsize = x.nr) (hxy : y.nr = x.nr) (hxc : 0 < x.nc) (hyc : 0 < y.nc)
    (hit : t.iters < 2 ^ 64) (hd : t.usedecay = false) :
    t.feeddata junk w x y = (do let (w', t') ← t.toTrainer.feeddata junk w x y; .ok (w', { t' with x := x, y := y, batchsize := t.batchsize })) := by
  rw [C41_batches htb hb (by omega) hxy hxc hyc hit, batches_whole (by omega) hxy, ceilDiv_self (by omega)]
  unfold Trainer.feeddata
  simp only [Net.trainSeq]
  have h1 : ∀ (u : Trainer) s n, u.usedecay = false → u.decay s n = (s, n) := by
    intro u s n hu
    unfold Trainer.decay
    rw [if_neg (by rw [hu]; simp)]
  rw [h1 t.count w.store _ hd]
  simp only
  rw [show t.count.nnet = t.nnet from rfl]
  cases Net.trainOn junk w.store (w.nets t.nnet) x y with
  | error e => rfl
  | ok r =>
    simp only [ok_bind]
    rw [h1 _ _ _ (by exact hd)]
    rfl

/-- **C83 for `BatchTrainer`.** In every sequence of calls with `b` samples each, a `BatchTrainer` with batch size `b` and without decay leaves the networks, the layers and the counter as a `Trainer` does;
and it fails in the same call with the same error. -/
theorem C83_batch {junk : Nat → Nat → ℝ} {b : Nat} (hb : 2 ≤ b) : ∀ (ds : List (Mat ℝ × Mat ℝ)) (w : World) (t : BatchTrainer), Spec.OfSize b ds → t.batchsize = b → t.usedecay = false →
    t.iters < 2 ^ 64 →
    (feedAll (fun w (t : BatchTrainer) => t.feeddata junk w) w t ds).map (fun r => (r.1, r.2.toTrainer)) = feedAll (fun w (t : Trainer) => t.feeddata junk w) w t.toTrainer ds
  | [], w, t, _, _, _, _ => rfl
  | d :: ds, w, t, hds, htb, hd, hit => by
    obtain ⟨h1, h2, h3, h4⟩ := hds d (by simp)
    unfold feedAll
    rw [batch_call (by omega) (by rw [htb, h1]) (by omega) h3 h4 hit hd]
    cases hf : t.toTrainer.feeddata junk w d.1 d.2 with
    | error e => rfl
    | ok r =>
      obtain ⟨w1, t1⟩ := r
      have hc : t1 = t.count := by
        unfold Trainer.feeddata at hf
        obtain ⟨_, _, hf⟩ := bind_eq_ok hf
        cases hf
        rfl
      subst hc
      simp only [ok_bind]
      exact C83_batch hb ds w1 { t.count with x := d.1, y := d.2, batchsize := t.batchsize } (fun d hd => hds d (List.mem_cons_of_mem _ hd)) htb hd (Nat.mod_lt _ (by norm_num))

/-! ## Momentum -/

theorem upd_move (L : Layer) (i j : Nat) (hi : i < L.W.nr) (hj : j < L.W.nc) : L.upd.W.f i j = L.W.f i j - L.lrate * L.grad.f i j := Mat.of_f' hi hj
theorem updWith_move (L : Layer) (g : Mat ℝ) (i j : Nat) (hi : i < L.W.nr) (hj : j < L.W.nc) : (L.updWith g).W.f i j = L.W.f i j - L.lrate * g.f i j := Mat.of_f' hi hj

/-- **C83 for `MomentumTrainer`.** A successful call moves every weight by `Spec.share` times the step a `Trainer` with the same settings takes from the same state on the same data, and by
momentum times the learning rate along the direction remembered for the weight. -/
theorem C83_momentum {junk : Nat → Nat → ℝ} {w w' : World} {t t' : MomentumTrainer} {x y : Mat ℝ} {p q : Nat} (hw : (w.nets t.nnet).WF w.store p q) (hr : 0 < x.nr) (hc : x.nc = p)
    (hg : t.hgrads.length = (w.nets t.nnet).hidden.length) (hit : t.iters + 1 < 2 ^ 64) (h : t.feeddata junk w x y = .ok (w', t')) :
    ∃ v, t.toTrainer.feeddata junk w x y = .ok (v, t.toTrainer.count) ∧
      ∀ (l : Nat) (W : Mat ℝ), (Spec.weights w.store (w.nets t.nnet))[l]? = some W → ∃ Wt Wm G rate,
        (Spec.weights v.store (v.nets t.nnet))[l]? = some Wt ∧ (Spec.weights w'.store (w'.nets t.nnet))[l]? = some Wm ∧
        ((v.nets t.nnet).layers v.store)[l]?.map (·.lrate) = some rate ∧ (t.hgrads ++ [t.ograd])[l]? = some G ∧
        ∀ i j, i < W.nr → j < W.nc → Wm.f i j - W.f i j = Spec.share t.momentum t.iters (w.nets t.nnet).hidden.length l * (Wt.f i j - W.f i j) - t.momentum * rate * G.f i j := by
  unfold MomentumTrainer.feeddata at h
  simp only at h
  rw [show t.count.nnet = t.nnet from rfl] at h
  have hdw := decay_wf hw t.count
  obtain ⟨hdW, -, -, hdh⟩ := decay_W hw t.count
  have hft : t.toTrainer.feeddata junk w x y = (do
      let (s, n) ← Net.trainOn junk (t.count.decay w.store (w.nets t.nnet)).1 (t.count.decay w.store (w.nets t.nnet)).2 x y
      .ok (w.put t.nnet s n, t.toTrainer.count)) := rfl
  rw [hft]
  generalize (t.count.decay w.store (w.nets t.nnet)).1 = sd at *
  generalize (t.count.decay w.store (w.nets t.nnet)).2 = nd at *
  obtain ⟨⟨r, s1, n1⟩, h1, h⟩ := bind_eq_ok h
  obtain ⟨⟨s2, n2⟩, h2, h⟩ := bind_eq_ok h
  obtain ⟨og, h3, h⟩ := bind_eq_ok h
  obtain ⟨hgs, h4, h⟩ := bind_eq_ok h
  obtain ⟨⟨s3, n3⟩, h5, h⟩ := bind_eq_ok h
  cases h
  obtain ⟨D, hD, hD1, hD2⟩ := delta_of_ok hdw hr hc h1 h2
  obtain ⟨s1', n1', s2', n2', e1, e2, hb, -, hrd⟩ := passes_ok (junk := junk) hdw hr hc hD hD1 hD2
  rw [h1] at e1
  cases e1
  rw [h2] at e2
  cases e2
  have hW2 : (n2.layers s2).map (·.W) = Spec.weights w.store (w.nets t.nnet) := by
    rw [hb.layers, passed_W, hdW]; rfl
  have hlen2 : (n2.hiddenLayers s2).length = (w.nets t.nnet).hidden.length := by
    unfold Net.hiddenLayers
    rw [List.length_map, hb.conf.hidden, hdh]
  obtain ⟨s4, n4, e4, hb4, -, -⟩ := update_ready hrd
  have h5' := h5
  unfold Net.updateWith at h5'
  obtain ⟨L5, h6, h5'⟩ := bind_eq_ok h5'
  obtain ⟨s5, h7, h5'⟩ := bind_eq_ok h5'
  have hgf := gradsFit_of_ok hrd.wf.nodup hrd.wf.dense h7
  have hod : og.nr = n2.output.W.nr ∧ og.nc = n2.output.W.nc := by
    unfold Layer.updateWith at h6
    obtain ⟨_, h8, _⟩ := bind_eq_ok h6
    have := sub_spec h8
    exact ⟨this.1, this.2⟩
  obtain ⟨s3', n3', e3, hb3, -, -, -⟩ := Net.updateWith_ok hrd.wf hod.1 hod.2 hgf
  rw [h5] at e3
  cases e3
  refine ⟨w.put t.nnet s4 n4, ?_, fun l W hl => ?_⟩
  · unfold Net.trainOn
    rw [h1, ok_bind]
    simp only
    rw [h2, ok_bind]
    simp only
    rw [e4, ok_bind]
  rw [put_nets, put_nets]
  show ∃ Wt Wm G rate, (Spec.weights s4 n4)[l]? = some Wt ∧ (Spec.weights s3 n3)[l]? = some Wm ∧ (n4.layers s4)[l]?.map (·.lrate) = some rate ∧ _
  unfold Spec.weights
  rw [hb4.layers, hb3.layers]
  obtain ⟨L, hL, rfl⟩ : ∃ L, (n2.layers s2)[l]? = some L ∧ L.W = W := by
    have := congrArg (·[l]?) hW2
    simp only [List.getElem?_map, hl, Option.map_eq_some_iff] at this
    exact this
  obtain ⟨q1, q2⟩ := mixAll_spec h4
  obtain ⟨-, -, -, -, ho⟩ := add_spec h3
  by_cases hlt : l < (w.nets t.nnet).hidden.length
  · have hLh : (n2.hiddenLayers s2)[l]? = some L := by
      unfold Net.layers at hL
      rwa [List.getElem?_append_left (by omega)] at hL
    obtain ⟨G, g1, g2⟩ := zipWith_get hgf hLh
    replace g2 : (List.zipWith Layer.updWith (n2.hiddenLayers s2) hgs)[l]? = some (L.updWith G) := g2
    obtain ⟨G0, hG0⟩ : ∃ G0, t.hgrads[l]? = some G0 := ⟨_, List.getElem?_eq_getElem (by omega)⟩
    obtain ⟨L', G', r1, r2, r3⟩ := q2 l G0 hG0
    rw [Nat.zero_add] at r1
    have := hiddenLayer_get r1
    rw [hLh] at this
    cases this
    rw [g1] at r2
    cases r2
    refine ⟨L.upd.W, (L.updWith G).W, G0, L.lrate, ?_, ?_, ?_, ?_, fun i j hi hj => ?_⟩
    · rw [List.getElem?_map, List.getElem?_map, hL]; rfl
    · rw [List.getElem?_map, List.getElem?_append_left (by
        rw [List.getElem?_eq_some_iff] at g2; obtain ⟨h, -⟩ := g2; exact h), g2]; rfl
    · rw [List.getElem?_map, hL]; rfl
    · rw [List.getElem?_append_left (by omega), hG0]
    · rw [upd_move L i j hi hj, updWith_move L G i j hi hj]
      unfold Spec.share
      by_cases hm : t.momentum = 0
      · rw [if_pos ⟨hm, hlt⟩, hm]
        rw [hm] at r3
        obtain ⟨-, -, -, -, hv⟩ := mix_zero r3
        rw [hv]
        rw [show t.count.iters = t.iters + 1 from Nat.mod_eq_of_lt hit]
        ring
      · rw [if_neg (fun h => hm h.1)]
        obtain ⟨-, -, -, -, hv⟩ := mix_momentum hm r3
        rw [hv]
        ring
  · have hLl : l = (n2.hiddenLayers s2).length := by
      have := (List.getElem?_eq_some_iff.1 hL).1
      unfold Net.layers at this
      rw [List.length_append] at this
      simp only [List.length_cons, List.length_nil] at this
      omega
    subst hLl
    have hLo : L = n2.output.toLayer := by
      unfold Net.layers at hL
      rw [List.getElem?_append_right (le_refl _), Nat.sub_self] at hL
      simpa using hL.symm
    have hzl : (List.zipWith Layer.updWith (n2.hiddenLayers s2) hgs).length = (n2.hiddenLayers s2).length := by
      rw [List.length_zipWith, q1, hg, hlen2, Nat.min_self]
    refine ⟨L.upd.W, (L.updWith og).W, t.ograd, L.lrate, ?_, ?_, ?_, ?_, fun i j hi hj => ?_⟩
    · rw [List.getElem?_map, List.getElem?_map, hL]; rfl
    · rw [List.getElem?_map, List.getElem?_append_right (by omega), hzl, Nat.sub_self, hLo]; rfl
    · rw [List.getElem?_map, hL]; rfl
    · rw [List.getElem?_append_right (by omega), hlen2, hg, Nat.sub_self]; rfl
    · rw [upd_move L i j hi hj, updWith_move L og i j hi hj, ho, Mat.smul_f, Mat.smul_f, hLo]
      unfold Spec.share
      rw [if_neg (fun h => hlt h.2)]
      ring

/-- **C83, the first call.** The first call of a new `MomentumTrainer` moves every weight by `1 - momentum` times the step of a `Trainer`; without momentum it does exactly what a `Trainer` does. -/
theorem C83_first {junk : Nat → Nat → ℝ} {w w' : World} {k : Nat} {m : ℝ} {t' : MomentumTrainer} {x y : Mat ℝ} {p q : Nat} (hw : (w.nets k).WF w.store p q) (hr : 0 < x.nr) (hc : x.nc = p)
    (h : (MomentumTrainer.new w k m).feeddata junk w x y = .ok (w', t')) :
    ∃ v, (Trainer.new k).feeddata junk w x y = .ok (v, (Trainer.new k).count) ∧
      ∀ (l : Nat) (W : Mat ℝ), (Spec.weights w.store (w.nets k))[l]? = some W → ∃ Wt Wm,
        (Spec.weights v.store (v.nets k))[l]? = some Wt ∧ (Spec.weights w'.store (w'.nets k))[l]? = some Wm ∧
        ∀ i j, i < W.nr → j < W.nc → Wm.f i j - W.f i j = (1 - m) * (Wt.f i j - W.f i j) := by
  obtain ⟨v, e, hv⟩ := C83_momentum (t := MomentumTrainer.new w k m) hw hr hc (by simp [MomentumTrainer.new, MomentumTrainer.initmomentum, Trainer.new]) (by show 0 + 1 < 2 ^ 64; norm_num) h
  refine ⟨v, e, fun l W hl => ?_⟩
  obtain ⟨Wt, Wm, G, rate, h1, h2, -, h4, h5⟩ := hv l W hl
  refine ⟨Wt, Wm, h1, h2, fun i j hi hj => ?_⟩
  have hG : ∀ i j, G.f i j = 0 := by
    have hmem : G ∈ (MomentumTrainer.new w k m).hgrads ++ [(MomentumTrainer.new w k m).ograd] := List.mem_of_getElem? h4
    have hz : ∀ M : Mat ℝ, ∀ i j, (MomentumTrainer.zeros M).f i j = 0 := by
      intro M i j
      unfold MomentumTrainer.zeros
      rw [Mat.of_f]
      simp
    rw [List.mem_append] at hmem
    rcases hmem with hmem | hmem
    · obtain ⟨_, _, rfl⟩ := List.mem_map.1 hmem
      exact hz _
    · rw [List.mem_singleton.1 hmem]
      exact hz _
  rw [h5 i j hi hj, hG, mul_zero, sub_zero]
  congr 1
  unfold Spec.share
  split
  · rename_i hm
    show 1 / ((0 + 1 : Nat) : ℝ) = 1 - m
    rw [show m = 0 from hm.1]
    norm_num
  · rfl

/-- **C83, later calls without momentum.** From its second call on, a `MomentumTrainer` without momentum leaves a hidden layer as a `Trainer` would only if the `Trainer` would leave it unchanged. -/
theorem C83_later {junk : Nat → Nat → ℝ} {w w' : World} {t t' : MomentumTrainer} {x y : Mat ℝ} {p q : Nat} (hw : (w.nets t.nnet).WF w.store p q) (hr : 0 < x.nr) (hc : x.nc = p)
    (hg : t.hgrads.length = (w.nets t.nnet).hidden.length) (h1 : 1 ≤ t.iters) (hit : t.iters + 1 < 2 ^ 64) (hm : t.momentum = 0) (h : t.feeddata junk w x y = .ok (w', t')) :
    ∃ v, t.toTrainer.feeddata junk w x y = .ok (v, t.toTrainer.count) ∧
      ∀ (l : Nat) (W : Mat ℝ), l < (w.nets t.nnet).hidden.length → (Spec.weights w.store (w.nets t.nnet))[l]? = some W → ∃ Wt Wm,
        (Spec.weights v.store (v.nets t.nnet))[l]? = some Wt ∧ (Spec.weights w'.store (w'.nets t.nnet))[l]? = some Wm ∧
        ∀ i j, i < W.nr → j < W.nc → (Wm.f i j = Wt.f i j ↔ Wt.f i j = W.f i j) := by
  obtain ⟨v, e, hv⟩ := C83_momentum hw hr hc hg hit h
  refine ⟨v, e, fun l W hlt hl => ?_⟩
  obtain ⟨Wt, Wm, G, rate, e1, e2, -, -, e5⟩ := hv l W hl
  refine ⟨Wt, Wm, e1, e2, fun i j hi hj => ?_⟩
  have := e5 i j hi hj
  unfold Spec.share at this
  rw [if_pos ⟨hm, hlt⟩, hm, zero_mul, zero_mul, sub_zero] at this
  have hk : (1 : ℝ) / ((t.iters + 1 : Nat) : ℝ) < 1 := by
    rw [div_lt_one (by positivity)]
    exact_mod_cast (by omega : 1 < t.iters + 1)
  constructor
  · intro hq
    rw [hq] at this
    have h2 : (1 - (1 : ℝ) / ((t.iters + 1 : Nat) : ℝ)) * (Wt.f i j - W.f i j) = 0 := by linarith
    rcases mul_eq_zero.1 h2 with h3 | h3 <;> linarith
  · intro hq
    rw [hq, sub_self, mul_zero] at this
    linarith

/-! ## Concrete cases -/
namespace Witness

example (junk : Nat → Nat → ℝ) := C83_batch (junk := junk) (b := 5) (by omega) [(exX, exY), (exX, exY)] exWorld (BatchTrainer.new 0 5)
  (by intro d hd; simp only [List.mem_cons, List.not_mem_nil, or_false, or_self] at hd; subst hd; exact ⟨rfl, rfl, by show 0 < 2; omega, by show 0 < 2; omega⟩) rfl rfl (by show 0 < 2 ^ 64; norm_num)

example (junk : Nat → Nat → ℝ) : ∃ w' t' v, (MomentumTrainer.new exWorld 0 0).feeddata junk exWorld exX exY = .ok (w', t') ∧ (Trainer.new 0).feeddata junk exWorld exX exY = .ok (v, (Trainer.new 0).count) := by
  obtain ⟨s', n', t', e, -⟩ := momentum_kept (junk := junk) (w := exWorld) (t := MomentumTrainer.new exWorld 0 0) (x := exX) (y := exY) exNet_wf C54_costs.1 hx rfl rfl rfl (by rfl) (by show 0 + 1 < 2 ^ 64; norm_num)
  obtain ⟨v, hv, -⟩ := C83_first (m := 0) exNet_wf hx rfl e
  exact ⟨_, _, v, e, hv⟩

example (junk : Nat → Nat → ℝ) : ∃ w' t' v, ({ MomentumTrainer.new exWorld 0 0 with iters := 1 } : MomentumTrainer).feeddata junk exWorld exX exY = .ok (w', t') ∧
    ({ Trainer.new 0 with iters := 1 } : Trainer).feeddata junk exWorld exX exY = .ok (v, { Trainer.new 0 with iters := 2 }) := by
  obtain ⟨s', n', t', e, -⟩ := momentum_kept (junk := junk) (w := exWorld) (t := { MomentumTrainer.new exWorld 0 0 with iters := 1 }) (x := exX) (y := exY) exNet_wf C54_costs.1 hx rfl rfl rfl (by rfl)
    (by show 1 + 1 < 2 ^ 64; norm_num)
  obtain ⟨v, hv, -⟩ := C83_later exNet_wf hx rfl (by rfl) (by show 1 ≤ 1; omega) (by show 1 + 1 < 2 ^ 64; norm_num) rfl e
  exact ⟨_, _, v, e, hv⟩

end Witness
end
end Nnet.NN
