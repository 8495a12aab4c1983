import Verif.NN.Trainer
import Verif.NN.PropsGrad
/-!
# C39: learning-rate decay

For networks with layers of every kind, shared or not.
-/
namespace Nnet.NN
open Finset
noncomputable section

/-! ## Specification -/

/-- All layers of the network have the learning rate `r`. -/
def Net.AllRates (s : Store) (n : Net) (r : ℝ) : Prop := n.input.lrate = r ∧ n.output.lrate = r ∧ ∀ p ∈ n.hidden, (s p).base.lrate = r

/-- No learning rate differs, neither in the network nor in any other layer object. -/
structure SameRates (s : Store) (n : Net) (s' : Store) (n' : Net) : Prop where
  hidden : n'.hidden = n.hidden
  input : n'.input.lrate = n.input.lrate
  output : n'.output.lrate = n.output.lrate
  layers : ∀ p, (s' p).base.lrate = (s p).base.lrate

/-- Feed a sequence of batches to a trainer. -/
def feedAll {τ : Type} (feed : World → τ → Mat ℝ → Mat ℝ → Res (World × τ)) : World → τ → List (Mat ℝ × Mat ℝ) → Res (World × τ)
  | w, t, [] => .ok (w, t)
  | w, t, d :: ds => do
    let (w, t) ← feed w t d.1 d.2
    feedAll feed w t ds

/-- What one call of `feeddata` may do to the rates: it counts the call; when decay is on and this is call number `step` all rates become
`r0 * exp(-k * step)`; otherwise none changes. -/
structure Spec.RateCall (t t' : Trainer) (w w' : World) : Prop where
  conf : t'.nnet = t.nnet ∧ t'.step = t.step ∧ t'.usedecay = t.usedecay ∧ t'.k = t.k ∧ t'.r0 = t.r0
  iters : t'.iters = (t.iters + 1) % 2 ^ 64
  now : t.usedecay = true → t'.iters = t.step →
    (w'.nets t.nnet).hidden = (w.nets t.nnet).hidden ∧ (w'.nets t.nnet).AllRates w'.store (t.r0 * Real.exp (-t.k * t.step))
  otherwise : ¬ (t.usedecay = true ∧ t'.iters = t.step) → SameRates w.store (w.nets t.nnet) w'.store (w'.nets t.nnet)

/-- Over any number of calls (fewer than 2^64) from a new trainer on, the rates are `r0 * exp(-k * step)` if decay is on and call number
`step` was among them, and the original ones otherwise. -/
def Spec.RatesRight {τ : Type} (base : τ → Trainer) (feed : World → τ → Mat ℝ → Mat ℝ → Res (World × τ)) : Prop :=
  ∀ (w : World) (t : τ) (ds : List (Mat ℝ × Mat ℝ)) (w' : World) (t' : τ), (base t).iters = 0 → ds.length < 2 ^ 64 →
    feedAll feed w t ds = .ok (w', t') →
    (base t').iters = ds.length ∧
    ((base t).usedecay = true ∧ 1 ≤ (base t).step ∧ (base t).step ≤ ds.length →
      (w'.nets (base t).nnet).AllRates w'.store ((base t).r0 * Real.exp (-(base t).k * (base t).step))) ∧
    (¬ ((base t).usedecay = true ∧ 1 ≤ (base t).step ∧ (base t).step ≤ ds.length) →
      SameRates w.store (w.nets (base t).nnet) w'.store (w'.nets (base t).nnet))

/-! ## Lemmas -/

theorem SameRates.rfl {s : Store} {n : Net} : SameRates s n s n := ⟨.refl _, .refl _, .refl _, fun _ => .refl _⟩
theorem SameRates.trans {s s' s'' : Store} {n n' n'' : Net} (h : SameRates s n s' n') (h' : SameRates s' n' s'' n'') : SameRates s n s'' n'' :=
  ⟨h'.1.trans h.1, h'.2.trans h.2, h'.3.trans h.3, fun p => (h'.4 p).trans (h.4 p)⟩

theorem SameRates.all {s s' : Store} {n n' : Net} {r : ℝ} (h : SameRates s n s' n') (ha : n.AllRates s r) : n'.AllRates s' r :=
  ⟨h.input.trans ha.1, h.output.trans ha.2.1, fun p hp => (h.layers p).trans (ha.2.2 p (h.hidden ▸ hp))⟩

theorem layer_forward_lrate {L L' : Layer} {x r : Mat ℝ} (h : L.forwardprop x = .ok (r, L')) : L'.lrate = L.lrate := by
  unfold Layer.forwardprop at h
  obtain ⟨_, _, h⟩ := bind_eq_ok h
  obtain ⟨_, _, h⟩ := bind_eq_ok h
  cases h; rfl

theorem layer_backward_lrate {L L' : Layer} {x r : Mat ℝ} (h : L.backprop x = .ok (r, L')) : L'.lrate = L.lrate := by
  unfold Layer.backprop at h
  obtain ⟨_, _, h⟩ := bind_eq_ok h
  obtain ⟨_, _, h⟩ := bind_eq_ok h
  obtain ⟨_, _, h⟩ := bind_eq_ok h
  obtain ⟨_, _, h⟩ := bind_eq_ok h
  obtain ⟨_, _, h⟩ := bind_eq_ok h
  cases h; rfl

theorem layer_update_lrate {L L' : Layer} (h : L.update = .ok L') : L'.lrate = L.lrate := by
  unfold Layer.update at h
  obtain ⟨_, _, h⟩ := bind_eq_ok h
  cases h; rfl

theorem layer_updateWith_lrate {L L' : Layer} {g : Mat ℝ} (h : L.updateWith g = .ok L') : L'.lrate = L.lrate := by
  unfold Layer.updateWith at h
  obtain ⟨_, _, h⟩ := bind_eq_ok h
  cases h; rfl

theorem hlayer_forward_lrate {junk : Nat → Nat → ℝ} {h h' : HLayer} {x r : Mat ℝ} (he : h.forwardprop junk x = .ok (r, h')) :
    h'.base.lrate = h.base.lrate := by
  unfold HLayer.forwardprop at he
  split at he <;> obtain ⟨a, ha, he⟩ := bind_eq_ok he <;> cases he
  · exact layer_forward_lrate ha
  · unfold Norm.forwardprop at ha
    obtain ⟨_, _, ha⟩ := bind_eq_ok ha
    obtain ⟨_, _, ha⟩ := bind_eq_ok ha
    cases ha; rfl
  · rfl
  · unfold Conv.forwardprop at ha
    obtain ⟨_, _, ha⟩ := bind_eq_ok ha
    cases ha; rfl
  · unfold MaxPool.forwardprop at ha
    obtain ⟨_, _, ha⟩ := bind_eq_ok ha
    obtain ⟨_, _, ha⟩ := bind_eq_ok ha
    cases ha; rfl
  · unfold MeanPool.forwardprop at ha
    obtain ⟨_, _, ha⟩ := bind_eq_ok ha
    cases ha; rfl

theorem hlayer_backward_lrate {junk : Nat → Nat → ℝ} {h h' : HLayer} {x r : Mat ℝ} (he : h.backprop junk x = .ok (r, h')) :
    h'.base.lrate = h.base.lrate := by
  unfold HLayer.backprop at he
  split at he
  · obtain ⟨a, ha, he⟩ := bind_eq_ok he
    cases he
    exact layer_backward_lrate ha
  · cases he; rfl
  · obtain ⟨a, ha, he⟩ := bind_eq_ok he
    cases he; rfl
  · obtain ⟨a, ha, he⟩ := bind_eq_ok he
    cases he
    unfold Conv.backprop at ha
    obtain ⟨_, _, ha⟩ := bind_eq_ok ha
    obtain ⟨_, _, ha⟩ := bind_eq_ok ha
    cases ha; rfl
  · cases he; rfl
  · cases he; rfl

theorem hlayer_update_lrate {h h' : HLayer} (he : h.update = .ok h') : h'.base.lrate = h.base.lrate := by
  unfold HLayer.update at he
  split at he
  · obtain ⟨a, ha, he⟩ := bind_eq_ok he
    cases he
    exact layer_update_lrate ha
  · obtain ⟨a, ha, he⟩ := bind_eq_ok he
    cases he
    exact layer_update_lrate ha
  · cases he; rfl

theorem hlayer_updateWith_lrate {h h' : HLayer} {g : Mat ℝ} (he : h.updateWith g = .ok h') : h'.base.lrate = h.base.lrate := by
  unfold HLayer.updateWith at he
  split at he
  · obtain ⟨a, ha, he⟩ := bind_eq_ok he
    cases he
    exact layer_updateWith_lrate ha
  · obtain ⟨a, ha, he⟩ := bind_eq_ok he
    cases he
    exact layer_updateWith_lrate ha
  · cases he; rfl

theorem put_lrate {s : Store} {p : Nat} {h : HLayer} (hh : h.base.lrate = (s p).base.lrate) (q : Nat) :
    (s.put p h q).base.lrate = (s q).base.lrate := by
  by_cases hq : q = p
  · subst hq; rw [put_same, hh]
  · rw [put_other hq]

theorem hiddenForward_lrate {junk : Nat → Nat → ℝ} : ∀ {ps : List Nat} {s s' : Store} {x r : Mat ℝ},
    Net.hiddenForward junk ps s x = .ok (r, s') → ∀ q, (s' q).base.lrate = (s q).base.lrate
  | [], s, s', x, r, h, q => by cases h; rfl
  | p :: ps, s, s', x, r, h, q => by
    unfold Net.hiddenForward at h
    obtain ⟨⟨m, hl⟩, h1, h⟩ := bind_eq_ok h
    rw [hiddenForward_lrate h q, put_lrate (hlayer_forward_lrate h1)]

theorem hiddenBackward_lrate {junk : Nat → Nat → ℝ} : ∀ {ps : List Nat} {s s' : Store} {x : Mat ℝ},
    Net.hiddenBackward junk ps s x = .ok s' → ∀ q, (s' q).base.lrate = (s q).base.lrate
  | [], s, s', x, h, q => by cases h; rfl
  | p :: ps, s, s', x, h, q => by
    unfold Net.hiddenBackward at h
    obtain ⟨⟨m, hl⟩, h1, h⟩ := bind_eq_ok h
    rw [hiddenBackward_lrate h q, put_lrate (hlayer_backward_lrate h1)]

theorem hiddenUpdate_lrate : ∀ {ps : List Nat} {s s' : Store}, Net.hiddenUpdate ps s = .ok s' → ∀ q, (s' q).base.lrate = (s q).base.lrate
  | [], s, s', h, q => by cases h; rfl
  | p :: ps, s, s', h, q => by
    unfold Net.hiddenUpdate at h
    obtain ⟨hl, h1, h⟩ := bind_eq_ok h
    rw [hiddenUpdate_lrate h q, put_lrate (hlayer_update_lrate h1)]

theorem hiddenUpdateWith_lrate : ∀ {ps : List Nat} {gs : List (Mat ℝ)} {s s' : Store}, Net.hiddenUpdateWith ps gs s = .ok s' →
    ∀ q, (s' q).base.lrate = (s q).base.lrate
  | [], gs, s, s', h, q => by cases h; rfl
  | p :: ps, [], s, s', h, q => by cases h
  | p :: ps, g :: gs, s, s', h, q => by
    unfold Net.hiddenUpdateWith at h
    obtain ⟨hl, h1, h⟩ := bind_eq_ok h
    rw [hiddenUpdateWith_lrate h q, put_lrate (hlayer_updateWith_lrate h1)]

theorem forwardprop_rates {junk : Nat → Nat → ℝ} {s s' : Store} {n n' : Net} {x r : Mat ℝ} (h : n.forwardprop junk s x = .ok (r, s', n')) :
    SameRates s n s' n' := by
  unfold Net.forwardprop at h
  obtain ⟨⟨c, s1⟩, h1, h⟩ := bind_eq_ok h
  obtain ⟨⟨c2, o⟩, h2, h⟩ := bind_eq_ok h
  cases h
  refine ⟨rfl, rfl, ?_, hiddenForward_lrate h1⟩
  unfold OutputLayer.forwardprop at h2
  obtain ⟨⟨c3, L⟩, h3, h2⟩ := bind_eq_ok h2
  cases h2
  exact layer_forward_lrate h3

theorem backprop_rates {junk : Nat → Nat → ℝ} {s s' : Store} {n n' : Net} {y : Mat ℝ} (h : n.backprop junk s y = .ok (s', n')) :
    SameRates s n s' n' := by
  unfold Net.backprop at h
  obtain ⟨⟨c, o⟩, h1, h⟩ := bind_eq_ok h
  obtain ⟨s1, h2, h⟩ := bind_eq_ok h
  cases h
  refine ⟨rfl, rfl, ?_, hiddenBackward_lrate h2⟩
  unfold OutputLayer.backprop at h1
  obtain ⟨_, _, h1⟩ := bind_eq_ok h1
  obtain ⟨_, _, h1⟩ := bind_eq_ok h1
  obtain ⟨_, _, h1⟩ := bind_eq_ok h1
  obtain ⟨_, _, h1⟩ := bind_eq_ok h1
  obtain ⟨_, _, h1⟩ := bind_eq_ok h1
  cases h1; rfl

theorem update_rates {s s' : Store} {n n' : Net} (h : n.update s = .ok (s', n')) : SameRates s n s' n' := by
  unfold Net.update at h
  obtain ⟨L, h1, h⟩ := bind_eq_ok h
  obtain ⟨s1, h2, h⟩ := bind_eq_ok h
  cases h
  exact ⟨rfl, rfl, layer_update_lrate h1, hiddenUpdate_lrate h2⟩

theorem updateWith_rates {s s' : Store} {n n' : Net} {og : Mat ℝ} {hg : List (Mat ℝ)} (h : n.updateWith s og hg = .ok (s', n')) :
    SameRates s n s' n' := by
  unfold Net.updateWith at h
  obtain ⟨L, h1, h⟩ := bind_eq_ok h
  obtain ⟨s1, h2, h⟩ := bind_eq_ok h
  cases h
  exact ⟨rfl, rfl, layer_updateWith_lrate h1, hiddenUpdateWith_lrate h2⟩

theorem trainOn_rates {junk : Nat → Nat → ℝ} {s s' : Store} {n n' : Net} {x y : Mat ℝ} (h : n.trainOn junk s x y = .ok (s', n')) :
    SameRates s n s' n' := by
  unfold Net.trainOn at h
  obtain ⟨⟨r, s1, n1⟩, h1, h⟩ := bind_eq_ok h
  obtain ⟨⟨s2, n2⟩, h2, h⟩ := bind_eq_ok h
  exact ((forwardprop_rates h1).trans (backprop_rates h2)).trans (update_rates h)

theorem loop_rel {σ : Type _} (R : σ → σ → Prop) (hr : ∀ a, R a a) (ht : ∀ a b c, R a b → R b c → R a c) :
    ∀ {n : Nat} {body : Nat → σ → Res σ} {s s' : σ}, (∀ i a b, body i a = .ok b → R a b) → loop n body s = .ok s' → R s s'
  | 0, _, s, s', _, h => by cases h; exact hr _
  | n + 1, body, s, s', hb, h => by
    unfold loop at h
    obtain ⟨s1, h1, h⟩ := bind_eq_ok h
    exact ht _ _ _ (loop_rel R hr ht hb h1) (hb n _ _ h)

theorem trainRows_rates {junk : Nat → Nat → ℝ} {s s' : Store} {n n' : Net} {x y : Mat ℝ} (h : SGD.trainRows junk x y s n = .ok (s', n')) :
    SameRates s n s' n' := by
  unfold SGD.trainRows at h
  refine loop_rel (fun a b : Store × Net => SameRates a.1 a.2 b.1 b.2) (fun _ => .rfl) (fun _ _ _ => .trans) ?_ h
  intro i a b hab
  obtain ⟨xi, h1, hab⟩ := bind_eq_ok hab
  obtain ⟨⟨r, s1, n1⟩, h2, hab⟩ := bind_eq_ok hab
  obtain ⟨yi, h3, hab⟩ := bind_eq_ok hab
  obtain ⟨⟨s2, n2⟩, h4, hab⟩ := bind_eq_ok hab
  exact ((forwardprop_rates h2).trans (backprop_rates h4)).trans (update_rates hab)

theorem setlrate_all (s : Store) (n : Net) (r : ℝ) : (n.setlrate s r).2.hidden = n.hidden ∧ (n.setlrate s r).2.AllRates (n.setlrate s r).1 r := by
  refine ⟨rfl, rfl, rfl, ?_⟩
  have key : ∀ (ps : List Nat) (s : Store) (p : Nat), (p ∈ ps ∨ (s p).base.lrate = r) →
      ((ps.foldl (fun s p => s.put p ((s p).setlrate r)) s) p).base.lrate = r := by
    intro ps
    induction ps with
    | nil => intro s p h; rcases h with h | h; · cases h
             exact h
    | cons a ps ih =>
      intro s p h
      refine ih _ p ?_
      by_cases hpa : p = a
      · right; subst hpa; show ((s.put p ((s p).setlrate r)) p).base.lrate = r; rw [put_same]; rfl
      · rcases h with h | h
        · left; rcases List.mem_cons.1 h with h | h
          · exact absurd h hpa
          · exact h
        · right; show ((s.put a ((s a).setlrate r)) p).base.lrate = r; rw [put_other hpa]; exact h
  intro p hp
  exact key n.hidden s p (Or.inl hp)

theorem decay_rates (t : Trainer) (s : Store) (n : Net) :
    (t.usedecay = true → t.iters = t.step → (t.decay s n).2.hidden = n.hidden ∧ (t.decay s n).2.AllRates (t.decay s n).1 (t.r0 * Real.exp (-t.k * t.step))) ∧
    (¬ (t.usedecay = true ∧ t.iters = t.step) → SameRates s n (t.decay s n).1 (t.decay s n).2) := by
  unfold Trainer.decay
  constructor
  · intro h1 h2
    rw [if_pos ⟨h1, h2⟩, h2]
    exact setlrate_all s n _
  · intro h
    rw [if_neg h]
    exact .rfl

/-- Everything a call does after the decay keeps the rates. -/
theorem rateCall_of {t : Trainer} {w : World} {s : Store} {n : Net}
    (h : SameRates (t.count.decay w.store (w.nets t.nnet)).1 (t.count.decay w.store (w.nets t.nnet)).2 s n) :
    Spec.RateCall t t.count w (w.put t.nnet s n) := by
  have hn : (w.put t.nnet s n).nets t.nnet = n := if_pos rfl
  obtain ⟨h1, h2⟩ := decay_rates t.count w.store (w.nets t.nnet)
  refine ⟨⟨rfl, rfl, rfl, rfl, rfl⟩, rfl, fun hd hi => ?_, fun hne => ?_⟩
  · rw [hn]
    have := h1 hd hi
    exact ⟨h.hidden.trans this.1, h.all this.2⟩
  · rw [hn]
    exact (h2 hne).trans h

/-! ## C39 -/

/-- **C39, one call of `Trainer::feeddata`.** -/
theorem C39_trainer_call {junk : Nat → Nat → ℝ} {w w' : World} {t t' : Trainer} {x y : Mat ℝ} (h : t.feeddata junk w x y = .ok (w', t')) :
    Spec.RateCall t t' w w' := by
  unfold Trainer.feeddata at h
  obtain ⟨⟨s, n⟩, h1, h⟩ := bind_eq_ok h
  cases h
  exact rateCall_of (trainOn_rates h1)

/-- **C39, one call of `SGDTrainer::feeddata`.** -/
theorem C39_sgd_call {junk : Nat → Nat → ℝ} {w w' : World} {t t' : Trainer} {x y : Mat ℝ} (h : SGD.feeddata junk w t x y = .ok (w', t')) :
    Spec.RateCall t t' w w' := by
  unfold SGD.feeddata at h
  obtain ⟨⟨s, n⟩, h1, h⟩ := bind_eq_ok h
  cases h
  exact rateCall_of (trainRows_rates h1)

/-- **C39, one call of `MomentumTrainer::feeddata`.** -/
theorem C39_momentum_call {junk : Nat → Nat → ℝ} {w w' : World} {t t' : MomentumTrainer} {x y : Mat ℝ} (h : t.feeddata junk w x y = .ok (w', t')) :
    Spec.RateCall t.toTrainer t'.toTrainer w w' := by
  unfold MomentumTrainer.feeddata at h
  obtain ⟨⟨r, s1, n1⟩, h1, h⟩ := bind_eq_ok h
  obtain ⟨⟨s2, n2⟩, h2, h⟩ := bind_eq_ok h
  obtain ⟨og, _, h⟩ := bind_eq_ok h
  obtain ⟨hg, _, h⟩ := bind_eq_ok h
  obtain ⟨⟨s3, n3⟩, h3, h⟩ := bind_eq_ok h
  cases h
  exact rateCall_of (((forwardprop_rates h1).trans (backprop_rates h2)).trans (updateWith_rates h3))

theorem rates_history {τ : Type} {base : τ → Trainer} {feed : World → τ → Mat ℝ → Mat ℝ → Res (World × τ)}
    (hc : ∀ w t x y w' t', feed w t x y = .ok (w', t') → Spec.RateCall (base t) (base t') w w') :
    ∀ (ds : List (Mat ℝ × Mat ℝ)) (w : World) (t : τ) (w' : World) (t' : τ), (base t).iters + ds.length < 2 ^ 64 → feedAll feed w t ds = .ok (w', t') →
    (base t').iters = (base t).iters + ds.length ∧
    ((base t).usedecay = true ∧ (base t).iters < (base t).step ∧ (base t).step ≤ (base t).iters + ds.length →
      (w'.nets (base t).nnet).AllRates w'.store ((base t).r0 * Real.exp (-(base t).k * (base t).step))) ∧
    (¬ ((base t).usedecay = true ∧ (base t).iters < (base t).step ∧ (base t).step ≤ (base t).iters + ds.length) →
      SameRates w.store (w.nets (base t).nnet) w'.store (w'.nets (base t).nnet))
  | [], w, t, w', t', hl, h => by
    cases h
    refine ⟨rfl, fun h => ?_, fun _ => .rfl⟩
    simp only [List.length_nil] at h
    omega
  | d :: ds, w, t, w', t', hl, h => by
    unfold feedAll at h
    obtain ⟨⟨w1, t1⟩, h1, h⟩ := bind_eq_ok h
    have hcall := hc _ _ _ _ _ _ h1
    obtain ⟨c1, c2, c3, c4, c5⟩ := hcall.conf
    simp only [List.length_cons] at hl ⊢
    have hit : (base t1).iters = (base t).iters + 1 := by rw [hcall.iters, Nat.mod_eq_of_lt (by omega)]
    obtain ⟨e1, e2, e3⟩ := rates_history hc ds w1 t1 w' t' (by omega) h
    rw [c1, c2, c3, c4, c5, hit] at e2
    rw [c1, c2, c3, hit] at e3
    rw [hit] at e1
    refine ⟨by omega, fun hd => ?_, fun hd => ?_⟩
    · by_cases hs : (base t).step = (base t).iters + 1
      · have hnow := (hcall.now hd.1 (by omega)).2
        exact (e3 (by omega)).all hnow
      · exact e2 ⟨hd.1, by omega, by omega⟩
    · have h4 : ¬ ((base t).usedecay = true ∧ (base t1).iters = (base t).step) := by
        rintro ⟨g1, g2⟩
        exact hd ⟨g1, by omega, by omega⟩
      refine (hcall.otherwise h4).trans (e3 ?_)
      rintro ⟨g1, g2, g3⟩
      exact hd ⟨g1, by omega, by omega⟩

theorem ratesRight_of {τ : Type} {base : τ → Trainer} {feed : World → τ → Mat ℝ → Mat ℝ → Res (World × τ)}
    (hc : ∀ w t x y w' t', feed w t x y = .ok (w', t') → Spec.RateCall (base t) (base t') w w') : Spec.RatesRight base feed := by
  intro w t ds w' t' h0 hl h
  have := rates_history hc ds w t w' t' (by omega) h
  rw [h0] at this
  simpa only [Nat.zero_add, Nat.lt_iff_add_one_le] using this

/-- **C39.** Over every history of `feeddata` calls on a new `Trainer`, `SGDTrainer` or `MomentumTrainer` — any network, any data — the rates
are `r0 * exp(-k * step)` from call number `step` on when decay is on, and the original ones before it or without decay. -/
theorem C39_history (junk : Nat → Nat → ℝ) :
    Spec.RatesRight (fun t : Trainer => t) (fun w t => t.feeddata junk w) ∧
    Spec.RatesRight (fun t : Trainer => t) (fun w t => SGD.feeddata junk w t) ∧
    Spec.RatesRight (fun t : MomentumTrainer => t.toTrainer) (fun w t => t.feeddata junk w) :=
  ⟨ratesRight_of fun _ _ _ _ _ _ h => C39_trainer_call h, ratesRight_of fun _ _ _ _ _ _ h => C39_sgd_call h,
    ratesRight_of fun _ _ _ _ _ _ h => C39_momentum_call h⟩

theorem trainBatches_rates {junk : Nat → Nat → ℝ} {nr b it0 it : Nat} {tx ty : Mat ℝ} {s s' : Store} {n n' : Net} (h0 : it0 < 2 ^ 64)
    (h : BatchTrainer.trainBatches junk nr tx ty b it0 s n = .ok (it, s', n')) :
    it = (it0 + (nr + b - 1) / b) % 2 ^ 64 ∧ SameRates s n s' n' := by
  unfold BatchTrainer.trainBatches at h
  generalize (nr + b - 1) / b = m at h
  induction m generalizing it s' n' with
  | zero => cases h; exact ⟨(Nat.mod_eq_of_lt h0).symm, .rfl⟩
  | succ m ih =>
    unfold loop at h
    obtain ⟨⟨it1, s1, n1⟩, g1, h⟩ := bind_eq_ok h
    obtain ⟨xi, _, h⟩ := bind_eq_ok h
    obtain ⟨⟨r, s2, n2⟩, g2, h⟩ := bind_eq_ok h
    obtain ⟨yi, _, h⟩ := bind_eq_ok h
    obtain ⟨⟨s3, n3⟩, g3, h⟩ := bind_eq_ok h
    obtain ⟨⟨s4, n4⟩, g4, h⟩ := bind_eq_ok h
    cases h
    obtain ⟨q1, q2⟩ := ih g1
    refine ⟨?_, ((q2.trans (forwardprop_rates g2)).trans (backprop_rates g3)).trans (update_rates g4)⟩
    simp only [q1]
    omega

/-- **C39, `BatchTrainer`.** It counts batches and compares only after the last batch of a call: one call on data with `x.nr` rows adds
`ceil(x.nr / b)` to the counter, the rates become `r0 * exp(-k * step)` when decay is on and the counter after the call is exactly `step`, and
otherwise no rate changes: a step inside the last call's batches is passed over. -/
theorem C39_batch_call {junk : Nat → Nat → ℝ} {w w' : World} {t t' : BatchTrainer} {x y : Mat ℝ} (h0 : t.iters < 2 ^ 64)
    (h : t.feeddata junk w x y = .ok (w', t')) :
    t'.iters = (t.iters + (x.nr + t.batchsize.toNat - 1) / t.batchsize.toNat) % 2 ^ 64 ∧
    (t.usedecay = true → t'.iters = t.step →
      (w'.nets t.nnet).hidden = (w.nets t.nnet).hidden ∧ (w'.nets t.nnet).AllRates w'.store (t.r0 * Real.exp (-t.k * t.step))) ∧
    (¬ (t.usedecay = true ∧ t'.iters = t.step) → SameRates w.store (w.nets t.nnet) w'.store (w'.nets t.nnet)) := by
  unfold BatchTrainer.feeddata at h
  obtain ⟨tx, h1, h⟩ := bind_eq_ok h
  obtain ⟨ty, h2, h⟩ := bind_eq_ok h
  obtain ⟨⟨it, s, n⟩, h3, h⟩ := bind_eq_ok h
  cases h
  obtain ⟨q1, q2⟩ := trainBatches_rates h0 h3
  have hn : ∀ s n, (w.put t.nnet s n).nets t.nnet = n := fun _ _ => if_pos rfl
  obtain ⟨d1, d2⟩ := decay_rates { t.toTrainer with iters := it } s n
  refine ⟨q1, fun hd hi => ?_, fun hne => ?_⟩
  · rw [show _ = _ from hn _ _]
    have := d1 hd hi
    exact ⟨this.1.trans q2.hidden, this.2⟩
  · rw [show _ = _ from hn _ _]
    exact q2.trans (d2 hne)

end
end Nnet.NN
