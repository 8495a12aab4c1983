import Verif.NN.TrainLemmas
import Verif.NN.PropsDecay
/-!
# C40 SGDTrainer, C41 BatchTrainer, C57 reported cost
-/
namespace Nnet.NN
open Finset
noncomputable section

/-! ## Specification -/

/-- Forward pass, backward pass and update on one batch after the other. -/
def Net.trainSeq (junk : Nat → Nat → ℝ) : List (Mat ℝ × Mat ℝ) → Store → Net → Res (Store × Net)
  | [], s, n => .ok (s, n)
  | d :: ds, s, n => do
    let (s, n) ← n.trainOn junk s d.1 d.2
    trainSeq junk ds s n

/-- The samples one by one, in order. -/
def Spec.samples (x y : Mat ℝ) : List (Mat ℝ × Mat ℝ) := (List.range x.nr).map (fun i => (x.rowMat i, y.rowMat i))

/-- Batch number `t` of `b` rows: rows `t*b, ..., t*b+b-1` of the data, counted cyclically. -/
def Spec.batch (m : Mat ℝ) (b t : Nat) : Mat ℝ := Mat.of b m.nc (fun r j => m.f ((t * b + r) % m.nr) j)

/-- `n / b` rounded up. -/
def Spec.ceilDiv (n b : Nat) : Nat := if n % b = 0 then n / b else n / b + 1

/-- All batches of one pass over the data. -/
def Spec.batches (x y : Mat ℝ) (b : Nat) : List (Mat ℝ × Mat ℝ) :=
  (List.range (Spec.ceilDiv x.nr b)).map (fun t => (Spec.batch x b t, Spec.batch y b t))

/-! ## Lemmas -/

theorem trainSeq_append {junk : Nat → Nat → ℝ} (bs : List (Mat ℝ × Mat ℝ)) : ∀ (as : List (Mat ℝ × Mat ℝ)) (s : Store) (n : Net),
    Net.trainSeq junk (as ++ bs) s n = (do let (s, n) ← Net.trainSeq junk as s n; Net.trainSeq junk bs s n)
  | [], s, n => by simp [Net.trainSeq, ok_bind]
  | a :: as, s, n => by
    show (do let (s, n) ← n.trainOn junk s a.1 a.2; Net.trainSeq junk (as ++ bs) s n) = (do let (s, n) ← (do let (s, n) ← n.trainOn junk s a.1 a.2; Net.trainSeq junk as s n); Net.trainSeq junk bs s n)
    cases n.trainOn junk s a.1 a.2 with
    | error e => rfl
    | ok r =>
      simp only [ok_bind]
      exact trainSeq_append bs as r.1 r.2

theorem loop_trainSeq {junk : Nat → Nat → ℝ} (g : Nat → Mat ℝ × Mat ℝ) : ∀ (m : Nat) (s : Store) (n : Net),
    loop m (fun i (st : Store × Net) => st.2.trainOn junk st.1 (g i).1 (g i).2) (s, n) = Net.trainSeq junk ((List.range m).map g) s n
  | 0, s, n => rfl
  | m + 1, s, n => by
    unfold loop
    rw [loop_trainSeq g m, List.range_succ, List.map_append, trainSeq_append]
    cases Net.trainSeq junk ((List.range m).map g) s n with
    | error e => rfl
    | ok r =>
      simp only [ok_bind, List.map_cons, List.map_nil, Net.trainSeq]
      cases r.2.trainOn junk r.1 (g m).1 (g m).2 <;> rfl

theorem row_ok {m : Mat ℝ} {i : Nat} (h : i < m.nr) : m.row i = .ok (m.rowMat i) := by
  unfold Mat.row
  rw [if_pos (by omega)]
  rfl

theorem put_self (w : World) (p : Nat) : w.put p w.store (w.nets p) = w := by
  unfold World.put
  cases w
  simp only [World.mk.injEq, and_true]
  funext q
  split
  · rename_i h; rw [h]
  · rfl

theorem put_put (w : World) (p : Nat) (s s' : Store) (n n' : Net) : (w.put p s n).put p s' n' = w.put p s' n' := by
  unfold World.put
  simp only [World.mk.injEq, and_true]
  funext q
  split <;> rfl

theorem put_nets (w : World) (p : Nat) (s : Store) (n : Net) : (w.put p s n).nets p = n := if_pos rfl

theorem trainRows_eq {junk : Nat → Nat → ℝ} {x y : Mat ℝ} (h : x.nr ≤ y.nr) (s : Store) (n : Net) :
    SGD.trainRows junk x y s n = Net.trainSeq junk (Spec.samples x y) s n := by
  unfold SGD.trainRows Spec.samples
  rw [← loop_trainSeq]
  refine loop_congr fun i hi a => ?_
  unfold Net.trainOn
  rw [row_ok hi, ok_bind, row_ok (by omega)]
  simp only [ok_bind]

/-! ## C40 -/

/-- **C40.** `SGDTrainer::feeddata(x, y)` counts the call, applies the decay and then performs exactly one training step (forward pass, backward
pass, update) on each single sample in order — with the same outcome, exceptions included, for every network, layers of any kind, and all
data with at least one label row for each sample. -/
theorem C40_rows {junk : Nat → Nat → ℝ} {w : World} {t : Trainer} {x y : Mat ℝ} (h : x.nr ≤ y.nr) :
    SGD.feeddata junk w t x y = (do
      let (s, n) ← Net.trainSeq junk (Spec.samples x y) (t.count.decay w.store (w.nets t.nnet)).1 (t.count.decay w.store (w.nets t.nnet)).2
      .ok (w.put t.nnet s n, t.count)) := by
  unfold SGD.feeddata
  simp only
  rw [trainRows_eq h]
  rfl

theorem feedAll_trainer {junk : Nat → Nat → ℝ} : ∀ (ds : List (Mat ℝ × Mat ℝ)) (w : World) (t : Trainer), t.usedecay = false →
    (feedAll (fun w t => t.feeddata junk w) w t ds).map Prod.fst =
    (do let (s, n) ← Net.trainSeq junk ds w.store (w.nets t.nnet); .ok (w.put t.nnet s n) : Res World)
  | [], w, t, _ => by
    show (Except.ok w : Res World) = _
    unfold Net.trainSeq
    rw [ok_bind]
    simp only
    rw [put_self]
  | d :: ds, w, t, ht => by
    have hdec : t.count.decay w.store (w.nets t.nnet) = (w.store, w.nets t.nnet) := by
      unfold Trainer.decay
      rw [if_neg (by intro hh; have : t.usedecay = true := hh.1; rw [ht] at this; cases this)]
    unfold feedAll Net.trainSeq
    have e : t.feeddata junk w d.1 d.2 = (do let (s, n) ← (w.nets t.nnet).trainOn junk w.store d.1 d.2; .ok (w.put t.nnet s n, t.count)) := by
      unfold Trainer.feeddata
      simp only
      rw [show t.count.nnet = t.nnet from rfl, hdec]
    simp only
    rw [e]
    cases h1 : (w.nets t.nnet).trainOn junk w.store d.1 d.2 with
    | error e => rfl
    | ok r =>
      simp only [ok_bind]
      rw [feedAll_trainer ds (w.put t.nnet r.1 r.2) t.count ht]
      rw [show t.count.nnet = t.nnet from rfl, put_nets]
      simp only [put_put]
      rfl

/-- **C40.** Without decay, one call of `SGDTrainer::feeddata(x, y)` has the same effect on all networks as feeding the samples one at a time
to a plain `Trainer` of the same network. -/
theorem C40_like_trainer {junk : Nat → Nat → ℝ} {w : World} {p : Nat} {x y : Mat ℝ} (h : x.nr ≤ y.nr) :
    (SGD.feeddata junk w (Trainer.new p) x y).map Prod.fst =
    (feedAll (fun w t => t.feeddata junk w) w (Trainer.new p) (Spec.samples x y)).map Prod.fst := by
  rw [feedAll_trainer _ w (Trainer.new p) rfl, C40_rows h]
  have hdec : (Trainer.new p).count.decay w.store (w.nets p) = (w.store, w.nets p) := by
    unfold Trainer.decay
    rw [if_neg (by intro hh; have : false = true := hh.1; cases this)]
  rw [show (Trainer.new p).nnet = p from rfl, hdec]
  cases Net.trainSeq junk (Spec.samples x y) w.store (w.nets p) <;> rfl

/-- With fewer label rows than samples the call does not succeed. -/
theorem C40_missing_labels {junk : Nat → Nat → ℝ} {w : World} {t : Trainer} {x y : Mat ℝ} (h : y.nr < x.nr) (r : World × Trainer) :
    SGD.feeddata junk w t x y ≠ .ok r := by
  intro e
  unfold SGD.feeddata at e
  obtain ⟨⟨s, n⟩, h1, e⟩ := bind_eq_ok e
  unfold SGD.trainRows at h1
  obtain ⟨a, a', hb⟩ := loop_ok_body h1 y.nr h
  obtain ⟨xi, _, hb⟩ := bind_eq_ok hb
  obtain ⟨_, _, hb⟩ := bind_eq_ok hb
  obtain ⟨yi, h2, hb⟩ := bind_eq_ok hb
  unfold Mat.row at h2
  rw [if_neg (by omega)] at h2
  cases h2

theorem trainSeq_wf {junk : Nat → Nat → ℝ} {p q : Nat} : ∀ {ds : List (Mat ℝ × Mat ℝ)} {s s' : Store} {n n' : Net}, n.WF s p q →
    (∀ d ∈ ds, 0 < d.1.nr ∧ d.1.nc = p) → Net.trainSeq junk ds s n = .ok (s', n') → n'.WF s' p q
  | [], s, s', n, n', h, _, e => by cases e; exact h
  | d :: ds, s, s', n, n', h, hd, e => by
    unfold Net.trainSeq at e
    obtain ⟨⟨s1, n1⟩, h1, e⟩ := bind_eq_ok e
    obtain ⟨D, _, _, _, _, _, hr⟩ := trainOn_of_ok h (hd d (by simp)).1 (hd d (by simp)).2 h1
    exact trainSeq_wf hr.wf (fun d hd' => hd d (List.mem_cons_of_mem _ hd')) e

theorem samples_fit {x y : Mat ℝ} {p : Nat} (hc : x.nc = p) : ∀ d ∈ Spec.samples x y, 0 < d.1.nr ∧ d.1.nc = p := by
  intro d hd
  unfold Spec.samples at hd
  obtain ⟨i, _, rfl⟩ := List.mem_map.1 hd
  exact ⟨Nat.zero_lt_one, hc⟩

/-- The cost of a sample does not depend on which samples were predicted before. -/
theorem costRows_spec {junk : Nat → Nat → ℝ} {s : Store} {n : Net} {p q : Nat} {x y : Mat ℝ} {c : ℝ} {s' : Store} {n' : Net} (h : n.WF s p q)
    (hc : x.nc = p) (e : SGD.costRows junk x y s n = .ok (c, s', n')) :
    (∃ cs : Nat → ℝ, (∀ i < x.nr, n.costOf junk s (x.rowMat i) (y.rowMat i) = .ok (cs i)) ∧ c = ∑ i ∈ range x.nr, cs i) ∧
    List.Forall₂ Layer.SameModel (n.layers s) (n'.layers s') := by
  unfold SGD.costRows at e
  have key : ∀ (m : Nat), m ≤ x.nr → ∀ (c : ℝ) (s' : Store) (n' : Net), loop m (fun i (st : ℝ × Store × Net) => do
      let xi ← x.row i
      let (_, s, n) ← st.2.2.predict junk st.2.1 xi
      let yi ← y.row i
      let c ← n.computecost n.getresult yi
      .ok (st.1 + c, s, n)) (0, s, n) = .ok (c, s', n') →
      (∃ cs : Nat → ℝ, (∀ i < m, n.costOf junk s (x.rowMat i) (y.rowMat i) = .ok (cs i)) ∧ c = ∑ i ∈ range m, cs i) ∧
      n'.WF s' p q ∧ List.Forall₂ Layer.SameModel (n.layers s) (n'.layers s') ∧ n.SameConf n' := by
    intro m
    induction m with
    | zero =>
      intro _ c s' n' e
      cases e
      exact ⟨⟨fun _ => 0, fun i hi => by omega, by simp⟩, h, List.forall₂_same.2 (fun L _ => ⟨rfl, rfl, rfl, rfl, rfl, rfl⟩), .rfl⟩
    | succ m ih =>
      intro hm c s' n' e
      unfold loop at e
      obtain ⟨⟨c1, s1, n1⟩, e1, e⟩ := bind_eq_ok e
      obtain ⟨⟨cs, hcs, hsum⟩, hw, hsm, hcf⟩ := ih (by omega) _ _ _ e1
      simp only [row_ok (show m < x.nr by omega), ok_bind] at e
      obtain ⟨⟨r, s2, n2⟩, e2, e⟩ := bind_eq_ok e
      obtain ⟨yi, e3, e⟩ := bind_eq_ok e
      have hyi : y.rowMat m = yi := by
        unfold Mat.row at e3
        split at e3
        · cases e3; rfl
        · cases e3
      obtain ⟨c2, e4, e⟩ := bind_eq_ok e
      cases e
      -- the prediction
      obtain ⟨_, s2', n2', e2', hw2, hm2, hcf2, _⟩ := query_ok (junk := junk) (c := .predict (x.rowMat m)) hw Nat.zero_lt_one hc
      replace e2' : n1.predict junk s1 (x.rowMat m) = _ := e2'
      rw [e2] at e2'
      cases e2'
      have hres : n2.getresult = outL (n1.layers s1) (x.rowMat m) := by
        obtain ⟨_, n4, e5, _, _, _, _⟩ := Net.forwardprop_ok (junk := junk) (x := x.rowMat m) hw Nat.zero_lt_one hc
        unfold Net.predict at e2
        rw [e5, ok_bind] at e2
        simp only at e2
        obtain ⟨am, _, e2⟩ := bind_eq_ok e2
        cases e2
        rfl
      have hcost : n.costOf junk s (x.rowMat m) (y.rowMat m) = .ok c2 := by
        rw [costOf_eq (x := x.rowMat m) h Nat.zero_lt_one hc]
        unfold Net.computecost at e4
        rw [hres, (hcf.trans hcf2).cost, outL_eq_denseNet, sameModel_params hsm, ← outL_eq_denseNet, ← hyi] at e4
        exact e4
      refine ⟨⟨fun i => if i < m then cs i else c2, fun i hi => ?_, ?_⟩, hw2, sameModel_trans hsm hm2, hcf.trans hcf2⟩
      · by_cases him : i < m
        · simp only [if_pos him]; exact hcs i him
        · have : i = m := by omega
          subst this
          simp only [if_neg him]; exact hcost
      · rw [Finset.sum_range_succ, if_neg (by omega), hsum]
        congr 1
        exact sum_congr rfl fun i hi => by rw [if_pos (mem_range.1 hi)]
  obtain ⟨h1, _, h2, _⟩ := key x.nr le_rfl c s' n' e
  exact ⟨h1, h2⟩

/-- **C40, reported cost.** On a well-formed dense network, `feeddata(x, y, true)` trains as `feeddata(x, y)` and returns the sum over the rows
of `computecost(forwardprop(row), label)` of the trained network; computing it changes no weight. -/
theorem C40_cost {junk : Nat → Nat → ℝ} {w w2 : World} {t t2 : Trainer} {p q : Nat} {x y : Mat ℝ} {c : ℝ}
    (h : (w.nets t.nnet).WF w.store p q) (hc : x.nc = p) (e : SGD.feedcost junk w t x y true = .ok (c, w2, t2)) :
    ∃ w1, SGD.feeddata junk w t x y = .ok (w1, t2) ∧
      (∃ cs : Nat → ℝ, (∀ i < x.nr, (w1.nets t.nnet).costOf junk w1.store (x.rowMat i) (y.rowMat i) = .ok (cs i)) ∧ c = ∑ i ∈ range x.nr, cs i) ∧
      List.Forall₂ Layer.SameModel ((w1.nets t.nnet).layers w1.store) ((w2.nets t.nnet).layers w2.store) := by
  unfold SGD.feedcost at e
  obtain ⟨⟨w1, t1⟩, e1, e⟩ := bind_eq_ok e
  simp only [if_true] at e
  obtain ⟨⟨c1, s, n⟩, e2, e⟩ := bind_eq_ok e
  cases e
  have hn : t2.nnet = t.nnet ∧ (w1.nets t.nnet).WF w1.store p q := by
    have hxy : x.nr ≤ y.nr := by
      by_contra hlt
      exact C40_missing_labels (by omega) _ e1
    rw [C40_rows hxy] at e1
    obtain ⟨⟨s1, n1⟩, e3, e1⟩ := bind_eq_ok e1
    cases e1
    refine ⟨rfl, ?_⟩
    rw [put_nets]
    exact trainSeq_wf (decay_wf h _) (samples_fit hc) e3
  rw [hn.1] at e2
  obtain ⟨h1, h2⟩ := costRows_spec hn.2 hc e2
  refine ⟨w1, e1, h1, ?_⟩
  rw [hn.1, put_nets]
  exact h2

/-! ## C41 -/

theorem ceilDiv_eq {n b : Nat} (hb : 0 < b) : (n + b - 1) / b = Spec.ceilDiv n b := by
  unfold Spec.ceilDiv
  have h1 := Nat.div_add_mod n b
  have h2 := Nat.mod_lt n hb
  split
  · rename_i h
    rw [h] at h1
    have : n + b - 1 = b - 1 + b * (n / b) := by omega
    rw [this, Nat.add_mul_div_left _ _ hb, Nat.div_eq_of_lt (by omega)]
    omega
  · rename_i h
    have : n + b - 1 = (n % b - 1) + b * (n / b + 1) := by rw [Nat.mul_add]; omega
    rw [this, Nat.add_mul_div_left _ _ hb, Nat.div_eq_of_lt (by omega)]
    omega

theorem lt_ceilDiv {n b t : Nat} (hb : 0 < b) : t < Spec.ceilDiv n b ↔ t * b < n := by
  unfold Spec.ceilDiv
  have h1 := Nat.div_add_mod n b
  have h2 := Nat.mod_lt n hb
  split
  · rename_i h
    obtain ⟨k, rfl⟩ := Nat.dvd_of_mod_eq_zero h
    rw [Nat.mul_div_cancel_left _ hb, Nat.mul_comm t b]
    exact (Nat.mul_lt_mul_left hb).symm
  · rename_i h
    constructor
    · intro hh
      have := Nat.mul_le_mul_right b (Nat.lt_succ_iff.1 hh)
      rw [Nat.mul_comm (n / b) b] at this
      omega
    · intro hh
      by_contra hge
      have := Nat.mul_le_mul_right b (Nat.not_lt.1 hge)
      rw [Nat.add_mul, Nat.mul_comm (n / b) b] at this
      omega

/-- The extended data: the rows once and then the first `b - 1` rows again. -/
theorem extend_ok {m : Mat ℝ} {b : Nat} (hb : 2 ≤ b) (hbn : b ≤ m.nr + 1) (hc : 0 < m.nc) :
    BatchTrainer.extend m b = .ok (Mat.of (m.nr + (b - 1)) m.nc (fun i j => m.f (if i < m.nr then i else i - m.nr) j)) := by
  unfold BatchTrainer.extend
  rw [Mat.submat_ok (by unfold Mat.InView; omega), ok_bind, Mat.insertRows_ok (by omega) (by omega) (by simp only [Mat.of_nc]; omega)]
  have e1 : ((b : Int) - 2 - 0 + 1).toNat = b - 1 := by omega
  have e2 : ((m.nc : Int) - 1 - 0 + 1).toNat = m.nc := by omega
  simp only [Mat.of_nr, e1, e2, Int.toNat_natCast]
  congr 1
  apply Mat.of_congr
  intro i j hi hj
  by_cases h : i < m.nr
  · rw [if_pos h, if_pos h]
  · rw [if_neg h, if_neg h, if_pos (by omega), Mat.of_f' (by omega) hj]
    simp

theorem extend_throw {m : Mat ℝ} {b : Int} (h : b < 2 ∨ (m.nr : Int) + 1 < b ∨ m.nc = 0) : BatchTrainer.extend m b = .error .throw := by
  unfold BatchTrainer.extend Mat.submat
  rw [if_neg (by unfold Mat.InView; omega)]
  rfl

theorem extended_rows {m : Mat ℝ} {b t : Nat} (hb : 2 ≤ b) (hbn : b ≤ m.nr + 1) (ht : t * b < m.nr) :
    (Mat.of (m.nr + (b - 1)) m.nc (fun i j => m.f (if i < m.nr then i else i - m.nr) j)).rows ((t * b : Nat) : Int) (((t * b : Nat) : Int) + b - 1) =
    .ok (Spec.batch m b t) := by
  unfold Mat.rows
  rw [if_pos (by simp only [Mat.of_nr]; omega)]
  have e1 : (((t * b : Nat) : Int) + b - 1 - ((t * b : Nat) : Int) + 1).toNat = b := by omega
  rw [e1]
  unfold Spec.batch
  simp only [Mat.of_nc, Int.toNat_natCast]
  congr 1
  apply Mat.of_congr
  intro r j hr hj
  rw [Mat.of_f' (by omega) hj]
  congr 1
  by_cases h : r + t * b < m.nr
  · rw [if_pos h, Nat.mod_eq_of_lt (by omega)]; omega
  · rw [if_neg h]
    have : t * b + r = m.nr + (r + t * b - m.nr) := by omega
    rw [this, Nat.add_mod_left, Nat.mod_eq_of_lt (by omega)]

theorem trainBatches_eq {junk : Nat → Nat → ℝ} {nr b it : Nat} {tx ty : Mat ℝ} {g : Nat → Mat ℝ × Mat ℝ} (hb : 0 < b) (hit : it < 2 ^ 64)
    (hx : ∀ t < Spec.ceilDiv nr b, tx.rows ((t * b : Nat) : Int) (((t * b : Nat) : Int) + b - 1) = .ok (g t).1)
    (hy : ∀ t < Spec.ceilDiv nr b, ty.rows ((t * b : Nat) : Int) (((t * b : Nat) : Int) + b - 1) = .ok (g t).2) (s : Store) (n : Net) :
    BatchTrainer.trainBatches junk nr tx ty b it s n = (do
      let (s, n) ← Net.trainSeq junk ((List.range (Spec.ceilDiv nr b)).map g) s n
      .ok ((it + Spec.ceilDiv nr b) % 2 ^ 64, s, n)) := by
  unfold BatchTrainer.trainBatches
  rw [ceilDiv_eq hb]
  generalize Spec.ceilDiv nr b = m at hx hy
  induction m with
  | zero =>
    unfold loop
    simp only [List.range_zero, List.map_nil, Net.trainSeq, ok_bind, Nat.add_zero, Nat.mod_eq_of_lt hit]
  | succ m ih =>
    unfold loop
    rw [ih (fun t ht => hx t (by omega)) (fun t ht => hy t (by omega)), List.range_succ, List.map_append, trainSeq_append]
    cases Net.trainSeq junk ((List.range m).map g) s n with
    | error e => rfl
    | ok r =>
      simp only [ok_bind, List.map_cons, List.map_nil, Net.trainSeq]
      rw [hx m (by omega), ok_bind, hy m (by omega)]
      simp only [ok_bind]
      unfold Net.trainOn
      have hmod : ((it + m) % 2 ^ 64 + 1) % 2 ^ 64 = (it + (m + 1)) % 2 ^ 64 := by omega
      cases r.2.forwardprop junk r.1 (g m).1 with
      | error e => rfl
      | ok r1 =>
        simp only [ok_bind]
        cases r1.2.2.backprop junk r1.2.1 (g m).2 with
        | error e => rfl
        | ok r2 =>
          simp only [ok_bind]
          cases r2.2.update r2.1 with
          | error e => rfl
          | ok r3 => simp only [ok_bind, hmod]

/-- **C41.** With `2 ≤ batchsize ≤ n + 1`, `BatchTrainer::feeddata` on `n` samples with `n` labels performs exactly one training step on each of
the `ceil(n / batchsize)` batches in order, batch `t` being the rows `t*batchsize, ..., t*batchsize + batchsize - 1` taken cyclically; it adds
the number of batches to the counter and then applies the decay. The outcome is the same, exceptions included, for every network. -/
theorem C41_batches {junk : Nat → Nat → ℝ} {w : World} {t : BatchTrainer} {x y : Mat ℝ} {b : Nat} (htb : t.batchsize = b) (hb : 2 ≤ b)
    (hbn : b ≤ x.nr + 1) (hxy : y.nr = x.nr) (hxc : 0 < x.nc) (hyc : 0 < y.nc) (hit : t.iters < 2 ^ 64) :
    t.feeddata junk w x y = (do
      let (s, n) ← Net.trainSeq junk (Spec.batches x y b) w.store (w.nets t.nnet)
      let t' : BatchTrainer := { t with x := x, y := y, iters := (t.iters + Spec.ceilDiv x.nr b) % 2 ^ 64 }
      .ok (w.put t.nnet (t'.toTrainer.decay s n).1 (t'.toTrainer.decay s n).2, t')) := by
  unfold BatchTrainer.feeddata
  simp only
  rw [htb, extend_ok hb hbn hxc, ok_bind, extend_ok hb (by omega) hyc, ok_bind]
  simp only [Int.toNat_natCast]
  rw [trainBatches_eq (g := fun t => (Spec.batch x b t, Spec.batch y b t)) (by omega) hit
    (fun t ht => extended_rows hb hbn ((lt_ceilDiv (by omega)).1 ht))
    (fun t ht => extended_rows hb (by omega) (by rw [hxy]; exact (lt_ceilDiv (by omega)).1 ht))]
  unfold Spec.batches
  cases Net.trainSeq junk ((List.range (Spec.ceilDiv x.nr b)).map fun t => (Spec.batch x b t, Spec.batch y b t)) w.store (w.nets t.nnet) with
  | error e => rfl
  | ok r => simp only [ok_bind]

/-- **C41, coverage.** Every sample appears, with its label, in some batch of the pass; every batch has exactly `b` rows; the number of batches is
`n / b` rounded up. -/
theorem C41_coverage (x y : Mat ℝ) (b : Nat) (hb : 0 < b) (hxy : y.nr = x.nr) :
    (∀ i < x.nr, ∃ t r, t < (Spec.batches x y b).length ∧ r < b ∧
      ∃ d, (Spec.batches x y b)[t]? = some d ∧ (∀ j < x.nc, d.1.f r j = x.f i j) ∧ (∀ j < y.nc, d.2.f r j = y.f i j)) ∧
    (∀ d ∈ Spec.batches x y b, d.1.nr = b ∧ d.2.nr = b ∧ d.1.nc = x.nc ∧ d.2.nc = y.nc) ∧
    (Spec.batches x y b).length = ⌈(x.nr : ℝ) / b⌉₊ := by
  refine ⟨fun i hi => ?_, fun d hd => ?_, ?_⟩
  · have h1 := Nat.div_add_mod i b
    have h2 := Nat.mod_lt i hb
    have ht : i / b < Spec.ceilDiv x.nr b := (lt_ceilDiv hb).2 (by rw [Nat.mul_comm]; omega)
    have hrow : ∀ m : Mat ℝ, m.nr = x.nr → ∀ j < m.nc, (Spec.batch m b (i / b)).f (i % b) j = m.f i j := by
      intro m hm j hj
      unfold Spec.batch
      rw [Mat.of_f' h2 hj, Nat.mul_comm, h1, Nat.mod_eq_of_lt (by omega)]
    refine ⟨i / b, i % b, by simpa [Spec.batches] using ht, h2, (Spec.batch x b (i / b), Spec.batch y b (i / b)), ?_, hrow x rfl, hrow y hxy⟩
    unfold Spec.batches
    rw [List.getElem?_map, List.getElem?_range ht]
    rfl
  · unfold Spec.batches at hd
    obtain ⟨t, _, rfl⟩ := List.mem_map.1 hd
    exact ⟨rfl, rfl, rfl, rfl⟩
  · have hlen : (Spec.batches x y b).length = Spec.ceilDiv x.nr b := by simp [Spec.batches]
    rw [hlen]
    have hb' : (0 : ℝ) < b := by exact_mod_cast hb
    refine eq_of_forall_lt_iff fun t => ?_
    rw [Nat.lt_ceil, lt_ceilDiv hb, lt_div_iff₀ hb']
    exact_mod_cast Iff.rfl

/-- **C41 outside that range**: with a batch size below 2 (so also 1), above `n + 1`, or without samples, the call throws before touching the
network. -/
theorem C41_throws {junk : Nat → Nat → ℝ} {w : World} {t : BatchTrainer} {x y : Mat ℝ}
    (h : t.batchsize < 2 ∨ (x.nr : Int) + 1 < t.batchsize ∨ x.nc = 0 ∨ x.nr = 0) : t.feeddata junk w x y = .error .throw := by
  unfold BatchTrainer.feeddata
  simp only
  rw [extend_throw (by omega)]
  rfl

/-! ## C57: the cost `feeddata(x, y, ccost)` reports -/

/-- **C57.** `Trainer::feeddata(x, y, true)` trains as `feeddata(x, y)` and returns `computecost(forwardprop(x), y)` of the network as it was before
the update; with `false` it returns 0. -/
theorem C57_trainer {junk : Nat → Nat → ℝ} {w w2 : World} {t t2 : Trainer} {p q : Nat} {x y : Mat ℝ} {c : ℝ} {cc : Bool}
    (h : (w.nets t.nnet).WF w.store p q) (hr : 0 < x.nr) (hc : x.nc = p) (e : t.feedcost junk w x y cc = .ok (c, w2, t2)) :
    t.feeddata junk w x y = .ok (w2, t2) ∧ (cc = true → (w.nets t.nnet).costOf junk w.store x y = .ok c) ∧ (cc = false → c = 0) := by
  unfold Trainer.feedcost at e
  obtain ⟨⟨w1, t1⟩, e1, e⟩ := bind_eq_ok e
  obtain ⟨c1, e2, e⟩ := bind_eq_ok e
  cases e
  refine ⟨e1, fun hcc => ?_, fun hcc => ?_⟩
  · rw [if_pos hcc] at e2
    unfold Trainer.feeddata at e1
    simp only at e1
    obtain ⟨⟨s, n⟩, e3, e1⟩ := bind_eq_ok e1
    cases e1
    rw [show t.count.nnet = t.nnet from rfl] at e2 e3
    rw [put_nets] at e2
    have hdw := decay_wf h t.count
    obtain ⟨D, _, _, _, hb, hres, _⟩ := trainOn_of_ok hdw hr hc e3
    rw [costOf_eq h hr hc]
    unfold Net.computecost Net.getresult at e2
    have hcost : n.cost = (w.nets t.nnet).cost := by
      rw [hb.conf.cost]
      unfold Trainer.decay
      split <;> rfl
    have hout : outL ((t.count.decay w.store (w.nets t.nnet)).2.layers (t.count.decay w.store (w.nets t.nnet)).1) x = outL ((w.nets t.nnet).layers w.store) x := by
      unfold Trainer.decay
      split
      · rw [(setlrate_becomes h _).layers, outL_setlrate]
      · rfl
    rw [hcost, hres, hout] at e2
    exact e2
  · subst hcc
    cases e2
    rfl

/-- **C57 is false of `BatchTrainer`**: `feeddata(x, y, true)` compares the predictions of the *last batch* (`batchsize` rows) with *all* labels, so on
a network with the quadratic cost it throws whenever the batch size is not the number of samples, after having trained. -/
theorem C57_batch_refuted {junk : Nat → Nat → ℝ} {w w1 : World} {t t1 : BatchTrainer} {p q b : Nat} {x y : Mat ℝ}
    (h : (w.nets t.nnet).WF w.store p q) (hcost : (w.nets t.nnet).cost = Quadratic.cost) (hc : x.nc = p) (hyc : 0 < y.nc) (hxy : y.nr = x.nr)
    (htb : t.batchsize = b) (hb : 2 ≤ b) (hbn : b ≤ x.nr + 1) (hne : b ≠ x.nr) (hit : t.iters < 2 ^ 64)
    (e : t.feeddata junk w x y = .ok (w1, t1)) : t.feedcost junk w x y true = .error .throw := by
  have hxc : 0 < x.nc := by rw [hc]; exact h.pos
  unfold BatchTrainer.feedcost
  rw [e, ok_bind]
  rw [C41_batches htb hb hbn hxy hxc hyc hit] at e
  obtain ⟨⟨s, n⟩, e1, e⟩ := bind_eq_ok e
  cases e
  simp only [if_true]
  rw [put_nets, htb]
  simp only [Int.toNat_natCast]
  rw [ceilDiv_eq (by omega)]
  -- the result has b rows
  have hpos : 0 < Spec.ceilDiv x.nr b := (lt_ceilDiv (by omega)).2 (by omega)
  have hres : n.result.nr = b ∧ n.cost = Quadratic.cost := by
    obtain ⟨m, hm⟩ : ∃ m, Spec.ceilDiv x.nr b = m + 1 := ⟨_, (Nat.succ_pred_eq_of_pos hpos).symm⟩
    unfold Spec.batches at e1
    rw [hm, List.range_succ, List.map_append, trainSeq_append] at e1
    obtain ⟨⟨s1, n1⟩, e2, e1⟩ := bind_eq_ok e1
    have hfit : ∀ d ∈ (List.range m).map (fun t => (Spec.batch x b t, Spec.batch y b t)), 0 < d.1.nr ∧ d.1.nc = p := by
      intro d hd
      obtain ⟨t, _, rfl⟩ := List.mem_map.1 hd
      exact ⟨by show 0 < b; omega, hc⟩
    have hw1 := trainSeq_wf h hfit e2
    have hc1 : n1.cost = Quadratic.cost := by
      have key : ∀ (ds : List (Mat ℝ × Mat ℝ)) (s s' : Store) (n n' : Net), n.WF s p q → (∀ d ∈ ds, 0 < d.1.nr ∧ d.1.nc = p) →
          Net.trainSeq junk ds s n = .ok (s', n') → n'.cost = n.cost := by
        intro ds
        induction ds with
        | nil => intro s s' n n' _ _ e; cases e; rfl
        | cons d ds ih =>
          intro s s' n n' hw hd e
          unfold Net.trainSeq at e
          obtain ⟨⟨s3, n3⟩, e3, e⟩ := bind_eq_ok e
          obtain ⟨D, _, _, _, hb, _, hr⟩ := trainOn_of_ok hw (hd d (by simp)).1 (hd d (by simp)).2 e3
          rw [ih _ _ _ _ hr.wf (fun d hd' => hd d (List.mem_cons_of_mem _ hd')) e, hb.conf.cost]
      rw [key _ _ _ _ _ h hfit e2, hcost]
    simp only [List.map_cons, List.map_nil, Net.trainSeq] at e1
    obtain ⟨⟨s3, n3⟩, e3, e1⟩ := bind_eq_ok e1
    cases e1
    obtain ⟨D, _, _, _, hb, hr, _⟩ := trainOn_of_ok hw1 (by show 0 < b; omega) (by exact hc) e3
    refine ⟨?_, by rw [hb.conf.cost, hc1]⟩
    rw [hr]
    exact (outL_dims (q := q) (by show Spec.Fits x.nc _ q; rw [hc]; exact hw1.fits)).1
  have hsame : ∀ tr : Trainer, (tr.decay s n).2.result = n.result ∧ (tr.decay s n).2.cost = n.cost := by
    intro tr
    unfold Trainer.decay
    split <;> exact ⟨rfl, rfl⟩
  refine (congrArg (· >>= _) (loop_error (k := 0) (fun _ => 0) rfl hpos (fun i hi => by omega) (e := .throw) ?_)).trans rfl
  unfold Net.computecost Net.getresult
  rw [(hsame _).1, (hsame _).2, hres.2]
  unfold Quadratic.cost Mat.sub Mat.zip
  rw [if_neg (by rw [hres.1]; omega)]
  rfl

end
end Nnet.NN
