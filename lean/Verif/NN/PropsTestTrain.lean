import Verif.NN.TestTrain
import Verif.NN.PropsTestData
import Verif.NN.PropsFeedCost
import Verif.NN.PropsResume
import Verif.NN.PropsDecay
import Verif.NN.WitnessTrain
/-! # C114: watching the training does not disturb it -/
namespace Nnet.NN
open Finset
noncomputable section
namespace TestData
open Spec

/-- Two states of a program with the same trainer and with networks that have the same settings, weights and cost. -/
structure Alike (id p q : Nat) (x y : Mat ℝ) (a b : World × Trainer) : Prop where
  fits1 : CallFits a.1 id p q x y
  fits2 : CallFits b.1 id p q x y
  trainer : a.2 = b.2
  model : Spec.model a.1.store (a.1.nets id) = Spec.model b.1.store (b.1.nets id)
  costd : (a.1.nets id).output.costd = (b.1.nets id).output.costd
  cost : (a.1.nets id).cost = (b.1.nets id).cost

theorem decay_core {s s' : Store} {n n' : Net} {p q : Nat} (h : n.WF s p q) (h' : n'.WF s' p q) (t : Trainer) (hc : n.core s = n'.core s') :
    (t.decay s n).2.core (t.decay s n).1 = (t.decay s' n').2.core (t.decay s' n').1 := by
  unfold Trainer.decay
  split
  · have key : ∀ {s : Store} {n : Net}, n.WF s p q → (n.setlrate s (t.r0 * Real.exp (-t.k * t.iters))).2.core (n.setlrate s (t.r0 * Real.exp (-t.k * t.iters))).1 =
        ((n.core s).1.map (fun c => (t.r0 * Real.exp (-t.k * t.iters), c.2)), (n.core s).2) := by
      intro s n h
      unfold Net.core
      rw [(setlrate_becomes h _).layers, List.map_map, List.map_map]
      rfl
    rw [key h, key h', hc]
  · exact hc

/-- One call from states that are alike. -/
theorem feed_alike {junk : Nat → Nat → ℝ} {id p q : Nat} {x y : Mat ℝ} {a b : World × Trainer} (h : Alike id p q x y a b) (hid : b.2.nnet = id) :
    ∃ wa wb, a.2.feeddata junk a.1 x y = .ok (wa, b.2.count) ∧ b.2.feeddata junk b.1 x y = .ok (wb, b.2.count) ∧ Alike id p q x y (wa, b.2.count) (wb, b.2.count) := by
  obtain ⟨wa, ta⟩ := a
  obtain ⟨wb, tb⟩ := b
  obtain ⟨h1, h2, h3, h4, h5, h6⟩ := h
  dsimp only at *
  subst h3
  have d1 := decay_keeps (s := wa.store) (n := wa.nets id) ta.count
  have d2 := decay_keeps (s := wb.store) (n := wb.nets id) ta.count
  obtain ⟨s1, n1, s2, n2, e1, e2, e3, w1, w2, e4, -, c1, c2⟩ := step_model (junk := junk) (junk' := junk) (decay_wf h1.wf ta.count) (decay_wf h2.wf ta.count)
    (decay_core h1.wf h2.wf ta.count (core_of_model h4 h5)) h1.rows h1.inputs h1.labels h1.outputs (by rw [d1.2.1]; exact (library_cases h1.costd).2)
  have k2 : n2.output.costd = (wb.nets id).output.costd := by rw [← d2.2.1]; exact c2.ocostd.symm
  refine ⟨wa.put id s1 n1, wb.put id s2 n2, ?_, ?_, ⟨?_, ?_, rfl, ?_, ?_, ?_⟩⟩
  · unfold Trainer.feeddata
    simp only
    rw [show ta.count.nnet = id from hid, e1, ok_bind]
  · unfold Trainer.feeddata
    simp only
    rw [show ta.count.nnet = id from hid, e2, ok_bind]
  · refine ⟨?_, ?_, ?_, h1.rows, h1.inputs, h1.labels, h1.outputs⟩ <;> rw [put_nets]
    · exact w1
    · rw [← c1.cost, d1.1]; exact h1.cost
    · rw [e4, d1.2.1]; exact h1.costd
  · refine ⟨?_, ?_, ?_, h1.rows, h1.inputs, h1.labels, h1.outputs⟩ <;> rw [put_nets]
    · exact w2
    · rw [← c2.cost, d2.1]; exact h2.cost
    · rw [k2]; exact h2.costd
  · dsimp only; rw [put_nets, put_nets]; exact congrArg Prod.fst e3
  · dsimp only; rw [put_nets, put_nets, e4, d1.2.1, k2]; exact h5
  · dsimp only; rw [put_nets, put_nets, ← c1.cost, ← c2.cost, d1.1, d2.1]; exact h6

theorem sameModel_model {s s' : Store} {n n' : Net} (h : List.Forall₂ Layer.SameModel (n.layers s) (n'.layers s')) : Spec.model s' n' = Spec.model s n := by
  unfold Spec.model
  generalize n.layers s = Ls at h
  generalize n'.layers s' = Ms at h
  induction h with
  | nil => rfl
  | cons h1 _ ih => rw [List.map_cons, List.map_cons, ih, h1.W, h1.lrate, h1.lambda, h1.actfunc]

theorem model_params {s s' : Store} {n n' : Net} (h : Spec.model s n = Spec.model s' n') : n.params s = n'.params s' := by
  have : ∀ (s : Store) (n : Net), n.params s = (Spec.model s n).map (fun c => (c.2.2.1.act, c.2.2.2)) := fun s n => by
    unfold Net.params Spec.model
    rw [List.map_map]
    rfl
  rw [this, this, h]

theorem model_outL {s s' : Store} {n n' : Net} (h : Spec.model s n = Spec.model s' n') (x : Mat ℝ) : outL (n.layers s) x = outL (n'.layers s') x := by
  rw [outL_eq_denseNet, outL_eq_denseNet]
  exact congrArg (fun l => denseNet l x) (model_params h)

/-- Looking at the predictions of one of two states that are alike. -/
theorem look_alike {junk : Nat → Nat → ℝ} {id p q : Nat} {x y : Mat ℝ} {a b : World × Trainer} {c g : Nat → Nat} (h : Alike id p q x y a b) (hy : OneHotOf y x.nr q c)
    (hg : ∀ i < x.nr, FirstMax ((denseNet ((b.1.nets id).params b.1.store) x).f i) q (g i)) :
    ∃ r s n, (a.1.nets id).predict junk a.1.store x = .ok (r, s, n) ∧ accuracy y r = .ok (agreement x.nr g c) ∧ Alike id p q x y (a.1.put id s n, a.2) b := by
  obtain ⟨h1, h2, h3, h4, h5, h6⟩ := h
  obtain ⟨r, s', n', e, e1, e2, -, e4⟩ := C32_predict (junk := junk) h1.wf h1.rows h1.inputs
  obtain ⟨r'', s'', n'', f, f1, f2, f3, -⟩ := query_ok (junk := junk) (c := .predict x) h1.wf h1.rows h1.inputs
  have ff := e.symm.trans (show (a.1.nets id).predict junk a.1.store x = _ from f)
  injection ff with ff
  injection ff with ff1 ff2
  injection ff2 with ff2 ff3
  subst ff1 ff2 ff3
  refine ⟨r, s', n', e, ?_, ⟨⟨?_, ?_, ?_, h1.rows, h1.inputs, h1.labels, h1.outputs⟩, h2, h3, ?_, ?_, ?_⟩⟩
  · refine C104_accuracy hy (by omega) (by omega) (fun i hi => ?_)
    obtain ⟨k, k1, -, k2⟩ := e4 i hi
    have k3 := hg i hi
    rw [← model_params h4] at k3
    have : k = g i := by
      rcases lt_trichotomy k (g i) with hlt | heq | hgt
      · have := k3.2.2 k hlt
        have := k2.2.1 (g i) k3.1
        linarith
      · exact heq
      · have := k2.2.2 (g i) hgt
        have := k3.2.1 k k2.1
        linarith
    exact ⟨by rw [k1, this], k3.1⟩
  · rw [put_nets]; exact f1
  · rw [put_nets, f3.cost]; exact h1.cost
  · rw [put_nets, f3.ocostd]; exact h1.costd
  · dsimp only; rw [put_nets]; exact (sameModel_model f2).trans h4
  · dsimp only; rw [put_nets, f3.ocostd]; exact h5
  · dsimp only; rw [put_nets, f3.cost]; exact h6

/-- `feeddata(x, y, ccost)` from states that are alike. -/
theorem feedcost_alike {junk : Nat → Nat → ℝ} {id p q : Nat} {x y : Mat ℝ} {a b : World × Trainer} (h : Alike id p q x y a b) (hid : b.2.nnet = id) (cc : Bool) {wb : World}
    (eb : b.2.feeddata junk b.1 x y = .ok (wb, b.2.count)) : ∃ c wa, a.2.feedcost junk a.1 x y cc = .ok (c, wa, b.2.count) ∧ Alike id p q x y (wa, b.2.count) (wb, b.2.count) ∧
      (cc = true → (b.1.nets id).costOf junk b.1.store x y = .ok c) := by
  have hida : a.2.nnet = id := by rw [h.trainer]; exact hid
  obtain ⟨c, wa', ta', e⟩ := trainer_cost_ok (junk := junk) (t := a.2) (by rw [hida]; exact h.fits1) cc
  obtain ⟨e1, e2, -⟩ := C57_trainer (by rw [hida]; exact h.fits1.wf) h.fits1.rows h.fits1.inputs e
  obtain ⟨wa, wb', f1, f2, f3⟩ := feed_alike (junk := junk) h hid
  rw [e1] at f1
  rw [eb] at f2
  cases f1
  cases f2
  refine ⟨c, _, e, f3, fun hcc => ?_⟩
  rw [← e2 hcc, hida, costOf_eq h.fits1.wf h.fits1.rows h.fits1.inputs, costOf_eq h.fits2.wf h.fits2.rows h.fits2.inputs, model_outL h.model, h.cost]

/-- **C114** (the clock). Train a network of `p` inputs and `q` outputs with a library cost on samples `x` with the classes `c` for `maxiters` iterations. There is one history `R` of the plain training
by `feeddata(x, y)`, costs `C` and predicted classes `g` such that, whatever the clock does, the training loop ends with the trainer, the settings and the weights at the end of that history, and prints,
for the iterations divisible by ten and those the clock chose, in order, the cost of the network before the iteration and the share of the samples that the network after the iteration assigns to their
class (the first of the largest outputs). -/
theorem C114_clock {junk : Nat → Nat → ℝ} {id p q : Nat} {w : World} {t : Trainer} {x y : Mat ℝ} {c : Nat → Nat} (maxiters : Nat) (h : CallFits w id p q x y) (hid : t.nnet = id)
    (hy : OneHotOf y x.nr q c) :
    ∃ (R : Nat → World × Trainer) (C : Nat → ℝ) (g : Nat → Nat → Nat), R 0 = (w, t) ∧
      (∀ i, (R i).2.feeddata junk (R i).1 x y = .ok (R (i + 1)) ∧ ((R i).1.nets id).costOf junk (R i).1.store x y = .ok (C i) ∧
        ∀ r < x.nr, FirstMax ((denseNet (((R (i + 1)).1.nets id).params (R (i + 1)).1.store) x).f r) q (g i r)) ∧
      ∀ slow : Nat → Bool, ∃ w', train junk id w t x y maxiters slow =
          .ok (((List.range maxiters).filter (fun i => i % 10 = 0 ∨ slow i = true)).map (fun i => (i, C i, agreement x.nr (g i) c)), w', (R maxiters).2) ∧
        Spec.model w'.store (w'.nets id) = Spec.model (R maxiters).1.store ((R maxiters).1.nets id) ∧ CallFits w' id p q x y := by
  have next : ∀ b : World × Trainer, ∃ b' : World × Trainer, CallFits b.1 id p q x y → b.2.nnet = id →
      b.2.feeddata junk b.1 x y = .ok b' ∧ b'.2 = b.2.count ∧ CallFits b'.1 id p q x y ∧ b'.2.nnet = id := by
    intro b
    by_cases hb : CallFits b.1 id p q x y ∧ b.2.nnet = id
    · obtain ⟨wa, wb, f1, f2, f3⟩ := feed_alike (junk := junk) (a := b) (b := b) ⟨hb.1, hb.1, rfl, rfl, rfl, rfl⟩ hb.2
      exact ⟨(wb, b.2.count), fun _ _ => ⟨f2, rfl, f3.fits2, hb.2⟩⟩
    · exact ⟨b, fun h1 h2 => absurd ⟨h1, h2⟩ hb⟩
  choose nx hnx using next
  let R : Nat → World × Trainer := fun i => Nat.rec (w, t) (fun _ b => nx b) i
  have hR : ∀ i, CallFits (R i).1 id p q x y ∧ (R i).2.nnet = id := by
    intro i
    induction i with
    | zero => exact ⟨h, hid⟩
    | succ i ih =>
      obtain ⟨-, -, h1, h2⟩ := hnx (R i) ih.1 ih.2
      exact ⟨h1, h2⟩
  have hstep : ∀ i, (R i).2.feeddata junk (R i).1 x y = .ok (R (i + 1)) ∧ (R (i + 1)).2 = (R i).2.count := fun i => by
    obtain ⟨h1, h2, -⟩ := hnx (R i) (hR i).1 (hR i).2
    exact ⟨h1, h2⟩
  have hcost : ∀ i, ∃ C, ((R i).1.nets id).costOf junk (R i).1.store x y = .ok C := fun i => by
    obtain ⟨C, _, _, e⟩ := trainer_cost_ok (junk := junk) (t := (R i).2) (by rw [(hR i).2]; exact (hR i).1) true
    refine ⟨C, ?_⟩
    have := (C57_trainer (by rw [(hR i).2]; exact (hR i).1.wf) (hR i).1.rows (hR i).1.inputs e).2.1 rfl
    rw [(hR i).2] at this
    exact this
  choose C hC using hcost
  have hgx : ∀ i, ∃ g : Nat → Nat, ∀ r < x.nr, FirstMax ((denseNet (((R (i + 1)).1.nets id).params (R (i + 1)).1.store) x).f r) q (g r) := fun i => by
    obtain ⟨_, _, _, -, -, -, -, e4⟩ := C32_predict (junk := junk) (hR (i + 1)).1.wf (hR (i + 1)).1.rows (hR (i + 1)).1.inputs
    choose! g hg using e4
    exact ⟨g, fun r hr => (hg r hr).2.2⟩
  choose g hg using hgx
  refine ⟨R, C, g, rfl, fun i => ⟨(hstep i).1, hC i, hg i⟩, fun slow => ?_⟩
  suffices key : ∃ st, train junk id w t x y maxiters slow = .ok st ∧ st.1 = ((List.range maxiters).filter (fun i => i % 10 = 0 ∨ slow i = true)).map (fun i => (i, C i, agreement x.nr (g i) c)) ∧
      Alike id p q x y st.2 (R maxiters) by
    obtain ⟨⟨l, w', t'⟩, e, e1, e2⟩ := key
    dsimp only at e1 e2
    refine ⟨w', ?_, e2.model, e2.fits1⟩
    rw [e, e1, show t' = (R maxiters).2 from e2.trainer]
  unfold train
  refine loop_inv (s := ([], w, t)) (fun i (st : List (Nat × ℝ × ℝ) × World × Trainer) => st.1 = ((List.range i).filter (fun i => i % 10 = 0 ∨ slow i = true)).map (fun i => (i, C i, agreement x.nr (g i) c)) ∧ Alike id p q x y st.2 (R i))
    ⟨rfl, h, h, rfl, rfl, rfl, rfl⟩ (fun i st _ hst => ?_)
  obtain ⟨l, w1, t1⟩ := st
  obtain ⟨h1, h2⟩ := hst
  dsimp only at h1 h2
  have eb : (R i).2.feeddata junk (R i).1 x y = .ok ((R (i + 1)).1, (R i).2.count) := by rw [(hstep i).1, ← (hstep i).2]
  unfold trainRound
  dsimp only
  by_cases hs : i % 10 = 0 ∨ slow i = true
  · rw [if_pos hs]
    obtain ⟨cc, wa, e, e1, e2⟩ := feedcost_alike (junk := junk) h2 (hR i).2 true eb
    rw [← (hstep i).2] at e e1
    have hcc : cc = C i := by
      have := (e2 rfl).symm.trans (hC i)
      injection this
    obtain ⟨r, s, n, f, f1, f2⟩ := look_alike (junk := junk) (g := g i) e1 hy (hg i)
    dsimp only at e f f2
    refine ⟨(l ++ [(i, cc, agreement x.nr (g i) c)], wa.put id s n, (R (i + 1)).2), ?_, ?_, f2⟩
    · rw [e, ok_bind]
      dsimp only
      rw [f, ok_bind]
      dsimp only
      rw [f1, ok_bind]
    · dsimp only
      rw [h1, hcc, List.range_succ, List.filter_append, List.map_append]
      congr 1
      simp only [List.filter_cons, List.filter_nil, hs, decide_true, if_true, List.map_cons, List.map_nil]
  · rw [if_neg hs]
    obtain ⟨cc, wa, e, e1, -⟩ := feedcost_alike (junk := junk) h2 (hR i).2 false eb
    rw [← (hstep i).2] at e e1
    dsimp only at e
    refine ⟨(l, wa, (R (i + 1)).2), ?_, ?_, e1⟩
    · rw [e, ok_bind]
    · dsimp only
      rw [h1, List.range_succ, List.filter_append]
      simp only [List.filter_cons, List.filter_nil, hs, decide_false, Bool.false_eq_true, if_false, List.append_nil]

theorem model_rates (s : Store) (n : Net) : (n.layers s).map (·.lrate) = (Spec.model s n).map (·.1) := by
  unfold Spec.model
  rw [List.map_map]
  rfl

/-- **C114** (learning rates of a trial). The iterations of a trial are counted on from those of the trials before. If call number `step` of the trainer falls into this trial, all layers end with the rate
`r0 * exp(-k * step)`; otherwise they keep the rates they had, for every clock. -/
theorem C114_trial {junk : Nat → Nat → ℝ} {id p q : Nat} {w : World} {t : Trainer} {x y : Mat ℝ} {c : Nat → Nat} {maxiters : Nat} (h : CallFits w id p q x y) (hid : t.nnet = id)
    (hy : OneHotOf y x.nr q c) (hit : t.iters + maxiters < 2 ^ 64) (slow : Nat → Bool) :
    ∃ out w' t', train junk id w t x y maxiters slow = .ok (out, w', t') ∧ t' = { t with iters := t.iters + maxiters } ∧ CallFits w' id p q x y ∧
      (t.usedecay = true ∧ t.iters < t.step ∧ t.step ≤ t.iters + maxiters → ∀ L ∈ (w'.nets id).layers w'.store, L.lrate = t.r0 * Real.exp (-t.k * t.step)) ∧
      (¬ (t.usedecay = true ∧ t.iters < t.step ∧ t.step ≤ t.iters + maxiters) → ((w'.nets id).layers w'.store).map (·.lrate) = ((w.nets id).layers w.store).map (·.lrate)) := by
  obtain ⟨R, C, g, h0, hR, hall⟩ := C114_clock (junk := junk) maxiters h hid hy
  obtain ⟨w', e, hm, hwf⟩ := hall slow
  have key : ∀ i ≤ maxiters, (R i).2 = { t with iters := t.iters + i } ∧ CallFits (R i).1 id p q x y ∧
      (t.usedecay = true ∧ t.iters < t.step ∧ t.step ≤ t.iters + i → ∀ L ∈ ((R i).1.nets id).layers (R i).1.store, L.lrate = t.r0 * Real.exp (-t.k * t.step)) ∧
      (¬ (t.usedecay = true ∧ t.iters < t.step ∧ t.step ≤ t.iters + i) → (((R i).1.nets id).layers (R i).1.store).map (·.lrate) = ((w.nets id).layers w.store).map (·.lrate)) := by
    intro i
    induction i with
    | zero =>
      intro _
      rw [h0]
      exact ⟨rfl, h, fun hh => by omega, fun _ => rfl⟩
    | succ i ih =>
      intro hi
      obtain ⟨k1, k4, k5, k6⟩ := ih (by omega)
      obtain ⟨f1, -, -⟩ := hR i
      have kid : (R i).2.nnet = id := by rw [k1]; exact hid
      obtain ⟨wa, wb, g1, g2, g3⟩ := feed_alike (junk := junk) (a := R i) (b := R i) ⟨k4, k4, rfl, rfl, rfl, rfl⟩ kid
      rw [f1] at g2
      injection g2 with g2
      have hrc := C39_trainer_call (junk := junk) (w' := (R (i + 1)).1) (t' := (R (i + 1)).2) f1
      have hcount : (R (i + 1)).2 = { t with iters := t.iters + (i + 1) } := by
        rw [g2]
        dsimp only
        unfold Trainer.count
        rw [k1]
        dsimp only
        rw [Nat.mod_eq_of_lt (by omega)]
        rfl
      have hfits : CallFits (R (i + 1)).1 id p q x y := by
        rw [g2]
        exact g3.fits2
      have hrid : (R i).2.nnet = id := kid
      have keep : ¬ ((R i).2.usedecay = true ∧ (R (i + 1)).2.iters = (R i).2.step) → (((R (i + 1)).1.nets id).layers (R (i + 1)).1.store).map (·.lrate) = (((R i).1.nets id).layers (R i).1.store).map (·.lrate) := by
        intro hne
        have hs := hrc.otherwise hne
        rw [hrid] at hs
        unfold Net.layers Net.hiddenLayers
        rw [hs.hidden]
        simp only [List.map_append, List.map_map, List.map_cons, List.map_nil]
        rw [hs.output]
        congr 1
        exact List.map_congr_left (fun p _ => hs.layers p)
      refine ⟨hcount, hfits, fun hh => ?_, fun hh => ?_⟩
      · by_cases hnow : t.step = t.iters + (i + 1)
        · have hs := hrc.now (by rw [k1]; exact hh.1) (by rw [hcount, k1]; exact hnow.symm)
          rw [hrid, k1] at hs
          dsimp only at hs
          obtain ⟨-, -, ho, hp⟩ := hs
          intro L hL
          unfold Net.layers at hL
          rcases List.mem_append.1 hL with hL | hL
          · unfold Net.hiddenLayers at hL
            obtain ⟨a, ha, rfl⟩ := List.mem_map.1 hL
            exact hp a ha
          · rw [List.mem_singleton] at hL
            rw [hL]
            exact ho
        · have k7 := k5 ⟨hh.1, hh.2.1, by omega⟩
          have k8 := keep (by rw [hcount, k1]; dsimp only; omega)
          intro L hL
          have : L.lrate ∈ (((R (i + 1)).1.nets id).layers (R (i + 1)).1.store).map (·.lrate) := List.mem_map_of_mem hL
          rw [k8] at this
          obtain ⟨L', hL', e'⟩ := List.mem_map.1 this
          rw [← e']
          exact k7 L' hL'
      · rw [keep (by
          rw [hcount, k1]
          dsimp only
          rintro ⟨hu, hs⟩
          exact hh ⟨hu, by omega, by omega⟩), k6 (fun hh' => hh ⟨hh'.1, hh'.2.1, by omega⟩)]
  obtain ⟨k1, k4, k5, k6⟩ := key maxiters (le_refl _)
  refine ⟨_, w', _, e, k1, hwf, fun hh L hL => ?_, fun hh => ?_⟩
  · have : L.lrate ∈ ((w'.nets id).layers w'.store).map (·.lrate) := List.mem_map_of_mem hL
    rw [model_rates, hm, ← model_rates] at this
    obtain ⟨L', hL', e'⟩ := List.mem_map.1 this
    rw [← e']
    exact k5 hh L' hL'
  · rw [model_rates, hm, ← model_rates]
    exact k6 hh

/-- **C114** (later trials). The full statement that every trial uses the same schedule is false: the trainer goes on counting. A second trial from the very same network ends with the rates it began
with where the first one ended with the decayed rate, so that the two trials end with different settings, for all clocks. -/
theorem C114_trials_refuted {junk : Nat → Nat → ℝ} {id p q : Nat} {w : World} {t : Trainer} {x y : Mat ℝ} {c : Nat → Nat} {maxiters : Nat} (h : CallFits w id p q x y) (hid : t.nnet = id)
    (hy : OneHotOf y x.nr q c) (h0 : t.iters = 0) (hu : t.usedecay = true) (hs : 1 ≤ t.step) (hs' : t.step ≤ maxiters) (hit : 2 * maxiters < 2 ^ 64)
    (hr : ∃ L ∈ (w.nets id).layers w.store, L.lrate ≠ t.r0 * Real.exp (-t.k * t.step)) (slow slow' : Nat → Bool) :
    ∃ out w1 t1 out' w2 t2, train junk id w t x y maxiters slow = .ok (out, w1, t1) ∧ train junk id w t1 x y maxiters slow' = .ok (out', w2, t2) ∧
      (∀ L ∈ (w1.nets id).layers w1.store, L.lrate = t.r0 * Real.exp (-t.k * t.step)) ∧
      ((w2.nets id).layers w2.store).map (·.lrate) = ((w.nets id).layers w.store).map (·.lrate) ∧
      Spec.model w1.store (w1.nets id) ≠ Spec.model w2.store (w2.nets id) := by
  obtain ⟨out, w1, t1, e1, e2, -, e3, -⟩ := C114_trial (junk := junk) h hid hy (maxiters := maxiters) (by omega) slow
  have hn : t1.nnet = id := by rw [e2]; exact hid
  have hi : t1.iters = maxiters := by rw [e2]; show t.iters + maxiters = _; omega
  have hst : t1.step = t.step := by rw [e2]
  obtain ⟨out', w2, t2, f1, f2, -, -, f3⟩ := C114_trial (junk := junk) (t := t1) h hn hy (maxiters := maxiters) (by omega) slow'
  have g1 := e3 ⟨hu, by omega, by omega⟩
  have g2 := f3 (by omega)
  refine ⟨out, w1, t1, out', w2, t2, e1, f1, g1, g2, fun hm => ?_⟩
  obtain ⟨L, hL, hne⟩ := hr
  have : L.lrate ∈ ((w.nets id).layers w.store).map (·.lrate) := List.mem_map_of_mem hL
  rw [← g2, model_rates, ← hm, ← model_rates] at this
  obtain ⟨L', hL', e'⟩ := List.mem_map.1 this
  exact hne (by rw [← e']; exact g1 L' hL')

open Witness in
/-- Labels of two classes by turns. -/
def exHot : Mat ℝ := Mat.of 5 2 (fun i j => if j = i % 2 then 1 else 0)

open Witness in
theorem exHotFits : CallFits exWorld 0 2 2 exX exHot := ⟨exNet_wf, .inl rfl, .inl rfl, hx, rfl, rfl, rfl⟩

theorem exHotOf : OneHotOf exHot exX.nr 2 (fun i => i % 2) := ⟨rfl, rfl, fun _ hi _ hj => Mat.of_f' hi hj⟩

-- The hypotheses can be met: the example network, five samples, 25 iterations; the decay is due in the second iteration.
open Witness in
example (junk : Nat → Nat → ℝ) := C114_clock (junk := junk) (t := decTrainer) 25 exHotFits rfl exHotOf
open Witness in
example (junk : Nat → Nat → ℝ) (slow slow' : Nat → Bool) := C114_trials_refuted (junk := junk) (w := exWorld) (t := decTrainer) (maxiters := 25) exHotFits rfl exHotOf rfl rfl (by show 1 ≤ 2; omega) (by show 2 ≤ 25; omega)
  (by norm_num) ⟨exNet.output.toLayer, List.mem_append_right _ (List.mem_singleton.2 rfl), by
    show (1 : ℝ) / 10 ≠ 1 / 10 * Real.exp (-1 * ((2 : Nat) : ℝ))
    have := Real.exp_lt_one_iff.2 (show -1 * ((2 : Nat) : ℝ) < 0 by norm_num)
    generalize Real.exp (-1 * ((2 : Nat) : ℝ)) = e at this ⊢
    intro h
    linarith⟩ slow slow'

end TestData
end
end Nnet.NN
