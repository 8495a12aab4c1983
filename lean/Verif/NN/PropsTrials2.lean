import Verif.NN.PropsTrials
/-! # C115: repeated trials, the whole loop -/
namespace Nnet.NN
open Finset
noncomputable section
namespace TestData
open Spec

/-- A data set for networks with `p` inputs and `q` outputs. -/
structure _root_.Nnet.NN.Spec.DataFits (d : Split) (p q : Nat) (c1 c2 : Nat → Nat) : Prop where
  trainRows : 0 < d.trainx.nr
  trainCols : d.trainx.nc = p
  trainLabels : OneHotOf d.trainy d.trainx.nr q c1
  testRows : 0 < d.testx.nr
  testCols : d.testx.nc = p
  testLabels : OneHotOf d.testy d.testx.nr q c2

theorem put_put (w : World) (id : Nat) (s s' : Store) (n n' : Net) : (w.put id s n).put id s' n' = w.put id s' n' := by
  unfold World.put
  congr 1
  funext k
  dsimp only
  split <;> rfl

theorem put_store (w : World) (id : Nat) (s : Store) (n : Net) : (w.put id s n).store = s := rfl

theorem agreement_bounds (k : Nat) (g c : Nat → Nat) : 0 ≤ agreement k g c ∧ agreement k g c ≤ 1 := by
  unfold agreement
  refine ⟨by positivity, div_le_one_of_le₀ ?_ (by positivity)⟩
  have := card_filter_le (range k) (fun i => g i = c i)
  rw [card_range] at this
  exact_mod_cast this

theorem agreement_congr {k : Nat} {g g' c : Nat → Nat} (h : ∀ i < k, g i = g' i) : agreement k g c = agreement k g' c := by
  unfold agreement
  rw [filter_congr (fun i hi => by rw [h i (mem_range.1 hi)])]

theorem firstMax_unique {v : Nat → ℝ} {n a b : Nat} (ha : FirstMax v n a) (hb : FirstMax v n b) : a = b := by
  rcases lt_trichotomy a b with h | h | h
  · exact absurd (hb.2.2 a h) (not_lt.2 (ha.2.1 b hb.1))
  · exact h
  · exact absurd (ha.2.2 b h) (not_lt.2 (hb.2.1 a ha.1))

theorem evaluate_held {junk : Nat → Nat → ℝ} {id p q : Nat} {w : World} {d : Split} {c1 c2 : Nat → Nat} (h : CallFits w id p q d.trainx d.trainy) (hd : DataFits d p q c1 c2) :
    ∃ a s n, evaluate junk w.store (w.nets id) d = .ok (a, s, n) ∧ CallFits (w.put id s n) id p q d.trainx d.trainy ∧ Held id True w (w.put id s n) ∧
      (0 ≤ a.1 ∧ a.1 ≤ 1) ∧ 0 ≤ a.2 ∧ a.2 ≤ 1 := by
  obtain ⟨g1, g2, s, n, e, -, -, -, -⟩ := C104_evaluate (junk := junk) h.wf rfl hd.trainCols hd.trainLabels rfl hd.testCols hd.testLabels hd.trainRows hd.testRows
  refine ⟨_, s, n, e, ?_⟩
  suffices key : CallFits (w.put id s n) id p q d.trainx d.trainy ∧ Held id True w (w.put id s n) from
    ⟨key.1, key.2, agreement_bounds _ _ _, agreement_bounds _ _ _⟩
  unfold evaluate at e
  obtain ⟨⟨r1, s1, n1⟩, e1, e⟩ := bind_eq_ok e
  dsimp only at e
  obtain ⟨a1, -, e⟩ := bind_eq_ok e
  obtain ⟨⟨r2, s2, n2⟩, e2, e⟩ := bind_eq_ok e
  dsimp only at e
  obtain ⟨a2, -, e⟩ := bind_eq_ok e
  cases e
  obtain ⟨f1, f2⟩ := predict_held h hd.trainRows hd.trainCols e1
  obtain ⟨f3, f4⟩ := predict_held f1 hd.testRows hd.testCols (by rw [put_nets, put_store]; exact e2)
  rw [put_put] at f3 f4
  exact ⟨f3, f2.trans f4⟩

theorem evaluate_same {junk : Nat → Nat → ℝ} {id p q : Nat} {w v : World} {d : Split} {c1 c2 : Nat → Nat} (h : CallFits w id p q d.trainx d.trainy) (h' : CallFits v id p q d.trainx d.trainy)
    (hd : DataFits d p q c1 c2) (hm : Spec.model w.store (w.nets id) = Spec.model v.store (v.nets id)) {a b : ℝ × ℝ} {s s' : Store} {n n' : Net}
    (e : evaluate junk w.store (w.nets id) d = .ok (a, s, n)) (e' : evaluate junk v.store (v.nets id) d = .ok (b, s', n')) : a = b := by
  obtain ⟨g1, g2, _, _, f, -, -, k1, k2⟩ := C104_evaluate (junk := junk) h.wf rfl hd.trainCols hd.trainLabels rfl hd.testCols hd.testLabels hd.trainRows hd.testRows
  obtain ⟨g1', g2', _, _, f', -, -, k1', k2'⟩ := C104_evaluate (junk := junk) h'.wf rfl hd.trainCols hd.trainLabels rfl hd.testCols hd.testLabels hd.trainRows hd.testRows
  rw [e] at f
  rw [e'] at f'
  cases f
  cases f'
  have hp := model_params hm
  rw [agreement_congr (g := g1) (g' := g1') (fun i hi => firstMax_unique (k1 i hi) (by rw [hp]; exact k1' i hi)),
    agreement_congr (g := g2) (g' := g2') (fun i hi => firstMax_unique (k2 i hi) (by rw [hp]; exact k2' i hi))]

/-! ## The loop -/

section
variable (junk : Nat → Nat → ℝ) (dist : Draws) (sd : ℝ) (id raw p q : Nat) (d : Split) (maxiters : Nat) (slow : Nat → Nat → Bool) (rnd : Nat → Nat → Nat) (n0 : Net) (D : List (Nat × Nat)) (t0 : Trainer)

/-- What holds before trial `i`. -/
structure Before (i : Nat) (st : List (ℝ × ℝ) × World × Trainer) : Prop where
  len : st.1.length = i
  fits : CallFits st.2.1 id p q d.trainx d.trainy
  rawnet : st.2.1.nets raw = n0
  conf : n0.SameConf (st.2.1.nets id)
  shapes : (st.2.1.nets id).shapes st.2.1.store = D
  trainer : st.2.2 = { t0 with iters := t0.iters + i * maxiters }
  bounds : ∀ a ∈ st.1, (0 ≤ a.1 ∧ a.1 ≤ 1) ∧ 0 ≤ a.2 ∧ a.2 ≤ 1

end

variable {junk : Nat → Nat → ℝ} {dist : Draws} {sd : ℝ} {id raw p q : Nat} {d : Split} {maxiters : Nat} {slow : Nat → Nat → Bool} {rnd : Nat → Nat → Nat} {n0 : Net} {D : List (Nat × Nat)} {t0 : Trainer}
  {c1 c2 : Nat → Nat}

theorem shapes_split (s : Store) (n : Net) : n.shapes s = n.hidden.map (fun a => dims (s a).base.W) ++ [dims n.output.W] := by
  unfold Net.shapes Net.layers Net.hiddenLayers
  rw [List.map_append, List.map_map]
  rfl

theorem raw_wf {v : World} (hn : v.nets raw = n0) (hc : n0.SameConf (v.nets id)) (hs : (v.nets id).shapes v.store = D) (hD : ∃ s0, n0.shapes s0 = D) (hw : (v.nets id).WF v.store p q) :
    (v.nets raw).WF v.store p q ∧ (v.nets raw).shapes v.store = D := by
  have e : (v.nets raw).shapes v.store = D := by
    obtain ⟨s0, h0⟩ := hD
    rw [hn, ← h0, shapes_split, shapes_split]
    rw [shapes_split, ← h0, shapes_split, hc.hidden] at hs
    rw [(List.append_inj' hs rfl).1]
  exact ⟨wf_of_shapes (n := v.nets id) hw (by rw [hn]; exact hc.hidden.symm) hw.dense (e.trans hs.symm), e⟩

/-- What trial number `i` does. -/
theorem trial_step (hd : DataFits d p q c1 c2) (hne : id ≠ raw) (hid : t0.nnet = id) (hD : ∃ s0, n0.shapes s0 = D) {i : Nat} {st : List (ℝ × ℝ) × World × Trainer}
    (hi : t0.iters + (i + 1) * maxiters < 2 ^ 64) (h : Before id raw p q d maxiters n0 D t0 i st) :
    ∃ o v u a s n w', train junk id st.2.1 st.2.2 d.trainx d.trainy maxiters (slow i) = .ok (o, v, u) ∧ evaluate junk v.store (v.nets id) d = .ok (a, s, n) ∧
      CallFits v id p q d.trainx d.trainy ∧ Held id (¬ DecayWithin st.2.2 maxiters) st.2.1 (v.put id s n) ∧ (v.put id s n).nets raw = n0 ∧
      ((v.put id s n).nets raw).WF (v.put id s n).store p q ∧ restart dist (rnd i) sd id raw (v.put id s n) = .ok w' ∧
      trial junk dist sd id raw d maxiters slow rnd i st = .ok (st.1 ++ [a], w', u) ∧ Before id raw p q d maxiters n0 D t0 (i + 1) (st.1 ++ [a], w', u) := by
  obtain ⟨l, w, t⟩ := st
  obtain ⟨b1, b2, b3, b4, b5, b6, b7⟩ := h
  dsimp only at *
  have hit : t.iters + maxiters < 2 ^ 64 := by
    rw [b6]
    show t0.iters + i * maxiters + maxiters < 2 ^ 64
    rw [Nat.succ_mul] at hi
    omega
  have htn : t.nnet = id := by rw [b6]; exact hid
  obtain ⟨o, v, u, e1, e2, e3, -, -⟩ := C114_trial (junk := junk) b2 htn hd.trainLabels hit (slow i)
  obtain ⟨-, -, k3⟩ := train_held b2 htn hit e1
  obtain ⟨a, s, n, f1, f2, f3, f4⟩ := evaluate_held (junk := junk) e3 hd
  have hh := k3.trans (f3.weaken (fun _ => trivial))
  have hr : (v.put id s n).nets raw = n0 := (hh.others raw (Ne.symm hne)).trans b3
  obtain ⟨hw, hws⟩ := raw_wf hr (b4.trans hh.conf) (hh.shapes.trans b5) hD f2.wf
  obtain ⟨w', g1, g2, -, g3, g4, g5⟩ := C115_restart (dist := dist) (rnd := rnd i) (sd := sd) (id := id) hw
  refine ⟨o, v, u, a, s, n, w', e1, f1, e3, hh, hr, hw, g1, ?_, ?_⟩
  · unfold trial
    dsimp only
    rw [e1, ok_bind]
    dsimp only
    rw [f1, ok_bind]
    dsimp only
    rw [g1, ok_bind]
  · rw [hr] at g4
    refine ⟨by rw [List.length_append, b1]; rfl, callFits_of b2 g3 ((sameConf_symm b4).trans g4), (g2 raw (Ne.symm hne)).trans hr, g4, ?_, ?_, ?_⟩
    · dsimp only
      rw [← hws]
      refine shapes_ext (by rw [g4.hidden, hr]) (fun k L hL => ?_)
      obtain ⟨L', m1, -, -, -, m2, m3, -⟩ := g5 k L hL
      exact ⟨L', m1, m2, m3⟩
    · dsimp only
      rw [e2, b6]
      dsimp only
      rw [Nat.succ_mul, Nat.add_assoc]
    · intro a' ha
      rcases List.mem_append.1 ha with ha | ha
      · exact b7 a' ha
      · rw [List.mem_singleton] at ha
        rw [ha]
        exact f4

theorem before_first {w : World} (hne : id ≠ raw) (h : CallFits w raw p q d.trainx d.trainy) :
    Before id raw p q d maxiters (w.nets raw) ((w.nets raw).shapes w.store) t0 0 ([], w.put id w.store ((w.nets id).assign (w.nets raw)), t0) := by
  have hc : (w.nets raw).SameConf ((w.nets id).assign (w.nets raw)) := ⟨rfl, rfl, rfl, rfl, rfl⟩
  refine ⟨rfl, ⟨?_, ?_, ?_, h.rows, h.inputs, h.labels, h.outputs⟩, ?_, ?_, ?_, ?_, fun a ha => by cases ha⟩
  · dsimp only
    rw [put_nets]
    exact ⟨h.wf.nodup, h.wf.dense, h.wf.pos, h.wf.fits⟩
  · dsimp only; rw [put_nets]; exact h.cost
  · dsimp only; rw [put_nets]; exact h.costd
  · dsimp only; unfold World.put; exact if_neg (Ne.symm hne)
  · dsimp only; rw [put_nets]; exact hc
  · dsimp only; rw [put_nets]; rfl
  · rw [Nat.zero_mul]; rfl

/-- **C115** (the experiment runs). For every network, every data set of its sizes, all clocks and whatever `rand()` returns, all trials are carried out; the file gets one line of two accuracies between
0 and 1 for each, and the network ends well-formed. -/
theorem C115_trials {w : World} {t : Trainer} (hd : DataFits d p q c1 c2) (hne : id ≠ raw) (h : CallFits w raw p q d.trainx d.trainy) (hid : t.nnet = id) (ntrail : Nat)
    (hi : t.iters + ntrail * maxiters < 2 ^ 64) :
    ∃ res w', trials junk dist sd id raw d maxiters slow rnd ntrail w t = .ok (res, w', { t with iters := t.iters + ntrail * maxiters }) ∧ res.length = ntrail ∧
      (∀ a ∈ res, (0 ≤ a.1 ∧ a.1 ≤ 1) ∧ 0 ≤ a.2 ∧ a.2 ≤ 1) ∧ (w'.nets id).WF w'.store p q ∧ w'.nets raw = w.nets raw := by
  unfold trials
  obtain ⟨⟨res, w', t'⟩, e, hb⟩ := loop_inv (n := ntrail) (body := trial junk dist sd id raw d maxiters slow rnd) (Before id raw p q d maxiters (w.nets raw) ((w.nets raw).shapes w.store) t)
    (before_first (t0 := t) (maxiters := maxiters) hne h) (fun i st hil hst => by
      obtain ⟨o, v, u, a, s, n, w', -, -, -, -, -, -, -, e, hb⟩ := trial_step (junk := junk) (dist := dist) (sd := sd) (slow := slow) (rnd := rnd) hd hne hid ⟨_, rfl⟩
        (lt_of_le_of_lt (Nat.add_le_add_left (Nat.mul_le_mul_right _ (by omega)) _) hi) hst
      exact ⟨_, e, hb⟩)
  obtain ⟨b1, b2, b3, -, -, b6, b7⟩ := hb
  dsimp only at b6
  subst b6
  exact ⟨res, w', e, b1, b7, b2.wf, b3⟩

/-! ## Trials that repeat each other -/

/-- The network `id` is as after a restart in which all hidden layers were chosen, and the output layer if `out`. -/
structure Fresh (dist : Draws) (sd : ℝ) (id : Nat) (n0 : Net) (out : Prop) (v : World) : Prop where
  hidden : ∀ k L, k < n0.hidden.length → ((v.nets id).layers v.store)[k]? = some L → L.W = initW dist L.W.nr L.W.nc sd
  settings : (v.nets id).output.lrate = n0.output.lrate ∧ (v.nets id).output.lambda = n0.output.lambda ∧ (v.nets id).output.actfunc = n0.output.actfunc
  drawn : out → (v.nets id).output.W = initW dist n0.output.W.nr n0.output.W.nc sd
  kept : ¬ out → (v.nets id).output.W = n0.output.W

theorem fresh_model {out : Prop} {v v' : World} (h : Fresh dist sd id n0 out v) (h' : Fresh dist sd id n0 out v') (hh : (v.nets id).hidden = n0.hidden) (hh' : (v'.nets id).hidden = n0.hidden)
    (hk : ∀ k < n0.hidden.length, (((v'.nets id).layers v'.store).map confKey)[k]? = (((v.nets id).layers v.store).map confKey)[k]?) :
    Spec.model v'.store (v'.nets id) = Spec.model v.store (v.nets id) := by
  unfold Spec.model
  refine List.ext_getElem? (fun k => ?_)
  rcases Nat.lt_trichotomy k n0.hidden.length with hlt | heq | hgt
  · have := hk k hlt
    rw [List.getElem?_map, List.getElem?_map] at this ⊢
    have l1 : k < ((v.nets id).layers v.store).length := by rw [layers_length, hh]; omega
    have l2 : k < ((v'.nets id).layers v'.store).length := by rw [layers_length, hh']; omega
    have w1 := h.hidden k _ hlt (List.getElem?_eq_getElem l1)
    have w2 := h'.hidden k _ hlt (List.getElem?_eq_getElem l2)
    rw [List.getElem?_eq_getElem l1, List.getElem?_eq_getElem l2, Option.map_some, Option.map_some, Option.some_inj] at this ⊢
    unfold confKey at this
    simp only [Prod.mk.injEq] at this ⊢
    obtain ⟨⟨k1, k2, k3⟩, k4, k5⟩ := this
    exact ⟨k1, k2, k3, by rw [w1, w2, k4, k5]⟩
  · have e1 : ((v.nets id).layers v.store)[k]? = some (v.nets id).output.toLayer := by rw [heq, ← hh]; exact layers_get_output
    have e2 : ((v'.nets id).layers v'.store)[k]? = some (v'.nets id).output.toLayer := by rw [heq, ← hh']; exact layers_get_output
    rw [List.getElem?_map, List.getElem?_map, e1, e2, Option.map_some, Option.map_some]
    have hW : (v'.nets id).output.W = (v.nets id).output.W := by
      by_cases ho : out
      · rw [h.drawn ho, h'.drawn ho]
      · rw [h.kept ho, h'.kept ho]
    rw [h.settings.1, h.settings.2.1, h.settings.2.2, h'.settings.1, h'.settings.2.1, h'.settings.2.2, hW]
  · rw [List.getElem?_eq_none_iff.2 (by rw [List.length_map, layers_length, hh']; omega), List.getElem?_eq_none_iff.2 (by rw [List.length_map, layers_length, hh]; omega)]

theorem fresh_restart {out : Prop} {rnd : Nat → Nat} {v w' : World} (hr : v.nets raw = n0) (hc : n0.SameConf (v.nets id)) (hw : (v.nets raw).WF v.store p q) (e : restart dist rnd sd id raw v = .ok w')
    (hall : ∀ k < n0.hidden.length, Chosen rnd n0.hidden.length k) (hout : Chosen rnd n0.hidden.length n0.hidden.length ↔ out) :
    Fresh dist sd id n0 out w' ∧ ∀ k < n0.hidden.length, (((w'.nets id).layers w'.store).map confKey)[k]? = (((v.nets id).layers v.store).map confKey)[k]? := by
  obtain ⟨w'', e', -, -, -, g4, g5⟩ := C115_restart (dist := dist) (rnd := rnd) (sd := sd) (id := id) hw
  rw [e] at e'
  cases e'
  rw [hr] at g4 g5
  have hid : ∀ k < n0.hidden.length, (n0.layers v.store)[k]? = ((v.nets id).layers v.store)[k]? := fun k hk => by
    rw [layers_get_hidden hk, layers_get_hidden (by rw [hc.hidden]; exact hk), hc.hidden]
  obtain ⟨Lo, o1, o2, o3, o4, -, -, o5, o6⟩ := g5 _ _ layers_get_output
  have hLo : Lo = (w'.nets id).output.toLayer := by
    have := layers_get_output (s := w'.store) (n := w'.nets id)
    rw [g4.hidden, o1] at this
    exact Option.some_inj.1 this
  subst hLo
  refine ⟨⟨fun k L hk hL => ?_, ⟨o2, o3, o4⟩, fun ho => drawnLike_initW.1 (o5 (hout.2 ho)), fun ho => o6 (fun hch => ho (hout.1 hch))⟩, fun k hk => ?_⟩
  · obtain ⟨L', m1, -, -, -, m2, m3, m4, -⟩ := g5 k _ (List.getElem?_eq_getElem (by rw [layers_length]; omega))
    rw [hL] at m1
    cases m1
    have := drawnLike_initW.1 (m4 (hall k hk))
    rw [m2, m3]
    exact this
  · have hk' : k < (n0.layers v.store).length := by rw [layers_length]; omega
    obtain ⟨L', m1, m2, m3, m4, m5, m6, -⟩ := g5 k _ (List.getElem?_eq_getElem hk')
    rw [List.getElem?_map, List.getElem?_map, ← hid k hk, m1, List.getElem?_eq_getElem hk', Option.map_some, Option.map_some]
    unfold confKey
    rw [m2, m3, m4, m5, m6]

/-- **C115** (the trials repeat each other). Suppose that `rand()` chose all hidden layers between any two trials, and the output layer always or never (`out`). Then all trials from number `first` on report
the same accuracies, whatever `rand()` returned otherwise and whatever the clocks did, if the decay of the rate falls into none of them: here `first` is 1 (the second trial) or more, or it is 0 and the
network was built with weights that `randominit(sd)` draws. -/
theorem C115_repeats {w : World} {t : Trainer} {out : Prop} {first ntrail : Nat} (hd : DataFits d p q c1 c2) (hne : id ≠ raw) (h : CallFits w raw p q d.trainx d.trainy) (hid : t.nnet = id)
    (hi : t.iters + ntrail * maxiters < 2 ^ 64) (hall : ∀ i < ntrail, ∀ k < (w.nets raw).hidden.length, Chosen (rnd i) (w.nets raw).hidden.length k)
    (hout : ∀ i < ntrail, Chosen (rnd i) (w.nets raw).hidden.length (w.nets raw).hidden.length ↔ out)
    (hquiet : ¬ (t.usedecay = true ∧ t.iters + first * maxiters < t.step ∧ t.step ≤ t.iters + ntrail * maxiters))
    (hfirst : first = 0 → ∀ k L, ((w.nets raw).layers w.store)[k]? = some L → k < (w.nets raw).hidden.length ∨ out → DrawnLike dist sd L.W L.W) :
    ∃ res w' t', trials junk dist sd id raw d maxiters slow rnd ntrail w t = .ok (res, w', t') ∧ res.length = ntrail ∧ ∃ a, ∀ i, first ≤ i → i < ntrail → res[i]? = some a := by
  set n0 := w.nets raw with hn0
  set D := n0.shapes w.store with hDD
  -- the accuracies of a trial from given settings and weights
  have yields : ∀ v : World, ∃ a, CallFits v id p q d.trainx d.trainy → n0.SameConf (v.nets id) → ∀ (v' : World) (u : Trainer) (sl : Nat → Bool) o v1 u1 b s n, CallFits v' id p q d.trainx d.trainy →
      n0.SameConf (v'.nets id) → u.nnet = id → u.iters + maxiters < 2 ^ 64 → ¬ DecayWithin u maxiters → Spec.model v'.store (v'.nets id) = Spec.model v.store (v.nets id) →
      train junk id v' u d.trainx d.trainy maxiters sl = .ok (o, v1, u1) → evaluate junk v1.store (v1.nets id) d = .ok (b, s, n) → b = a := by
    intro v
    by_cases hv : CallFits v id p q d.trainx d.trainy ∧ 0 + maxiters < 2 ^ 64
    · obtain ⟨oz, vz, uz, e1, -, e3, -⟩ := C114_trial (junk := junk) (t := Trainer.new id) (maxiters := maxiters) hv.1 rfl hd.trainLabels hv.2 (fun _ => false)
      obtain ⟨az, sz, nz, f1, -⟩ := evaluate_held (junk := junk) e3 hd
      refine ⟨az, fun h1 h2 v' u sl o v1 u1 b s n h3 h4 h5 h6 h7 h8 h9 h10 => ?_⟩
      have hm := train_same h3 h1 hd.trainLabels h5 rfl h6 hv.2 h7 (by rintro ⟨hh, -⟩; cases hh) h8 (h4.ocostd.trans h2.ocostd.symm) (h4.cost.trans h2.cost.symm) h9 e1
      exact evaluate_same (train_held h3 h5 h6 h9).2.1 e3 hd hm h10 f1
    · refine ⟨0, fun h1 h2 v' u sl o v1 u1 b s n h3 h4 h5 h6 => absurd ⟨h1, ?_⟩ hv⟩
      omega
  choose A hA using yields
  unfold trials
  let P : Nat → List (ℝ × ℝ) × World × Trainer → Prop := fun i st => Before id raw p q d maxiters n0 D t i st ∧ (0 < i ∨ first = 0 → Fresh dist sd id n0 out st.2.1) ∧
      ∃ a, (first < i → ∃ v, CallFits v id p q d.trainx d.trainy ∧ n0.SameConf (v.nets id) ∧ Spec.model st.2.1.store (st.2.1.nets id) = Spec.model v.store (v.nets id) ∧ A v = a) ∧
        ∀ j, first ≤ j → j < i → st.1[j]? = some a
  suffices key : ∃ st, loop ntrail (trial junk dist sd id raw d maxiters slow rnd) ([], w.put id w.store ((w.nets id).assign (w.nets raw)), t) = .ok st ∧ P ntrail st by
    obtain ⟨⟨res, w', t'⟩, e, hb, -, a, -, ha⟩ := key
    exact ⟨res, w', t', e, hb.len, a, ha⟩
  refine loop_inv P ⟨before_first (t0 := t) (maxiters := maxiters) hne h, fun hf => ?_, 0, fun hf => by omega, fun j _ hj => by omega⟩ (fun i st hil hst => ?_)
  · have hf := hfirst (by omega)
    refine ⟨fun k L hk hL => ?_, ?_, fun ho => ?_, fun _ => ?_⟩
    · dsimp only at hL
      rw [put_nets] at hL
      exact drawnLike_initW.1 (hf k L hL (.inl hk))
    · dsimp only; rw [put_nets]; exact ⟨rfl, rfl, rfl⟩
    · dsimp only
      rw [put_nets]
      exact drawnLike_initW.1 (hf _ _ layers_get_output (.inr ho))
    · dsimp only; rw [put_nets]; rfl
  · obtain ⟨hbi, hfr, a, hv, hres⟩ := hst
    obtain ⟨o, v, u, b, s, n, w', e1, e2, e3, e4, e5, e6, e7, e8, e9⟩ := trial_step (junk := junk) (dist := dist) (sd := sd) (slow := slow) (rnd := rnd) hd hne hid ⟨_, rfl⟩
        (lt_of_le_of_lt (Nat.add_le_add_left (Nat.mul_le_mul_right _ (by omega)) _) hi) hbi
    obtain ⟨r1, r2⟩ := fresh_restart (out := out) e5 (hbi.conf.trans e4.conf) e6 e7 (hall i hil) (hout i hil)
    have hmul : (i + 1) * maxiters = i * maxiters + maxiters := Nat.succ_mul _ _
    have hle : (i + 1) * maxiters ≤ ntrail * maxiters := Nat.mul_le_mul_right _ (by omega)
    have hit : st.2.2.iters = t.iters + i * maxiters := by rw [hbi.trainer]
    by_cases hfi : first ≤ i
    · have hfm : first * maxiters ≤ i * maxiters := Nat.mul_le_mul_right _ hfi
      have hq : ¬ DecayWithin st.2.2 maxiters := by
        rintro ⟨q1, q2, q3⟩
        rw [hit] at q2 q3
        rw [hbi.trainer] at q1 q2 q3
        dsimp only at q1 q2 q3
        exact hquiet ⟨q1, by omega, by omega⟩
      have hu : st.2.2.nnet = id := by rw [hbi.trainer]; exact hid
      have hmodel : Spec.model w'.store (w'.nets id) = Spec.model st.2.1.store (st.2.1.nets id) := by
        refine fresh_model (hfr (by omega)) r1 hbi.conf.hidden e9.conf.hidden (fun k hk => ?_)
        rw [r2 k hk, e4.keys hq]
      have yb : ∀ v0, CallFits v0 id p q d.trainx d.trainy → n0.SameConf (v0.nets id) → Spec.model st.2.1.store (st.2.1.nets id) = Spec.model v0.store (v0.nets id) → b = A v0 := fun v0 h1 h2 h3 =>
        hA v0 h1 h2 st.2.1 st.2.2 (slow i) o v u b s n hbi.fits hbi.conf hu (by omega) hq h3 e1 e2
      refine ⟨_, e8, e9, fun _ => r1, b, fun _ => ?_, fun j hj1 hj2 => ?_⟩
      · exact ⟨st.2.1, hbi.fits, hbi.conf, hmodel, (yb st.2.1 hbi.fits hbi.conf rfl).symm⟩
      · dsimp only
        by_cases hji : j < i
        · rw [List.getElem?_append_left (by rw [hbi.len]; exact hji), hres j hj1 hji]
          obtain ⟨v0, m1, m2, m3, m4⟩ := hv (by omega)
          rw [← m4, yb v0 m1 m2 m3]
        · have : j = i := by omega
          rw [this, List.getElem?_append_right (by rw [hbi.len]), hbi.len, Nat.sub_self]
          rfl
    · exact ⟨_, e8, e9, fun _ => r1, a, fun hh => by omega, fun j hj1 hj2 => by omega⟩

/-- **C115** (trials do not start afresh). The full statement, that the next trial starts from a network that was not trained, is false of every network with a hidden layer: whatever training has led to
the current state, there are results of `rand()` after which the network starts its next trial with the trained weights in all its hidden layers. The learning rates of the hidden layers, which the trainer
may have lowered, are never set back, whatever `rand()` returns. -/
theorem C115_untrained_refuted {v : World} (hc : (v.nets raw).SameConf (v.nets id)) (hw : (v.nets raw).WF v.store p q) :
    (∃ rnd w', restart dist rnd sd id raw v = .ok w' ∧ ∀ k < (v.nets id).hidden.length, ∃ L L', ((v.nets id).layers v.store)[k]? = some L ∧ ((w'.nets id).layers w'.store)[k]? = some L' ∧ L'.W = L.W) ∧
    ∀ rnd w', restart dist rnd sd id raw v = .ok w' → ∀ k < (v.nets id).hidden.length, ∃ L L', ((v.nets id).layers v.store)[k]? = some L ∧ ((w'.nets id).layers w'.store)[k]? = some L' ∧
      L'.lrate = L.lrate := by
  have hl : ∀ k < (v.nets id).hidden.length, ((v.nets raw).layers v.store)[k]? = ((v.nets id).layers v.store)[k]? := fun k hk => by
    rw [layers_get_hidden (by rw [← hc.hidden]; exact hk), layers_get_hidden hk, hc.hidden]
  have hlen : ∀ k < (v.nets id).hidden.length, k < ((v.nets id).layers v.store).length := fun k hk => by rw [layers_length]; omega
  constructor
  · obtain ⟨w', e, -, -, -, -, h5⟩ := C115_restart (dist := dist) (rnd := fun _ => (v.nets raw).hidden.length) (sd := sd) (id := id) hw
    refine ⟨_, w', e, fun k hk => ?_⟩
    obtain ⟨L', f1, -, -, -, -, -, -, f2⟩ := h5 k _ ((hl k hk).trans (List.getElem?_eq_getElem (hlen k hk)))
    refine ⟨_, L', List.getElem?_eq_getElem (hlen k hk), f1, f2 ?_⟩
    rintro ⟨j, -, hj⟩
    dsimp only at hj
    rw [Nat.mod_eq_of_lt (by omega)] at hj
    rw [hc.hidden] at hk
    omega
  · intro rnd w' e k hk
    obtain ⟨w'', e', -, -, -, -, h5⟩ := C115_restart (dist := dist) (rnd := rnd) (sd := sd) (id := id) hw
    rw [e] at e'
    cases e'
    obtain ⟨L', f1, f2, -⟩ := h5 k _ ((hl k hk).trans (List.getElem?_eq_getElem (hlen k hk)))
    exact ⟨_, L', List.getElem?_eq_getElem (hlen k hk), f1, f2⟩

/-! ## The hypotheses can be met: the example network, five samples for training and the same for the test, three trials of 25 iterations -/

/-- Five samples of two classes for training and the test. -/
abbrev exSplit : Split := ⟨exX, exHot, exX, exHot⟩

open Witness in
theorem exSplitFits : DataFits exSplit 2 2 (fun i => i % 2) (fun i => i % 2) := ⟨hx, rfl, exHotOf, hx, rfl, exHotOf⟩

open Witness in
theorem exRawFits : CallFits exWorld 1 2 2 exSplit.trainx exSplit.trainy := ⟨exNet_wf, .inl rfl, .inl rfl, hx, rfl, rfl, rfl⟩

open Witness in
example (junk : Nat → Nat → ℝ) (dist : Draws) (slow : Nat → Nat → Bool) (rnd : Nat → Nat → Nat) := C115_trials (junk := junk) (dist := dist) (sd := 1) (slow := slow) (rnd := rnd) (maxiters := 25)
  (w := exWorld) (t := decTrainer) exSplitFits (show (0 : Nat) ≠ 1 by omega) exRawFits rfl 3 (by show 0 + 3 * 25 < 2 ^ 64; norm_num)

open Witness in
/-- `rand()` gives 0 and 1 between the trials: both layers are chosen. The decay falls into the first trial. -/
example (junk : Nat → Nat → ℝ) (dist : Draws) (slow : Nat → Nat → Bool) := C115_repeats (junk := junk) (dist := dist) (sd := 1) (slow := slow) (rnd := fun _ j => j) (maxiters := 25)
  (w := exWorld) (t := decTrainer) (out := True) (first := 1) (ntrail := 3) exSplitFits (show (0 : Nat) ≠ 1 by omega) exRawFits rfl (by show 0 + 3 * 25 < 2 ^ 64; norm_num)
  (fun i _ k (hk : k < 1) => ⟨k, by show k < 2; omega, by show k % 2 = k; omega⟩)
  (fun i _ => ⟨fun _ => trivial, fun _ => ⟨1, by show 1 < 2; omega, rfl⟩⟩)
  (by rintro ⟨-, h, -⟩; have h : 0 + 1 * 25 < 2 := h; omega) (fun h => by omega)

open Witness in
example (dist : Draws) := C115_untrained_refuted (dist := dist) (sd := 1) (id := 0) (raw := 1) (v := exWorld) (p := 2) (q := 2) .rfl exNet_wf

end TestData
end
end Nnet.NN
