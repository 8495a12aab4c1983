import Verif.NN.PropsExn2
/-!
# C82: what a trainer's call that throws leaves behind
-/
namespace Nnet.NN
noncomputable section
open X

/-! ## Decay -/

theorem decay_conf (s : Store) (n : Net) (t : Trainer) : n.SameConf (t.decay s n).2 := by
  unfold Trainer.decay
  split
  · exact ⟨rfl, rfl, rfl, rfl, rfl⟩
  · exact .rfl

theorem decay_weights {s : Store} {n : Net} {p q : Nat} (h : n.WF s p q) (t : Trainer) : Spec.weights (t.decay s n).1 (t.decay s n).2 = Spec.weights s n := (decay_W h t).1

theorem decay_others {s : Store} {n : Net} {p q : Nat} (h : n.WF s p q) (t : Trainer) (id : Nat) (hid : id ∉ n.hidden) : (t.decay s n).1 id = s id := by
  unfold Trainer.decay
  split
  · exact (setlrate_becomes h _).frame id hid
  · rfl

/-- The settings and weights when the samples arrive: the decay has been applied. -/
def Spec.atStart (w : World) (t : Trainer) : Store × Net := t.count.decay w.store (w.nets t.nnet)

/-- What every trainer leaves of the world around its network. -/
structure Spec.WorldLeft (p q : Nat) (w : World) (t : Trainer) (w' : World) : Prop where
  nets : ∀ k, k ≠ t.nnet → w'.nets k = w.nets k
  layers : ∀ id, id ∉ (w.nets t.nnet).hidden → w'.store id = w.store id
  conf : (w.nets t.nnet).SameConf (w'.nets t.nnet)
  wf : (w'.nets t.nnet).WF w'.store p q

theorem worldLeft {p q : Nat} {w w' : World} {t : Trainer} (h : (w.nets t.nnet).WF w.store p q) (hn : ∀ k, k ≠ t.nnet → w'.nets k = w.nets k)
    (hi : Spec.Intact p q (Spec.atStart w t).1 (Spec.atStart w t).2 w'.store (w'.nets t.nnet)) : Spec.WorldLeft p q w t w' := by
  have hc := decay_conf w.store (w.nets t.nnet) t.count
  exact ⟨hn, fun id hid => (hi.others id (by unfold Spec.atStart; rw [hc.hidden]; exact hid)).trans (decay_others h t.count id hid), hc.trans hi.conf, hi.wf⟩

/-- **C82** (`Trainer`). A call of `Trainer::feeddata` that throws, on a well-formed dense network: the call has been counted and the decay applied; no other network and no layer of another network was touched;
the network keeps its layer objects, cost functions and sizes and has the settings the decay has given it. If there is enough memory no weight has changed; if not, each weight matrix is as before or as after
the complete call. -/
theorem C82_trainer {junk : Nat → Nat → ℝ} {w w' : World} {t t' : Trainer} {p q : Nat} {x y : Mat ℝ} {b b' : Option Fault} {er : Stop} (h : (w.nets t.nnet).WF w.store p q)
    (e : Trainer.feeddataX junk x y b (w, t) = (.error er, b', w', t')) :
    t' = t.count ∧ Spec.WorldLeft p q w t w' ∧ Spec.settings w'.store (w'.nets t.nnet) = Spec.settings (Spec.atStart w t).1 (Spec.atStart w t).2 ∧
    (b = none → Spec.weights w'.store (w'.nets t.nnet) = Spec.weights w.store (w.nets t.nnet)) ∧
    (Spec.weights w'.store (w'.nets t.nnet) = Spec.weights w.store (w.nets t.nnet) ∨
      ∃ w1, t.feeddata junk w x y = .ok (w1, t.count) ∧ Spec.Mixed (Spec.weights w.store (w.nets t.nnet)) (Spec.weights w1.store (w1.nets t.nnet)) (Spec.weights w'.store (w'.nets t.nnet))) := by
  have e' : onNet Trainer.nnet (Net.trainOnX junk x y) b (w.put t.nnet (Spec.atStart w t).1 (Spec.atStart w t).2, t.count) = (.error er, b', w', t') := e
  obtain ⟨rfl, h1, h2⟩ := onNet_eq e'
  have hnn : t.count.nnet = t.nnet := rfl
  rw [hnn] at h1 h2
  rw [put_nets] at h2
  have hdw : (Spec.atStart w t).2.WF (Spec.atStart w t).1 p q := decay_wf h t.count
  obtain ⟨k1, k2, k3⟩ := C82_step hdw h2
  have hw : Spec.weights (Spec.atStart w t).1 (Spec.atStart w t).2 = Spec.weights w.store (w.nets t.nnet) := decay_weights h t.count
  rw [hw] at k2 k3
  refine ⟨rfl, worldLeft h (fun k hk => (h1 k hk).trans (if_neg hk)) k1, k1.settings, k2, ?_⟩
  rcases k3 with k3 | ⟨s1, n1, k3, k4⟩
  · exact Or.inl k3
  · refine Or.inr ⟨w.put t.nnet s1 n1, ?_, by rw [put_nets]; exact k4⟩
    unfold Trainer.feeddata
    dsimp only
    have : (t.count.decay w.store (w.nets t.count.nnet)).2.trainOn junk (t.count.decay w.store (w.nets t.count.nnet)).1 x y = .ok (s1, n1) := k3
    rw [this, ok_bind]
    rfl

/-! ## Loops of steps -/

theorem trainOn_intact {junk : Nat → Nat → ℝ} {s s' : Store} {n n' : Net} {p q : Nat} {x y : Mat ℝ} (h : n.WF s p q) (e : n.trainOn junk s x y = .ok (s', n')) : Spec.Intact p q s n s' n' := by
  have hx : 0 < x.nr ∧ x.nc = p := by
    by_contra hx
    unfold Net.trainOn at e
    rw [((C67_input (junk := junk) h x).2 hx).1] at e
    cases e
  obtain ⟨D, -, -, -, hb, -, hr⟩ := trainOn_of_ok h hx.1 hx.2 e
  refine ⟨hb.conf, ?_, hr.wf, hb.frame⟩
  unfold Spec.settings
  rw [hb.layers, List.map_map]
  have := congrArg (List.map (fun c : ℝ × ℝ × ActFunc ℝ × Mat ℝ => (c.1, c.2.1, c.2.2.1))) (bwdNet_core (n.hiddenLayers s) n.output.toLayer D x)
  rw [List.map_map, List.map_map] at this
  exact this

/-- A loop of training steps on samples `gx i` with labels `gy i`. -/
def stepsX (junk : Nat → Nat → ℝ) (gx gy : Nat → Res (Mat ℝ)) (k : Nat) : X (Store × Net) Unit := X.loop k (fun i => stepX junk (X.eval (fun _ => gx i)) (X.eval (fun _ => gy i)))

theorem stepsX_done {junk : Nat → Nat → ℝ} {gx gy : Nat → Res (Mat ℝ)} {G : Nat → Mat ℝ × Mat ℝ} (hG : ∀ i x y, gx i = .ok x → gy i = .ok y → G i = (x, y)) {p q : Nat}
    {s : Store} {n : Net} {b : Option Fault} (h : n.WF s p q) : ∀ {k : Nat} {b1 : Option Fault} {s1 : Store} {n1 : Net}, stepsX junk gx gy k b (s, n) = (.ok (), b1, s1, n1) →
    Net.trainSeq junk ((List.range k).map G) s n = .ok (s1, n1) ∧ Spec.Intact p q s n s1 n1 ∧ (b = none → b1 = none)
  | 0, b1, s1, n1, e => by
    cases e
    exact ⟨rfl, .refl h, fun h => h⟩
  | k + 1, b1, s1, n1, e => by
    obtain ⟨⟨⟩, b2, ⟨s2, n2⟩, e1, e2⟩ := bind_done (m := stepsX junk gx gy k) (g := fun _ => stepX junk (X.eval (fun _ => gx k)) (X.eval (fun _ => gy k))) e
    obtain ⟨i1, i2, i3⟩ := stepsX_done hG h e1
    obtain ⟨x, y, hx, hy, h3, h4⟩ := (stepX_cases i2.wf (pure_eval _) (pure_eval _) e2).1 rfl
    refine ⟨?_, i2.trans (trainOn_intact i2.wf h3), fun hb => h4 (i3 hb)⟩
    rw [List.range_succ, List.map_append, trainSeq_append, i1, ok_bind]
    simp only [List.map_cons, List.map_nil, Net.trainSeq]
    rw [hG k x y hx hy]
    dsimp only
    rw [h3]
    rfl

theorem stepsX_stopped {junk : Nat → Nat → ℝ} {gx gy : Nat → Res (Mat ℝ)} {G : Nat → Mat ℝ × Mat ℝ} (hG : ∀ i x y, gx i = .ok x → gy i = .ok y → G i = (x, y)) {p q : Nat}
    {s s' : Store} {n n' : Net} {b b' : Option Fault} {m : Nat} {er : Stop} (h : n.WF s p q) (e : stepsX junk gx gy m b (s, n) = (.error er, b', s', n')) :
    ∃ k s1 n1, k < m ∧ Net.trainSeq junk ((List.range k).map G) s n = .ok (s1, n1) ∧ Spec.Intact p q s n s' n' ∧
      (b = none → Spec.weights s' n' = Spec.weights s1 n1) ∧
      (Spec.weights s' n' = Spec.weights s1 n1 ∨
        ∃ s2 n2, Net.trainSeq junk ((List.range (k + 1)).map G) s n = .ok (s2, n2) ∧ Spec.Mixed (Spec.weights s1 n1) (Spec.weights s2 n2) (Spec.weights s' n')) := by
  obtain ⟨k, b1, ⟨s1, n1⟩, hk, h1, h2⟩ := loop_stopped e
  obtain ⟨i1, i2, i3⟩ := stepsX_done hG h h1
  obtain ⟨j1, j2⟩ := (stepX_cases i2.wf (pure_eval _) (pure_eval _) h2).2 er rfl
  refine ⟨k, s1, n1, hk, i1, i2.trans j1, fun hb => ?_, ?_⟩
  · rcases j2 with j2 | ⟨j2, -⟩
    · exact j2
    · exact absurd (i3 hb) j2
  · rcases j2 with j2 | ⟨-, x, y, s2, n2, hx, hy, j3, j4⟩
    · exact Or.inl j2
    · refine Or.inr ⟨s2, n2, ?_, j4⟩
      rw [List.range_succ, List.map_append, trainSeq_append, i1, ok_bind]
      simp only [List.map_cons, List.map_nil, Net.trainSeq]
      rw [hG k x y hx hy]
      dsimp only
      rw [j3]
      rfl

/-! ## SGDTrainer -/

theorem take_samples (x y : Mat ℝ) {k : Nat} (hk : k ≤ x.nr) : (Spec.samples x y).take k = (List.range k).map (fun i => (x.rowMat i, y.rowMat i)) := by
  unfold Spec.samples
  rw [← List.map_take, List.take_range, Nat.min_eq_left hk]

theorem row_eq_ok {m : Mat ℝ} {i : Nat} {r : Mat ℝ} (h : m.row i = .ok r) : r = m.rowMat i ∧ i < m.nr := by
  by_cases hi : i < m.nr
  · rw [row_ok hi] at h; cases h; exact ⟨rfl, hi⟩
  · unfold Mat.row at h
    rw [if_neg (by omega)] at h
    cases h

/-- **C82** (`SGDTrainer`). A call of `SGDTrainer::feeddata` that throws, on a well-formed dense network: the call has been counted and the decay applied, other networks and their layers are untouched, the network keeps
its layer objects, cost functions, sizes and settings. The weights are those after training on a number `k` of the first samples, fewer than all; only if memory has run out may some of the weight matrices
be those after sample `k + 1` instead. -/
theorem C82_sgd {junk : Nat → Nat → ℝ} {w w' : World} {t t' : Trainer} {p q : Nat} {x y : Mat ℝ} {b b' : Option Fault} {er : Stop} (h : (w.nets t.nnet).WF w.store p q)
    (e : SGD.feeddataX junk x y b (w, t) = (.error er, b', w', t')) :
    t' = t.count ∧ Spec.WorldLeft p q w t w' ∧ Spec.settings w'.store (w'.nets t.nnet) = Spec.settings (Spec.atStart w t).1 (Spec.atStart w t).2 ∧
    ∃ k s1 n1, k < x.nr ∧ Net.trainSeq junk ((Spec.samples x y).take k) (Spec.atStart w t).1 (Spec.atStart w t).2 = .ok (s1, n1) ∧
      (b = none → Spec.weights w'.store (w'.nets t.nnet) = Spec.weights s1 n1) ∧
      (Spec.weights w'.store (w'.nets t.nnet) = Spec.weights s1 n1 ∨
        ∃ s2 n2, Net.trainSeq junk ((Spec.samples x y).take (k + 1)) (Spec.atStart w t).1 (Spec.atStart w t).2 = .ok (s2, n2) ∧
          Spec.Mixed (Spec.weights s1 n1) (Spec.weights s2 n2) (Spec.weights w'.store (w'.nets t.nnet))) := by
  have e' : onNet Trainer.nnet (stepsX junk (fun i => x.row i) (fun i => y.row i) x.nr) b (w.put t.nnet (Spec.atStart w t).1 (Spec.atStart w t).2, t.count) = (.error er, b', w', t') := e
  obtain ⟨rfl, h1, h2⟩ := onNet_eq e'
  have hnn : t.count.nnet = t.nnet := rfl
  rw [hnn] at h1 h2
  rw [put_nets] at h2
  have hdw : (Spec.atStart w t).2.WF (Spec.atStart w t).1 p q := decay_wf h t.count
  obtain ⟨k, s1, n1, hk, k1, k2, k3, k4⟩ := stepsX_stopped (G := fun i => (x.rowMat i, y.rowMat i))
    (fun i x' y' hx hy => by rw [(row_eq_ok hx).1, (row_eq_ok hy).1]) hdw h2
  refine ⟨rfl, worldLeft h (fun k hk => (h1 k hk).trans (if_neg hk)) k2, k2.settings, k, s1, n1, hk, ?_, k3, ?_⟩
  · rw [take_samples x y hk.le]; exact k1
  · rw [take_samples x y hk]; exact k4

/-- With fewer label rows than samples and enough memory the call throws after training on exactly the samples that have labels, if each of them can be trained on. -/
theorem C82_missing_labels {junk : Nat → Nat → ℝ} {w w' : World} {t t' : Trainer} {p q : Nat} {x y : Mat ℝ} {b' : Option Fault} {r : Res Unit} {s1 : Store} {n1 : Net}
    (h : (w.nets t.nnet).WF w.store p q) (hy : y.nr < x.nr) (hl : Net.trainSeq junk ((Spec.samples x y).take y.nr) (Spec.atStart w t).1 (Spec.atStart w t).2 = .ok (s1, n1))
    (e : SGD.feeddataX junk x y none (w, t) = (r, b', w', t')) :
    (∃ er, r = .error er) ∧ Spec.weights w'.store (w'.nets t.nnet) = Spec.weights s1 n1 := by
  have hr : ∃ er, r = .error er := by
    rcases r with er | ⟨⟩
    · exact ⟨er, rfl⟩
    · obtain ⟨h1, -⟩ := (SGD.feeddataX_refines junk x y none (w, t)).1 _ _ _ e
      obtain ⟨v, h2, -⟩ := bind_eq_ok h1
      exact absurd h2 (C40_missing_labels hy v)
  refine ⟨hr, ?_⟩
  obtain ⟨er, rfl⟩ := hr
  have e' : onNet Trainer.nnet (stepsX junk (fun i => x.row i) (fun i => y.row i) x.nr) none (w.put t.nnet (Spec.atStart w t).1 (Spec.atStart w t).2, t.count) = (.error er, b', w', t') := e
  obtain ⟨rfl, h1, h2⟩ := onNet_eq e'
  have hnn : t.count.nnet = t.nnet := rfl
  rw [hnn] at h1 h2
  rw [put_nets] at h2
  have hdw : (Spec.atStart w t).2.WF (Spec.atStart w t).1 p q := decay_wf h t.count
  obtain ⟨k, b1, ⟨s2, n2⟩, hk, k1, k2⟩ := loop_stopped h2
  obtain ⟨i1, i2, i3⟩ := stepsX_done (G := fun i => (x.rowMat i, y.rowMat i)) (fun i x' y' hx hy => by rw [(row_eq_ok hx).1, (row_eq_ok hy).1]) hdw k1
  have hb1 := i3 rfl
  subst hb1
  have hky : k = y.nr := by
    rcases Nat.lt_trichotomy k y.nr with hlt | heq | hgt
    · -- the step on sample `k` is part of the given training
      exfalso
      have hsplit : (Spec.samples x y).take y.nr = (List.range k).map (fun i => (x.rowMat i, y.rowMat i)) ++ ((x.rowMat k, y.rowMat k) :: ((List.range (y.nr - (k + 1))).map (fun i => (x.rowMat (k + 1 + i), y.rowMat (k + 1 + i))))) := by
        rw [take_samples x y hy.le]
        have : y.nr = (k + 1) + (y.nr - (k + 1)) := by omega
        conv_lhs => rw [this]
        rw [List.range_add, List.map_append, List.range_succ, List.map_append, List.append_assoc, List.map_map]
        rfl
      have hl' := hl
      rw [hsplit, trainSeq_append, i1, ok_bind] at hl'
      dsimp only at hl'
      unfold Net.trainSeq at hl'
      obtain ⟨⟨s3, n3⟩, hl1, -⟩ := bind_eq_ok hl'
      dsimp only at hl1
      -- so the step cannot throw with enough memory
      have hs : (stepX junk (X.eval (fun _ => x.row k)) (X.eval (fun _ => y.row k)) none (s2, n2)).1 = .ok () := by
        have href := (Refines.eval (σ := Store × Net) (fun _ => x.row k)).bind fun xi => (Net.forwardpropX_refines junk xi).bind fun _ =>
          (Refines.eval (σ := Store × Net) (fun _ => y.row k)).bind fun yi => (Net.backpropX_refines junk yi).bind fun _ => Net.updateX_refines
        rcases e3 : stepX junk (X.eval (fun _ => x.row k)) (X.eval (fun _ => y.row k)) none (s2, n2) with ⟨er' | ⟨⟩, b3, st3⟩
        · exfalso
          have := (href none (s2, n2)).2 _ _ _ e3 rfl
          rw [row_ok (by omega : k < x.nr), row_ok hlt] at this
          simp only [ok_bind, bind_assoc] at this
          unfold Net.trainOn at hl1
          obtain ⟨v1, g1, hl1⟩ := bind_eq_ok hl1
          obtain ⟨v2, g2, hl1⟩ := bind_eq_ok hl1
          dsimp only at g2 hl1
          rw [g1, ok_bind] at this
          rw [g2, ok_bind] at this
          rw [hl1] at this
          cases this
        · rfl
      rw [k2] at hs
      cases hs
    · exact heq
    · exfalso
      obtain ⟨k', rfl⟩ : ∃ k', k = k' + 1 := ⟨k - 1, by omega⟩
      obtain ⟨⟨⟩, b2, ⟨s3, n3⟩, e1, e2⟩ := bind_done (m := stepsX junk (fun i => x.row i) (fun i => y.row i) k') (g := fun _ => stepX junk (X.eval (fun _ => x.row k')) (X.eval (fun _ => y.row k'))) k1
      obtain ⟨-, i2', -⟩ := stepsX_done (G := fun i => (x.rowMat i, y.rowMat i)) (fun i x' y' hx hy => by rw [(row_eq_ok hx).1, (row_eq_ok hy).1]) hdw e1
      obtain ⟨x', y', hx', hy', -⟩ := (stepX_cases i2'.wf (pure_eval _) (pure_eval _) e2).1 rfl
      have := (row_eq_ok hy').2
      omega
  subst hky
  rw [take_samples x y hk.le, i1] at hl
  cases hl
  obtain ⟨-, j2⟩ := (stepX_cases i2.wf (pure_eval _) (pure_eval _) k2).2 er rfl
  rcases j2 with j2 | ⟨j2, -⟩
  · exact j2
  · exact absurd rfl j2

/-! ## BatchTrainer -/

/-- `n` times `iters ++`. -/
def countN (k : Nat) (t : BatchTrainer) : BatchTrainer := { t with toTrainer := Trainer.count^[k] t.toTrainer }

theorem count_iter_nnet (k : Nat) (t : Trainer) : (Trainer.count^[k] t).nnet = t.nnet := by
  induction k with
  | zero => rfl
  | succ k ih => rw [Function.iterate_succ_apply']; exact ih

theorem count_iter {t : Trainer} (h : t.iters < 2 ^ 64) (k : Nat) : Trainer.count^[k] t = { t with iters := (t.iters + k) % 2 ^ 64 } := by
  induction k with
  | zero => rw [Nat.add_zero, Nat.mod_eq_of_lt h]; rfl
  | succ k ih =>
    rw [Function.iterate_succ_apply', ih]
    unfold Trainer.count
    congr 1
    simp only
    omega

/-- The loop body of the batch trainer. -/
def batchX (junk : Nat → Nat → ℝ) (gx gy : Nat → Res (Mat ℝ)) (i : Nat) : X (World × BatchTrainer) Unit := do
  onNet (fun t => t.nnet) (stepX junk (X.eval (fun _ => gx i)) (X.eval (fun _ => gy i)))
  X.modify (fun st => (st.1, { st.2 with toTrainer := st.2.toTrainer.count }))

theorem bind_assocX {σ α β γ : Type} (m : X σ α) (f : α → X σ β) (g : β → X σ γ) : (m >>= f) >>= g = m >>= fun a => f a >>= g := by
  funext b s
  rw [bind_def, bind_def, bind_def]
  rcases m b s with ⟨e | a, b1, s1⟩ <;> rfl

theorem batchX_eq (junk : Nat → Nat → ℝ) (gx gy : Nat → Res (Mat ℝ)) (i : Nat) : batchX junk gx gy i = (do
    let xi ← X.eval (fun _ => gx i)
    let _ ← onNet (fun t => t.nnet) (Net.forwardpropX junk xi)
    let yi ← X.eval (fun _ => gy i)
    onNet (fun t => t.nnet) (Net.backpropX junk yi)
    onNet (fun t => t.nnet) Net.updateX
    X.modify (fun st => (st.1, { st.2 with toTrainer := st.2.toTrainer.count })) : X (World × BatchTrainer) Unit) := by
  unfold batchX stepX
  simp only [onNet_bind, onNet_pure, bind_assocX]

theorem batchX_done {junk : Nat → Nat → ℝ} {gx gy : Nat → Res (Mat ℝ)} {b : Option Fault} {w : World} {t : BatchTrainer} : ∀ {k : Nat} {b1 : Option Fault} {w1 : World} {t1 : BatchTrainer},
    X.loop k (batchX junk gx gy) b (w, t) = (.ok (), b1, w1, t1) → t1 = countN k t ∧ (∀ id, id ≠ t.nnet → w1.nets id = w.nets id) ∧
      stepsX junk gx gy k b (w.store, w.nets t.nnet) = (.ok (), b1, w1.store, w1.nets t.nnet)
  | 0, b1, w1, t1, e => by
    cases e
    exact ⟨rfl, fun _ _ => rfl, rfl⟩
  | k + 1, b1, w1, t1, e => by
    obtain ⟨⟨⟩, b2, ⟨w2, t2⟩, e1, e2⟩ := bind_done (m := X.loop k (batchX junk gx gy)) (g := fun _ => batchX junk gx gy k) e
    obtain ⟨rfl, i2, i3⟩ := batchX_done e1
    obtain ⟨⟨⟩, b3, ⟨w3, t3⟩, e3, e4⟩ := bind_done e2
    cases e4
    obtain ⟨rfl, j1, j2⟩ := onNet_eq e3
    have hn : (countN k t).nnet = t.nnet := count_iter_nnet k t.toTrainer
    rw [hn] at j1 j2
    refine ⟨?_, fun id hid => (j1 id hid).trans (i2 id hid), ?_⟩
    · unfold countN
      rw [Function.iterate_succ_apply']
    · show (stepsX junk gx gy k >>= fun _ => stepX junk (X.eval (fun _ => gx k)) (X.eval (fun _ => gy k))) b _ = _
      rw [bind_def, i3]
      exact j2

theorem batchX_stopped {junk : Nat → Nat → ℝ} {gx gy : Nat → Res (Mat ℝ)} {b b' : Option Fault} {w w' : World} {t t' : BatchTrainer} {m : Nat} {er : Stop}
    (e : X.loop m (batchX junk gx gy) b (w, t) = (.error er, b', w', t')) : ∃ k b1 w1, k < m ∧ t' = countN k t ∧ (∀ id, id ≠ t.nnet → w'.nets id = w.nets id) ∧
      stepsX junk gx gy k b (w.store, w.nets t.nnet) = (.ok (), b1, w1) ∧ stepX junk (X.eval (fun _ => gx k)) (X.eval (fun _ => gy k)) b1 w1 = (.error er, b', w'.store, w'.nets t.nnet) := by
  obtain ⟨k, b1, ⟨w1, t1⟩, hk, h1, h2⟩ := loop_stopped e
  obtain ⟨rfl, i2, i3⟩ := batchX_done h1
  have hn : (countN k t).nnet = t.nnet := count_iter_nnet k t.toTrainer
  rcases bind_stopped h2 with h3 | ⟨⟨⟩, b2, st2, h3, h4⟩
  · obtain ⟨rfl, j1, j2⟩ := onNet_eq h3
    rw [hn] at j1 j2
    exact ⟨k, b1, _, hk, rfl, fun id hid => (j1 id hid).trans (i2 id hid), i3, j2⟩
  · cases h4

theorem extend_of_ok {m r : Mat ℝ} {b : Int} (h : BatchTrainer.extend m b = .ok r) : ∃ k : Nat, b = k ∧ 2 ≤ k ∧ k ≤ m.nr + 1 ∧ 0 < m.nc ∧
    r = Mat.of (m.nr + (k - 1)) m.nc (fun i j => m.f (if i < m.nr then i else i - m.nr) j) := by
  by_cases hb : b < 2 ∨ (m.nr : Int) + 1 < b ∨ m.nc = 0
  · rw [extend_throw hb] at h; cases h
  · simp only [not_or, not_lt] at hb
    obtain ⟨k, rfl⟩ : ∃ k : Nat, b = k := ⟨b.toNat, by omega⟩
    have h1 : 2 ≤ k := by omega
    have h2 : k ≤ m.nr + 1 := by omega
    have h3 : 0 < m.nc := by omega
    refine ⟨k, rfl, h1, h2, h3, ?_⟩
    rw [extend_ok h1 h2 h3] at h
    cases h; rfl

theorem rows_of_ok {m r : Mat ℝ} {b t : Nat} (hb : 2 ≤ b) (hbn : b ≤ m.nr + 1)
    (h : (Mat.of (m.nr + (b - 1)) m.nc (fun i j => m.f (if i < m.nr then i else i - m.nr) j)).rows ((t * b : Nat) : Int) (((t * b : Nat) : Int) + b - 1) = .ok r) : r = Spec.batch m b t := by
  by_cases ht : t * b < m.nr
  · rw [extended_rows hb hbn ht] at h; cases h; rfl
  · unfold Mat.rows at h
    rw [if_neg (by simp only [Mat.of_nr]; omega)] at h
    cases h

theorem take_batches (x y : Mat ℝ) (b : Nat) {k : Nat} (hk : k ≤ Spec.ceilDiv x.nr b) : (Spec.batches x y b).take k = (List.range k).map (fun t => (Spec.batch x b t, Spec.batch y b t)) := by
  unfold Spec.batches
  rw [← List.map_take, List.take_range, Nat.min_eq_left hk]

/-- Keeping everything but the copies of the data. -/
def SameButData (st st' : World × BatchTrainer) : Prop := st'.1 = st.1 ∧ st'.2.toTrainer = st.2.toTrainer ∧ st'.2.batchsize = st.2.batchsize

theorem SameButData.refl (st : World × BatchTrainer) : SameButData st st := ⟨rfl, rfl, rfl⟩
theorem SameButData.trans (a b c : World × BatchTrainer) (h : SameButData a b) (h' : SameButData b c) : SameButData a c := ⟨h'.1.trans h.1, h'.2.1.trans h.2.1, h'.2.2.trans h.2.2⟩

/-- What a call of a batch trainer that throws leaves behind. -/
structure Spec.BatchLeft (junk : Nat → Nat → ℝ) (p q : Nat) (b : Option Fault) (x y : Mat ℝ) (w : World) (t : BatchTrainer) (w' : World) (t' : BatchTrainer) : Prop where
  nnet : t'.nnet = t.nnet
  batchsize : t'.batchsize = t.batchsize
  world : Spec.WorldLeft p q w t.toTrainer w'
  settings : Spec.settings w'.store (w'.nets t.nnet) = Spec.settings w.store (w.nets t.nnet)
  weights : ∃ k s1 n1, (k = 0 ∨ k < (Spec.batches x y t.batchsize.toNat).length) ∧ t'.iters = (t.iters + k) % 2 ^ 64 ∧
    Net.trainSeq junk ((Spec.batches x y t.batchsize.toNat).take k) w.store (w.nets t.nnet) = .ok (s1, n1) ∧
    (b = none → Spec.weights w'.store (w'.nets t.nnet) = Spec.weights s1 n1) ∧
    (Spec.weights w'.store (w'.nets t.nnet) = Spec.weights s1 n1 ∨
      ∃ s2 n2, Net.trainSeq junk ((Spec.batches x y t.batchsize.toNat).take (k + 1)) w.store (w.nets t.nnet) = .ok (s2, n2) ∧
        Spec.Mixed (Spec.weights s1 n1) (Spec.weights s2 n2) (Spec.weights w'.store (w'.nets t.nnet)))

/-- **C82** (`BatchTrainer`). A call of `BatchTrainer::feeddata` that throws, on a well-formed dense network: no other network and no layer of another network was touched, the network keeps its layer objects, cost
functions, sizes and settings (the decay comes last and has not been applied). The weights are those after training on a number `k` of the first batches, not all of them, and the counter has gone up by `k`; only if
memory has run out may some of the weight matrices be those after batch `k + 1` instead. -/
theorem C82_batch {junk : Nat → Nat → ℝ} {w w' : World} {t t' : BatchTrainer} {p q : Nat} {x y : Mat ℝ} {b b' : Option Fault} {er : Stop} (h : (w.nets t.nnet).WF w.store p q) (hit : t.iters < 2 ^ 64)
    (e : BatchTrainer.feeddataX junk x y b (w, t) = (.error er, b', w', t')) : Spec.BatchLeft junk p q b x y w t w' t' := by
  -- before the loop nothing but the copies of the data changes
  have early : SameButData (w, t) (w', t') → Spec.BatchLeft junk p q b x y w t w' t' := fun hs => by
    obtain ⟨h1, h2, h3⟩ := hs
    dsimp only at h1 h2 h3
    subst h1
    have h0 : Net.trainSeq junk ((Spec.batches x y t.batchsize.toNat).take 0) w'.store (w'.nets t.nnet) = .ok (w'.store, w'.nets t.nnet) := rfl
    exact ⟨by rw [h2], h3, ⟨fun _ _ => rfl, fun _ _ => rfl, .rfl, h⟩, rfl, 0, w'.store, w'.nets t.nnet, Or.inl rfl, by rw [h2, Nat.add_zero, Nat.mod_eq_of_lt hit], h0, fun _ => rfl, Or.inl rfl⟩
  have ka : ∀ (set : Mat ℝ → World × BatchTrainer → World × BatchTrainer) (m : Mat ℝ), (∀ m st, SameButData st (set m st)) → Keeps SameButData (X.assign set (fun _ => .ok m)) :=
    fun set m hs => Keeps.assign SameButData.refl SameButData.trans hs
  have key : ∀ {α : Type} {m : X (World × BatchTrainer) α} {c c' : Option Fault} {st st' : World × BatchTrainer} {r : Res α}, Keeps SameButData m → SameButData (w, t) st → m c st = (r, c', st') →
      SameButData (w, t) st' := fun {α m c c' st st' r} hm hs he => by
    have := hm c st
    rw [he] at this
    exact SameButData.trans _ _ _ hs this
  unfold BatchTrainer.feeddataX at e
  have k1 := ka (fun m st => (st.1, { st.2 with x := m })) x (fun _ _ => ⟨rfl, rfl, rfl⟩)
  have k2 := ka (fun m st => (st.1, { st.2 with y := m })) y (fun _ _ => ⟨rfl, rfl, rfl⟩)
  rcases bind_stopped e with e1 | ⟨⟨⟩, b1, st1, e1, ea⟩
  · exact early (key k1 (.refl _) e1)
  have s1 := key k1 (.refl _) e1
  have r1 := ((Refines.assign _ _ b (w, t)).1 _ _ _ e1).2
  rcases bind_stopped ea with e2 | ⟨⟨⟩, b2, st2, e2, eb⟩
  · exact early (key k2 s1 e2)
  have s2 := key k2 s1 e2
  have r2 := ((Refines.assign _ _ b1 st1).1 _ _ _ e2).2
  have ec : (X.eval (fun _ : World × BatchTrainer => BatchTrainer.extend x st2.2.batchsize) >>= _) b2 st2 = (.error er, b', w', t') := eb
  rw [s2.2.2] at ec
  dsimp only at ec
  rcases bind_stopped ec with e3 | ⟨tx, b3, st3, e3, ed⟩
  · exact early (key (Keeps.eval SameButData.refl) s2 e3)
  obtain ⟨f3, r3⟩ := (Refines.eval _ b2 st2).1 _ _ _ e3
  obtain ⟨tx', hx, f3⟩ := bind_eq_ok f3
  cases f3
  rcases bind_stopped ed with e4 | ⟨ty, b4, st4, e4, ee⟩
  · exact early (key (Keeps.eval SameButData.refl) s2 e4)
  obtain ⟨f4, r4⟩ := (Refines.eval _ b3 st2).1 _ _ _ e4
  obtain ⟨ty', hy, f4⟩ := bind_eq_ok f4
  cases f4
  obtain ⟨B, hB, x1, x2, x3, rfl⟩ := extend_of_ok hx
  obtain ⟨B', hB', y1, y2, y3, rfl⟩ := extend_of_ok hy
  have hBB := s2.2.2
  dsimp only at hBB
  have : B = B' := by omega
  subst this
  obtain ⟨w2, t2⟩ := st2
  obtain ⟨q1, q2, q3⟩ := s2
  dsimp only at q1 q2 q3
  subst q1
  have hnn : t2.nnet = t.nnet := congrArg Trainer.nnet q2
  have hBn : t.batchsize.toNat = B := by omega
  have hBn2 : t2.batchsize.toNat = B := by rw [q3]; exact hBn
  dsimp only at ee
  rw [hBn2] at ee
  rcases bind_stopped ee with e5 | ⟨⟨⟩, b5, st5, e5, ef⟩
  swap
  · cases ef
  have e6 : X.loop ((x.nr + B - 1) / B) (batchX junk
      (fun i => (Mat.of (x.nr + (B - 1)) x.nc (fun i j => x.f (if i < x.nr then i else i - x.nr) j)).rows ((i * B : Nat) : Int) (((i * B : Nat) : Int) + B - 1))
      (fun i => (Mat.of (y.nr + (B - 1)) y.nc (fun i j => y.f (if i < y.nr then i else i - y.nr) j)).rows ((i * B : Nat) : Int) (((i * B : Nat) : Int) + B - 1))) b4 (w2, t2) = (.error er, b', w', t') := by
    rw [show batchX junk _ _ = _ from funext (batchX_eq junk _ _)]
    exact e5
  obtain ⟨k, c1, ⟨sk, nk⟩, hk, rfl, o1, o2, o3⟩ := batchX_stopped e6
  rw [hnn] at o1 o2 o3
  have hG : ∀ i x' y', (Mat.of (x.nr + (B - 1)) x.nc (fun i j => x.f (if i < x.nr then i else i - x.nr) j)).rows ((i * B : Nat) : Int) (((i * B : Nat) : Int) + B - 1) = .ok x' →
      (Mat.of (y.nr + (B - 1)) y.nc (fun i j => y.f (if i < y.nr then i else i - y.nr) j)).rows ((i * B : Nat) : Int) (((i * B : Nat) : Int) + B - 1) = .ok y' →
      (fun i => (Spec.batch x B i, Spec.batch y B i)) i = (x', y') := fun i x' y' hx' hy' => by
    rw [rows_of_ok x1 x2 hx', rows_of_ok y1 y2 hy']
  obtain ⟨d1, d2, d3⟩ := stepsX_done hG h o2
  obtain ⟨j1, j2⟩ := (stepX_cases d2.wf (pure_eval _) (pure_eval _) o3).2 er rfl
  rw [ceilDiv_eq (by omega)] at hk
  have hi := d2.trans j1
  have hb4 : b = none → c1 = none := fun hb => d3 (r4 (r3 (r2 (r1 hb))))
  refine ⟨(count_iter_nnet k t2.toTrainer).trans hnn, q3, ⟨o1, hi.others, hi.conf, hi.wf⟩, hi.settings, k, sk, nk, Or.inr (by rw [hBn]; simpa [Spec.batches] using hk), ?_, ?_, ?_, ?_⟩
  · show (Trainer.count^[k] t2.toTrainer).iters = _
    rw [q2, count_iter hit]
  · rw [hBn, take_batches x y B hk.le]; exact d1
  · intro hb
    rcases j2 with j2 | ⟨j2, -⟩
    · exact j2
    · exact absurd (hb4 hb) j2
  · rcases j2 with j2 | ⟨-, x', y', s2', n2', hx', hy', j3, j4⟩
    · exact Or.inl j2
    · refine Or.inr ⟨s2', n2', ?_, j4⟩
      rw [hBn, take_batches x y B hk, List.range_succ, List.map_append, trainSeq_append, d1, ok_bind]
      simp only [List.map_cons, List.map_nil, Net.trainSeq]
      have := hG k x' y' hx' hy'
      obtain ⟨z1, z2⟩ := Prod.mk.inj this
      rw [z1, z2, j3]
      rfl

end
end Nnet.NN
