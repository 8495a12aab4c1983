import Verif.NN.PropsExn3
/-!
# C82: momentum, agreement with the other model, recovery, examples
-/
namespace Nnet.NN
noncomputable section
open X

/-! ## MomentumTrainer -/

/-- The loop over the averaged directions touches nothing else. -/
def OnlyDirections (st st' : World × MomentumTrainer) : Prop := st'.1 = st.1 ∧ st'.2.toTrainer = st.2.toTrainer

theorem OnlyDirections.refl (st : World × MomentumTrainer) : OnlyDirections st st := ⟨rfl, rfl⟩
theorem OnlyDirections.trans (a b c : World × MomentumTrainer) (h : OnlyDirections a b) (h' : OnlyDirections b c) : OnlyDirections a c := ⟨h'.1.trans h.1, h'.2.trans h.2⟩

theorem mixAllX_keeps : ∀ i n : Nat, Keeps OnlyDirections (MomentumTrainer.mixAllX i n)
  | _, 0 => Keeps.ret OnlyDirections.refl ()
  | i, n + 1 => by
    unfold MomentumTrainer.mixAllX
    exact Keeps.bind OnlyDirections.trans (Keeps.eval OnlyDirections.refl) fun h => Keeps.bind OnlyDirections.trans (Keeps.eval OnlyDirections.refl) fun old =>
      Keeps.bind OnlyDirections.trans (Keeps.assign OnlyDirections.refl OnlyDirections.trans fun m st => ⟨rfl, rfl⟩) fun _ => mixAllX_keeps (i + 1) n

/-- What a call of a momentum trainer that throws leaves behind. -/
structure Spec.MomentumLeft (junk : Nat → Nat → ℝ) (p q : Nat) (b : Option Fault) (x y : Mat ℝ) (w : World) (t : MomentumTrainer) (w' : World) (t' : MomentumTrainer) : Prop where
  counted : t'.toTrainer = t.toTrainer.count
  world : Spec.WorldLeft p q w t.toTrainer w'
  settings : Spec.settings w'.store (w'.nets t.nnet) = Spec.settings (Spec.atStart w t.toTrainer).1 (Spec.atStart w t.toTrainer).2
  enough : b = none → Spec.weights w'.store (w'.nets t.nnet) = Spec.weights w.store (w.nets t.nnet) ∧ t'.momentum = t.momentum ∧ t'.ograd = t.ograd ∧ t'.hgrads = t.hgrads
  weights : Spec.weights w'.store (w'.nets t.nnet) = Spec.weights w.store (w.nets t.nnet) ∨
    ∃ w1 t1, t.feeddata junk w x y = .ok (w1, t1) ∧ Spec.Mixed (Spec.weights w.store (w.nets t.nnet)) (Spec.weights w1.store (w1.nets t.nnet)) (Spec.weights w'.store (w'.nets t.nnet))

theorem zipWith_updWith_eq : ∀ {Ls : List Layer} {gs : List (Mat ℝ)}, GradsFit Ls gs → List.zipWith Layer.updWith Ls gs = Ls.mapIdx (fun i L => L.updWith (gs.getD i .empty))
  | [], _, _ => by simp
  | _ :: _, [], h => h.elim
  | L :: Ls, g :: gs, h => by
    rw [List.zipWith_cons_cons, zipWith_updWith_eq h.2.2, List.mapIdx_cons]
    simp

theorem gradsFit_length : ∀ {Ls : List Layer} {gs : List (Mat ℝ)}, GradsFit Ls gs → Ls.length ≤ gs.length
  | [], _, _ => by simp
  | _ :: _, [], h => h.elim
  | L :: Ls, g :: gs, h => by simpa using gradsFit_length h.2.2

theorem forward_plain {junk : Nat → Nat → ℝ} {s s' : Store} {n n' : Net} {x r : Mat ℝ} {b b' : Option Fault} (h : Net.forwardpropX junk x b (s, n) = (.ok r, b', s', n')) :
    n.forwardprop junk s x = .ok (r, s', n') := by
  have := ((Net.forwardpropX_refines junk x b (s, n)).1 _ _ _ h).1
  dsimp only at this
  revert this
  cases n.forwardprop junk s x with
  | error e => intro f1; cases f1
  | ok v => intro f1; cases f1; rfl

theorem backward_plain {junk : Nat → Nat → ℝ} {s s' : Store} {n n' : Net} {y : Mat ℝ} {b b' : Option Fault} (h : Net.backpropX junk y b (s, n) = (.ok (), b', s', n')) :
    n.backprop junk s y = .ok (s', n') := by
  have := ((Net.backpropX_refines junk y b (s, n)).1 _ _ _ h).1
  dsimp only at this
  revert this
  cases n.backprop junk s y with
  | error e => intro f1; cases f1
  | ok v => intro f1; cases f1; rfl

/-- **C82** (`MomentumTrainer`). A call of `MomentumTrainer::feeddata` that throws, on a well-formed dense network whose sizes the trainer's averaged directions have: the call has been counted and the decay
applied; other networks and their layers are untouched; the network keeps its layer objects, cost functions, sizes and settings. If there is enough memory, neither weights nor averaged directions have changed; if not,
each weight matrix is as before or as after the complete call. -/
theorem C82_momentum {junk : Nat → Nat → ℝ} {w w' : World} {t t' : MomentumTrainer} {p q : Nat} {x y : Mat ℝ} {b b' : Option Fault} {er : Stop} (h : (w.nets t.nnet).WF w.store p q)
    (hg : (t.hgrads ++ [t.ograd]).map dims = (w.nets t.nnet).shapes w.store) (hit : t.iters + 1 < 2 ^ 64)
    (e : MomentumTrainer.feeddataX junk x y b (w, t) = (.error er, b', w', t')) : Spec.MomentumLeft junk p q b x y w t w' t' := by
  have hdw : (Spec.atStart w t.toTrainer).2.WF (Spec.atStart w t.toTrainer).1 p q := decay_wf h t.toTrainer.count
  have hwt : Spec.weights (Spec.atStart w t.toTrainer).1 (Spec.atStart w t.toTrainer).2 = Spec.weights w.store (w.nets t.nnet) := decay_weights h t.toTrainer.count
  have hsh : (Spec.atStart w t.toTrainer).2.shapes (Spec.atStart w t.toTrainer).1 = (w.nets t.nnet).shapes w.store := (decay_kept h t.toTrainer.count).shapes
  set sd := (Spec.atStart w t.toTrainer).1 with hsd
  set nd := (Spec.atStart w t.toTrainer).2 with hnd
  set tc : MomentumTrainer := { t with toTrainer := t.toTrainer.count } with htc
  have tcn : tc.nnet = t.nnet := rfl
  -- stopping in the passes
  have early : ∀ {w' : World} {t' : MomentumTrainer}, t' = tc → (∀ k, k ≠ t.nnet → w'.nets k = w.nets k) → Spec.SameModel sd nd w'.store (w'.nets t.nnet) → Spec.MomentumLeft junk p q b x y w t w' t' := by
    intro w' t' ht ho hm
    subst ht
    refine ⟨rfl, worldLeft h ho (hm.intact hdw), settings_of_model hm.model, fun _ => ⟨hm.weights.trans hwt, rfl, rfl, rfl⟩, Or.inl (hm.weights.trans hwt)⟩
  have e0 : (onNet (fun t : MomentumTrainer => t.nnet) (Net.forwardpropX junk x) >>= _) b (w.put t.nnet sd nd, tc) = (.error er, b', w', t') := e
  rcases bind_stopped e0 with e1 | ⟨r, b1, ⟨w1, t1⟩, e1, ea⟩
  · obtain ⟨ht, h1, h2⟩ := onNet_eq e1
    rw [tcn] at h1 h2
    rw [put_nets] at h2
    exact early ht (fun k hk => (h1 k hk).trans (if_neg hk)) ((C82_passes (junk := junk) hdw.dense x b b').1 _ h2)
  obtain ⟨rfl, o1, p1⟩ := onNet_eq e1
  rw [tcn] at o1 p1
  rw [put_nets] at p1
  have m1 := (C82_passes (junk := junk) hdw.dense x b b1).1 _ p1
  have w1f := m1.wf hdw
  have ho1 : ∀ k, k ≠ t.nnet → w1.nets k = w.nets k := fun k hk => (o1 k hk).trans (if_neg hk)
  obtain ⟨f1, hb1⟩ := (Net.forwardpropX_refines junk x b _).1 _ _ _ p1
  rcases bind_stopped ea with e2 | ⟨⟨⟩, b2, ⟨w2, t2⟩, e2, eb⟩
  · obtain ⟨ht, h1, h2⟩ := onNet_eq e2
    rw [tcn] at h1 h2
    have m2 := (C82_passes (junk := junk) w1f.dense y b1 b').2.1 _ h2
    refine early ht (fun k hk => (h1 k hk).trans (ho1 k hk)) ⟨m1.conf.trans m2.conf, m2.model.trans m1.model, ?_, fun id hid => (m2.others id (by rw [m1.conf.hidden]; exact hid)).trans (m1.others id hid)⟩
    intro id hid
    exact m2.dense id (by rw [m1.conf.hidden]; exact hid)
  obtain ⟨rfl, o2, p2⟩ := onNet_eq e2
  rw [tcn] at o2 p2
  have ho2 : ∀ k, k ≠ t.nnet → w2.nets k = w.nets k := fun k hk => (o2 k hk).trans (ho1 k hk)
  obtain ⟨f2, hb2⟩ := (Net.backpropX_refines junk y b1 _).1 _ _ _ p2
  -- the passes have succeeded: everything has the right size
  have f1' : nd.forwardprop junk sd x = .ok (r, w1.store, w1.nets t.nnet) := forward_plain p1
  have f2' : (w1.nets t.nnet).backprop junk w1.store y = .ok (w2.store, w2.nets t.nnet) := backward_plain p2
  have hx : 0 < x.nr ∧ x.nc = p := by
    by_contra hx
    rw [((C67_input (junk := junk) hdw x).2 hx).1] at f1'
    cases f1'
  obtain ⟨D, hD, hD1, hD2⟩ := delta_of_ok hdw hx.1 hx.2 f1' f2'
  obtain ⟨s1', n1', s2', n2', g1, g2, hb, -, hrd⟩ := passes_ok (junk := junk) hdw hx.1 hx.2 hD hD1 hD2
  rw [g1] at f1'
  simp only [Except.ok.injEq, Prod.mk.injEq] at f1'
  obtain ⟨z1, z2, z3⟩ := f1'
  subst z2 z3
  rw [g2] at f2'
  simp only [Except.ok.injEq, Prod.mk.injEq] at f2'
  obtain ⟨z4, z5⟩ := f2'
  subst z4 z5
  have hmodel : Spec.model w2.store (w2.nets t.nnet) = Spec.model sd nd := by
    unfold Spec.model
    rw [hb.layers]
    exact bwdNet_core (nd.hiddenLayers sd) nd.output.toLayer D x
  have hm : Spec.SameModel sd nd w2.store (w2.nets t.nnet) := ⟨hb.conf, hmodel, hb.dense, hb.frame⟩
  have hsh2 : (w2.nets t.nnet).shapes w2.store = (w.nets t.nnet).shapes w.store := (shapes_of_W (by rw [hb.layers, passed_W])).trans hsh
  rw [← hsh2] at hg
  unfold Net.shapes Net.layers at hg
  rw [List.map_append, List.map_append] at hg
  obtain ⟨hg1, hg2⟩ := List.append_inj' hg rfl
  replace hg2 : dims t.ograd = dims (w2.nets t.nnet).output.W := List.singleton_injective hg2
  have hgo := hrd.grads (w2.nets t.nnet).output.toLayer (by simp [Net.layers])
  obtain ⟨q1, q2⟩ := dims_eq hg2
  obtain ⟨og0, hadd, og01, og02⟩ : ∃ og, (t.ograd.smul t.momentum).add ((w2.nets t.nnet).output.grad.smul (1 - t.momentum)) = .ok og ∧ og.nr = t.ograd.nr ∧
      og.nc = t.ograd.nc := ⟨_, Mat.add_ok (by simp; rw [q1, hgo.1]) (by simp; rw [q2, hgo.2]), rfl, rfl⟩
  obtain ⟨hg', e4, hg4⟩ := mixAll_ok (m := t.momentum) (it := t.toTrainer.count.iters) (s := w2.store) (n := w2.nets t.nnet)
    (by show (t.iters + 1) % 2 ^ 64 ≠ 0; rw [Nat.mod_eq_of_lt hit]; omega) t.hgrads 0 (by
      rw [hg1, List.drop_zero]
      apply List.map_congr_left
      intro L hL
      have := hrd.grads L (by simp only [Net.layers, List.mem_append]; exact Or.inl hL)
      unfold dims
      rw [this.1, this.2])
  have hgf : GradsFit ((w2.nets t.nnet).hiddenLayers w2.store) hg' := gradsFit_of_dims (by rw [hg4, hg1])
  obtain ⟨s3, n3, g3, hb3, -, -, -⟩ := Net.updateWith_ok hrd.wf (og := og0) (by rw [og01, q1]) (by rw [og02, q2]) hgf
  -- stopping in the averages
  have middle : ∀ {st' : World × MomentumTrainer}, st'.1 = w2 → st'.2.toTrainer = tc.toTrainer → b ≠ none → Spec.MomentumLeft junk p q b x y w t st'.1 st'.2 := by
    intro st' hw' ht' hbn
    rw [hw']
    exact ⟨ht', worldLeft h ho2 (hm.intact hdw), settings_of_model hm.model, fun hb => absurd hb hbn, Or.inl (hm.weights.trans hwt)⟩
  have hfull : t.feeddata junk w x y = .ok (w.put t.nnet s3 n3, { tc with ograd := og0, hgrads := hg' }) := by
    unfold MomentumTrainer.feeddata
    dsimp only
    have k1 : (t.count.decay w.store (w.nets t.count.nnet)).2.forwardprop junk (t.count.decay w.store (w.nets t.count.nnet)).1 x = _ := g1
    rw [k1, ok_bind]
    dsimp only
    rw [g2, ok_bind]
    dsimp only
    rw [hadd, ok_bind, e4, ok_bind, g3, ok_bind]
    rfl
  rcases bind_stopped eb with e3 | ⟨⟨⟩, b3, ⟨w3, t3⟩, e3, ec⟩
  · have hk : OnlyDirections (w2, tc) (w', t') := by
      have := Keeps.assign (set := fun m (st : World × MomentumTrainer) => (st.1, { st.2 with ograd := m })) (e := fun st => (st.2.ograd.smul st.2.momentum).add ((st.1.nets st.2.nnet).output.grad.smul (1 - st.2.momentum)))
        OnlyDirections.refl OnlyDirections.trans (fun m st => ⟨rfl, rfl⟩) b2 (w2, tc)
      rw [e3] at this
      exact this
    refine middle (st' := (w', t')) hk.1 hk.2 ?_
    intro hbn
    have := (Refines.assign _ _ b2 (w2, tc)).2 _ _ _ e3 (hb2 (hb1 hbn))
    dsimp only at this
    have hadd' : (tc.ograd.smul tc.momentum).add ((w2.nets tc.nnet).output.grad.smul (1 - tc.momentum)) = .ok og0 := hadd
    rw [hadd', ok_bind] at this
    cases this
  obtain ⟨f3, hb3'⟩ := (Refines.assign _ _ b2 (w2, tc)).1 _ _ _ e3
  dsimp only at f3
  have hadd' : (tc.ograd.smul tc.momentum).add ((w2.nets tc.nnet).output.grad.smul (1 - tc.momentum)) = .ok og0 := hadd
  rw [hadd', ok_bind] at f3
  cases f3
  have ec' : (MomentumTrainer.mixAllX 0 t.hgrads.length >>= _) b3 (w2, { tc with ograd := og0 }) = (.error er, b', w', t') := ec
  have hmix : mixGo 0 t.hgrads.length (w2, { tc with ograd := og0 }) = .ok (w2, { tc with ograd := og0, hgrads := hg' }) := by
    have := mixGo_eq w2 t.hgrads [] { tc with ograd := og0 } rfl
    have e4' : MomentumTrainer.mixAll tc.momentum tc.iters w2.store (w2.nets tc.nnet) 0 t.hgrads = .ok hg' := e4
    simp only [List.length_nil, List.nil_append] at this
    rw [this, e4', ok_bind]
  rcases bind_stopped ec' with e5 | ⟨⟨⟩, b4, ⟨w4, t4⟩, e5, ed⟩
  · have hk : OnlyDirections (w2, { tc with ograd := og0 }) (w', t') := by
      have := mixAllX_keeps 0 t.hgrads.length b3 (w2, { tc with ograd := og0 })
      rw [e5] at this
      exact this
    refine middle (st' := (w', t')) hk.1 hk.2 ?_
    intro hbn
    have := (mixAllX_refines 0 t.hgrads.length b3 _).2 _ _ _ e5 (hb3' (hb2 (hb1 hbn)))
    dsimp only at this
    rw [hmix, ok_bind] at this
    cases this
  obtain ⟨f5, hb5⟩ := (mixAllX_refines 0 t.hgrads.length b3 _).1 _ _ _ e5
  dsimp only at f5
  rw [hmix, ok_bind] at f5
  cases f5
  have ed' : onNet (fun t : MomentumTrainer => t.nnet) (Net.updateWithX og0 hg') b4 (w2, { tc with ograd := og0, hgrads := hg' }) = (.error er, b', w', t') := ed
  obtain ⟨rfl, o6, p6⟩ := onNet_eq ed'
  have hnn : ({ tc with ograd := og0, hgrads := hg' } : MomentumTrainer).nnet = t.nnet := rfl
  rw [hnn] at o6 p6
  obtain ⟨k, -, -, hu⟩ := C82_updateWith hrd.wf.nodup hrd.wf.dense (by
    have := gradsFit_length hgf
    unfold Net.hiddenLayers at this
    rwa [List.length_map] at this) p6
  have hi := (hm.intact hdw).trans (hu.intact hrd.wf (updWith_confKey og0) (fun i => updWith_confKey _))
  refine ⟨rfl, worldLeft h (fun k hk => (o6 k hk).trans (ho2 k hk)) hi, hi.settings, fun hbn => ?_, Or.inr ⟨_, _, hfull, ?_⟩⟩
  · exfalso
    have := (Net.updateWithX_refines og0 hg' b4 _).2 _ _ _ p6 (hb5 (hb3' (hb2 (hb1 hbn))))
    dsimp only at this
    rw [g3, ok_bind] at this
    cases this
  · rw [put_nets, ← hwt, ← hm.weights]
    refine hu.mixed _ ?_
    show (n3.layers s3).map (·.W) = _
    rw [hb3.layers, zipWith_updWith_eq hgf]

/-! ## Agreement, recovery -/

/-- With enough memory `m` returns and leaves exactly what `f` says, and throws exactly when `f` says so. -/
def Spec.Agrees {σ α : Type} (m : X σ α) (f : σ → Res (α × σ)) : Prop := ∀ s, (∀ a s', f s = .ok (a, s') ↔ m none s = (.ok a, none, s')) ∧ ∀ e, f s = .error e ↔ (m none s).1 = .error e

/-- **C82** (agreement). With enough memory the functions modelled here, which also say what is left after an exception, return and throw exactly as those of the rest of the model. -/
theorem C82_agrees (junk : Nat → Nat → ℝ) (x y og : Mat ℝ) (hg : List (Mat ℝ)) :
    Spec.Agrees (Net.forwardpropX junk x) (fun st => do let r ← st.2.forwardprop junk st.1 x; .ok (r.1, (r.2.1, r.2.2))) ∧
    Spec.Agrees (Net.backpropX junk y) (fun st => do let r ← st.2.backprop junk st.1 y; .ok ((), r)) ∧
    Spec.Agrees Net.updateX (fun st => do let r ← st.2.update st.1; .ok ((), r)) ∧
    Spec.Agrees (Net.updateWithX og hg) (fun st => do let r ← st.2.updateWith st.1 og hg; .ok ((), r)) ∧
    Spec.Agrees (Net.predictX junk x) (fun st => do let r ← st.2.predict junk st.1 x; .ok (r.1, (r.2.1, r.2.2))) ∧
    Spec.Agrees (Trainer.feeddataX junk x y) (fun st => do let r ← st.2.feeddata junk st.1 x y; .ok ((), r)) ∧
    Spec.Agrees (SGD.feeddataX junk x y) (fun st => do let r ← SGD.feeddata junk st.1 st.2 x y; .ok ((), r)) ∧
    Spec.Agrees (BatchTrainer.feeddataX junk x y) (fun st => do let r ← st.2.feeddata junk st.1 x y; .ok ((), r)) ∧
    Spec.Agrees (MomentumTrainer.feeddataX junk x y) (fun st => do let r ← st.2.feeddata junk st.1 x y; .ok ((), r)) :=
  ⟨fun s => (Net.forwardpropX_refines junk x).exact s, fun s => (Net.backpropX_refines junk y).exact s, fun s => Net.updateX_refines.exact s,
    fun s => (Net.updateWithX_refines og hg).exact s, fun s => (Net.predictX_refines junk x).exact s, fun s => (Trainer.feeddataX_refines junk x y).exact s,
    fun s => (SGD.feeddataX_refines junk x y).exact s, fun s => (BatchTrainer.feeddataX_refines junk x y).exact s, fun s => (MomentumTrainer.feeddataX_refines junk x y).exact s⟩

theorem model_of_parts {s s' : Store} {n n' : Net} (h1 : Spec.settings s' n' = Spec.settings s n) (h2 : Spec.weights s' n' = Spec.weights s n) : Spec.model s' n' = Spec.model s n := by
  have := map_pair_ext (f := fun L : Layer => (L.lrate, L.lambda, L.actfunc)) (g := fun L : Layer => L.W) h1 h2
  have h3 := congrArg (List.map (fun c : (ℝ × ℝ × ActFunc ℝ) × Mat ℝ => (c.1.1, c.1.2.1, c.1.2.2, c.2))) this
  rw [List.map_map, List.map_map] at h3
  exact h3

/-- **C82** (recovery). A well-formed dense network with a derivative of the cost that accepts outputs and labels of equal sizes. After a training step has thrown, for whatever reason, the network can be trained on:
fitting batches do not throw. If it threw for another reason than exhausted memory, training on leads to the same settings, weights and outputs as if the failed call had never been made. -/
theorem C82_recovers {junk : Nat → Nat → ℝ} {s s' : Store} {n n' : Net} {p q : Nat} {x y : Mat ℝ} {b b' : Option Fault} {er : Stop} {bs : List (Mat ℝ × Mat ℝ)} (h : n.WF s p q)
    (hd : OutputLayer.DeltaOK n.output.costd) (hbs : Spec.BatchesFit p q bs) (e : Net.trainOnX junk x y b (s, n) = (.error er, b', s', n')) :
    (∃ s1 n1, Net.trainAll junk bs s' n' = .ok (s1, n1)) ∧
    (b = none → ∃ s1 n1 s2 n2, Net.trainAll junk bs s n = .ok (s1, n1) ∧ Net.trainAll junk bs s' n' = .ok (s2, n2) ∧ Spec.model s1 n1 = Spec.model s2 n2 ∧
      ∀ u : Mat ℝ, 0 < u.nr → u.nc = p → ∃ out t1 m1 t2 m2, n1.forwardprop junk s1 u = .ok (out, t1, m1) ∧ n2.forwardprop junk s2 u = .ok (out, t2, m2)) := by
  obtain ⟨h1, h2, -⟩ := C82_step h e
  refine ⟨?_, fun hb => ?_⟩
  · obtain ⟨s1, n1, -, -, e1, -⟩ := C64_weights_alone (junk := junk) (junk' := junk) h1.wf h1.wf rfl rfl (by rw [h1.conf.ocostd]; exact hd) hbs
    exact ⟨s1, n1, e1⟩
  · exact C64_weights_alone h h1.wf (model_of_parts h1.settings (h2 hb)).symm h1.conf.ocostd.symm hd hbs

/-! ## Examples -/

/-- A network with one input, one output and no hidden layer, all weights 0. -/
def zeroNet : Net := { exNet with hidden := [], output := { exNet.output with toLayer := exLayer Act.identity (Mat.of 2 1 (fun _ _ => 0)) } }

theorem zeroNet_wf : zeroNet.WF exStore 1 1 := by
  refine ⟨by simp [zeroNet], fun id hid => (by cases hid), by omega, ?_⟩
  simp [Net.layers, Net.hiddenLayers, zeroNet, exLayer, Spec.Fits]

theorem zeroNet_step (junk : Nat → Nat → ℝ) {x y : Mat ℝ} (hx : x.nr = 1 ∧ x.nc = 1) (hy : y.nr = 1 ∧ y.nc = 1) (hy1 : y.f 0 0 = 1) : ∃ s1 n1, zeroNet.trainOn junk exStore x y = .ok (s1, n1) ∧
    (Spec.weights s1 n1).map (fun W => W.f 0 0) = [1 / 10] := by
  have hz : zeroNet.outputZ exStore x = Mat.of 1 1 (fun _ _ => 0) := by
    rw [outputZ_eq]
    show Spec.pre (Mat.of 2 1 (fun _ _ => 0)) x = _
    unfold Spec.pre
    rw [show x.nr = 1 from hx.1]
    refine Mat.of_congr fun i j hi hj => ?_
    have hj' : j < 1 := hj
    rw [Mat.of_f' (by omega) hj']
    rw [Finset.sum_eq_zero, add_zero]
    intro k hk
    by_cases hk2 : k + 1 < 2
    · rw [Mat.of_f' hk2 hj', mul_zero]
    · have : (Mat.of 2 1 (fun _ _ => (0 : ℝ))).f (k + 1) j = 0 := by
        unfold Mat.of; simp
      rw [this, mul_zero]
  have hD : zeroNet.deltaOn exStore x y = .ok (Mat.of 1 1 (fun _ _ => -1)) := by
    have hd : zeroNet.deltaOn exStore x y = Quadratic.costd y ((zeroNet.outputZ exStore x).map Act.identity.act) (zeroNet.outputZ exStore x) := rfl
    rw [hd, hz]
    unfold Quadratic.costd
    rw [diff_costd (by rw [hy.1]; rfl) (by rw [hy.2]; rfl)]
    refine congrArg Except.ok (Mat.of_congr fun i j hi hj => ?_)
    replace hi : i < 1 := hi
    replace hj : j < 1 := hj
    obtain rfl : i = 0 := by omega
    obtain rfl : j = 0 := by omega
    rw [Mat.map_f' (by exact Nat.one_pos) (by exact Nat.one_pos), Mat.of_f' (by omega) (by omega), hy1, hy.1]
    show ((0 : ℝ) - 1) / ((1 : Nat) : ℝ) = -1
    norm_num
  obtain ⟨s1, n1, e1, hb, -⟩ := trainOn_ok (junk := junk) zeroNet_wf (by omega) hx.2 hD (by rw [hx.1]; rfl) rfl
  refine ⟨s1, n1, e1, ?_⟩
  unfold Spec.weights
  rw [hb.layers]
  have ho : outL ([] : List Layer) x = x := rfl
  have hpr : (ones1 x).nr = 1 := hx.1
  have hg : (Layer.gradOf (ones1 x) (Mat.of 1 1 (fun _ _ => -1))).f 0 0 = -1 := by
    unfold Layer.gradOf
    rw [Mat.of_f' (by show 0 < x.nc + 1; omega) (by exact Nat.one_pos), hpr, Finset.sum_range_one]
    unfold ones1
    rw [Mat.of_f' (by omega) (by omega), if_pos rfl, Mat.of_f' (by omega) (by omega)]
    norm_num
  have hp : (zeroNet.passed exStore x (Mat.of 1 1 (fun _ _ => -1))).map Layer.upd = [Layer.upd { zeroNet.output.toLayer.fwd x with
      delta := Mat.of 1 1 (fun _ _ => -1), grad := (zeroNet.output.toLayer.fwd x).regGrad (Mat.of 1 1 (fun _ _ => -1)) }] := rfl
  rw [hp]
  simp only [List.map_cons, List.map_nil, List.cons.injEq, and_true]
  have hW : zeroNet.output.W = Mat.of 2 1 (fun _ _ => 0) := rfl
  have hr : ((zeroNet.output.toLayer.fwd x).regGrad (Mat.of 1 1 (fun _ _ => -1))).f 0 0 = -1 := by
    unfold Layer.regGrad
    rw [Mat.of_f' (by show 0 < 2; omega) (by show 0 < 1; omega)]
    show (Layer.gradOf (ones1 x) (Mat.of 1 1 (fun _ _ => -1))).f 0 0 + 0 * _ = -1
    rw [hg, zero_mul, add_zero]
  unfold Layer.upd
  dsimp only
  rw [Mat.of_f' (by show 0 < 2; omega) (by show 0 < 1; omega), hr]
  show (Mat.of 2 1 (fun _ _ => (0 : ℝ))).f 0 0 - 1 / 10 * -1 = 1 / 10
  rw [Mat.of_f' (by omega) (by omega)]
  norm_num

/-- Samples 0 and 1 with one label, 1. -/
def lateX : Mat ℝ := Mat.of 2 1 (fun i _ => (i : ℝ))
def lateY : Mat ℝ := Mat.of 1 1 (fun _ _ => 1)

/-- **C82** (not atomic). `SGDTrainer::feeddata` is not all-or-nothing, even with enough memory: two samples and one label throw, and the first sample has been trained on. -/
theorem C82_not_atomic (junk : Nat → Nat → ℝ) : ∃ (w : World) (t : Trainer) (x y : Mat ℝ) (er : Stop) (b' : Option Fault) (w' : World) (t' : Trainer), (w.nets t.nnet).WF w.store 1 1 ∧
    SGD.feeddataX junk x y none (w, t) = (.error er, b', w', t') ∧ Spec.weights w'.store (w'.nets t.nnet) ≠ Spec.weights w.store (w.nets t.nnet) := by
  obtain ⟨s1, n1, e1, hw⟩ := zeroNet_step junk (x := lateX.rowMat 0) (y := lateY.rowMat 0) ⟨rfl, rfl⟩ ⟨rfl, rfl⟩ (by
    unfold Mat.rowMat lateY
    rw [Mat.of_f' (by omega) (by exact Nat.one_pos), Mat.of_f' (by omega) (by omega)])
  let w : World := ⟨fun _ => zeroNet, exStore⟩
  have hst : Spec.atStart w (.new 0) = (exStore, zeroNet) := rfl
  have hl : Net.trainSeq junk ((Spec.samples lateX lateY).take lateY.nr) (Spec.atStart w (.new 0)).1 (Spec.atStart w (.new 0)).2 = .ok (s1, n1) := by
    rw [hst]
    show Net.trainSeq junk [(lateX.rowMat 0, lateY.rowMat 0)] exStore zeroNet = _
    simp only [Net.trainSeq]
    rw [e1, ok_bind]
  rcases hrun : SGD.feeddataX junk lateX lateY none (w, .new 0) with ⟨r, b', w', t'⟩
  obtain ⟨⟨er, rfl⟩, h2⟩ := C82_missing_labels (p := 1) (q := 1) zeroNet_wf (by show 1 < 2; omega) hl hrun
  refine ⟨w, .new 0, lateX, lateY, er, b', w', t', zeroNet_wf, hrun, fun hne => ?_⟩
  have hx := h2.symm.trans hne
  have h3 := congrArg (List.map (fun W : Mat ℝ => W.f 0 0)) hx
  rw [hw] at h3
  have h4 : (Spec.weights w.store (w.nets (Trainer.new 0).nnet)).map (fun W => W.f 0 0) = [0] := by
    show [(Mat.of 2 1 (fun _ _ => (0 : ℝ))).f 0 0] = [0]
    rw [Mat.of_f' (by omega) (by omega)]
  rw [h4] at h3
  simp at h3

/-- The hypotheses of `C82_step`, `C82_recovers`: samples with a wrong number of columns and enough memory; memory exhausted at the first computation. -/
example (junk : Nat → Nat → ℝ) : ∃ (er : Stop) (b' : Option Fault) (s' : Store) (n' : Net), exNet.WF exStore 2 2 ∧ OutputLayer.DeltaOK exNet.output.costd ∧
    Net.trainOnX junk lateX exY none (exStore, exNet) = (.error er, b', s', n') := by
  rcases hrun : Net.trainOnX junk lateX exY none (exStore, exNet) with ⟨_ | ⟨⟩, b', s', n'⟩
  · exact ⟨_, _, _, _, exNet_wf, C54_costs.1, rfl⟩
  · exfalso
    have h1 := ((Net.trainOnX_refines junk lateX exY none (exStore, exNet)).1 _ _ _ hrun).1
    dsimp only at h1
    unfold Net.trainOn at h1
    rw [((C67_input (junk := junk) exNet_wf lateX).2 (by rintro ⟨-, h⟩; cases h)).1] at h1
    cases h1

example (junk : Nat → Nat → ℝ) : Net.trainOnX junk exX exY (some ⟨0, true⟩) (exStore, exNet) =
    (.error .throw, some ⟨0, true⟩, exStore, { exNet with input := { exNet.input with z := .empty } }) := rfl

/-- The hypotheses of `C82_momentum`: a new momentum trainer for the network, memory exhausted at the first computation. -/
example (junk : Nat → Nat → ℝ) : let w : World := ⟨fun _ => exNet, exStore⟩; let t := MomentumTrainer.new w 0 (1 / 2)
    (w.nets t.nnet).WF w.store 2 2 ∧ (t.hgrads ++ [t.ograd]).map dims = (w.nets t.nnet).shapes w.store ∧ t.iters + 1 < 2 ^ 64 ∧
    ∃ er b' w' t', MomentumTrainer.feeddataX junk exX exY (some ⟨0, false⟩) (w, t) = (.error er, b', w', t') :=
  ⟨exNet_wf, by rfl, by show 0 + 1 < 2 ^ 64; norm_num, .throw, _, _, _, rfl⟩

end
end Nnet.NN
