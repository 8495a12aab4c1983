import Verif.NN.PropsExn
/-!
# C82: what a training call that throws leaves behind
-/
namespace Nnet.NN
noncomputable section
open X

/-- The network has the same layer objects, cost functions, settings and sizes, is still well formed, and no layer of another network was touched: at most weights and intermediate results differ. -/
structure Spec.Intact (p q : Nat) (s : Store) (n : Net) (s' : Store) (n' : Net) : Prop where
  conf : n.SameConf n'
  settings : Spec.settings s' n' = Spec.settings s n
  wf : n'.WF s' p q
  others : ∀ id, id ∉ n.hidden → s' id = s id

theorem Spec.Intact.refl {p q : Nat} {s : Store} {n : Net} (h : n.WF s p q) : Spec.Intact p q s n s n := ⟨.rfl, rfl, h, fun _ _ => rfl⟩

theorem Spec.Intact.trans {p q : Nat} {s s' s'' : Store} {n n' n'' : Net} (h : Spec.Intact p q s n s' n') (h' : Spec.Intact p q s' n' s'' n'') : Spec.Intact p q s n s'' n'' :=
  ⟨h.conf.trans h'.conf, h'.settings.trans h.settings, h'.wf, fun id hid => (h'.others id (by rw [h.conf.hidden]; exact hid)).trans (h.others id hid)⟩

theorem settings_of_model {s s' : Store} {n n' : Net} (h : Spec.model s' n' = Spec.model s n) : Spec.settings s' n' = Spec.settings s n := by
  have := congrArg (List.map (fun c : ℝ × ℝ × ActFunc ℝ × Mat ℝ => (c.1, c.2.1, c.2.2.1))) h
  unfold Spec.model at this
  rw [List.map_map, List.map_map] at this
  exact this

theorem Spec.SameModel.intact {s s' : Store} {n n' : Net} {p q : Nat} (h : Spec.SameModel s n s' n') (hw : n.WF s p q) : Spec.Intact p q s n s' n' :=
  ⟨h.conf, settings_of_model h.model, h.wf hw, h.others⟩

theorem Updated.layers {k : Nat} {out : Layer → Layer} {hid : Nat → Layer → Layer} {s s' : Store} {n n' : Net} (h : Updated k out hid s n s' n') :
    n'.layers s' = (n.hiddenLayers s).mapIdx (fun i L => if i + 1 < k then hid i L else L) ++ [if 0 < k then out n.output.toLayer else n.output.toLayer] := by
  unfold Net.layers
  rw [h.hidden, h.output]

/-- What a partial update leaves, when each layer's step keeps its settings and sizes. -/
theorem Updated.intact {k p q : Nat} {out : Layer → Layer} {hid : Nat → Layer → Layer} {s s' : Store} {n n' : Net} (h : Updated k out hid s n s' n') (hw : n.WF s p q)
    (ho : ∀ L, confKey (out L) = confKey L) (hh : ∀ i L, confKey (hid i L) = confKey L) : Spec.Intact p q s n s' n' := by
  have key : (n'.layers s').map confKey = (n.layers s).map confKey := by
    rw [h.layers]
    unfold Net.layers
    rw [List.map_append, List.map_append]
    congr 1
    · refine List.ext_getElem? fun i => ?_
      rw [List.getElem?_map, List.getElem?_mapIdx, List.getElem?_map, Option.map_map]
      congr 1
      funext L
      simp only [Function.comp]
      split
      · exact hh i L
      · rfl
    · simp only [List.map_cons, List.map_nil]
      split
      · rw [ho]
      · rfl
  have k1 : Spec.settings s' n' = Spec.settings s n := by
    have := congrArg (List.map Prod.fst) key
    rw [List.map_map, List.map_map] at this
    exact this
  have k2 := congrArg (List.map Prod.snd) key
  rw [List.map_map, List.map_map] at k2
  refine ⟨h.conf, k1, ⟨by rw [h.conf.hidden]; exact hw.nodup, by rw [h.conf.hidden]; exact h.dense, hw.pos, ?_⟩, h.others⟩
  refine fits_congr (Bs := (n.layers s).map (·.W)) ?_ hw.fits
  rw [List.map_map, List.map_map]
  exact k2

theorem upd_confKey (L : Layer) : confKey L.upd = confKey L := rfl
theorem updWith_confKey (g : Mat ℝ) (L : Layer) : confKey (L.updWith g) = confKey L := rfl

/-- A partial update mixes the weights before and after. -/
theorem Updated.mixed {k : Nat} {out : Layer → Layer} {hid : Nat → Layer → Layer} {s s' : Store} {n n' : Net} (h : Updated k out hid s n s' n') (now : List (Mat ℝ))
    (hnow : now = ((n.hiddenLayers s).mapIdx hid ++ [out n.output.toLayer]).map (·.W)) : Spec.Mixed (Spec.weights s n) now (Spec.weights s' n') := by
  subst hnow
  unfold Spec.Mixed Spec.weights
  rw [h.layers]
  unfold Net.layers
  refine ⟨by simp, fun i => ?_⟩
  simp only [List.map_append, List.map_cons, List.map_nil, List.getElem?_append, List.length_map, List.length_mapIdx]
  by_cases hi : i < (n.hiddenLayers s).length
  · simp only [if_pos hi, List.getElem?_map, List.getElem?_mapIdx]
    by_cases hk : i + 1 < k
    · simp only [if_pos hk]; exact Or.inr trivial
    · simp only [if_neg hk]; left; rw [Option.map_map]; rfl
  · simp only [if_neg hi]
    by_cases hk : 0 < k
    · simp only [if_pos hk]; exact Or.inr trivial
    · simp only [if_neg hk]; exact Or.inl trivial

/-- What is left when one training step stops. -/
structure Spec.StepLeft (junk : Nat → Nat → ℝ) (p q : Nat) (b : Option Fault) (x y : Res (Mat ℝ)) (s : Store) (n : Net) (s' : Store) (n' : Net) : Prop where
  intact : Spec.Intact p q s n s' n'
  weights : Spec.weights s' n' = Spec.weights s n ∨
    b ≠ none ∧ ∃ x' y' s1 n1, x = .ok x' ∧ y = .ok y' ∧ n.trainOn junk s x' y' = .ok (s1, n1) ∧ Spec.Mixed (Spec.weights s n) (Spec.weights s1 n1) (Spec.weights s' n')

/-- After the passes the updates can fail for lack of memory only. -/
theorem update_tail {junk : Nat → Nat → ℝ} {s s1 s2 s' : Store} {n n1 n2 n' : Net} {p q : Nat} {x y r : Mat ℝ} {b b' : Option Fault} {er : Stop} (h : n.WF s p q)
    (h1 : n.forwardprop junk s x = .ok (r, s1, n1)) (h2 : n1.backprop junk s1 y = .ok (s2, n2)) (e : Net.updateX b (s2, n2) = (.error er, b', s', n')) :
    b ≠ none ∧ Spec.Intact p q s n s' n' ∧ ∃ s3 n3, n.trainOn junk s x y = .ok (s3, n3) ∧ Spec.Mixed (Spec.weights s n) (Spec.weights s3 n3) (Spec.weights s' n') := by
  have hx : 0 < x.nr ∧ x.nc = p := by
    by_contra hx
    rw [((C67_input (junk := junk) h x).2 hx).1] at h1
    cases h1
  obtain ⟨D, hD, hD1, hD2⟩ := delta_of_ok h hx.1 hx.2 h1 h2
  obtain ⟨s1', n1', s2', n2', e1, e2, hb, -, hrd⟩ := passes_ok (junk := junk) h hx.1 hx.2 hD hD1 hD2
  rw [e1] at h1
  cases h1
  rw [e2] at h2
  cases h2
  obtain ⟨s3, n3, e3, hb3, -, -⟩ := update_ready hrd
  have hwt : Spec.weights s2 n2 = Spec.weights s n := by
    unfold Spec.weights
    rw [hb.layers]; exact passed_W s n x D
  obtain ⟨k, -, -, hu⟩ := C82_update hrd.wf.nodup hrd.wf.dense e
  have hmodel : Spec.model s2 n2 = Spec.model s n := by
    unfold Spec.model
    rw [hb.layers]
    exact bwdNet_core (n.hiddenLayers s) n.output.toLayer D x
  have hi : Spec.Intact p q s n s2 n2 := ⟨hb.conf, settings_of_model hmodel, hrd.wf, hb.frame⟩
  refine ⟨?_, hi.trans (hu.intact hrd.wf upd_confKey (fun _ => upd_confKey)), s3, n3, ?_, ?_⟩
  · rintro rfl
    have := (Net.updateX_refines none (s2, n2)).2 _ _ _ e rfl
    dsimp only at this
    rw [e3] at this
    cases this
  · unfold Net.trainOn
    rw [e1, ok_bind]
    dsimp only
    rw [e2, ok_bind]
    exact e3
  · rw [← hwt]
    refine hu.mixed _ ?_
    unfold Spec.weights
    rw [hb3.layers]
    unfold Net.layers
    rw [List.map_append]
    congr 2
    exact (List.mapIdx_eq_iff.2 fun i => by simp).symm

/-- Computing a value without any other effect. -/
def Pure {σ α : Type} (m : X σ α) (r : Res α) : Prop := ∀ b s,
  (∃ a b', r = .ok a ∧ m b s = (.ok a, b', s) ∧ (b = none → b' = none)) ∨ ∃ e b', m b s = (.error e, b', s)

/-- A training step whose samples and labels are computed first by `mx` and `my`. -/
def stepX (junk : Nat → Nat → ℝ) (mx my : X (Store × Net) (Mat ℝ)) : X (Store × Net) Unit := do
  let xi ← mx
  let _ ← Net.forwardpropX junk xi
  let yi ← my
  Net.backpropX junk yi
  Net.updateX

theorem pure_eval {σ α : Type} (r : Res α) : Pure (X.eval (fun _ : σ => r)) r := by
  intro b s
  unfold X.eval
  rcases op_id_cases (σ := σ) (fun _ => r) (fun _ s => s) b s with ⟨a, b', h1, h2⟩ | ⟨e, b', h2⟩
  · exact Or.inl ⟨a, b', h1, h2, ((Refines.eval (fun _ : σ => r) b s).1 a b' s h2).2⟩
  · exact Or.inr ⟨e, b', h2⟩

theorem pure_ret {σ α : Type} (a : α) : Pure (X.ret a : X σ α) (.ok a) := fun b s => Or.inl ⟨a, b, rfl, rfl, id⟩

theorem stepX_cases {junk : Nat → Nat → ℝ} {s s' : Store} {n n' : Net} {p q : Nat} {mx my : X (Store × Net) (Mat ℝ)} {xr yr : Res (Mat ℝ)} {b b' : Option Fault} {r : Res Unit} (h : n.WF s p q)
    (hmx : Pure mx xr) (hmy : Pure my yr) (e : stepX junk mx my b (s, n) = (r, b', s', n')) :
    (r = .ok () → ∃ x y, xr = .ok x ∧ yr = .ok y ∧ n.trainOn junk s x y = .ok (s', n') ∧ (b = none → b' = none)) ∧
    (∀ er, r = .error er → Spec.StepLeft junk p q b xr yr s n s' n') := by
  have same : Spec.StepLeft junk p q b xr yr s n s n := ⟨.refl h, Or.inl rfl⟩
  unfold stepX at e
  rw [bind_def] at e
  rcases hmx b (s, n) with ⟨x, b1, hx, h1, hb1⟩ | ⟨er, b1, h1⟩
  swap
  · rw [h1] at e; cases e
    exact ⟨(by intro h; cases h), fun _ _ => same⟩
  rw [h1] at e
  dsimp only at e
  rw [bind_def] at e
  rcases e2 : Net.forwardpropX junk x b1 (s, n) with ⟨er | a, b2, s2, n2⟩
  · rw [e2] at e; cases e
    have := (C82_passes (junk := junk) h.dense x b1 b').1 _ e2
    exact ⟨(by intro h; cases h), fun _ _ => ⟨this.intact h, Or.inl this.weights⟩⟩
  have m2 := (C82_passes (junk := junk) h.dense x b1 b2).1 _ e2
  obtain ⟨f2, hb2⟩ := (Net.forwardpropX_refines junk x b1 (s, n)).1 _ _ _ e2
  rw [e2] at e
  dsimp only at e
  rw [bind_def] at e
  rcases hmy b2 (s2, n2) with ⟨y, b3, hy, h3, hb3⟩ | ⟨er, b3, h3⟩
  swap
  · rw [h3] at e; cases e
    exact ⟨(by intro h; cases h), fun _ _ => ⟨m2.intact h, Or.inl m2.weights⟩⟩
  rw [h3] at e
  dsimp only at e
  rw [bind_def] at e
  have w2 := m2.wf h
  rcases e4 : Net.backpropX junk y b3 (s2, n2) with ⟨er | ⟨⟩, b4, s4, n4⟩
  · rw [e4] at e; cases e
    have m4 := (C82_passes (junk := junk) w2.dense y b3 b').2.1 _ e4
    exact ⟨(by intro h; cases h), fun _ _ => ⟨(m2.intact h).trans (m4.intact w2), Or.inl (m4.weights.trans m2.weights)⟩⟩
  obtain ⟨f4, hb4⟩ := (Net.backpropX_refines junk y b3 (s2, n2)).1 _ _ _ e4
  rw [e4] at e
  dsimp only at e f2 f4
  have f2' : n.forwardprop junk s x = .ok (a, s2, n2) := by
    revert f2
    cases n.forwardprop junk s x with
    | error e => intro f2; cases f2
    | ok v => intro f2; cases f2; rfl
  have f4' : n2.backprop junk s2 y = .ok (s4, n4) := by
    revert f4
    cases n2.backprop junk s2 y with
    | error e => intro f4; cases f4
    | ok v => intro f4; cases f4; rfl
  refine ⟨?_, ?_⟩
  · rintro rfl
    obtain ⟨f5, hb5⟩ := (Net.updateX_refines b4 (s4, n4)).1 _ _ _ e
    refine ⟨x, y, hx, hy, ?_, fun hb => hb5 (hb4 (hb3 (hb2 (hb1 hb))))⟩
    unfold Net.trainOn
    rw [f2', ok_bind]
    dsimp only
    rw [f4', ok_bind]
    dsimp only at f5 ⊢
    revert f5
    cases n4.update s4 with
    | error e => intro f5; cases f5
    | ok v => intro f5; cases f5; rfl
  · rintro er rfl
    obtain ⟨k1, k2, s3, n3, k3, k4⟩ := update_tail h f2' f4' e
    exact ⟨k2, Or.inr ⟨fun hb => k1 (hb4 (hb3 (hb2 (hb1 hb)))), x, y, s3, n3, hx, hy, k3, k4⟩⟩

/-- A training step on given samples and labels. -/
theorem trainOnX_cases {junk : Nat → Nat → ℝ} {s s' : Store} {n n' : Net} {p q : Nat} {x y : Mat ℝ} {b b' : Option Fault} {r : Res Unit} (h : n.WF s p q)
    (e : Net.trainOnX junk x y b (s, n) = (r, b', s', n')) :
    (r = .ok () → n.trainOn junk s x y = .ok (s', n')) ∧ (∀ er, r = .error er → Spec.StepLeft junk p q b (.ok x) (.ok y) s n s' n') := by
  have e' : stepX junk (X.ret x) (X.ret y) b (s, n) = (r, b', s', n') := e
  obtain ⟨h1, h2⟩ := stepX_cases h (pure_ret x) (pure_ret y) e'
  refine ⟨fun hr => ?_, h2⟩
  obtain ⟨x', y', hx, hy, h3, -⟩ := h1 hr
  cases hx; cases hy
  exact h3

/-- **C82** (one step). A well-formed dense network, any samples and labels: when the calls `forwardprop(x); backprop(y); update();` stop with an exception, the network still has its layer objects, its
settings and its sizes and is well formed. If there is enough memory, so that the exception is due to sizes, no weight has changed. If not, each weight matrix is as before or is what the complete step would
have made of it. -/
theorem C82_step {junk : Nat → Nat → ℝ} {s s' : Store} {n n' : Net} {p q : Nat} {x y : Mat ℝ} {b b' : Option Fault} {er : Stop} (h : n.WF s p q)
    (e : Net.trainOnX junk x y b (s, n) = (.error er, b', s', n')) :
    Spec.Intact p q s n s' n' ∧ (b = none → Spec.weights s' n' = Spec.weights s n) ∧
    (Spec.weights s' n' = Spec.weights s n ∨ ∃ s1 n1, n.trainOn junk s x y = .ok (s1, n1) ∧ Spec.Mixed (Spec.weights s n) (Spec.weights s1 n1) (Spec.weights s' n')) := by
  obtain ⟨h1, h2⟩ := (trainOnX_cases h e).2 er rfl
  refine ⟨h1, fun hb => ?_, ?_⟩
  · rcases h2 with h2 | ⟨h2, -⟩
    · exact h2
    · exact absurd hb h2
  · rcases h2 with h2 | ⟨-, x', y', s1, n1, hx, hy, h3, h4⟩
    · exact Or.inl h2
    · cases hx; cases hy
      exact Or.inr ⟨s1, n1, h3, h4⟩

/-! ## A trainer's network in a world of networks -/

theorem onNet_bind {τ α β : Type} (f : τ → Nat) (m : X (Store × Net) α) (g : α → X (Store × Net) β) : onNet f (m >>= g) = onNet f m >>= fun a => onNet f (g a) := by
  funext b st
  obtain ⟨w, t⟩ := st
  rw [bind_def]
  have h0 : ∀ {γ : Type} (k : X (Store × Net) γ) (b : Option Fault) (w : World) (t : τ), onNet f k b (w, t) =
    ((k b (w.store, w.nets (f t))).1, (k b (w.store, w.nets (f t))).2.1, w.put (f t) (k b (w.store, w.nets (f t))).2.2.1 (k b (w.store, w.nets (f t))).2.2.2, t) := fun _ _ _ _ => rfl
  rw [h0, h0, bind_def]
  rcases e : m b (w.store, w.nets (f t)) with ⟨er | a, b1, s1, n1⟩
  · rfl
  · dsimp only
    rw [h0]
    have h1 : (w.put (f t) s1 n1).store = s1 := rfl
    rw [h1, put_nets, put_put]

theorem onNet_pure {τ α : Type} (f : τ → Nat) (r : Res α) : onNet f (X.eval (fun _ => r)) = X.eval (fun _ => r) := by
  funext b st
  obtain ⟨w, t⟩ := st
  have h0 : onNet f (X.eval (fun _ => r)) b (w, t) = (((X.eval (fun _ : Store × Net => r)) b (w.store, w.nets (f t))).1, ((X.eval (fun _ : Store × Net => r)) b (w.store, w.nets (f t))).2.1,
    w.put (f t) ((X.eval (fun _ : Store × Net => r)) b (w.store, w.nets (f t))).2.2.1 ((X.eval (fun _ : Store × Net => r)) b (w.store, w.nets (f t))).2.2.2, t) := rfl
  rw [h0]
  unfold X.eval X.op X.step
  cases r with
  | error e => rcases b with _ | ⟨_ | k, c⟩ <;> simp only [id, ite_self, put_self]
  | ok a => rcases b with _ | ⟨_ | k, c⟩ <;> simp only [id, ite_self, put_self]

/-- The world after a call for one network: the others are untouched. -/
theorem onNet_eq {τ α : Type} {f : τ → Nat} {m : X (Store × Net) α} {b b' : Option Fault} {w w' : World} {t t' : τ} {r : Res α} (h : onNet f m b (w, t) = (r, b', w', t')) :
    t' = t ∧ (∀ k, k ≠ f t → w'.nets k = w.nets k) ∧ m b (w.store, w.nets (f t)) = (r, b', w'.store, w'.nets (f t)) := by
  obtain ⟨⟨s1, n1⟩, h1, h2⟩ := on_eq h
  cases h2
  refine ⟨rfl, fun k hk => if_neg hk, ?_⟩
  rw [put_nets]
  exact h1

end
end Nnet.NN
