import Verif.NN.ExnLemmas
import Verif.NN.PropsResume
import Verif.NN.PropsSizes
/-!
# C82: what a call that throws leaves behind
-/
namespace Nnet.NN
noncomputable section
open X

/-! ## Specification -/

/-- The weight matrices of a network, output layer last. -/
def Spec.weights (s : Store) (n : Net) : List (Mat ℝ) := (n.layers s).map (·.W)

/-- The network in the second state has the same layer objects, cost functions, settings and weights as in the first, and no other layer was touched: at most intermediate results (the values the passes keep
in the layers, the result, the labels, the gradients) differ. -/
structure Spec.SameModel (s : Store) (n : Net) (s' : Store) (n' : Net) : Prop where
  conf : n.SameConf n'
  model : Spec.model s' n' = Spec.model s n
  dense : ∀ id ∈ n.hidden, (s' id).kind = .dense
  others : ∀ id, id ∉ n.hidden → s' id = s id

/-- Every matrix of `now` is the corresponding one of `old` or the corresponding one of `new`. -/
def Spec.Mixed (old new now : List (Mat ℝ)) : Prop := now.length = old.length ∧ ∀ i : Nat, now[i]? = old[i]? ∨ now[i]? = new[i]?

/-! ## The passes keep the model -/

/-- What the passes keep, in the states of a network with the hidden layers `ps`. -/
def Passed (ps : List Nat) (st st' : Store × Net) : Prop := st.2.hidden = ps →
  st.2.SameConf st'.2 ∧ st'.2.output.toLayer.core = st.2.output.toLayer.core ∧ (∀ r, r ∉ ps → st'.1 r = st.1 r) ∧
  ∀ r, (st.1 r).kind = .dense → (st'.1 r).kind = .dense ∧ (st'.1 r).base.core = (st.1 r).base.core

theorem Passed.refl (ps : List Nat) (st : Store × Net) : Passed ps st st := fun _ => ⟨.rfl, rfl, fun _ _ => rfl, fun _ h => ⟨h, rfl⟩⟩

theorem Passed.trans (ps : List Nat) (a b c : Store × Net) (h : Passed ps a b) (h' : Passed ps b c) : Passed ps a c := by
  intro ha
  obtain ⟨h1, h2, h3, h4⟩ := h ha
  obtain ⟨k1, k2, k3, k4⟩ := h' (h1.hidden.trans ha)
  refine ⟨h1.trans k1, k2.trans h2, fun r hr => (k3 r hr).trans (h3 r hr), fun r hr => ?_⟩
  obtain ⟨l1, l2⟩ := h4 r hr
  obtain ⟨m1, m2⟩ := k4 r l1
  exact ⟨m1, m2.trans l2⟩

/-- Same settings and weights. -/
def SameCore (L M : Layer) : Prop := M.core = L.core

theorem SameCore.refl (L : Layer) : SameCore L L := rfl
theorem SameCore.trans (a b c : Layer) (h : SameCore a b) (h' : SameCore b c) : SameCore a c := Eq.trans h' h

theorem layer_forward_keeps (pa : Mat ℝ) : Keeps SameCore (Layer.forwardpropX pa) := by
  unfold Layer.forwardpropX
  refine Keeps.bind SameCore.trans (Keeps.assign SameCore.refl SameCore.trans ?_) fun _ => Keeps.bind SameCore.trans (Keeps.assign SameCore.refl SameCore.trans ?_) fun _ =>
    Keeps.bind SameCore.trans (Keeps.assign SameCore.refl SameCore.trans ?_) fun _ => Keeps.eval SameCore.refl
  all_goals intro m L; rfl

theorem layer_backward_keeps (d : Mat ℝ) : Keeps SameCore (Layer.backpropX d) := by
  unfold Layer.backpropX
  refine Keeps.bind SameCore.trans (Keeps.assign SameCore.refl SameCore.trans ?_) fun _ => Keeps.bind SameCore.trans (Keeps.assign SameCore.refl SameCore.trans ?_) fun _ =>
    Keeps.bind SameCore.trans (Keeps.assign SameCore.refl SameCore.trans ?_) fun _ => Keeps.bind SameCore.trans (Keeps.eval SameCore.refl) fun _ => Keeps.eval SameCore.refl
  all_goals intro m L; rfl

/-- Same settings, weights and cost functions. -/
def SameOut (o o' : OutputLayer) : Prop := o'.toLayer.core = o.toLayer.core ∧ o'.cost = o.cost ∧ o'.costd = o.costd

theorem SameOut.refl (o : OutputLayer) : SameOut o o := ⟨rfl, rfl, rfl⟩
theorem SameOut.trans (a b c : OutputLayer) (h : SameOut a b) (h' : SameOut b c) : SameOut a c := ⟨h'.1.trans h.1, h'.2.1.trans h.2.1, h'.2.2.trans h.2.2⟩

theorem output_forward_keeps (pa : Mat ℝ) : Keeps SameOut (OutputLayer.base (Layer.forwardpropX pa)) :=
  Keeps.on (layer_forward_keeps pa) (fun _ _ h => ⟨h, rfl, rfl⟩)

theorem output_backward_keeps (y : Mat ℝ) : Keeps SameOut (OutputLayer.backpropX y) := by
  unfold OutputLayer.backpropX
  refine Keeps.bind SameOut.trans (Keeps.assign SameOut.refl SameOut.trans ?_) fun _ => Keeps.bind SameOut.trans (Keeps.assign SameOut.refl SameOut.trans ?_) fun _ =>
    Keeps.bind SameOut.trans (Keeps.assign SameOut.refl SameOut.trans ?_) fun _ => Keeps.bind SameOut.trans (Keeps.assign SameOut.refl SameOut.trans ?_) fun _ =>
    Keeps.bind SameOut.trans (Keeps.eval SameOut.refl) fun _ => Keeps.eval SameOut.refl
  all_goals intro m L; exact ⟨rfl, rfl, rfl⟩

/-- A dense layer stays one with the same settings and weights. -/
def SameH (h h' : HLayer) : Prop := h.kind = .dense → h'.kind = .dense ∧ h'.base.core = h.base.core

theorem hidden_forward_keeps (junk : Nat → Nat → ℝ) (pa : Mat ℝ) : Keeps SameH (HLayer.forwardpropX junk pa) := by
  intro b h hk
  have h0 : HLayer.forwardpropX junk pa b h = (match h.kind with
    | .dense => HLayer.dense (Layer.forwardpropX pa)
    | _ => HLayer.other (fun h => h.forwardprop junk pa)) b h := rfl
  rw [h0, hk]
  exact ⟨hk, layer_forward_keeps pa b h.base⟩

theorem hidden_backward_keeps (junk : Nat → Nat → ℝ) (d : Mat ℝ) : Keeps SameH (HLayer.backpropX junk d) := by
  intro b h hk
  have h0 : HLayer.backpropX junk d b h = (match h.kind with
    | .dense => HLayer.dense (Layer.backpropX d)
    | _ => HLayer.other (fun h => h.backprop junk d)) b h := rfl
  rw [h0, hk]
  exact ⟨hk, layer_backward_keeps d b h.base⟩

theorem onHidden_keeps {α : Type} {ps : List Nat} {p : Nat} (hp : p ∈ ps) {m : X HLayer α} (h : Keeps SameH m) : Keeps (Passed ps) (Net.onHidden p m) := by
  refine Keeps.on h ?_
  intro st h' hh hps
  refine ⟨.rfl, rfl, fun r hr => put_other (by rintro rfl; exact hr hp), fun r hr => ?_⟩
  by_cases e : r = p
  · subst e
    show (st.1.put r h' r).kind = .dense ∧ (st.1.put r h' r).base.core = _
    rw [put_same]
    exact hh hr
  · show (st.1.put p h' r).kind = .dense ∧ (st.1.put p h' r).base.core = _
    rw [put_other e]; exact ⟨hr, rfl⟩

theorem onOutput_keeps {α : Type} {ps : List Nat} {m : X OutputLayer α} (h : Keeps SameOut m) : Keeps (Passed ps) (Net.onOutput m) := by
  refine Keeps.on h ?_
  intro st o hh hps
  exact ⟨⟨rfl, rfl, rfl, hh.2.1, hh.2.2⟩, hh.1, fun r hr => rfl, fun r hr => ⟨hr, rfl⟩⟩

theorem onInput_keeps {α : Type} {ps : List Nat} (m : X Layer α) : Keeps (Passed ps) (Net.onInput m) := by
  refine Keeps.on (Q := fun _ _ => True) (fun _ _ => trivial) ?_
  intro st o hh hps
  exact ⟨⟨rfl, rfl, rfl, rfl, rfl⟩, rfl, fun r hr => rfl, fun r hr => ⟨hr, rfl⟩⟩

theorem result_keeps {ps : List Nat} (e : Store × Net → Res (Mat ℝ)) : Keeps (Passed ps) (X.assign (fun m st => (st.1, { st.2 with result := m })) e) := by
  refine Keeps.assign (Passed.refl ps) (Passed.trans ps) ?_
  intro m st hps
  exact ⟨⟨rfl, rfl, rfl, rfl, rfl⟩, rfl, fun r hr => rfl, fun r hr => ⟨hr, rfl⟩⟩

/-- Reading the pointers to the hidden layers. -/
theorem get_keeps {α : Type} {ps : List Nat} {g : List Nat → X (Store × Net) α} (h : Keeps (Passed ps) (g ps)) :
    Keeps (Passed ps) (X.get (fun st : Store × Net => st.2.hidden) >>= g) := by
  intro b st hps
  have h0 : (X.get (fun st : Store × Net => st.2.hidden) >>= g) b st = g st.2.hidden b st := rfl
  rw [h0, hps]
  exact h b st hps

theorem hiddenForward_keeps (junk : Nat → Nat → ℝ) {ps0 : List Nat} : ∀ (ps : List Nat) (c : Mat ℝ), (∀ p ∈ ps, p ∈ ps0) → Keeps (Passed ps0) (Net.hiddenForwardX junk ps c)
  | [], c, _ => Keeps.ret (Passed.refl _) c
  | p :: ps, c, h => by
    unfold Net.hiddenForwardX
    exact Keeps.bind (Passed.trans _) (onHidden_keeps (h p (by simp)) (hidden_forward_keeps junk c)) fun n => Keeps.bind (Passed.trans _) (Keeps.eval (Passed.refl _)) fun n =>
      hiddenForward_keeps junk ps n (fun q hq => h q (by simp [hq]))

theorem hiddenBackward_keeps (junk : Nat → Nat → ℝ) {ps0 : List Nat} : ∀ (ps : List Nat) (c : Mat ℝ), (∀ p ∈ ps, p ∈ ps0) → Keeps (Passed ps0) (Net.hiddenBackwardX junk ps c)
  | [], c, _ => Keeps.ret (Passed.refl _) ()
  | p :: ps, c, h => by
    unfold Net.hiddenBackwardX
    exact Keeps.bind (Passed.trans _) (onHidden_keeps (h p (by simp)) (hidden_backward_keeps junk c)) fun n => Keeps.bind (Passed.trans _) (Keeps.eval (Passed.refl _)) fun n =>
      hiddenBackward_keeps junk ps n (fun q hq => h q (by simp [hq]))

theorem net_forward_keeps (junk : Nat → Nat → ℝ) (ps : List Nat) (x : Mat ℝ) : Keeps (Passed ps) (Net.forwardpropX junk x) := by
  unfold Net.forwardpropX
  exact Keeps.bind (Passed.trans _) (onInput_keeps _) fun c => get_keeps <| Keeps.bind (Passed.trans _) (hiddenForward_keeps junk ps c (fun _ h => h)) fun c =>
    Keeps.bind (Passed.trans _) (onOutput_keeps (output_forward_keeps c)) fun r => Keeps.bind (Passed.trans _) (result_keeps _) fun _ => Keeps.eval (Passed.refl _)

theorem net_backward_keeps (junk : Nat → Nat → ℝ) (ps : List Nat) (y : Mat ℝ) : Keeps (Passed ps) (Net.backpropX junk y) := by
  unfold Net.backpropX
  exact Keeps.bind (Passed.trans _) (onOutput_keeps (output_backward_keeps y)) fun d =>
    get_keeps (g := fun hid => Net.hiddenBackwardX junk hid.reverse d) (hiddenBackward_keeps junk ps.reverse d (fun _ h => List.mem_reverse.1 h))

theorem net_predict_keeps (junk : Nat → Nat → ℝ) (ps : List Nat) (x : Mat ℝ) : Keeps (Passed ps) (Net.predictX junk x) := by
  unfold Net.predictX
  exact Keeps.bind (Passed.trans _) (net_forward_keeps junk ps x) fun r => Keeps.bind (Passed.trans _) (result_keeps _) fun _ => Keeps.eval (Passed.refl _)

theorem Passed.sameModel {s s' : Store} {n n' : Net} (hd : ∀ id ∈ n.hidden, (s id).kind = .dense) (h : Passed n.hidden (s, n) (s', n')) : Spec.SameModel s n s' n' := by
  obtain ⟨h1, h2, h3, h4⟩ := h rfl
  refine ⟨h1, ?_, fun id hid => (h4 id (hd id hid)).1, h3⟩
  show List.map Layer.core (n'.layers s') = List.map Layer.core (n.layers s)
  unfold Net.layers Net.hiddenLayers
  rw [List.map_append, List.map_append, List.map_map, List.map_map, h1.hidden]
  congr 1
  · exact List.map_congr_left fun id hid => (h4 id (hd id hid)).2
  · exact congrArg (fun c => [c]) h2

theorem Spec.SameModel.weights {s s' : Store} {n n' : Net} (h : Spec.SameModel s n s' n') : Spec.weights s' n' = Spec.weights s n := by
  have := congrArg (List.map (fun c : ℝ × ℝ × ActFunc ℝ × Mat ℝ => c.2.2.2)) h.model
  unfold Spec.model at this
  rw [List.map_map, List.map_map] at this
  exact this

theorem Spec.SameModel.wf {s s' : Store} {n n' : Net} {p q : Nat} (h : Spec.SameModel s n s' n') (hw : n.WF s p q) : n'.WF s' p q := by
  refine ⟨by rw [h.conf.hidden]; exact hw.nodup, by rw [h.conf.hidden]; exact h.dense, hw.pos, ?_⟩
  have := h.weights
  unfold Spec.weights at this
  rw [this]
  exact hw.fits

/-- **C82** (passes). A network of dense layers of any sizes, whether they fit together or not, and any samples or labels: whether `forwardprop`, `backprop` or `predict` returns or throws, because sizes do not
match or because memory runs out at any point, settings and weights are those before the call, and no layer outside the network was touched. -/
theorem C82_passes {junk : Nat → Nat → ℝ} {s s' : Store} {n n' : Net} (hd : ∀ id ∈ n.hidden, (s id).kind = .dense) (m : Mat ℝ) (b b' : Option Fault) :
    (∀ r, Net.forwardpropX junk m b (s, n) = (r, b', s', n') → Spec.SameModel s n s' n') ∧
    (∀ r, Net.backpropX junk m b (s, n) = (r, b', s', n') → Spec.SameModel s n s' n') ∧
    (∀ r, Net.predictX junk m b (s, n) = (r, b', s', n') → Spec.SameModel s n s' n') := by
  refine ⟨fun r h => ?_, fun r h => ?_, fun r h => ?_⟩
  · have := net_forward_keeps junk n.hidden m b (s, n)
    rw [h] at this; exact this.sameModel hd
  · have := net_backward_keeps junk n.hidden m b (s, n)
    rw [h] at this; exact this.sameModel hd
  · have := net_predict_keeps junk n.hidden m b (s, n)
    rw [h] at this; exact this.sameModel hd

/-! ## Updates -/

theorem op_id_cases {σ α : Type} (r : σ → Res α) (done : α → σ → σ) (b : Option Fault) (s : σ) :
    (∃ a b', r s = .ok a ∧ X.op r done id b s = (.ok a, b', done a s)) ∨ ∃ e b', X.op r done id b s = (.error e, b', s) := by
  rcases op_cases r done id b s with h | ⟨_, c, h⟩
  · rw [h]
    unfold X.step
    cases e : r s with
    | ok a => exact Or.inl ⟨a, _, rfl, rfl⟩
    | error e => exact Or.inr ⟨_, _, rfl⟩
  · refine Or.inr ⟨.throw, b, ?_⟩
    rw [h]
    simp

theorem layer_update_cases (b : Option Fault) (L : Layer) : (∃ b', L.GradOK ∧ Layer.updateX b L = (.ok (), b', L.upd)) ∨ ∃ e b', Layer.updateX b L = (.error e, b', L) := by
  have h0 : Layer.updateX b L = (X.op (fun L : Layer => L.W.sub (L.grad.smul L.lrate)) (fun m L => { L with W := m }) id >>= fun _ => X.ret ()) b L := rfl
  rcases op_id_cases (fun L : Layer => L.W.sub (L.grad.smul L.lrate)) (fun m L => { L with W := m }) b L with ⟨a, b', h1, h2⟩ | ⟨e, b', h2⟩
  · obtain ⟨k1, k2, _⟩ := zip_eq_ok h1
    have hg : L.GradOK := ⟨k1.symm, k2.symm⟩
    refine Or.inl ⟨b', hg, ?_⟩
    have h3 := Layer.update_ok hg
    unfold Layer.update at h3
    rw [h1, ok_bind] at h3
    rw [h0, bind_def, h2]
    show (Except.ok (), b', { L with W := a }) = _
    rw [Except.ok.inj h3]
  · exact Or.inr ⟨e, b', by rw [h0, bind_def, h2]⟩

theorem layer_updateWith_cases (g : Mat ℝ) (b : Option Fault) (L : Layer) :
    (∃ b', Layer.updateWithX g b L = (.ok (), b', L.updWith g)) ∨ ∃ e b', Layer.updateWithX g b L = (.error e, b', L) := by
  have h0 : Layer.updateWithX g b L = (X.eval (fun _ => .ok g) >>= fun g => X.op (fun L : Layer => L.W.sub (g.smul L.lrate)) (fun m L => { L with W := m }) id >>= fun _ => X.ret ()) b L := rfl
  rcases op_id_cases (σ := Layer) (fun _ => .ok g) (fun _ s => s) b L with ⟨a, b1, h1, h2⟩ | ⟨e, b', h2⟩
  · cases h1
    rcases op_id_cases (fun L : Layer => L.W.sub (g.smul L.lrate)) (fun m L => { L with W := m }) b1 L with ⟨a, b', h3, h4⟩ | ⟨e, b', h4⟩
    · obtain ⟨k1, k2, _⟩ := zip_eq_ok h3
      refine Or.inl ⟨b', ?_⟩
      have h5 := Layer.updateWith_ok (L := L) (g := g) k1.symm k2.symm
      unfold Layer.updateWith at h5
      rw [h3, ok_bind] at h5
      rw [h0, bind_def]
      unfold X.eval
      rw [h2]
      show (X.op _ _ id >>= fun _ => X.ret ()) b1 L = _
      rw [bind_def, h4]
      show (Except.ok (), b', { L with W := a }) = _
      rw [Except.ok.inj h5]
    · refine Or.inr ⟨e, b', ?_⟩
      rw [h0, bind_def]
      unfold X.eval
      rw [h2]
      show (X.op _ _ id >>= fun _ => X.ret ()) b1 L = _
      rw [bind_def, h4]
  · refine Or.inr ⟨e, b', ?_⟩
    rw [h0, bind_def]
    unfold X.eval
    rw [h2]

/-- A statement for one hidden layer and what it does to a dense layer. -/
abbrev Job := Nat × X HLayer Unit × (Layer → Layer)

/-- The statement does this or throws and does nothing. -/
def Job.Does (j : Job) : Prop := ∀ b h, h.kind = .dense →
  (∃ b', j.2.1 b h = (.ok (), b', ⟨j.2.2 h.base, .dense⟩)) ∨ ∃ e b', j.2.1 b h = (.error e, b', h)

/-- The statements in turn. -/
def runJobs : List Job → X (Store × Net) Unit
  | [] => X.ret ()
  | j :: js => do
    Net.onHidden j.1 j.2.1
    runJobs js

theorem put_self_store (s : Store) (p : Nat) : s.put p (s p) = s := by
  funext q
  by_cases h : q = p
  · subst h; exact put_same
  · exact put_other h

theorem runJobs_prefix : ∀ {js : List Job} {b b' : Option Fault} {s s' : Store} {n n' : Net} {r : Res Unit}, (js.map (·.1)).Nodup →
    (∀ j ∈ js, Job.Does j ∧ (s j.1).kind = .dense) → runJobs js b (s, n) = (r, b', s', n') →
    ∃ k, k ≤ js.length ∧ (r = .ok () ↔ k = js.length) ∧ n' = n ∧ (∀ id, id ∉ js.map (·.1) → s' id = s id) ∧
      ∀ (i : Nat) (j : Job), js[i]? = some j → s' j.1 = if i < k then ⟨j.2.2 (s j.1).base, .dense⟩ else s j.1
  | [], b, b', s, s', n, n', r, _, _, h => by
    cases h
    exact ⟨0, le_refl _, by simp, rfl, fun _ _ => rfl, fun i j h => by simp at h⟩
  | j :: js, b, b', s, s', n, n', r, hn, hj, h => by
    have h' : (Net.onHidden j.1 j.2.1 >>= fun _ => runJobs js) b (s, n) = (r, b', s', n') := h
    rw [List.map_cons, List.nodup_cons] at hn
    rcases (hj j (by simp)).1 b (s j.1) (hj j (by simp)).2 with ⟨b1, h1⟩ | ⟨e, b1, h1⟩
    · have h2 : Net.onHidden j.1 j.2.1 b (s, n) = (.ok (), b1, s.put j.1 ⟨j.2.2 (s j.1).base, .dense⟩, n) := by
        show ((j.2.1 b (s j.1)).1, (j.2.1 b (s j.1)).2.1, s.put j.1 (j.2.1 b (s j.1)).2.2, n) = _
        rw [h1]
      rw [bind_def, h2] at h'
      obtain ⟨k, hk, k1, k2, k3, k4⟩ := runJobs_prefix hn.2 (fun i hi => ⟨(hj i (by simp [hi])).1, by
        rw [put_other (by intro e; exact hn.1 (List.mem_map.2 ⟨i, hi, e⟩))]
        exact (hj i (by simp [hi])).2⟩) h'
      refine ⟨k + 1, by simp only [List.length_cons]; omega, by rw [k1]; simp, k2, ?_, ?_⟩
      · intro id hid
        simp only [List.map_cons, List.mem_cons, not_or] at hid
        rw [k3 id hid.2, put_other hid.1]
      · intro i j' hi
        cases i with
        | zero =>
          simp only [List.getElem?_cons_zero, Option.some.injEq] at hi
          subst hi
          rw [k3 _ hn.1, put_same, if_pos (by omega)]
        | succ i =>
          simp only [List.getElem?_cons_succ] at hi
          have hne : j'.1 ≠ j.1 := by
            intro e
            exact hn.1 (List.mem_map.2 ⟨j', List.mem_of_getElem? hi, e⟩)
          rw [k4 i j' hi, put_other hne]
          by_cases hik : i < k
          · rw [if_pos hik, if_pos (by omega)]
          · rw [if_neg hik, if_neg (by omega)]
    · have h2 : Net.onHidden j.1 j.2.1 b (s, n) = (.error e, b1, s, n) := by
        show ((j.2.1 b (s j.1)).1, (j.2.1 b (s j.1)).2.1, s.put j.1 (j.2.1 b (s j.1)).2.2, n) = _
        rw [h1, put_self_store]
      rw [bind_def, h2] at h'
      cases h'
      refine ⟨0, by omega, by simp, rfl, fun _ _ => rfl, fun i j' hi => ?_⟩
      rw [if_neg (by omega)]

theorem updateJob_does (p : Nat) : Job.Does (p, HLayer.updateX, Layer.upd) := by
  intro b h hk
  obtain ⟨L, k⟩ := h
  cases hk
  have h0 : HLayer.updateX b ⟨L, .dense⟩ = ((Layer.updateX b L).1, (Layer.updateX b L).2.1, ⟨(Layer.updateX b L).2.2, .dense⟩) := rfl
  rcases layer_update_cases b L with ⟨b', _, h1⟩ | ⟨e, b', h1⟩
  · exact Or.inl ⟨b', by show HLayer.updateX b ⟨L, .dense⟩ = _; rw [h0, h1]⟩
  · exact Or.inr ⟨e, b', by show HLayer.updateX b ⟨L, .dense⟩ = _; rw [h0, h1]⟩

theorem updateWithJob_does (p : Nat) (g : Mat ℝ) : Job.Does (p, HLayer.updateWithX g, fun L => L.updWith g) := by
  intro b h hk
  obtain ⟨L, k⟩ := h
  cases hk
  have h0 : HLayer.updateWithX g b ⟨L, .dense⟩ = ((Layer.updateWithX g b L).1, (Layer.updateWithX g b L).2.1, ⟨(Layer.updateWithX g b L).2.2, .dense⟩) := rfl
  rcases layer_updateWith_cases g b L with ⟨b', h1⟩ | ⟨e, b', h1⟩
  · exact Or.inl ⟨b', by show HLayer.updateWithX g b ⟨L, .dense⟩ = _; rw [h0, h1]⟩
  · exact Or.inr ⟨e, b', by show HLayer.updateWithX g b ⟨L, .dense⟩ = _; rw [h0, h1]⟩

theorem hiddenUpdateX_jobs : ∀ ps : List Nat, Net.hiddenUpdateX ps = runJobs (ps.map (fun p => (p, HLayer.updateX, Layer.upd)))
  | [] => rfl
  | p :: ps => by
    unfold Net.hiddenUpdateX
    rw [hiddenUpdateX_jobs ps]
    rfl

theorem hiddenUpdateWithX_jobs : ∀ (ps : List Nat) (gs : List (Mat ℝ)), ps.length ≤ gs.length →
    Net.hiddenUpdateWithX ps gs = runJobs (List.zipWith (fun p g => (p, HLayer.updateWithX g, fun L => L.updWith g)) ps gs)
  | [], _, _ => rfl
  | p :: ps, [], h => by simp at h
  | p :: ps, g :: gs, h => by
    unfold Net.hiddenUpdateWithX
    rw [hiddenUpdateWithX_jobs ps gs (by simpa using h)]
    rfl

theorem output_update_cases (b : Option Fault) (s : Store) (n : Net) :
    (∃ b', Net.onOutput (OutputLayer.base Layer.updateX) b (s, n) = (.ok (), b', s, { n with output := { n.output with toLayer := n.output.toLayer.upd } })) ∨
    ∃ e b', Net.onOutput (OutputLayer.base Layer.updateX) b (s, n) = (.error e, b', s, n) := by
  have h0 : Net.onOutput (OutputLayer.base Layer.updateX) b (s, n) = ((Layer.updateX b n.output.toLayer).1, (Layer.updateX b n.output.toLayer).2.1, s,
    { n with output := { n.output with toLayer := (Layer.updateX b n.output.toLayer).2.2 } }) := rfl
  rcases layer_update_cases b n.output.toLayer with ⟨b', _, h1⟩ | ⟨e, b', h1⟩
  · exact Or.inl ⟨b', by rw [h0, h1]⟩
  · exact Or.inr ⟨e, b', by rw [h0, h1]⟩

theorem output_updateWith_cases (g : Mat ℝ) (b : Option Fault) (s : Store) (n : Net) :
    (∃ b', Net.onOutput (OutputLayer.base (Layer.updateWithX g)) b (s, n) = (.ok (), b', s, { n with output := { n.output with toLayer := n.output.toLayer.updWith g } })) ∨
    ∃ e b', Net.onOutput (OutputLayer.base (Layer.updateWithX g)) b (s, n) = (.error e, b', s, n) := by
  have h0 : Net.onOutput (OutputLayer.base (Layer.updateWithX g)) b (s, n) = ((Layer.updateWithX g b n.output.toLayer).1, (Layer.updateWithX g b n.output.toLayer).2.1, s,
    { n with output := { n.output with toLayer := (Layer.updateWithX g b n.output.toLayer).2.2 } }) := rfl
  rcases layer_updateWith_cases g b n.output.toLayer with ⟨b', h1⟩ | ⟨e, b', h1⟩
  · exact Or.inl ⟨b', by rw [h0, h1]⟩
  · exact Or.inr ⟨e, b', by rw [h0, h1]⟩

/-- What an `update` of either kind leaves: the first `k` layers, in the order output layer, first hidden layer, second, ..., have made their step, the others are as before. -/
structure Updated (k : Nat) (out : Layer → Layer) (hid : Nat → Layer → Layer) (s : Store) (n : Net) (s' : Store) (n' : Net) : Prop where
  conf : n.SameConf n'
  output : n'.output.toLayer = if 0 < k then out n.output.toLayer else n.output.toLayer
  hidden : n'.hiddenLayers s' = (n.hiddenLayers s).mapIdx (fun i L => if i + 1 < k then hid i L else L)
  dense : ∀ id ∈ n.hidden, (s' id).kind = .dense
  others : ∀ id, id ∉ n.hidden → s' id = s id

theorem updated_of_jobs {out : Layer → Layer} {hid : Nat → Layer → Layer} {js : List Job} {s s' : Store} {n n' n1 : Net} {b b' : Option Fault} {r : Res Unit}
    (hn : n.hidden.Nodup) (hd : ∀ id ∈ n.hidden, (s id).kind = .dense) (h1 : n1 = { n with output := { n.output with toLayer := out n.output.toLayer } })
    (hids : js.map (·.1) = n.hidden) (hdo : ∀ j ∈ js, Job.Does j) (hjs : ∀ i j, js[i]? = some j → j.2.2 = hid i) (e : runJobs js b (s, n1) = (r, b', s', n')) :
    ∃ k, 0 < k ∧ k ≤ n.hidden.length + 1 ∧ (r = .ok () ↔ k = n.hidden.length + 1) ∧ Updated k out hid s n s' n' := by
  have hlen : js.length = n.hidden.length := by rw [← hids, List.length_map]
  obtain ⟨k, k1, k2, k3, k4, k5⟩ := runJobs_prefix (by rw [hids]; exact hn) (fun j hj => ⟨hdo j hj, hd j.1 (by rw [← hids]; exact List.mem_map.2 ⟨j, hj, rfl⟩)⟩) e
  have key : ∀ (i id : Nat), n.hidden[i]? = some id → s' id = if i < k then ⟨hid i (s id).base, .dense⟩ else s id := by
    intro i id hi
    rw [← hids, List.getElem?_map, Option.map_eq_some_iff] at hi
    obtain ⟨j, hj, rfl⟩ := hi
    rw [k5 i j hj, hjs i j hj]
  refine ⟨k + 1, by omega, by omega, by rw [k2]; omega, ?_⟩
  subst h1
  subst k3
  refine ⟨⟨rfl, rfl, rfl, rfl, rfl⟩, by rw [if_pos (by omega)], ?_, ?_, by rw [hids] at k4; exact k4⟩
  · refine List.ext_getElem? fun i => ?_
    unfold Net.hiddenLayers
    simp only [List.getElem?_mapIdx, List.getElem?_map, Option.map_map]
    cases hi : n.hidden[i]? with
    | none => rfl
    | some id =>
      simp only [Option.map_some, Function.comp]
      rw [key i id hi]
      by_cases hik : i < k
      · rw [if_pos hik, if_pos (by omega)]
      · rw [if_neg hik, if_neg (by omega)]
  · intro id hid'
    obtain ⟨i, hi⟩ := List.mem_iff_getElem?.1 hid'
    rw [key i id hi]
    split
    · rfl
    · exact hd id hid'

theorem updated_zero {out : Layer → Layer} {hid : Nat → Layer → Layer} {s : Store} {n : Net} (hd : ∀ id ∈ n.hidden, (s id).kind = .dense) : Updated 0 out hid s n s n := by
  refine ⟨.rfl, rfl, ?_, hd, fun _ _ => rfl⟩
  simp only [Nat.not_lt_zero, if_false]
  exact (List.mapIdx_eq_iff.2 fun i => by simp).symm

/-- **C82** (update). A network of dense layers, no object used twice: when `update()` throws, because some gradient does not have the size of the weights or because memory runs out, the layers form two groups: in the
order output layer, first hidden layer, second hidden layer, ..., the first `k` have made exactly their gradient step and the others are exactly as before; it returns if and only if all have made it. -/
theorem C82_update {s s' : Store} {n n' : Net} {b b' : Option Fault} {r : Res Unit} (hn : n.hidden.Nodup) (hd : ∀ id ∈ n.hidden, (s id).kind = .dense)
    (e : Net.updateX b (s, n) = (r, b', s', n')) :
    ∃ k, k ≤ n.hidden.length + 1 ∧ (r = .ok () ↔ k = n.hidden.length + 1) ∧ Updated k Layer.upd (fun _ => Layer.upd) s n s' n' := by
  have e' : (Net.onOutput (OutputLayer.base Layer.updateX) >>= fun _ => X.get (fun st : Store × Net => st.2.hidden) >>= Net.hiddenUpdateX) b (s, n) = (r, b', s', n') := e
  rw [bind_def] at e'
  rcases output_update_cases b s n with ⟨b1, h1⟩ | ⟨er, b1, h1⟩
  · rw [h1] at e'
    have e2 : Net.hiddenUpdateX n.hidden b1 (s, { n with output := { n.output with toLayer := n.output.toLayer.upd } }) = (r, b', s', n') := e'
    rw [hiddenUpdateX_jobs] at e2
    obtain ⟨k, -, k1, k2, k3⟩ := updated_of_jobs (out := Layer.upd) (hid := fun _ => Layer.upd) hn hd rfl (by rw [List.map_map]; exact List.map_id' _)
      (fun j hj => by obtain ⟨p, _, rfl⟩ := List.mem_map.1 hj; exact updateJob_does p)
      (fun i j hi => by rw [List.getElem?_map, Option.map_eq_some_iff] at hi; obtain ⟨p, _, rfl⟩ := hi; rfl) e2
    exact ⟨k, k1, k2, k3⟩
  · rw [h1] at e'
    cases e'
    exact ⟨0, by omega, by simp, updated_zero hd⟩

/-- The same for `update(ograd, hgrad)`. -/
theorem C82_updateWith {s s' : Store} {n n' : Net} {b b' : Option Fault} {r : Res Unit} {og : Mat ℝ} {hg : List (Mat ℝ)} (hn : n.hidden.Nodup) (hd : ∀ id ∈ n.hidden, (s id).kind = .dense)
    (hl : n.hidden.length ≤ hg.length) (e : Net.updateWithX og hg b (s, n) = (r, b', s', n')) :
    ∃ k, k ≤ n.hidden.length + 1 ∧ (r = .ok () ↔ k = n.hidden.length + 1) ∧ Updated k (fun L => L.updWith og) (fun i L => L.updWith (hg.getD i .empty)) s n s' n' := by
  have e' : (Net.onOutput (OutputLayer.base (Layer.updateWithX og)) >>= fun _ => X.get (fun st : Store × Net => st.2.hidden) >>= fun hid => Net.hiddenUpdateWithX hid hg) b (s, n) = (r, b', s', n') := e
  rw [bind_def] at e'
  rcases output_updateWith_cases og b s n with ⟨b1, h1⟩ | ⟨er, b1, h1⟩
  · rw [h1] at e'
    have e2 : Net.hiddenUpdateWithX n.hidden hg b1 (s, { n with output := { n.output with toLayer := n.output.toLayer.updWith og } }) = (r, b', s', n') := e'
    rw [hiddenUpdateWithX_jobs _ _ hl] at e2
    obtain ⟨k, -, k1, k2, k3⟩ := updated_of_jobs (out := fun L => L.updWith og) (hid := fun i L => L.updWith (hg.getD i .empty)) hn hd rfl
      (by
        refine List.ext_getElem? fun i => ?_
        rw [List.getElem?_map, List.getElem?_zipWith]
        cases h2 : n.hidden[i]? with
        | none => rfl
        | some id =>
          have hi := (List.getElem?_eq_some_iff.1 h2).1
          rw [List.getElem?_eq_getElem (l := hg) (by omega)]
          rfl)
      (fun j hj => by
        obtain ⟨i, hi⟩ := List.mem_iff_getElem?.1 hj
        rw [List.getElem?_zipWith] at hi
        cases h2 : n.hidden[i]? with
        | none => rw [h2] at hi; cases hi
        | some id =>
          cases h3 : hg[i]? with
          | none => rw [h2, h3] at hi; cases hi
          | some g => rw [h2, h3] at hi; cases hi; exact updateWithJob_does id g)
      (fun i j hi => by
        rw [List.getElem?_zipWith] at hi
        cases h2 : n.hidden[i]? with
        | none => rw [h2] at hi; cases hi
        | some id =>
          cases h3 : hg[i]? with
          | none => rw [h2, h3] at hi; cases hi
          | some g => rw [h2, h3] at hi; cases hi; funext L; rw [List.getD_eq_getElem?_getD, h3]; rfl) e2
    exact ⟨k, k1, k2, k3⟩
  · rw [h1] at e'
    cases e'
    exact ⟨0, by omega, by simp, updated_zero hd⟩

end
end Nnet.NN
