import Verif.NN.PropsExn4
import Verif.NN.PropsDecay
import Verif.NN.PropsEpoch
/-!
# C95: a layer whose learning rate is zero is frozen
-/
namespace Nnet.NN
noncomputable section
open X

/-! ## Specification -/

/-- A dense hidden layer with learning rate zero is still one afterwards, with the very same weights. -/
def Spec.FrozenLayer (h h' : HLayer) : Prop :=
  h.kind = .dense → h.base.lrate = 0 → h'.kind = .dense ∧ h'.base.lrate = 0 ∧ h'.base.W = h.base.W

/-- An output layer with learning rate zero still has learning rate zero and the very same weights. -/
def Spec.FrozenOutput (o o' : OutputLayer) : Prop := o.lrate = 0 → o'.lrate = 0 ∧ o'.W = o.W

/-- The learning rate of every layer of the program is kept; a layer with learning rate zero keeps its weights. -/
structure Spec.Frozen (w w' : World) : Prop where
  hidden : ∀ id, Spec.FrozenLayer (w.store id) (w'.store id)
  output : ∀ k, Spec.FrozenOutput (w.nets k).output (w'.nets k).output

/-- A call for the network `k` of the program that may return or throw. -/
inductive Spec.NetCall (junk : Nat → Nat → ℝ) : World → World → Prop
  | forwardprop (w : World) (k : Nat) (x : Mat ℝ) (b b' : Option Fault) (r : Res (Mat ℝ)) (s : Store) (n : Net) :
      Net.forwardpropX junk x b (w.store, w.nets k) = (r, b', s, n) → Spec.NetCall junk w (w.put k s n)
  | backprop (w : World) (k : Nat) (y : Mat ℝ) (b b' : Option Fault) (r : Res Unit) (s : Store) (n : Net) :
      Net.backpropX junk y b (w.store, w.nets k) = (r, b', s, n) → Spec.NetCall junk w (w.put k s n)
  | predict (w : World) (k : Nat) (x : Mat ℝ) (b b' : Option Fault) (r : Res (Mat ℝ)) (s : Store) (n : Net) :
      Net.predictX junk x b (w.store, w.nets k) = (r, b', s, n) → Spec.NetCall junk w (w.put k s n)
  | update (w : World) (k : Nat) (b b' : Option Fault) (r : Res Unit) (s : Store) (n : Net) :
      Net.updateX b (w.store, w.nets k) = (r, b', s, n) → Spec.NetCall junk w (w.put k s n)
  | updateWith (w : World) (k : Nat) (og : Mat ℝ) (hg : List (Mat ℝ)) (b b' : Option Fault) (r : Res Unit) (s : Store) (n : Net) :
      Net.updateWithX og hg b (w.store, w.nets k) = (r, b', s, n) → Spec.NetCall junk w (w.put k s n)

/-- A call of `feeddata` of a trainer of any of the four classes, that does not decay the learning rate, for any network, with any data. -/
inductive Spec.TrainCall (junk : Nat → Nat → ℝ) : World → World → Prop
  | trainer (w w' : World) (t t' : Trainer) (x y : Mat ℝ) (b b' : Option Fault) (r : Res Unit) :
      t.usedecay = false → Trainer.feeddataX junk x y b (w, t) = (r, b', w', t') → Spec.TrainCall junk w w'
  | sgd (w w' : World) (t t' : Trainer) (x y : Mat ℝ) (b b' : Option Fault) (r : Res Unit) :
      t.usedecay = false → SGD.feeddataX junk x y b (w, t) = (r, b', w', t') → Spec.TrainCall junk w w'
  | batch (w w' : World) (t t' : BatchTrainer) (x y : Mat ℝ) (b b' : Option Fault) (r : Res Unit) :
      t.usedecay = false → BatchTrainer.feeddataX junk x y b (w, t) = (r, b', w', t') → Spec.TrainCall junk w w'
  | momentum (w w' : World) (t t' : MomentumTrainer) (x y : Mat ℝ) (b b' : Option Fault) (r : Res Unit) :
      t.usedecay = false → MomentumTrainer.feeddataX junk x y b (w, t) = (r, b', w', t') → Spec.TrainCall junk w w'

/-- A history of such calls, one after another, in any number. -/
inductive Spec.Session (junk : Nat → Nat → ℝ) : World → World → Prop
  | none (w : World) : Spec.Session junk w w
  | net {w w1 w2 : World} : Spec.Session junk w w1 → Spec.NetCall junk w1 w2 → Spec.Session junk w w2
  | train {w w1 w2 : World} : Spec.Session junk w w1 → Spec.TrainCall junk w1 w2 → Spec.Session junk w w2

/-! ## Layers -/

def FrozL (L M : Layer) : Prop := L.lrate = 0 → M.lrate = 0 ∧ M.W = L.W
theorem FrozL.refl (L : Layer) : FrozL L L := fun h => ⟨h, rfl⟩
theorem FrozL.trans (a b c : Layer) (h : FrozL a b) (h' : FrozL b c) : FrozL a c := fun h0 =>
  ⟨(h' (h h0).1).1, (h' (h h0).1).2.trans (h h0).2⟩

theorem FrozL.of_core {L M : Layer} (h : SameCore L M) : FrozL L M := by
  intro h0
  unfold SameCore Layer.core at h
  simp only [Prod.mk.injEq] at h
  refine ⟨?_, ?_⟩
  · rw [← h0]; tauto
  · tauto

theorem Keeps.mono {σ α : Type} {R Q : σ → σ → Prop} {m : X σ α} (h : Keeps R m) (hm : ∀ s t, R s t → Q s t) : Keeps Q m := fun b s => hm _ _ (h b s)

theorem sub_zero_smul {W g m : Mat ℝ} {r : ℝ} (hr : r = 0) (h : W.sub (g.smul r) = .ok m) : m = W := by
  obtain ⟨k1, k2, k3⟩ := zip_eq_ok h
  subst hr
  rw [k3]
  refine Mat.ext' rfl rfl (fun i j hi hj => ?_)
  have hi' : i < W.nr := hi
  have hj' : j < W.nc := hj
  rw [Mat.of_f' hi' hj']
  show W.f i j - (g.smul 0).f i j = _
  unfold Mat.smul
  rw [Mat.map_f' (by rw [k1] at hi'; exact hi') (by rw [k2] at hj'; exact hj')]
  ring

theorem layer_update_frozen : Keeps FrozL Layer.updateX := by
  unfold Layer.updateX
  refine Keeps.bind FrozL.trans (Keeps.op FrozL.refl ?_ FrozL.refl) fun _ => Keeps.ret FrozL.refl ()
  intro L m h h0
  exact ⟨h0, sub_zero_smul h0 h⟩

theorem layer_updateWith_frozen (g : Mat ℝ) : Keeps FrozL (Layer.updateWithX g) := by
  unfold Layer.updateWithX
  refine Keeps.bind FrozL.trans (Keeps.eval FrozL.refl) fun g' => Keeps.bind FrozL.trans (Keeps.op FrozL.refl ?_ FrozL.refl) fun _ => Keeps.ret FrozL.refl ()
  intro L m h h0
  exact ⟨h0, sub_zero_smul h0 h⟩

theorem hidden_update_frozen : Keeps Spec.FrozenLayer HLayer.updateX := by
  intro b h hk h0
  have e : HLayer.updateX b h = (match h.kind with
    | .dense => HLayer.dense Layer.updateX
    | _ => HLayer.other (fun h => do let h ← h.update; .ok ((), h))) b h := rfl
  rw [e, hk]
  exact ⟨hk, layer_update_frozen b h.base h0⟩

theorem hidden_updateWith_frozen (g : Mat ℝ) : Keeps Spec.FrozenLayer (HLayer.updateWithX g) := by
  intro b h hk h0
  have e : HLayer.updateWithX g b h = (match h.kind with
    | .dense => HLayer.dense (Layer.updateWithX g)
    | _ => HLayer.other (fun h => do let h ← h.updateWith g; .ok ((), h))) b h := rfl
  rw [e, hk]
  exact ⟨hk, layer_updateWith_frozen g b h.base h0⟩

theorem hidden_forward_frozen (junk : Nat → Nat → ℝ) (pa : Mat ℝ) : Keeps Spec.FrozenLayer (HLayer.forwardpropX junk pa) :=
  Keeps.mono (hidden_forward_keeps junk pa) (fun _ _ h hk h0 => ⟨(h hk).1, FrozL.of_core (h hk).2 h0⟩)

theorem hidden_backward_frozen (junk : Nat → Nat → ℝ) (d : Mat ℝ) : Keeps Spec.FrozenLayer (HLayer.backpropX junk d) :=
  Keeps.mono (hidden_backward_keeps junk d) (fun _ _ h hk h0 => ⟨(h hk).1, FrozL.of_core (h hk).2 h0⟩)

/-! ## Networks -/

def FrozN (st st' : Store × Net) : Prop := (∀ id, Spec.FrozenLayer (st.1 id) (st'.1 id)) ∧ Spec.FrozenOutput st.2.output st'.2.output

theorem Spec.FrozenLayer.refl (h : HLayer) : Spec.FrozenLayer h h := fun hk h0 => ⟨hk, h0, rfl⟩
theorem Spec.FrozenLayer.trans {a b c : HLayer} (h : Spec.FrozenLayer a b) (h' : Spec.FrozenLayer b c) : Spec.FrozenLayer a c := fun hk h0 => by
  obtain ⟨h1, h2, h3⟩ := h hk h0
  obtain ⟨k1, k2, k3⟩ := h' h1 h2
  exact ⟨k1, k2, k3.trans h3⟩
theorem Spec.FrozenOutput.refl (o : OutputLayer) : Spec.FrozenOutput o o := fun h0 => ⟨h0, rfl⟩
theorem Spec.FrozenOutput.trans {a b c : OutputLayer} (h : Spec.FrozenOutput a b) (h' : Spec.FrozenOutput b c) : Spec.FrozenOutput a c := fun h0 =>
  ⟨(h' (h h0).1).1, (h' (h h0).1).2.trans (h h0).2⟩

theorem FrozN.refl (st : Store × Net) : FrozN st st := ⟨fun _ => Spec.FrozenLayer.refl _, Spec.FrozenOutput.refl _⟩
theorem FrozN.trans (a b c : Store × Net) (h : FrozN a b) (h' : FrozN b c) : FrozN a c := ⟨fun id => Spec.FrozenLayer.trans (h.1 id) (h'.1 id), Spec.FrozenOutput.trans h.2 h'.2⟩

theorem onHidden_frozen {α : Type} (p : Nat) {m : X HLayer α} (h : Keeps Spec.FrozenLayer m) : Keeps FrozN (Net.onHidden p m) := by
  refine Keeps.on h ?_
  intro st h' hh
  refine ⟨fun id => ?_, Spec.FrozenOutput.refl _⟩
  by_cases e : id = p
  · subst e
    show Spec.FrozenLayer _ (st.1.put id h' id)
    rw [put_same]; exact hh
  · show Spec.FrozenLayer _ (st.1.put p h' id)
    rw [put_other e]; exact Spec.FrozenLayer.refl _

theorem onOutput_frozen {α : Type} {m : X OutputLayer α} (h : Keeps Spec.FrozenOutput m) : Keeps FrozN (Net.onOutput m) :=
  Keeps.on h fun _ _ hh => ⟨fun _ => Spec.FrozenLayer.refl _, hh⟩

theorem onInput_frozen {α : Type} (m : X Layer α) : Keeps FrozN (Net.onInput m) :=
  Keeps.on (Q := fun _ _ => True) (fun _ _ => trivial) fun _ _ _ => ⟨fun _ => Spec.FrozenLayer.refl _, Spec.FrozenOutput.refl _⟩

theorem result_frozen (e : Store × Net → Res (Mat ℝ)) : Keeps FrozN (X.assign (fun m st => (st.1, { st.2 with result := m })) e) :=
  Keeps.assign FrozN.refl FrozN.trans fun _ _ => ⟨fun _ => Spec.FrozenLayer.refl _, Spec.FrozenOutput.refl _⟩

theorem output_of_layer {α : Type} {m : X Layer α} (h : Keeps FrozL m) : Keeps Spec.FrozenOutput (OutputLayer.base m) :=
  Keeps.on h fun _ _ hh h0 => hh h0

theorem output_backward_frozen (y : Mat ℝ) : Keeps Spec.FrozenOutput (OutputLayer.backpropX y) :=
  Keeps.mono (output_backward_keeps y) (fun _ _ h h0 => FrozL.of_core h.1 h0)

theorem hiddenForward_frozen (junk : Nat → Nat → ℝ) : ∀ (ps : List Nat) (c : Mat ℝ), Keeps FrozN (Net.hiddenForwardX junk ps c)
  | [], c => Keeps.ret FrozN.refl c
  | p :: ps, c => by
    unfold Net.hiddenForwardX
    exact Keeps.bind FrozN.trans (onHidden_frozen p (hidden_forward_frozen junk c)) fun n => Keeps.bind FrozN.trans (Keeps.eval FrozN.refl) fun n => hiddenForward_frozen junk ps n

theorem hiddenBackward_frozen (junk : Nat → Nat → ℝ) : ∀ (ps : List Nat) (c : Mat ℝ), Keeps FrozN (Net.hiddenBackwardX junk ps c)
  | [], c => Keeps.ret FrozN.refl ()
  | p :: ps, c => by
    unfold Net.hiddenBackwardX
    exact Keeps.bind FrozN.trans (onHidden_frozen p (hidden_backward_frozen junk c)) fun n => Keeps.bind FrozN.trans (Keeps.eval FrozN.refl) fun n => hiddenBackward_frozen junk ps n

theorem hiddenUpdate_frozen : ∀ ps : List Nat, Keeps FrozN (Net.hiddenUpdateX ps)
  | [] => Keeps.ret FrozN.refl ()
  | p :: ps => by
    unfold Net.hiddenUpdateX
    exact Keeps.bind FrozN.trans (onHidden_frozen p hidden_update_frozen) fun _ => hiddenUpdate_frozen ps

theorem hiddenUpdateWith_frozen : ∀ (ps : List Nat) (gs : List (Mat ℝ)), Keeps FrozN (Net.hiddenUpdateWithX ps gs)
  | [], _ => by unfold Net.hiddenUpdateWithX; exact Keeps.ret FrozN.refl ()
  | _ :: _, [] => by unfold Net.hiddenUpdateWithX; exact Keeps.eval FrozN.refl
  | p :: ps, g :: gs => by
    unfold Net.hiddenUpdateWithX
    exact Keeps.bind FrozN.trans (onHidden_frozen p (hidden_updateWith_frozen g)) fun _ => hiddenUpdateWith_frozen ps gs

theorem net_forward_frozen (junk : Nat → Nat → ℝ) (x : Mat ℝ) : Keeps FrozN (Net.forwardpropX junk x) := by
  unfold Net.forwardpropX
  exact Keeps.bind FrozN.trans (onInput_frozen _) fun c => Keeps.bind FrozN.trans (Keeps.get FrozN.refl _) fun ps => Keeps.bind FrozN.trans (hiddenForward_frozen junk ps c) fun c =>
    Keeps.bind FrozN.trans (onOutput_frozen (output_of_layer (Keeps.mono (layer_forward_keeps c) fun _ _ h => FrozL.of_core h))) fun r => Keeps.bind FrozN.trans (result_frozen _) fun _ => Keeps.eval FrozN.refl

theorem net_backward_frozen (junk : Nat → Nat → ℝ) (y : Mat ℝ) : Keeps FrozN (Net.backpropX junk y) := by
  unfold Net.backpropX
  exact Keeps.bind FrozN.trans (onOutput_frozen (output_backward_frozen y)) fun d => Keeps.bind FrozN.trans (Keeps.get FrozN.refl _) fun ps => hiddenBackward_frozen junk _ d

theorem net_update_frozen : Keeps FrozN Net.updateX := by
  unfold Net.updateX
  exact Keeps.bind FrozN.trans (onOutput_frozen (output_of_layer layer_update_frozen)) fun _ => Keeps.bind FrozN.trans (Keeps.get FrozN.refl _) fun ps => hiddenUpdate_frozen ps

theorem net_updateWith_frozen (og : Mat ℝ) (hg : List (Mat ℝ)) : Keeps FrozN (Net.updateWithX og hg) := by
  unfold Net.updateWithX
  exact Keeps.bind FrozN.trans (onOutput_frozen (output_of_layer (layer_updateWith_frozen og))) fun _ => Keeps.bind FrozN.trans (Keeps.get FrozN.refl _) fun ps => hiddenUpdateWith_frozen ps hg

theorem net_predict_frozen (junk : Nat → Nat → ℝ) (x : Mat ℝ) : Keeps FrozN (Net.predictX junk x) := by
  unfold Net.predictX
  exact Keeps.bind FrozN.trans (net_forward_frozen junk x) fun r => Keeps.bind FrozN.trans (result_frozen _) fun _ => Keeps.eval FrozN.refl

theorem net_trainOn_frozen (junk : Nat → Nat → ℝ) (x y : Mat ℝ) : Keeps FrozN (Net.trainOnX junk x y) := by
  unfold Net.trainOnX
  exact Keeps.bind FrozN.trans (net_forward_frozen junk x) fun _ => Keeps.bind FrozN.trans (net_backward_frozen junk y) fun _ => net_update_frozen

/-! ## Trainers -/

theorem Spec.Frozen.refl (w : World) : Spec.Frozen w w := ⟨fun _ => Spec.FrozenLayer.refl _, fun _ => Spec.FrozenOutput.refl _⟩
theorem Spec.Frozen.trans {a b c : World} (h : Spec.Frozen a b) (h' : Spec.Frozen b c) : Spec.Frozen a c :=
  ⟨fun id => Spec.FrozenLayer.trans (h.hidden id) (h'.hidden id), fun k => Spec.FrozenOutput.trans (h.output k) (h'.output k)⟩

theorem frozen_put {w : World} {k : Nat} {s : Store} {n : Net} (h : FrozN (w.store, w.nets k) (s, n)) : Spec.Frozen w (w.put k s n) := by
  refine ⟨h.1, fun q => ?_⟩
  by_cases e : q = k
  · subst e
    show Spec.FrozenOutput _ (if q = q then n else w.nets q).output
    rw [if_pos rfl]; exact h.2
  · show Spec.FrozenOutput _ (if q = k then n else w.nets q).output
    rw [if_neg e]; exact Spec.FrozenOutput.refl _

/-- What holds of a trainer without decay. -/
def FrozW {τ : Type} (base : τ → Trainer) (st st' : World × τ) : Prop := (base st.2).usedecay = false → (base st'.2).usedecay = false ∧ Spec.Frozen st.1 st'.1

section
variable {τ : Type} (base : τ → Trainer)
theorem FrozW.refl (st : World × τ) : FrozW base st st := fun h => ⟨h, Spec.Frozen.refl _⟩
theorem FrozW.trans (a b c : World × τ) (h : FrozW base a b) (h' : FrozW base b c) : FrozW base a c := fun h0 =>
  ⟨(h' (h h0).1).1, (h h0).2.trans (h' (h h0).1).2⟩

theorem onNet_frozen {α : Type} (nnet : τ → Nat) {m : X (Store × Net) α} (h : Keeps FrozN m) : Keeps (FrozW base) (onNet nnet m) :=
  Keeps.on h fun _ _ hh h0 => ⟨h0, frozen_put hh⟩

theorem decay_frozen (nnet : τ → Nat) : Keeps (FrozW base) (X.modify (fun st => let r := (base st.2).decay st.1.store (st.1.nets (nnet st.2)); (st.1.put (nnet st.2) r.1 r.2, st.2))) := by
  refine Keeps.modify ?_
  intro st h0
  refine ⟨h0, ?_⟩
  simp only [decay_off h0]
  exact frozen_put (FrozN.refl _)
end

theorem trainer_frozen (junk : Nat → Nat → ℝ) (x y : Mat ℝ) : Keeps (FrozW id) (Trainer.feeddataX junk x y) := by
  unfold Trainer.feeddataX
  exact Keeps.bind (FrozW.trans _) (Keeps.modify fun st h0 => ⟨h0, Spec.Frozen.refl _⟩) fun _ => Keeps.bind (FrozW.trans _) (decay_frozen id Trainer.nnet) fun _ =>
    onNet_frozen _ _ (net_trainOn_frozen junk x y)

theorem sgd_frozen (junk : Nat → Nat → ℝ) (x y : Mat ℝ) : Keeps (FrozW id) (SGD.feeddataX junk x y) := by
  unfold SGD.feeddataX
  refine Keeps.bind (FrozW.trans _) (Keeps.modify fun st h0 => ⟨h0, Spec.Frozen.refl _⟩) fun _ => Keeps.bind (FrozW.trans _) (decay_frozen id Trainer.nnet) fun _ =>
    onNet_frozen _ _ (Keeps.loop FrozN.refl FrozN.trans (fun i => ?_) _)
  exact Keeps.bind FrozN.trans (Keeps.eval FrozN.refl) fun xi => Keeps.bind FrozN.trans (net_forward_frozen junk xi) fun _ => Keeps.bind FrozN.trans (Keeps.eval FrozN.refl) fun yi =>
    Keeps.bind FrozN.trans (net_backward_frozen junk yi) fun _ => net_update_frozen

theorem batch_frozen (junk : Nat → Nat → ℝ) (x y : Mat ℝ) : Keeps (FrozW BatchTrainer.toTrainer) (BatchTrainer.feeddataX junk x y) := by
  unfold BatchTrainer.feeddataX
  have T := FrozW.trans BatchTrainer.toTrainer
  have R := FrozW.refl BatchTrainer.toTrainer
  refine Keeps.bind T (Keeps.assign R T fun m st h0 => ⟨h0, Spec.Frozen.refl _⟩) fun _ => Keeps.bind T (Keeps.assign R T fun m st h0 => ⟨h0, Spec.Frozen.refl _⟩) fun _ =>
    Keeps.bind T (Keeps.get R _) fun bs => Keeps.bind T (Keeps.eval R) fun tx => Keeps.bind T (Keeps.eval R) fun ty => Keeps.bind T (Keeps.loop R T (fun i => ?_) _) fun _ =>
    decay_frozen BatchTrainer.toTrainer (fun t => t.nnet)
  exact Keeps.bind T (Keeps.eval R) fun xi => Keeps.bind T (onNet_frozen _ _ (net_forward_frozen junk xi)) fun _ => Keeps.bind T (Keeps.eval R) fun yi =>
    Keeps.bind T (onNet_frozen _ _ (net_backward_frozen junk yi)) fun _ => Keeps.bind T (onNet_frozen _ _ net_update_frozen) fun _ => Keeps.modify fun st h0 => ⟨h0, Spec.Frozen.refl _⟩

theorem momentum_frozen (junk : Nat → Nat → ℝ) (x y : Mat ℝ) : Keeps (FrozW MomentumTrainer.toTrainer) (MomentumTrainer.feeddataX junk x y) := by
  unfold MomentumTrainer.feeddataX
  have T := FrozW.trans MomentumTrainer.toTrainer
  have R := FrozW.refl MomentumTrainer.toTrainer
  exact Keeps.bind T (Keeps.modify fun st h0 => ⟨h0, Spec.Frozen.refl _⟩) fun _ => Keeps.bind T (decay_frozen MomentumTrainer.toTrainer (fun t => t.nnet)) fun _ =>
    Keeps.bind T (onNet_frozen _ _ (net_forward_frozen junk x)) fun _ => Keeps.bind T (onNet_frozen _ _ (net_backward_frozen junk y)) fun _ =>
    Keeps.bind T (Keeps.assign R T fun m st h0 => ⟨h0, Spec.Frozen.refl _⟩) fun _ => Keeps.bind T (Keeps.get R _) fun n =>
    Keeps.bind T (Keeps.mono (mixAllX_keeps 0 n) fun st st' h h0 => by
      refine ⟨by rw [h.2]; exact h0, ?_⟩
      rw [h.1]; exact Spec.Frozen.refl _) fun _ =>
    Keeps.bind T (Keeps.get R _) fun og => Keeps.bind T (Keeps.get R _) fun hg => onNet_frozen _ _ (net_updateWith_frozen og hg)

theorem netCall_frozen {junk : Nat → Nat → ℝ} {w w' : World} (h : Spec.NetCall junk w w') : Spec.Frozen w w' := by
  cases h with
  | forwardprop k x b b' r s n e => have := net_forward_frozen junk x b (w.store, w.nets k); rw [e] at this; exact frozen_put this
  | backprop k y b b' r s n e => have := net_backward_frozen junk y b (w.store, w.nets k); rw [e] at this; exact frozen_put this
  | predict k x b b' r s n e => have := net_predict_frozen junk x b (w.store, w.nets k); rw [e] at this; exact frozen_put this
  | update k b b' r s n e => have := net_update_frozen b (w.store, w.nets k); rw [e] at this; exact frozen_put this
  | updateWith k og hg b b' r s n e => have := net_updateWith_frozen og hg b (w.store, w.nets k); rw [e] at this; exact frozen_put this

theorem trainCall_frozen {junk : Nat → Nat → ℝ} {w w' : World} (h : Spec.TrainCall junk w w') : Spec.Frozen w w' := by
  cases h with
  | trainer t t' x y b b' r ht e => have := trainer_frozen junk x y b (w, t) ht; rw [e] at this; exact this.2
  | sgd t t' x y b b' r ht e => have := sgd_frozen junk x y b (w, t) ht; rw [e] at this; exact this.2
  | batch t t' x y b b' r ht e => have := batch_frozen junk x y b (w, t) ht; rw [e] at this; exact this.2
  | momentum t t' x y b b' r ht e => have := momentum_frozen junk x y b (w, t) ht; rw [e] at this; exact this.2

/-- **C95.** However long a program trains, on whatever data, with trainers of whatever class that do not decay the learning rate, with calls of the networks in between, whether the calls return or throw or run out of
memory, and however the networks share layers: a dense layer whose learning rate is zero has learning rate zero and the very same weights at the end. -/
theorem C95_frozen {junk : Nat → Nat → ℝ} {w w' : World} (h : Spec.Session junk w w') : Spec.Frozen w w' := by
  induction h with
  | none => exact Spec.Frozen.refl _
  | net _ h ih => exact ih.trans (netCall_frozen h)
  | train _ h ih => exact ih.trans (trainCall_frozen h)

/-- **C95** (the restriction to trainers without decay is needed). When a trainer that decays the learning rate reaches its step, its network's layers all get the decayed rate, those that were frozen included:
their learning rate is no longer zero. -/
theorem C95_decay_thaws {junk : Nat → Nat → ℝ} {w w' : World} {t t' : Trainer} {x y : Mat ℝ} (hu : t.usedecay = true) (hs : t.iters + 1 = t.step) (hb : t.step < 2 ^ 64) (h0 : t.r0 ≠ 0)
    (e : t.feeddata junk w x y = .ok (w', t')) :
    (w'.nets t.nnet).hidden = (w.nets t.nnet).hidden ∧ (w'.nets t.nnet).output.lrate ≠ 0 ∧ ∀ id ∈ (w.nets t.nnet).hidden, (w'.store id).base.lrate ≠ 0 := by
  have hc : t.count.iters = t.count.step := by
    show (t.iters + 1) % 2 ^ 64 = t.step
    rw [hs, Nat.mod_eq_of_lt hb]
  obtain ⟨h1, h2⟩ := (decay_rates t.count w.store (w.nets t.nnet)).1 hu hc
  unfold Trainer.feeddata at e
  obtain ⟨⟨s, n⟩, e1, e2⟩ := bind_eq_ok e
  cases e2
  have hr := trainOn_rates e1
  have h3 := hr.all h2
  have hne : t.r0 * Real.exp (-t.k * t.step) ≠ 0 := mul_ne_zero h0 (Real.exp_ne_zero _)
  have hn : ((w.put t.count.nnet s n).nets t.nnet) = n := if_pos rfl
  have hh : n.hidden = (w.nets t.nnet).hidden := hr.hidden.trans h1
  rw [hn]
  refine ⟨hh, ?_, fun id hid => ?_⟩
  · rw [h3.2.1]; exact hne
  · show (s id).base.lrate ≠ 0
    rw [h3.2.2 id (by rw [hh]; exact hid)]; exact hne

/-! ## A concrete case -/

/-- The store of the example network, with its hidden layer frozen. -/
def fzStore : Store := fun _ => ⟨{ exLayer Act.sigmoid (Mat.of 3 3 (fun i j => (i : ℝ) - j)) with lrate := 0 }, .dense⟩

/-- A session in which the hidden layer of a 2-3-2 network is frozen while its output layer learns: both get a step along a gradient whose entries are all one. -/
example (junk : Nat → Nat → ℝ) : ∃ w w' : World, Spec.Session junk w w' ∧ (w.store 7).kind = .dense ∧ (w.store 7).base.lrate = 0 ∧ (w.nets 0).hidden = [7] ∧
    (w'.nets 0).output.W ≠ (w.nets 0).output.W ∧ (w'.store 7).base.W = (w.store 7).base.W := by
  let w : World := ⟨fun _ => exNet, fzStore⟩
  let og : Mat ℝ := Mat.of 4 2 (fun _ _ => 1)
  let hg : List (Mat ℝ) := [Mat.of 3 3 (fun _ _ => 1)]
  have e : ∃ s n, exNet.updateWith fzStore og hg = .ok (s, n) ∧ n.output.W.f 0 0 = -(1 / 10) := by
    unfold Net.updateWith
    rw [Layer.updateWith_ok (by rfl) (by rfl), ok_bind]
    simp only [show exNet.hidden = [7] from rfl, Net.hiddenUpdateWith, HLayer.updateWith, show (fzStore 7).kind = .dense from rfl, hg]
    rw [Layer.updateWith_ok (by rfl) (by rfl)]
    refine ⟨_, _, rfl, ?_⟩
    unfold Layer.updWith
    show (Mat.of 4 2 (fun i j => (Mat.of 4 2 (fun i j => (i : ℝ) + j)).f i j - 1 / 10 * (Mat.of 4 2 (fun _ _ => (1 : ℝ))).f i j)).f 0 0 = -(1 / 10)
    rw [Mat.of_f' (by omega) (by omega), Mat.of_f' (by omega) (by omega), Mat.of_f' (by omega) (by omega)]
    norm_num
  obtain ⟨s, n, e1, e2⟩ := e
  have e3 := (((C82_agrees junk og og og hg).2.2.2.1 (fzStore, exNet)).1 () (s, n)).1 (by show (exNet.updateWith fzStore og hg >>= _) = _; rw [e1]; rfl)
  have hs : Spec.Session junk w (w.put 0 s n) := .net (.none _) (.updateWith w 0 og hg none none (.ok ()) s n e3)
  refine ⟨w, _, hs, rfl, rfl, rfl, ?_, ((C95_frozen hs).hidden 7 rfl rfl).2.2⟩
  intro h
  have h1 : n.output.W = exNet.output.W := h
  rw [h1] at e2
  have : exNet.output.W.f 0 0 = 0 := by
    show (Mat.of 4 2 (fun i j => (i : ℝ) + j)).f 0 0 = 0
    rw [Mat.of_f' (by omega) (by omega)]; norm_num
  rw [this] at e2
  norm_num at e2

/-- A trainer that reaches its step with a frozen hidden layer. -/
example : ∃ t : Trainer, t.usedecay = true ∧ t.iters + 1 = t.step ∧ t.step < 2 ^ 64 ∧ t.r0 ≠ 0 := ⟨Trainer.newDecay 0 1 1 1, rfl, rfl, by decide, one_ne_zero⟩

end
end Nnet.NN
