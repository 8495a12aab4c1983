import Verif.NN.Default
import Verif.NN.PropsAssign
/-!
# C81: default-constructed objects
-/
namespace Nnet.NN
open Finset
noncomputable section

theorem addcol_throws_or (m : Mat ℝ) : addcol m = .error .throw ∨ ∃ r, addcol m = .ok r ∧ r.nc = m.nc + 1 := by
  unfold addcol Mat.updSubmat
  dsimp only
  split
  · split
    · exact .inr ⟨_, rfl, rfl⟩
    · exact .inl rfl
  · exact .inl rfl

theorem default_forward (junk : Nat → Nat → ℝ) (s : Store) (x : Mat ℝ) : Net.default.forwardprop junk s x = .error .throw := by
  have h : Layer.default.forwardprop x = .error .throw := by
    unfold Layer.forwardprop
    rcases addcol_throws_or x with h | ⟨r, h, hr⟩
    · rw [h]; rfl
    · rw [h, ok_bind]
      unfold Mat.mul
      rw [if_neg (by rw [hr]; show ¬ x.nc + 1 = 0; omega)]
      rfl
  show (do let (result, output) ← OutputLayer.forwardprop OutputLayer.default x; .ok (result, s, _) : Res (Mat ℝ × Store × Net)) = _
  have h2 : OutputLayer.forwardprop OutputLayer.default x = .error .throw := by
    unfold OutputLayer.forwardprop
    show (do let (r, L) ← Layer.default.forwardprop x; .ok (r, _) : Res (Mat ℝ × OutputLayer)) = _
    rw [h]; rfl
  rw [h2]; rfl

theorem empty_smul (c : ℝ) : (Mat.empty : Mat ℝ).smul c = .empty := Mat.ext' rfl rfl fun i j hi _ => absurd hi (Nat.not_lt_zero i)

theorem default_randomize (dist : Draws) (s : Store) (i : Nat) (d : ℝ) : Net.default.randomizeAt dist s i d = .ok (s, .default) := by
  have h : Layer.default.randominit dist d = .ok .default := by
    unfold Layer.randominit
    rw [show Layer.fillLoop (dist d) Layer.default.W = .ok (.empty, 0, 0) from rfl, ok_bind]
    dsimp only
    rw [show Layer.devLoop (Mat.empty : Mat ℝ) 0 = .ok 0 from rfl, ok_bind, empty_smul]; rfl
  show (do let L ← Layer.default.randominit dist d; .ok (s, _) : Res (Store × Net)) = _
  rw [h]; rfl

theorem default_update (s : Store) : Net.default.update s = .ok (s, .default) := by
  have h : Layer.default.update = .ok .default := by
    unfold Layer.update
    show (do let W ← (Mat.empty : Mat ℝ).sub ((Mat.empty : Mat ℝ).smul 0); .ok { Layer.default with W := W } : Res Layer) = _
    rw [empty_smul, Mat.sub_ok rfl rfl, ok_bind]
    have : (Mat.of (Mat.empty : Mat ℝ).nr (Mat.empty : Mat ℝ).nc (fun i j => (Mat.empty : Mat ℝ).f i j - (Mat.empty : Mat ℝ).f i j)) = .empty := Mat.ext' rfl rfl fun i j hi _ => absurd hi (Nat.not_lt_zero i)
    rw [this]; rfl
  show (do let L ← Layer.default.update; let s ← Net.hiddenUpdate [] s; .ok (s, _) : Res (Store × Net)) = _
  rw [h]; rfl

/-- **C81** (a default-constructed network). Whatever the layers in memory and the files: `NeuralNet()` refuses every input (`forwardprop` and `predict` throw); `backprop` and `computecost` call
through an indeterminate pointer and `gethidden` reads beyond the end of a vector; `update` and `randomize` change nothing; `load` changes nothing, whatever the file holds (a network cannot be
restored into a default-constructed one); `save` writes an empty line. -/
theorem C81_network (e : Spec.Env) (fs : Files) (s : Store) :
    (∀ x, (Spec.Method.forwardprop x).call e fs s .default = .error .throw) ∧ (∀ x, (Spec.Method.predict x).call e fs s .default = .error .throw) ∧
    (∀ y, (Spec.Method.backprop y).call e fs s .default = .error (.ub .uninitRead)) ∧ (∀ p y, (Spec.Method.computecost p y).call e fs s .default = .error (.ub .uninitRead)) ∧
    (∀ i, (Spec.Method.gethidden i).call e fs s .default = .error (.ub .vectorIndex)) ∧
    (Spec.Method.update).call e fs s .default = .ok (.nothing, fs, s, .default) ∧
    (∀ rand d, (Spec.Method.randomize rand d).call e fs s .default = .ok (.nothing, fs, s, .default)) ∧
    (∀ path, (Spec.Method.load path).call e fs s .default = .ok (.nothing, fs, s, .default)) ∧
    (∀ path, (Spec.Method.save path true).call e fs s .default = .ok (.nothing, fs.put path ['\n'], s, .default)) := by
  refine ⟨fun x => ?_, fun x => ?_, fun y => rfl, fun p y => rfl, fun i => ?_, ?_, fun r d => ?_, fun path => ?_, fun path => rfl⟩
  · unfold Spec.Method.call
    dsimp only
    rw [default_forward]; rfl
  · unfold Spec.Method.call Net.predict
    dsimp only
    rw [default_forward]; rfl
  · unfold Spec.Method.call Net.gethidden vecAt
    dsimp only
    rw [if_pos (by omega)]
    rfl
  · unfold Spec.Method.call
    dsimp only
    rw [default_update]; rfl
  · unfold Spec.Method.call Net.randomize
    dsimp only
    rw [default_randomize]; rfl
  · unfold Spec.Method.call Net.load
    dsimp only
    cases fs path with
    | none => rfl
    | some t => rfl

/-- **C81** (a default-constructed network that was assigned to). After `NeuralNet m; m = n;` every program that calls methods of `m` sees what it would see calling them on `n`. -/
theorem C81_assigned_network (e : Spec.Env) (n : Net) (fs : Files) (s : Store) (calls : List Spec.Method) :
    Spec.session e fs s (Net.default.assign n) calls = Spec.session e fs s n calls := C62_behaves_alike e (.inr ⟨_, rfl⟩) fs s calls

/-- **C81** (default-constructed trainers). `feeddata` of a default-constructed `Trainer` or `MomentumTrainer` dereferences a null pointer whatever the data; that of an `SGDTrainer` does so exactly if
the data has a row, and only counts otherwise; that of a `BatchTrainer` reads its indeterminate batch size. Copying a default-constructed `SGDTrainer` or `MomentumTrainer` dereferences the null
pointer. -/
theorem C81_trainers (junk : Nat → Nat → ℝ) (w : World) (x y : Mat ℝ) :
    Ptr.trainer.feeddata junk w x y = .error (.ub .nullDeref) ∧ Ptr.momentum.feeddataM junk w x y = .error (.ub .nullDeref) ∧
    (0 < x.nr → Ptr.trainer.feeddataSGD junk w x y = .error (.ub .nullDeref)) ∧
    (x.nr = 0 → ∃ t, Ptr.trainer.feeddataSGD junk w x y = .ok (w, t) ∧ t.nnet = none ∧ t.rest.iters = 1) ∧
    Ptr.Batch.default.feeddata junk w x y = .error (.ub .uninitRead) ∧
    Ptr.trainer.copyCtorSGD = .error (.ub .nullDeref) ∧ Ptr.momentum.copyCtorM = .error (.ub .nullDeref) := by
  refine ⟨rfl, rfl, fun h => ?_, fun h => ?_, rfl, rfl, rfl⟩
  · unfold Ptr.feeddataSGD
    simp only [Ptr.trainer, Trainer.new, Trainer.count, Bool.false_eq_true, false_and, if_false, if_pos h]
  · unfold Ptr.feeddataSGD
    simp only [Ptr.trainer, Trainer.new, Trainer.count, Bool.false_eq_true, false_and, if_false, if_neg (show ¬ 0 < x.nr by omega)]
    exact ⟨_, rfl, rfl, rfl⟩

/-- A program that feeds a trainer, of whatever class `T`, one set of data after the other. -/
def Spec.feedAll {T : Type} (feed : World → T → Mat ℝ → Mat ℝ → Res (World × T)) : World → T → List (Mat ℝ × Mat ℝ) → Res (World × T)
  | w, t, [] => .ok (w, t)
  | w, t, (x, y) :: ds => do
    let (w, t) ← feed w t x y
    Spec.feedAll feed w t ds

theorem feedAll_sim {S T : Type} {f : World → S → Mat ℝ → Mat ℝ → Res (World × S)} {g : World → T → Mat ℝ → Mat ℝ → Res (World × T)} (R : S → T → Prop)
    (h : ∀ w a b x y, R a b → RelRes (fun p q => p.1 = q.1 ∧ R p.2 q.2) (f w a x y) (g w b x y)) :
    ∀ (ds : List (Mat ℝ × Mat ℝ)) (w : World) (a : S) (b : T), R a b → RelRes (fun p q => p.1 = q.1 ∧ R p.2 q.2) (Spec.feedAll f w a ds) (Spec.feedAll g w b ds)
  | [], w, a, b, hab => .ok ⟨rfl, hab⟩
  | (x, y) :: ds, w, a, b, hab => by
    unfold Spec.feedAll
    refine RelRes.bind (h w a b x y hab) ?_
    rintro ⟨w1, a1⟩ ⟨w2, b1⟩ ⟨h1, h2⟩
    cases h1
    exact feedAll_sim R h ds w1 a1 b1 h2

theorem RelRes.fst_map {α β γ : Type} {R : β → γ → Prop} {p : Res (α × β)} {q : Res (α × γ)} (h : RelRes (fun a b => a.1 = b.1 ∧ R a.2 b.2) p q) :
    p.map Prod.fst = q.map Prod.fst := by
  cases h with
  | err e => rfl
  | ok h => exact congrArg Except.ok h.1

theorem feedAll_same {S T : Type} {f : World → S → Mat ℝ → Mat ℝ → Res (World × S)} {g : World → T → Mat ℝ → Mat ℝ → Res (World × T)} (R : S → T → Prop)
    (ds : List (Mat ℝ × Mat ℝ)) (w : World) (a : S) (b : T) (hab : R a b) (h : ∀ w a b x y, R a b → RelRes (fun p q => p.1 = q.1 ∧ R p.2 q.2) (f w a x y) (g w b x y)) :
    (Spec.feedAll f w a ds).map Prod.fst = (Spec.feedAll g w b ds).map Prod.fst := RelRes.fst_map (feedAll_sim R h ds w a b hab)

theorem trainer_nnet {junk : Nat → Nat → ℝ} {w : World} {t : Trainer} {x y : Mat ℝ} {v : World × Trainer} (h : t.feeddata junk w x y = .ok v) : v.2.nnet = t.nnet := by
  unfold Trainer.feeddata at h
  obtain ⟨a, -, h⟩ := bind_eq_ok h
  cases h; rfl

theorem sgd_nnet {junk : Nat → Nat → ℝ} {w : World} {t : Trainer} {x y : Mat ℝ} {v : World × Trainer} (h : SGD.feeddata junk w t x y = .ok v) : v.2.nnet = t.nnet := by
  unfold SGD.feeddata at h
  obtain ⟨a, -, h⟩ := bind_eq_ok h
  cases h; rfl

theorem momentum_nnet {junk : Nat → Nat → ℝ} {w : World} {t : MomentumTrainer} {x y : Mat ℝ} {v : World × MomentumTrainer} (h : t.feeddata junk w x y = .ok v) : v.2.nnet = t.nnet := by
  unfold MomentumTrainer.feeddata at h
  obtain ⟨a, -, h⟩ := bind_eq_ok h
  obtain ⟨a2, -, h⟩ := bind_eq_ok h
  obtain ⟨a3, -, h⟩ := bind_eq_ok h
  obtain ⟨a4, -, h⟩ := bind_eq_ok h
  obtain ⟨a5, -, h⟩ := bind_eq_ok h
  cases h; rfl

theorem batch_nnet {junk : Nat → Nat → ℝ} {w : World} {t : BatchTrainer} {x y : Mat ℝ} {v : World × BatchTrainer} (h : t.feeddata junk w x y = .ok v) : v.2.nnet = t.nnet ∧ v.2.batchsize = t.batchsize := by
  unfold BatchTrainer.feeddata at h
  obtain ⟨a, -, h⟩ := bind_eq_ok h
  obtain ⟨a2, -, h⟩ := bind_eq_ok h
  obtain ⟨a3, -, h⟩ := bind_eq_ok h
  cases h; exact ⟨rfl, rfl⟩

/-- **C81** (default-constructed trainers that were assigned to). A default-constructed trainer to which a trainer made for a network is assigned has, fed any data any number of times, the same effects on
the networks and layers, and fails in the same way, as the trainer assigned. -/
theorem C81_assigned_trainers (junk : Nat → Nat → ℝ) (w : World) (ds : List (Mat ℝ × Mat ℝ)) :
    (∀ t : Trainer, (Spec.feedAll (Ptr.feeddata junk) w (Ptr.trainer.assign (.of t)) ds).map Prod.fst = (Spec.feedAll (Trainer.feeddata junk) w t ds).map Prod.fst) ∧
    (∀ t : Trainer, (Spec.feedAll (Ptr.feeddataSGD junk) w (Ptr.trainer.assign (.of t)) ds).map Prod.fst = (Spec.feedAll (SGD.feeddata junk) w t ds).map Prod.fst) ∧
    (∀ t : MomentumTrainer, (Spec.feedAll (Ptr.feeddataM junk) w (Ptr.momentum.assignM (.ofM t)) ds).map Prod.fst = (Spec.feedAll (MomentumTrainer.feeddata junk) w t ds).map Prod.fst) ∧
    (∀ t : BatchTrainer, (Spec.feedAll (Ptr.Batch.feeddata junk) w (Ptr.Batch.default.assign (.of t)) ds).map Prod.fst = (Spec.feedAll (BatchTrainer.feeddata junk) w t ds).map Prod.fst) := by
  refine ⟨fun t => ?_, fun t => ?_, fun t => ?_, fun t => ?_⟩
  · refine feedAll_same (fun (a : Ptr Trainer) (b : Trainer) => a.nnet = some b.nnet ∧ a.rest = b) ds w _ t ⟨rfl, rfl⟩ (fun w a b x y hab => ?_)
    obtain ⟨na, ra⟩ := a
    obtain ⟨h1, h2⟩ := hab
    replace h2 : ra = b := h2
    subst h2
    cases h1
    unfold Ptr.feeddata
    show RelRes _ (do let (w, r) ← Trainer.feeddata junk w ra x y; .ok (w, (⟨some ra.nnet, r⟩ : Ptr Trainer))) _
    cases hf : Trainer.feeddata junk w ra x y with
    | error st => exact RelRes.err st
    | ok v => exact .ok ⟨rfl, congrArg some (trainer_nnet hf).symm, rfl⟩
  · refine feedAll_same (fun (a : Ptr Trainer) (b : Trainer) => a.nnet = some b.nnet ∧ a.rest = b) ds w _ t ⟨rfl, rfl⟩ (fun w a b x y hab => ?_)
    obtain ⟨na, ra⟩ := a
    obtain ⟨h1, h2⟩ := hab
    replace h2 : ra = b := h2
    subst h2
    cases h1
    unfold Ptr.feeddataSGD
    show RelRes _ (do let (w, r) ← SGD.feeddata junk w ra x y; .ok (w, (⟨some ra.nnet, r⟩ : Ptr Trainer))) _
    cases hf : SGD.feeddata junk w ra x y with
    | error st => exact RelRes.err st
    | ok v => exact .ok ⟨rfl, congrArg some (sgd_nnet hf).symm, rfl⟩
  · refine feedAll_same (fun (a : Ptr MomentumTrainer) (b : MomentumTrainer) => a.nnet = some b.nnet ∧ a.rest = b) ds w _ t ⟨rfl, rfl⟩ (fun w a b x y hab => ?_)
    obtain ⟨na, ra⟩ := a
    obtain ⟨h1, h2⟩ := hab
    replace h2 : ra = b := h2
    subst h2
    cases h1
    unfold Ptr.feeddataM
    show RelRes _ (do let (w, r) ← MomentumTrainer.feeddata junk w ra x y; .ok (w, (⟨some ra.nnet, r⟩ : Ptr MomentumTrainer))) _
    cases hf : MomentumTrainer.feeddata junk w ra x y with
    | error st => exact RelRes.err st
    | ok v => exact .ok ⟨rfl, congrArg some (momentum_nnet hf).symm, rfl⟩
  · refine feedAll_same (fun (a : Ptr.Batch) (b : BatchTrainer) => a.nnet = some b.nnet ∧ a.batchsize = some b.batchsize ∧ { a.rest with x := b.x, y := b.y } = b) ds w _ t ⟨rfl, rfl, rfl⟩ (fun w a b x y hab => ?_)
    obtain ⟨na, ba, ra⟩ := a
    obtain ⟨h1, h2, h3⟩ := hab
    cases h1; cases h2
    unfold Ptr.Batch.feeddata
    have e : BatchTrainer.feeddata junk w { ra with nnet := b.nnet, batchsize := b.batchsize } x y = BatchTrainer.feeddata junk w b x y := by
      rw [← h3]; rfl
    show RelRes _ (do let (w, r) ← BatchTrainer.feeddata junk w { ra with nnet := b.nnet, batchsize := b.batchsize } x y; .ok (w, (⟨some b.nnet, some b.batchsize, r⟩ : Ptr.Batch))) _
    rw [e]
    cases hf : BatchTrainer.feeddata junk w b x y with
    | error st => exact RelRes.err st
    | ok v => exact .ok ⟨rfl, congrArg some (batch_nnet hf).1.symm, congrArg some (batch_nnet hf).2.symm, rfl⟩

/-! A case that succeeds: a plain trainer assigned to a default-constructed one trains a well-formed network. -/
example (junk : Nat → Nat → ℝ) : ∃ w', (Spec.feedAll (Ptr.feeddata junk) ⟨fun _ => exNet, exStore⟩ (Ptr.trainer.assign (.of (.new 0))) [(exX, exY)]).map Prod.fst = .ok w' := by
  rw [(C81_assigned_trainers junk ⟨fun _ => exNet, exStore⟩ [(exX, exY)]).1]
  obtain ⟨D, e, -, hG⟩ := C30_quadratic (y := exY) (z := exNet.outputZ exStore exX) (outputZ_dims exNet_wf rfl).1 (outputZ_dims exNet_wf rfl).2
  obtain ⟨s1, n1, e1, -⟩ := trainOn_ok (junk := junk) exNet_wf (x := exX) (y := exY) (D := D) (by show 0 < 5; omega) rfl e (by rw [hG.1]; exact (outputZ_dims exNet_wf rfl).1) (by rw [hG.2.1]; exact (outputZ_dims exNet_wf rfl).2)
  unfold Spec.feedAll Trainer.feeddata Trainer.decay
  simp only [Trainer.new, Trainer.count, Bool.false_eq_true, false_and, if_false]
  rw [e1]
  exact ⟨_, rfl⟩

/-- **C81** (copies of trainers that name a network). Copying an `SGDTrainer` or a `MomentumTrainer` that names a network does not dereference a null pointer: the copy names the same network and has, fed any
data any number of times, the effects of the copy of a trainer made for it. -/
theorem C81_copied_trainers (junk : Nat → Nat → ℝ) (w : World) (ds : List (Mat ℝ × Mat ℝ)) :
    (∀ t : Trainer, ∃ c, (Ptr.of t).copyCtorSGD = .ok c ∧ c.nnet = some t.nnet ∧
      (Spec.feedAll (Ptr.feeddataSGD junk) w c ds).map Prod.fst = (Spec.feedAll (SGD.feeddata junk) w (SGD.copyCtor t) ds).map Prod.fst) ∧
    (∀ t : MomentumTrainer, ∃ c, (Ptr.ofM t).copyCtorM = .ok c ∧ c.nnet = some t.nnet ∧
      (Spec.feedAll (Ptr.feeddataM junk) w c ds).map Prod.fst = (Spec.feedAll (MomentumTrainer.feeddata junk) w t.copyCtor ds).map Prod.fst) ∧
    (∀ t : Trainer, (Ptr.of t).copyCtor.nnet = some t.nnet ∧
      (Spec.feedAll (Ptr.feeddata junk) w (Ptr.of t).copyCtor ds).map Prod.fst = (Spec.feedAll (Trainer.feeddata junk) w t ds).map Prod.fst) := by
  obtain ⟨h1, h2, h3, -⟩ := C81_assigned_trainers junk w ds
  exact ⟨fun t => ⟨_, rfl, rfl, h2 (SGD.copyCtor t)⟩, fun t => ⟨_, rfl, rfl, h3 t.copyCtor⟩, fun t => ⟨rfl, h1 t⟩⟩

end
end Nnet.NN
