import Verif.NN.PropsIsolation
import Verif.NN.PropsSafe
import Verif.NN.PropsLinear
/-!
# C69: results do not depend on uninitialised memory
-/
namespace Nnet.NN
open Finset
noncomputable section

/-! ## Programs -/

/-- Arguments of a dense layer's constructor. -/
structure Spec.DenseArgs where
  inputs : Int
  nodes : Int
  lrate : ℝ
  stddev : ℝ
  lambda : ℝ
  act : ActFunc ℝ

/-- Arguments of the constructors of all layers of a network. -/
structure Spec.Recipe where
  inputs : Int
  hidden : List Spec.DenseArgs
  out : Spec.DenseArgs
  cost : MatFunc
  costd : MatFuncD

/-- `make_shared<Layer>(...)` for the layers of a list, under the names `p`, `p + 1`, ...; `mem k` is what the memory of layer `k` contains before it is written. -/
def Spec.makeHidden (dist : Draws) (mem : Nat → Nat → Nat → ℝ) : List Spec.DenseArgs → Nat → Store → Res Store
  | [], _, s => .ok s
  | a :: as, p, s => do
    let L ← Layer.newDev dist (mem p) a.inputs a.nodes a.lrate a.stddev a.lambda a.act
    Spec.makeHidden dist mem as (p + 1) (s.put p ⟨L, .dense⟩)

/-- The program text of xor_problem.cpp and spiral.cpp up to the trainer: input layer, hidden layers, output layer, network. -/
def Spec.Recipe.build (dist : Draws) (mem : Nat → Nat → Nat → ℝ) (r : Spec.Recipe) : Res (Store × Net) := do
  let n := r.hidden.length
  let input ← InputLayer.new (mem (n + 1)) r.inputs
  let s ← Spec.makeHidden dist mem r.hidden 0 (fun _ => ⟨Layer.default, .dense⟩)
  let output ← OutputLayer.newDev dist (mem n) r.out.inputs r.out.nodes r.out.lrate r.out.stddev r.out.lambda r.out.act r.cost r.costd
  let net ← Net.new dist (mem (n + 2)) input output (List.range n)
  .ok (s, net)

/-- Arguments of a trainer's constructor; `decay = some (r0, k, step)` selects the constructors with decay. -/
inductive Spec.TrainerArgs where
  | trainer (decay : Option (ℝ × ℝ × Nat))
  | sgd (decay : Option (ℝ × ℝ × Nat))
  | batch (batchsize : Int) (decay : Option (ℝ × ℝ × Nat))
  | momentum (m : ℝ) (decay : Option (ℝ × ℝ × Nat))

/-- The base class object a trainer's constructor makes for the network 0. -/
def Spec.baseTrainer : Option (ℝ × ℝ × Nat) → Trainer
  | none => Trainer.new 0
  | some (r0, k, step) => Trainer.newDecay 0 r0 k step

/-- A trainer of the network 0. -/
def Spec.TrainerArgs.make (w : World) : Spec.TrainerArgs → AnyTrainer
  | .trainer d => .trainer (Spec.baseTrainer d)
  | .sgd d => .sgd (Spec.baseTrainer d)
  | .batch b none => .batch (BatchTrainer.new 0 b)
  | .batch b (some (r0, k, step)) => .batch (BatchTrainer.newDecay 0 b r0 k step)
  | .momentum m none => .momentum (MomentumTrainer.new w 0 m)
  | .momentum m (some (r0, k, step)) => .momentum (MomentumTrainer.newDecay w 0 m r0 k step)

/-- `feeddata(x, y, ccost)` of whatever class the trainer has. -/
def AnyTrainer.feedcost (junk : Nat → Nat → ℝ) (w : World) (x y : Mat ℝ) (c : Bool) : AnyTrainer → Res (ℝ × World × AnyTrainer)
  | .trainer t => do let (r, w, t) ← t.feedcost junk w x y c; .ok (r, w, .trainer t)
  | .sgd t => do let (r, w, t) ← SGD.feedcost junk w t x y c; .ok (r, w, .sgd t)
  | .batch t => do let (r, w, t) ← t.feedcost junk w x y c; .ok (r, w, .batch t)
  | .momentum t => do let (r, w, t) ← t.feedcost junk w x y c; .ok (r, w, .momentum t)

/-- A statement of the program: make trainer `k`, feed it, or call a method of the network. -/
inductive Spec.Stmt where
  | make (k : Nat) (t : Spec.TrainerArgs)
  | feed (k : Nat) (x y : Mat ℝ) (ccost : Bool)
  | call (c : Spec.Method)

/-- The state of the program. -/
structure Spec.State where
  fs : Files
  w : World
  ts : Nat → AnyTrainer

/-- Executing a statement; `mem` is the content of any memory allocated on the way. -/
def Spec.Stmt.exec (dist : Draws) (io : TextIO) (mem : Nat → Nat → ℝ) (σ : Spec.State) : Spec.Stmt → Res (Spec.Returned × Spec.State)
  | .make k a => .ok (.nothing, { σ with ts := fun j => if j = k then a.make σ.w else σ.ts j })
  | .feed k x y c => do
    let (r, w, t) ← (σ.ts k).feedcost mem σ.w x y c
    .ok (.number r, { σ with w := w, ts := fun j => if j = k then t else σ.ts j })
  | .call c => do
    let (r, fs, s, n) ← c.call ⟨mem, dist, io⟩ σ.fs σ.w.store (σ.w.nets 0)
    .ok (r, { σ with fs := fs, w := σ.w.put 0 s n })

/-- Executing statements: everything returned, and at the end the files or the failure of the first statement that fails. `mem k` is the memory found by statement `k`. -/
def Spec.execAll (dist : Draws) (io : TextIO) (mem : Nat → Nat → Nat → ℝ) : Spec.State → Nat → List Spec.Stmt → List Spec.Returned × Res Files
  | σ, _, [] => ([], .ok σ.fs)
  | σ, k, c :: cs =>
    match c.exec dist io (mem k) σ with
    | .error st => ([], .error st)
    | .ok (r, σ) => (r :: (Spec.execAll dist io mem σ (k + 1) cs).1, (Spec.execAll dist io mem σ (k + 1) cs).2)

/-- A whole program: build the network, then execute the statements. -/
def Spec.run (dist : Draws) (io : TextIO) (mem : Nat → Nat → Nat → ℝ) (fs : Files) (r : Spec.Recipe) (prog : List Spec.Stmt) : List Spec.Returned × Res Files :=
  match r.build dist mem with
  | .error st => ([], .error st)
  | .ok (s, n) => Spec.execAll dist io mem ⟨fs, ⟨fun _ => n, s⟩, fun _ => .trainer (Trainer.new 0)⟩ 0 prog

/-- A statement that computes all gradients. -/
def Spec.Stmt.backprops : Spec.Stmt → Prop
  | .call (.backprop _) => True
  | .feed _ x _ _ => 0 < x.nr
  | _ => False

/-- A statement that reads gradients computed before: a step with them, or a copy of a layer. -/
def Spec.Stmt.usesGradients : Spec.Stmt → Prop
  | .call .update | .call (.gethidden _) | .call .getoutput => True
  | _ => False

/-- No statement reads gradients before one has computed them (`ready`: computed already). -/
def Spec.GradientsFirst : Prop → List Spec.Stmt → Prop
  | _, [] => True
  | ready, c :: cs => (c.usesGradients → ready) ∧ Spec.GradientsFirst (ready ∨ c.backprops) cs

/-! ## Runs that differ only in uninitialised memory -/

/-- The same layer up to the gradient, which may differ unless `P`. -/
def LSim (P : Prop) (L M : Layer) : Prop := ∃ g, M = { L with grad := g } ∧ (P → g = L.grad)

theorem LSim.mono {P Q : Prop} {L M : Layer} (h : LSim P L M) (hq : Q → P) : LSim Q L M := by
  obtain ⟨g, h1, h2⟩ := h
  exact ⟨g, h1, fun q => h2 (hq q)⟩

theorem LSim.eq {P : Prop} {L M : Layer} (h : LSim P L M) (hp : P) : L = M := by
  obtain ⟨g, h1, h2⟩ := h
  rw [h1, h2 hp]

theorem LSim.rfl' {P : Prop} {L : Layer} : LSim P L L := ⟨L.grad, rfl, fun _ => rfl⟩

/-- The same dense layer object up to the gradient. -/
inductive HSim (P : Prop) : HLayer → HLayer → Prop where
  | mk {L M : Layer} (h : LSim P L M) : HSim P ⟨L, .dense⟩ ⟨M, .dense⟩

theorem HSim.mono {P Q : Prop} {h k : HLayer} (hh : HSim P h k) (hq : Q → P) : HSim Q h k := by
  cases hh with
  | mk h => exact .mk (h.mono hq)

theorem HSim.base {P : Prop} {h k : HLayer} (hh : HSim P h k) : LSim P h.base k.base := by
  cases hh with
  | mk h => exact h

/-- The same layer objects; those with `A p` have the same gradient. -/
def SSim (A : Nat → Prop) (s t : Store) : Prop := ∀ p, HSim (A p) (s p) (t p)

theorem SSim.mono {A B : Nat → Prop} {s t : Store} (h : SSim A s t) (hb : ∀ p, B p → A p) : SSim B s t := fun p => (h p).mono (hb p)

theorem SSim.put {A B : Nat → Prop} {s t : Store} {p : Nat} {h k : HLayer} (hs : SSim A s t) (hh : HSim (B p) h k) (hb : ∀ q, q ≠ p → B q → A q) : SSim B (s.put p h) (t.put p k) := by
  intro q
  unfold Store.put
  split
  · rename_i e; subst e; exact hh
  · rename_i e; exact (hs q).mono (hb q e)

structure NSim (P : Prop) (n m : Net) : Prop where
  result : n.result = m.result
  cost : n.cost = m.cost
  hidden : n.hidden = m.hidden
  layer : LSim P n.output.toLayer m.output.toLayer
  ocost : n.output.cost = m.output.cost
  ocostd : n.output.costd = m.output.costd

/-- Layers and network. -/
def Sim (P : Prop) (s : Store) (n : Net) (t : Store) (m : Net) : Prop := SSim (fun p => P ∧ p ∈ n.hidden) s t ∧ NSim P n m

theorem layer_forward_sim {P : Prop} {L M : Layer} (h : LSim P L M) (x : Mat ℝ) : RelRes (fun a b => a.1 = b.1 ∧ LSim P a.2 b.2) (L.forwardprop x) (M.forwardprop x) := by
  obtain ⟨g, rfl, hg⟩ := h
  unfold Layer.forwardprop
  exact RelRes.same _ fun a _ => RelRes.same _ fun z _ => .ok ⟨rfl, g, rfl, hg⟩

theorem layer_backward_sim {P Q : Prop} {L M : Layer} (h : LSim P L M) (d : Mat ℝ) : RelRes (fun a b => a.1 = b.1 ∧ LSim Q a.2 b.2) (L.backprop d) (M.backprop d) := by
  obtain ⟨g, rfl, hg⟩ := h
  unfold Layer.backprop
  exact RelRes.same _ fun a _ => RelRes.same _ fun z _ => RelRes.same _ fun z' _ => RelRes.same _ fun z'' _ => RelRes.same _ fun r _ => .ok ⟨rfl, z', rfl, fun _ => rfl⟩

theorem layer_updateWith_sim {P : Prop} {L M : Layer} (h : LSim P L M) (G : Mat ℝ) : RelRes (LSim P) (L.updateWith G) (M.updateWith G) := by
  obtain ⟨g, rfl, hg⟩ := h
  unfold Layer.updateWith
  exact RelRes.same _ fun a _ => .ok ⟨g, rfl, hg⟩

theorem layer_randominit_sim {dist : Draws} {P : Prop} {L M : Layer} (h : LSim P L M) (sd : ℝ) : RelRes (LSim P) (L.randominit dist sd) (M.randominit dist sd) := by
  obtain ⟨g, rfl, hg⟩ := h
  unfold Layer.randominit
  exact RelRes.same _ fun a _ => RelRes.same _ fun b _ => .ok ⟨g, rfl, hg⟩

theorem forward_sim {junk junk' : Nat → Nat → ℝ} {A : Nat → Prop} : ∀ {ps : List Nat} {s t : Store} {x : Mat ℝ}, SSim A s t →
    RelRes (fun a b => a.1 = b.1 ∧ SSim A a.2 b.2) (Net.hiddenForward junk ps s x) (Net.hiddenForward junk' ps t x)
  | [], s, t, x, h => .ok ⟨rfl, h⟩
  | p :: ps, s, t, x, h => by
    unfold Net.hiddenForward
    refine RelRes.bind (Q := fun a b => a.1 = b.1 ∧ HSim (A p) a.2 b.2) ?_ ?_
    · have hp' := h p
      generalize s p = u at hp' ⊢
      generalize t p = v at hp' ⊢
      cases hp' with
      | mk hL =>
        refine RelRes.bind (layer_forward_sim hL x) ?_
        rintro ⟨a, L⟩ ⟨b, M⟩ ⟨h1, h2⟩
        exact .ok ⟨h1, .mk h2⟩
    · rintro ⟨a, L⟩ ⟨b, M⟩ ⟨h1, h2⟩
      dsimp only at h1 h2 ⊢
      subst h1
      exact forward_sim (h.put h2 fun _ _ hq => hq)

theorem backward_sim {junk junk' : Nat → Nat → ℝ} : ∀ {ps : List Nat} {A : Nat → Prop} {s t : Store} {x : Mat ℝ}, SSim A s t →
    RelRes (SSim (fun p => A p ∨ p ∈ ps)) (Net.hiddenBackward junk ps s x) (Net.hiddenBackward junk' ps t x)
  | [], A, s, t, x, h => .ok (h.mono fun p => by simp)
  | p :: ps, A, s, t, x, h => by
    unfold Net.hiddenBackward
    refine RelRes.bind (Q := fun a b => a.1 = b.1 ∧ HSim (A p ∨ True) a.2 b.2) ?_ ?_
    · have hp' := h p
      generalize s p = u at hp' ⊢
      generalize t p = v at hp' ⊢
      cases hp' with
      | mk hL =>
        refine RelRes.bind (layer_backward_sim (Q := A p ∨ True) hL x) ?_
        rintro ⟨a, L⟩ ⟨b, M⟩ ⟨h1, h2⟩
        exact .ok ⟨h1, .mk h2⟩
    · rintro ⟨a, L⟩ ⟨b, M⟩ ⟨h1, h2⟩
      dsimp only at h1 h2 ⊢
      subst h1
      have h3 : SSim (fun q => A q ∨ q = p) (s.put p L) (t.put p M) := h.put (B := fun q => A q ∨ q = p) (h2.mono fun _ => Or.inr trivial) fun q hq hb => by
        rcases hb with hb | hb
        · exact hb
        · exact absurd hb hq
      have h4 := backward_sim (junk := junk) (junk' := junk') (ps := ps) (x := a) h3
      generalize Net.hiddenBackward junk ps (s.put p L) a = X at h4 ⊢
      generalize Net.hiddenBackward junk' ps (t.put p M) a = Y at h4 ⊢
      cases h4 with
      | err e => exact .err e
      | ok h4 =>
        refine .ok (h4.mono fun q hq => ?_)
        rw [List.mem_cons] at hq
        tauto

theorem update_sim {A : Nat → Prop} : ∀ {ps : List Nat} {s t : Store}, (∀ p ∈ ps, A p) → SSim A s t → RelRes (SSim A) (Net.hiddenUpdate ps s) (Net.hiddenUpdate ps t)
  | [], s, t, _, h => .ok h
  | p :: ps, s, t, hA, h => by
    unfold Net.hiddenUpdate
    refine RelRes.bind (Q := HSim (A p)) ?_ fun a b hab => update_sim (fun q hq => hA q (by simp [hq])) (h.put hab fun _ _ hq => hq)
    have hp' := h p
    generalize s p = u at hp' ⊢
    generalize t p = v at hp' ⊢
    cases hp' with
    | mk hL =>
      rw [hL.eq (hA p (by simp))]
      exact RelRes.same _ fun a _ => .ok (.mk .rfl')

theorem updateWith_sim {A : Nat → Prop} : ∀ {ps : List Nat} {gs : List (Mat ℝ)} {s t : Store}, SSim A s t → RelRes (SSim A) (Net.hiddenUpdateWith ps gs s) (Net.hiddenUpdateWith ps gs t)
  | [], _, s, t, h => .ok h
  | p :: ps, [], s, t, h => .err _
  | p :: ps, g :: gs, s, t, h => by
    unfold Net.hiddenUpdateWith
    refine RelRes.bind (Q := HSim (A p)) ?_ fun a b hab => updateWith_sim (h.put hab fun _ _ hq => hq)
    have hp' := h p
    generalize s p = u at hp' ⊢
    generalize t p = v at hp' ⊢
    cases hp' with
    | mk hL => exact RelRes.bind (layer_updateWith_sim hL g) fun a b hab => .ok (.mk hab)

theorem rates_sim (r : ℝ) {A : Nat → Prop} : ∀ {ps : List Nat} {s t : Store}, SSim A s t →
    SSim A (ps.foldl (fun s p => s.put p ((s p).setlrate r)) s) (ps.foldl (fun s p => s.put p ((s p).setlrate r)) t)
  | [], _, _, h => h
  | p :: ps, s, t, h => by
    simp only [List.foldl_cons]
    refine rates_sim r (h.put ?_ fun _ _ hq => hq)
    have hp' := h p
    generalize s p = u at hp' ⊢
    generalize t p = v at hp' ⊢
    cases hp' with
    | mk hL =>
      obtain ⟨g, rfl, hg⟩ := hL
      exact .mk ⟨g, rfl, hg⟩

theorem setw_sim {P : Prop} {h k : HLayer} (hh : HSim P h k) (w : Mat ℝ) : HSim P (h.setw w) (k.setw w) := by
  cases hh with
  | mk hL =>
    obtain ⟨g, rfl, hg⟩ := hL
    exact .mk ⟨g, rfl, hg⟩

theorem HSim.W {P : Prop} {h k : HLayer} (hh : HSim P h k) : h.base.W = k.base.W := by
  cases hh with
  | mk hL =>
    obtain ⟨g, rfl, hg⟩ := hL
    rfl

theorem save_sim {io : TextIO} {A : Nat → Prop} : ∀ {ps : List Nat} {s t : Store} {out : List Char}, SSim A s t → saveHidden io s ps out = saveHidden io t ps out
  | [], _, _, _, _ => rfl
  | p :: ps, s, t, out, h => by
    unfold saveHidden
    rw [(h p).W]
    congr 1
    funext o
    exact save_sim h

theorem load_sim {io : TextIO} {A : Nat → Prop} : ∀ {ps : List Nat} {s t : Store} {st : InStream}, SSim A s t →
    RelRes (fun a b => SSim A a.1 b.1 ∧ a.2 = b.2) (loadHidden io ps s st) (loadHidden io ps t st)
  | [], s, t, st, h => .ok ⟨h, rfl⟩
  | p :: ps, s, t, st, h => by
    unfold loadHidden
    rw [(h p).W]
    exact RelRes.same _ fun a _ => load_sim (h.put (setw_sim (h p) _) fun _ _ hq => hq)

/-! ### The network's methods -/

def SimR {α : Type _} (P : Prop) : α × Store × Net → α × Store × Net → Prop := fun a b => a.1 = b.1 ∧ Sim P a.2.1 a.2.2 b.2.1 b.2.2

def Sim2 (P : Prop) : Store × Net → Store × Net → Prop := fun a b => Sim P a.1 a.2 b.1 b.2

theorem net_forward_sim {junk junk' : Nat → Nat → ℝ} {P : Prop} {s t : Store} {n m : Net} (h : Sim P s n t m) (x : Mat ℝ) :
    RelRes (SimR P) (n.forwardprop junk s x) (m.forwardprop junk' t x) := by
  obtain ⟨h1, h2⟩ := h
  unfold Net.forwardprop
  simp only [InputLayer.forwardprop]
  rw [← h2.hidden]
  refine RelRes.bind (forward_sim h1) ?_
  rintro ⟨a, s1⟩ ⟨b, t1⟩ ⟨h3, h4⟩
  dsimp only at h3 h4 ⊢
  subst h3
  unfold OutputLayer.forwardprop
  have h5 := layer_forward_sim h2.layer a
  generalize n.output.toLayer.forwardprop a = X at h5 ⊢
  generalize m.output.toLayer.forwardprop a = Y at h5 ⊢
  cases h5 with
  | err e => exact .err e
  | @ok u v h5 =>
    obtain ⟨r, L⟩ := u
    obtain ⟨r', M⟩ := v
    obtain ⟨h5, h6⟩ := h5
    dsimp only at h5 h6
    subst h5
    exact .ok ⟨rfl, h4, ⟨rfl, h2.cost, rfl, h6, h2.ocost, h2.ocostd⟩⟩

theorem net_predict_sim {junk junk' : Nat → Nat → ℝ} {P : Prop} {s t : Store} {n m : Net} (h : Sim P s n t m) (x : Mat ℝ) :
    RelRes (SimR P) (n.predict junk s x) (m.predict junk' t x) := by
  unfold Net.predict
  refine RelRes.bind (net_forward_sim h x) ?_
  rintro ⟨r, s1, n1⟩ ⟨r', t1, m1⟩ ⟨h1, h2, h3⟩
  dsimp only at h1 h2 h3 ⊢
  subst h1
  obtain ⟨g, hg, -⟩ := h3.layer
  unfold OutputLayer.argmax
  rw [show m1.output.toLayer.a = n1.output.toLayer.a by rw [hg]]
  exact RelRes.same _ fun a _ => .ok ⟨rfl, h2, ⟨rfl, h3.cost, h3.hidden, h3.layer, h3.ocost, h3.ocostd⟩⟩

theorem net_backward_sim {junk junk' : Nat → Nat → ℝ} {P : Prop} {s t : Store} {n m : Net} (h : Sim P s n t m) (y : Mat ℝ) :
    RelRes (Sim2 True) (n.backprop junk s y) (m.backprop junk' t y) := by
  obtain ⟨h1, h2⟩ := h
  obtain ⟨g, hg, -⟩ := h2.layer
  unfold Net.backprop
  refine RelRes.bind (Q := fun a b => a.1 = b.1 ∧ a.2.toLayer = b.2.toLayer ∧ a.2.cost = b.2.cost ∧ a.2.costd = b.2.costd) ?_ ?_
  · unfold OutputLayer.backprop
    rw [hg, h2.ocostd]
    exact RelRes.same _ fun D _ => RelRes.same _ fun G _ => RelRes.same _ fun G' _ => RelRes.same _ fun N _ => RelRes.same _ fun N' _ => .ok ⟨rfl, rfl, h2.ocost, (by first | rfl | exact h2.ocostd)⟩
  · rintro ⟨d, o⟩ ⟨d', o'⟩ ⟨h3, h4, h5, h6⟩
    dsimp only at h3 h4 h5 h6 ⊢
    subst h3
    rw [← h2.hidden]
    refine RelRes.bind (backward_sim h1) fun s1 t1 h7 => .ok ⟨?_, ⟨h2.result, h2.cost, rfl, by show LSim True o.toLayer o'.toLayer; rw [h4]; exact .rfl', h5, h6⟩⟩
    refine h7.mono fun p hp => ?_
    right
    exact List.mem_reverse.2 hp.2

theorem net_update_sim {P : Prop} (hP : P) {s t : Store} {n m : Net} (h : Sim P s n t m) : RelRes (Sim2 P) (n.update s) (m.update t) := by
  obtain ⟨h1, h2⟩ := h
  unfold Net.update
  rw [h2.layer.eq hP, ← h2.hidden]
  refine RelRes.same _ fun L _ => RelRes.bind (update_sim (fun p hp => ⟨hP, hp⟩) h1) fun s1 t1 h3 => .ok ⟨h3, ⟨h2.result, h2.cost, rfl, .rfl', h2.ocost, h2.ocostd⟩⟩

theorem net_updateWith_sim {P : Prop} {s t : Store} {n m : Net} (h : Sim P s n t m) (og : Mat ℝ) (hg : List (Mat ℝ)) : RelRes (Sim2 P) (n.updateWith s og hg) (m.updateWith t og hg) := by
  obtain ⟨h1, h2⟩ := h
  unfold Net.updateWith
  rw [← h2.hidden]
  refine RelRes.bind (layer_updateWith_sim h2.layer og) fun L M hL => RelRes.bind (updateWith_sim h1) fun s1 t1 h3 => .ok ⟨h3, ⟨h2.result, h2.cost, rfl, hL, h2.ocost, h2.ocostd⟩⟩

theorem net_randomize_sim {dist : Draws} {P : Prop} {s t : Store} {n m : Net} (h : Sim P s n t m) (i : Nat) (d : ℝ) : RelRes (Sim2 P) (n.randomizeAt dist s i d) (m.randomizeAt dist t i d) := by
  obtain ⟨h1, h2⟩ := h
  unfold Net.randomizeAt
  rw [← h2.hidden]
  split
  · rename_i p hp
    refine RelRes.bind (Q := HSim (P ∧ p ∈ n.hidden)) ?_ fun a b hab => .ok ⟨h1.put (B := fun q => P ∧ q ∈ n.hidden) hab fun _ _ hq => hq, h2⟩
    have hp' := h1 p
    generalize s p = u at hp' ⊢
    generalize t p = v at hp' ⊢
    cases hp' with
    | mk hL => exact RelRes.bind (layer_randominit_sim hL d) fun a b hab => .ok (.mk hab)
  · exact RelRes.bind (layer_randominit_sim h2.layer d) fun L M hL => .ok ⟨h1, ⟨h2.result, h2.cost, rfl, hL, h2.ocost, h2.ocostd⟩⟩

theorem net_setlrate_sim {P : Prop} {s t : Store} {n m : Net} (h : Sim P s n t m) (r : ℝ) : Sim P (n.setlrate s r).1 (n.setlrate s r).2 (m.setlrate t r).1 (m.setlrate t r).2 := by
  obtain ⟨h1, h2⟩ := h
  unfold Net.setlrate
  rw [← h2.hidden]
  refine ⟨rates_sim r h1, ⟨h2.result, h2.cost, rfl, ?_, h2.ocost, h2.ocostd⟩⟩
  obtain ⟨g, hg, hp⟩ := h2.layer
  exact ⟨g, by show m.output.toLayer.setlrate r = _; rw [hg]; rfl, hp⟩

theorem Sim.mono {P Q : Prop} {s t : Store} {n m : Net} (h : Sim P s n t m) (hq : Q → P) : Sim Q s n t m :=
  ⟨h.1.mono fun _ hp => ⟨hq hp.1, hp.2⟩, ⟨h.2.result, h.2.cost, h.2.hidden, h.2.layer.mono hq, h.2.ocost, h.2.ocostd⟩⟩

theorem cost_sim {P : Prop} {n m : Net} (h : NSim P n m) (p y : Mat ℝ) : n.computecost p y = m.computecost p y := by
  unfold Net.computecost
  rw [h.cost]

/-- The relation between the results of a call in the two runs. -/
def SimC (P : Prop) : Spec.Returned × Files × Store × Net → Spec.Returned × Files × Store × Net → Prop :=
  fun a b => a.1 = b.1 ∧ a.2.1 = b.2.1 ∧ Sim P a.2.2.1 a.2.2.2 b.2.2.1 b.2.2.2

theorem call_sim {dist : Draws} {io : TextIO} {mem mem' : Nat → Nat → ℝ} {P : Prop} {fs : Files} {s t : Store} {n m : Net} (h : Sim P s n t m) (c : Spec.Method)
    (hc : (Spec.Stmt.call c).usesGradients → P) :
    RelRes (SimC (P ∨ (Spec.Stmt.call c).backprops)) (c.call ⟨mem, dist, io⟩ fs s n) (c.call ⟨mem', dist, io⟩ fs t m) := by
  have two : ∀ {Q R : Prop} {x y : Res (Store × Net)}, RelRes (Sim2 Q) x y → (R → Q) →
      RelRes (SimC R) (do let (s, n) ← x; .ok (.nothing, fs, s, n)) (do let (s, n) ← y; .ok (.nothing, fs, s, n)) := by
    intro Q R x y hxy hR
    refine RelRes.bind hxy ?_
    rintro ⟨s1, m1⟩ ⟨s2, n1⟩ h1
    exact .ok ⟨rfl, rfl, Sim.mono h1 hR⟩
  have three : ∀ {R : Prop} {x y : Res (Mat ℝ × Store × Net)}, RelRes (SimR P) x y → (R → P) →
      RelRes (SimC R) (do let (r, s, n) ← x; .ok (.matrix r, fs, s, n)) (do let (r, s, n) ← y; .ok (.matrix r, fs, s, n)) := by
    intro R x y hxy hR
    refine RelRes.bind hxy ?_
    rintro ⟨r1, s1, m1⟩ ⟨r2, s2, n1⟩ ⟨h1, h2⟩
    exact .ok ⟨congrArg Spec.Returned.matrix h1, rfl, Sim.mono h2 hR⟩
  have or0 : P ∨ False → P := fun h => h.elim id False.elim
  obtain ⟨h1, h2⟩ := id h
  cases c with
  | forwardprop x => exact three (net_forward_sim h x) or0
  | predict x => exact three (net_predict_sim h x) or0
  | backprop y => exact two (net_backward_sim h y) (fun _ => trivial)
  | update => exact two (net_update_sim (hc trivial) h) or0
  | updateWith og hg => exact two (net_updateWith_sim h og hg) or0
  | computecost p y =>
    show RelRes _ (do let c ← n.computecost p y; .ok _) (do let c ← m.computecost p y; .ok _)
    rw [cost_sim h2]
    exact RelRes.same _ fun a _ => .ok ⟨rfl, rfl, h.mono or0⟩
  | randomize r d =>
    refine two (Q := P) ?_ or0
    unfold Net.randomize
    rw [← h2.hidden]
    exact net_randomize_sim h _ d
  | randomizeAt i d => exact two (net_randomize_sim h i d) or0
  | save p b =>
    show RelRes _ (do let fs ← n.save io s p b fs; .ok _) (do let fs ← m.save io t p b fs; .ok _)
    obtain ⟨g, hg, -⟩ := h2.layer
    unfold Net.save Net.saveText
    rw [← h2.hidden, hg, save_sim h1]
    exact RelRes.same _ fun a _ => .ok ⟨rfl, rfl, h.mono or0⟩
  | load p =>
    refine two (Q := P) ?_ or0
    unfold Net.load
    split
    · exact .ok h
    · rw [← h2.hidden]
      refine RelRes.bind (load_sim h1) ?_
      rintro ⟨s1, st1⟩ ⟨t1, st2⟩ ⟨h3, h4⟩
      dsimp only at h3 h4 ⊢
      subst h4
      obtain ⟨g, hg, hp⟩ := h2.layer
      rw [hg]
      exact RelRes.same _ fun a _ => .ok ⟨h3, ⟨h2.result, h2.cost, rfl, ⟨g, rfl, hp⟩, h2.ocost, h2.ocostd⟩⟩
  | getresult => exact .ok ⟨congrArg Spec.Returned.matrix h2.result, rfl, h.mono or0⟩
  | getnumhidden => exact .ok ⟨by show Spec.Returned.count _ = .count _; rw [h2.hidden], rfl, h.mono or0⟩
  | gethidden i =>
    refine RelRes.bind (Q := fun a b => a = b) ?_ fun a b hab => .ok ⟨congrArg Spec.Returned.layer hab, rfl, h.mono or0⟩
    unfold Net.gethidden
    rw [← h2.hidden]
    refine RelRes.same _ fun p hp => ?_
    rw [(h1 p).base.eq ⟨hc trivial, vecAt_mem hp⟩]
    exact .ok rfl
  | getoutput =>
    refine .ok ⟨?_, rfl, h.mono or0⟩
    show Spec.Returned.outputLayer _ = .outputLayer _
    unfold OutputLayer.copyCtor
    rw [h2.layer.eq (hc trivial), h2.ocost, h2.ocostd]
  | setlrate r => exact .ok ⟨rfl, rfl, (net_setlrate_sim h r).mono or0⟩
  | sethiddenw i w =>
    refine RelRes.bind (Q := SSim fun p => P ∧ p ∈ n.hidden) ?_ fun a b hab => .ok ⟨rfl, rfl, Sim.mono ⟨hab, h2⟩ or0⟩
    unfold Net.sethiddenw
    rw [← h2.hidden]
    exact RelRes.same _ fun p hp => .ok (h1.put (setw_sim (h1 p) w) fun _ _ hq => hq)
  | setoutputw w =>
    refine .ok ⟨rfl, rfl, Sim.mono ⟨h1, ⟨h2.result, h2.cost, h2.hidden, ?_, h2.ocost, h2.ocostd⟩⟩ or0⟩
    obtain ⟨g, hg, hp⟩ := h2.layer
    exact ⟨g, by show m.output.toLayer.setw w = _; rw [hg]; rfl, hp⟩

/-! ### The trainers -/

theorem trainOn_sim {junk junk' : Nat → Nat → ℝ} {P : Prop} {s t : Store} {n m : Net} (h : Sim P s n t m) (x y : Mat ℝ) :
    RelRes (Sim2 True) (n.trainOn junk s x y) (m.trainOn junk' t x y) := by
  unfold Net.trainOn
  refine RelRes.bind (net_forward_sim h x) ?_
  rintro ⟨r, s1, n1⟩ ⟨r', t1, m1⟩ ⟨-, h1⟩
  refine RelRes.bind (net_backward_sim h1 y) ?_
  rintro ⟨s2, n2⟩ ⟨t2, m2⟩ h2
  exact net_update_sim trivial h2

theorem decay_sim {P : Prop} {s t : Store} {n m : Net} (h : Sim P s n t m) (tr : Trainer) : Sim P (tr.decay s n).1 (tr.decay s n).2 (tr.decay t m).1 (tr.decay t m).2 := by
  unfold Trainer.decay
  split
  · exact net_setlrate_sim h _
  · exact h

def WSim (P : Prop) (w v : World) : Prop := Sim P w.store (w.nets 0) v.store (v.nets 0)

theorem WSim.put {P : Prop} {w v : World} {s t : Store} {n m : Net} (h : Sim P s n t m) : WSim P (w.put 0 s n) (v.put 0 t m) := by
  unfold WSim World.put
  simpa using h

def AnyTrainer.Of0 : AnyTrainer → Prop
  | .trainer t => t.nnet = 0
  | .sgd t => t.nnet = 0
  | .batch t => t.nnet = 0
  | .momentum t => t.nnet = 0

def SimT (P : Prop) : World × Trainer → World × Trainer → Prop := fun a b => WSim P a.1 b.1 ∧ a.2 = b.2 ∧ a.2.nnet = 0

theorem trainer_sim {junk junk' : Nat → Nat → ℝ} {P : Prop} {w v : World} (h : WSim P w v) {t : Trainer} (ht : t.nnet = 0) (x y : Mat ℝ) :
    RelRes (SimT True) (t.feeddata junk w x y) (t.feeddata junk' v x y) := by
  have hc : t.count.nnet = 0 := ht
  unfold Trainer.feeddata
  dsimp only
  rw [hc]
  refine RelRes.bind (trainOn_sim (decay_sim h _) x y) ?_
  rintro ⟨s2, n2⟩ ⟨t2, m2⟩ h2
  exact .ok ⟨WSim.put h2, rfl, hc⟩

theorem relres_loop {α β : Type _} {R : Nat → α → β → Prop} {f : Nat → α → Res α} {g : Nat → β → Res β} : ∀ {n : Nat} {a : α} {b : β}, R 0 a b →
    (∀ k a b, k < n → R k a b → RelRes (R (k + 1)) (f k a) (g k b)) → RelRes (R n) (NN.loop n f a) (NN.loop n g b)
  | 0, _, _, h, _ => .ok h
  | n + 1, _, _, h, hs => RelRes.bind (relres_loop h (fun k a b hk => hs k a b (by omega))) (fun a b hab => hs n a b (by omega) hab)

theorem sgd_sim {junk junk' : Nat → Nat → ℝ} {P : Prop} {w v : World} (h : WSim P w v) {t : Trainer} (ht : t.nnet = 0) (x y : Mat ℝ) :
    RelRes (SimT (P ∨ 0 < x.nr)) (SGD.feeddata junk w t x y) (SGD.feeddata junk' v t x y) := by
  have hc : t.count.nnet = 0 := ht
  unfold SGD.feeddata
  dsimp only
  rw [hc]
  refine RelRes.bind (Q := Sim2 (P ∨ 0 < x.nr)) ?_ ?_
  · unfold SGD.trainRows
    refine relres_loop (R := fun k => Sim2 (P ∨ 0 < k)) (Sim.mono (decay_sim h _) (by simp)) ?_
    rintro k ⟨s1, n1⟩ ⟨t1, m1⟩ hk h1
    refine RelRes.same _ fun xi _ => ?_
    refine RelRes.bind (net_forward_sim h1 xi) ?_
    rintro ⟨r, s1, n1⟩ ⟨r', t1, m1⟩ ⟨-, h1⟩
    refine RelRes.same _ fun yi _ => ?_
    refine RelRes.bind (net_backward_sim h1 yi) ?_
    rintro ⟨s2, n2⟩ ⟨t2, m2⟩ h2
    have := net_update_sim trivial h2
    dsimp only at this ⊢
    generalize n2.update s2 = X at this ⊢
    generalize m2.update t2 = Y at this ⊢
    cases this with
    | err e => exact .err e
    | ok h3 => exact .ok (Sim.mono h3 fun _ => trivial)
  · rintro ⟨s2, n2⟩ ⟨t2, m2⟩ h2
    exact .ok ⟨WSim.put h2, rfl, hc⟩

theorem extend_pos {m r : Mat ℝ} {b : Int} (h : BatchTrainer.extend m b = .ok r) : 2 ≤ b := by
  unfold BatchTrainer.extend at h
  obtain ⟨a, h1, -⟩ := bind_eq_ok h
  unfold Mat.submat at h1
  split at h1
  · rename_i hv
    unfold Mat.InView at hv
    omega
  · cases h1

def SimB (P : Prop) : World × BatchTrainer → World × BatchTrainer → Prop := fun a b => WSim P a.1 b.1 ∧ a.2 = b.2 ∧ a.2.nnet = 0

theorem batch_sim {junk junk' : Nat → Nat → ℝ} {P : Prop} {w v : World} (h : WSim P w v) {t : BatchTrainer} (ht : t.nnet = 0) (x y : Mat ℝ) :
    RelRes (SimB (P ∨ 0 < x.nr)) (t.feeddata junk w x y) (t.feeddata junk' v x y) := by
  unfold BatchTrainer.feeddata
  dsimp only
  rw [ht]
  refine RelRes.same _ fun X hX => RelRes.same _ fun Y hY => ?_
  have hb := extend_pos hX
  obtain ⟨b, hb'⟩ : ∃ b : Nat, t.batchsize.toNat = b ∧ 2 ≤ b := ⟨_, rfl, by omega⟩
  rw [hb'.1]
  refine RelRes.bind (Q := fun a b => a.1 = b.1 ∧ Sim2 (P ∨ 0 < x.nr) a.2 b.2) ?_ ?_
  · unfold BatchTrainer.trainBatches
    have hcount : 0 < x.nr → 0 < (x.nr + b - 1) / b := fun hx => Nat.div_pos (by omega) (by omega)
    have := relres_loop (n := (x.nr + b - 1) / b) (a := (t.iters, w.store, w.nets 0)) (b := (t.iters, v.store, v.nets 0)) (R := fun k (a c : Nat × Store × Net) => a.1 = c.1 ∧ Sim2 (P ∨ 0 < k) a.2 c.2)
      (f := fun k (st : Nat × Store × Net) => do
        let start : Int := (k * b : Nat)
        let xi ← X.rows start (start + b - 1)
        let (_, s, n) ← st.2.2.forwardprop junk st.2.1 xi
        let yi ← Y.rows start (start + b - 1)
        let (s, n) ← n.backprop junk s yi
        let (s, n) ← n.update s
        .ok ((st.1 + 1) % 2 ^ 64, s, n))
      (g := fun k (st : Nat × Store × Net) => do
        let start : Int := (k * b : Nat)
        let xi ← X.rows start (start + b - 1)
        let (_, s, n) ← st.2.2.forwardprop junk' st.2.1 xi
        let yi ← Y.rows start (start + b - 1)
        let (s, n) ← n.backprop junk' s yi
        let (s, n) ← n.update s
        .ok ((st.1 + 1) % 2 ^ 64, s, n)) ⟨rfl, Sim.mono h (by simp)⟩ ?_
    · generalize NN.loop _ _ _ = A at this ⊢
      generalize NN.loop _ _ _ = B at this ⊢
      cases this with
      | err e => exact .err e
      | ok h3 => exact .ok ⟨h3.1, Sim.mono h3.2 fun hh => hh.imp id hcount⟩
    · rintro k ⟨i1, s1, n1⟩ ⟨i2, t1, m1⟩ hk ⟨h0, h1⟩
      dsimp only at h0 h1 ⊢
      subst h0
      refine RelRes.same _ fun xi _ => ?_
      refine RelRes.bind (net_forward_sim h1 xi) ?_
      rintro ⟨r, s1, n1⟩ ⟨r', t1, m1⟩ ⟨-, h1⟩
      refine RelRes.same _ fun yi _ => ?_
      refine RelRes.bind (net_backward_sim h1 yi) ?_
      rintro ⟨s2, n2⟩ ⟨t2, m2⟩ h2
      refine RelRes.bind (net_update_sim trivial h2) ?_
      rintro ⟨s3, n3⟩ ⟨t3, m3⟩ h3
      exact .ok ⟨rfl, Sim.mono h3 fun _ => trivial⟩
  · rintro ⟨i1, s2, n2⟩ ⟨i2, t2, m2⟩ ⟨h1, h2⟩
    dsimp only at h1 h2 ⊢
    subst h1
    exact .ok ⟨WSim.put (decay_sim h2 _), rfl, rfl⟩

def SimM (P : Prop) : World × MomentumTrainer → World × MomentumTrainer → Prop := fun a b => WSim P a.1 b.1 ∧ a.2 = b.2 ∧ a.2.nnet = 0

theorem mixAll_sim {s t : Store} {n m : Net} (h : Sim True s n t m) (mo : ℝ) (it : Nat) : ∀ (gs : List (Mat ℝ)) (i : Nat), MomentumTrainer.mixAll mo it s n i gs = MomentumTrainer.mixAll mo it t m i gs
  | [], _ => rfl
  | g :: gs, i => by
    unfold MomentumTrainer.mixAll
    have : n.gethidden s i = m.gethidden t i := by
      unfold Net.gethidden
      rw [← h.2.hidden]
      cases hv : vecAt n.hidden (i : Int) with
      | error e => rfl
      | ok p =>
        show Except.ok _ = Except.ok _
        rw [(h.1 p).base.eq ⟨trivial, vecAt_mem hv⟩]
    rw [this]
    congr 1
    funext L
    congr 1
    funext g'
    rw [mixAll_sim h mo it gs (i + 1)]

theorem momentum_sim {junk junk' : Nat → Nat → ℝ} {P : Prop} {w v : World} (h : WSim P w v) {t : MomentumTrainer} (ht : t.nnet = 0) (x y : Mat ℝ) :
    RelRes (SimM True) (t.feeddata junk w x y) (t.feeddata junk' v x y) := by
  have hc : t.toTrainer.count.nnet = 0 := ht
  unfold MomentumTrainer.feeddata
  dsimp only
  rw [hc]
  refine RelRes.bind (net_forward_sim (decay_sim h _) x) ?_
  rintro ⟨r, s1, n1⟩ ⟨r', t1, m1⟩ ⟨-, h1⟩
  refine RelRes.bind (net_backward_sim h1 y) ?_
  rintro ⟨s2, n2⟩ ⟨t2, m2⟩ h2
  dsimp only
  rw [show n2.output.grad = m2.output.grad by rw [h2.2.layer.eq trivial]]
  refine RelRes.same _ fun og _ => ?_
  rw [mixAll_sim h2]
  refine RelRes.same _ fun hg _ => ?_
  refine RelRes.bind (net_updateWith_sim h2 og hg) ?_
  rintro ⟨s3, n3⟩ ⟨t3, m3⟩ h3
  exact .ok ⟨WSim.put h3, rfl, hc⟩

theorem costRows_sim {junk junk' : Nat → Nat → ℝ} {P : Prop} {s t : Store} {n m : Net} (h : Sim P s n t m) (x y : Mat ℝ) :
    RelRes (SimR P) (SGD.costRows junk x y s n) (SGD.costRows junk' x y t m) := by
  unfold SGD.costRows
  refine RelRes.loop (R := SimR P) ⟨rfl, h⟩ ?_
  rintro k ⟨c1, s1, n1⟩ ⟨c2, t1, m1⟩ hk ⟨h0, h1⟩
  dsimp only at h0 h1 ⊢
  subst h0
  refine RelRes.same _ fun xi _ => ?_
  refine RelRes.bind (net_predict_sim h1 xi) ?_
  rintro ⟨r, s1, n1⟩ ⟨r', t1, m1⟩ ⟨-, h1⟩
  refine RelRes.same _ fun yi _ => ?_
  dsimp only at h1 ⊢
  unfold Net.getresult
  rw [cost_sim h1.2, h1.2.result]
  exact RelRes.same _ fun c _ => .ok ⟨rfl, h1⟩

def SimA (P : Prop) : ℝ × World × AnyTrainer → ℝ × World × AnyTrainer → Prop := fun a b => a.1 = b.1 ∧ WSim P a.2.1 b.2.1 ∧ a.2.2 = b.2.2 ∧ a.2.2.Of0

theorem WSim.mono {P Q : Prop} {w v : World} (h : WSim P w v) (hq : Q → P) : WSim Q w v := Sim.mono h hq

theorem feed_sim {junk junk' : Nat → Nat → ℝ} {P : Prop} {w v : World} (h : WSim P w v) {t : AnyTrainer} (ht : t.Of0) (x y : Mat ℝ) (c : Bool) :
    RelRes (SimA (P ∨ 0 < x.nr)) (t.feedcost junk w x y c) (t.feedcost junk' v x y c) := by
  cases t with
  | trainer t =>
    refine RelRes.bind (Q := fun a b => a.1 = b.1 ∧ SimT True a.2 b.2) ?_ ?_
    · unfold Trainer.feedcost
      refine RelRes.bind (trainer_sim h ht x y) ?_
      rintro ⟨w1, t1⟩ ⟨v1, t2⟩ ⟨h1, h2, h3⟩
      dsimp only at h1 h2 h3 ⊢
      subst h2
      rw [h3]
      unfold Net.getresult
      rw [cost_sim h1.2, h1.2.result]
      exact RelRes.same _ fun a _ => .ok ⟨rfl, h1, rfl, h3⟩
    · rintro ⟨r1, w1, t1⟩ ⟨r2, v1, t2⟩ ⟨h0, h1, h2, h3⟩
      exact .ok ⟨h0, WSim.mono h1 fun _ => trivial, by dsimp only at h2 ⊢; rw [h2], h3⟩
  | sgd t =>
    refine RelRes.bind (Q := fun a b => a.1 = b.1 ∧ SimT (P ∨ 0 < x.nr) a.2 b.2) ?_ ?_
    · unfold SGD.feedcost
      refine RelRes.bind (sgd_sim h ht x y) ?_
      rintro ⟨w1, t1⟩ ⟨v1, t2⟩ ⟨h1, h2, h3⟩
      dsimp only at h1 h2 h3 ⊢
      subst h2
      rw [h3]
      split
      · refine RelRes.bind (costRows_sim h1 x y) ?_
        rintro ⟨c1, s1, n1⟩ ⟨c2, t1, m1⟩ ⟨h4, h5⟩
        dsimp only at h4 h5 ⊢
        subst h4
        exact .ok ⟨rfl, WSim.put h5, rfl, h3⟩
      · exact .ok ⟨rfl, h1, rfl, h3⟩
    · rintro ⟨r1, w1, t1⟩ ⟨r2, v1, t2⟩ ⟨h0, h1, h2, h3⟩
      exact .ok ⟨h0, h1, by dsimp only at h2 ⊢; rw [h2], h3⟩
  | batch t =>
    refine RelRes.bind (Q := fun a b => a.1 = b.1 ∧ SimB (P ∨ 0 < x.nr) a.2 b.2) ?_ ?_
    · unfold BatchTrainer.feedcost
      refine RelRes.bind (batch_sim h ht x y) ?_
      rintro ⟨w1, t1⟩ ⟨v1, t2⟩ ⟨h1, h2, h3⟩
      dsimp only at h1 h2 h3 ⊢
      subst h2
      rw [h3]
      unfold Net.getresult
      rw [h1.2.result]
      have : (w1.nets 0).computecost = (v1.nets 0).computecost := by funext p q; exact cost_sim h1.2 p q
      rw [this]
      exact RelRes.same _ fun a _ => .ok ⟨rfl, h1, rfl, h3⟩
    · rintro ⟨r1, w1, t1⟩ ⟨r2, v1, t2⟩ ⟨h0, h1, h2, h3⟩
      exact .ok ⟨h0, h1, by dsimp only at h2 ⊢; rw [h2], h3⟩
  | momentum t =>
    refine RelRes.bind (Q := fun a b => a.1 = b.1 ∧ SimM True a.2 b.2) ?_ ?_
    · unfold MomentumTrainer.feedcost
      refine RelRes.bind (momentum_sim h ht x y) ?_
      rintro ⟨w1, t1⟩ ⟨v1, t2⟩ ⟨h1, h2, h3⟩
      dsimp only at h1 h2 h3 ⊢
      subst h2
      rw [h3]
      unfold Net.getresult
      rw [cost_sim h1.2, h1.2.result]
      exact RelRes.same _ fun a _ => .ok ⟨rfl, h1, rfl, h3⟩
    · rintro ⟨r1, w1, t1⟩ ⟨r2, v1, t2⟩ ⟨h0, h1, h2, h3⟩
      exact .ok ⟨h0, WSim.mono h1 fun _ => trivial, by dsimp only at h2 ⊢; rw [h2], h3⟩

/-! ### Whole programs -/

structure StSim (P : Prop) (σ τ : Spec.State) : Prop where
  fs : σ.fs = τ.fs
  w : WSim P σ.w τ.w
  ts : σ.ts = τ.ts
  of0 : ∀ k, (σ.ts k).Of0

theorem make_of0 (w : World) (a : Spec.TrainerArgs) : (a.make w).Of0 := by
  rcases a with d | d | ⟨b, d⟩ | ⟨m, d⟩ <;> rcases d with _ | ⟨r0, k, step⟩ <;> rfl

theorem make_sim {P : Prop} {w v : World} (h : WSim P w v) (a : Spec.TrainerArgs) : a.make w = a.make v := by
  have h1 : (w.nets 0).output.W = (v.nets 0).output.W := by
    obtain ⟨g, hg, -⟩ := h.2.layer
    rw [hg]
  have h2 : (w.nets 0).hidden.map (fun p => MomentumTrainer.zeros (w.store p).base.W) = (v.nets 0).hidden.map (fun p => MomentumTrainer.zeros (v.store p).base.W) := by
    rw [← h.2.hidden]
    refine List.map_congr_left fun p _ => ?_
    rw [(h.1 p).W]
  rcases a with d | d | ⟨b, d⟩ | ⟨m, d⟩ <;> rcases d with _ | ⟨r0, k, step⟩ <;> try rfl
  · show AnyTrainer.momentum (MomentumTrainer.initmomentum w (Trainer.new 0) m) = .momentum (MomentumTrainer.initmomentum v (Trainer.new 0) m)
    unfold MomentumTrainer.initmomentum
    rw [show (Trainer.new 0).nnet = 0 from rfl, h1, h2]
  · show AnyTrainer.momentum (MomentumTrainer.initmomentum w (Trainer.newDecay 0 r0 k step) m) = .momentum (MomentumTrainer.initmomentum v (Trainer.newDecay 0 r0 k step) m)
    unfold MomentumTrainer.initmomentum
    rw [show (Trainer.newDecay 0 r0 k step).nnet = 0 from rfl, h1, h2]

theorem exec_sim {dist : Draws} {io : TextIO} {mem mem' : Nat → Nat → ℝ} {P : Prop} {σ τ : Spec.State} (h : StSim P σ τ) (c : Spec.Stmt) (hc : c.usesGradients → P) :
    RelRes (fun a b => a.1 = b.1 ∧ StSim (P ∨ c.backprops) a.2 b.2) (c.exec dist io mem σ) (c.exec dist io mem' τ) := by
  cases c with
  | make k a =>
    refine .ok ⟨rfl, ⟨h.fs, WSim.mono h.w fun hh => hh.elim id False.elim, ?_, fun j => ?_⟩⟩
    · dsimp only
      rw [make_sim h.w, h.ts]
    · dsimp only
      split
      · exact make_of0 _ _
      · exact h.of0 j
  | feed k x y cc =>
    show RelRes _ (do let (r, w, t) ← (σ.ts k).feedcost mem σ.w x y cc; _) (do let (r, w, t) ← (τ.ts k).feedcost mem' τ.w x y cc; _)
    rw [← h.ts]
    refine RelRes.bind (feed_sim h.w (h.of0 k) x y cc) ?_
    rintro ⟨r1, w1, t1⟩ ⟨r2, v1, t2⟩ ⟨h0, h1, h2, h3⟩
    dsimp only at h0 h1 h2 h3 ⊢
    subst h0 h2
    refine .ok ⟨rfl, ⟨h.fs, h1, by dsimp only, fun j => ?_⟩⟩
    dsimp only
    split
    · exact h3
    · exact h.of0 j
  | call c =>
    show RelRes _ (do let (r, fs, s, n) ← c.call ⟨mem, dist, io⟩ σ.fs σ.w.store (σ.w.nets 0); _) (do let (r, fs, s, n) ← c.call ⟨mem', dist, io⟩ τ.fs τ.w.store (τ.w.nets 0); _)
    rw [← h.fs]
    refine RelRes.bind (call_sim h.w c hc) ?_
    rintro ⟨r1, f1, s1, n1⟩ ⟨r2, f2, t1, m1⟩ ⟨h0, h1, h2⟩
    exact .ok ⟨by dsimp only at h0 ⊢; rw [h0], ⟨h1, WSim.put h2, h.ts, h.of0⟩⟩

theorem execAll_sim {dist : Draws} {io : TextIO} {mem mem' : Nat → Nat → Nat → ℝ} : ∀ (cs : List Spec.Stmt) {P : Prop} {σ τ : Spec.State} {k : Nat}, StSim P σ τ → Spec.GradientsFirst P cs →
    Spec.execAll dist io mem σ k cs = Spec.execAll dist io mem' τ k cs
  | [], _, σ, τ, _, h, _ => by unfold Spec.execAll; rw [h.fs]
  | c :: cs, P, σ, τ, k, h, hg => by
    have hc := exec_sim (dist := dist) (io := io) (mem := mem k) (mem' := mem' k) h c hg.1
    unfold Spec.execAll
    generalize c.exec dist io (mem k) σ = X at hc
    generalize c.exec dist io (mem' k) τ = Y at hc
    cases hc with
    | err st => rfl
    | @ok a b hab =>
      obtain ⟨r1, σ1⟩ := a
      obtain ⟨r2, τ1⟩ := b
      obtain ⟨h1, h2⟩ := hab
      dsimp only at h1 h2 ⊢
      subst h1
      rw [execAll_sim cs h2 hg.2]

theorem mk_size {junk : Nat → Nat → ℝ} {r c : Int} : (∃ e : Stop, ∀ junk : Nat → Nat → ℝ, Mat.mk' junk r c = .error e) ∨ ∃ a b : Nat, ∀ junk : Nat → Nat → ℝ, ∃ M, Mat.mk' junk r c = .ok M ∧ M.nr = a ∧ M.nc = b := by
  unfold Mat.mk'
  split
  · exact .inr ⟨_, _, fun _ => ⟨_, rfl, rfl, rfl⟩⟩
  · exact .inl ⟨_, fun _ => rfl⟩

theorem newDev_sim {dist : Draws} {mem mem' : Nat → Nat → ℝ} (a : Spec.DenseArgs) :
    RelRes (LSim False) (Layer.newDev dist mem a.inputs a.nodes a.lrate a.stddev a.lambda a.act) (Layer.newDev dist mem' a.inputs a.nodes a.lrate a.stddev a.lambda a.act) := by
  unfold Layer.newDev
  rcases mk_size (junk := mem) (r := a.inputs + 1) (c := a.nodes) with ⟨e, he⟩ | ⟨m, n, he⟩
  · rw [he mem, he mem']; exact .err e
  · obtain ⟨W, e1, w1, w2⟩ := he mem
    obtain ⟨W', e1', w1', w2'⟩ := he mem'
    rw [e1, e1', ok_bind, ok_bind, ok_bind, ok_bind, randominit_ok, randominit_ok]
    dsimp only
    rw [w1, w2, w1', w2']
    exact .ok ⟨W', rfl, False.elim⟩

theorem makeHidden_sim {dist : Draws} {mem mem' : Nat → Nat → Nat → ℝ} : ∀ (as : List Spec.DenseArgs) {p : Nat} {s t : Store}, SSim (fun _ => False) s t →
    RelRes (SSim fun _ => False) (Spec.makeHidden dist mem as p s) (Spec.makeHidden dist mem' as p t)
  | [], p, s, t, h => .ok h
  | a :: as, p, s, t, h => by
    unfold Spec.makeHidden
    exact RelRes.bind (newDev_sim a) fun L M hL => makeHidden_sim as (h.put (.mk hL) fun _ _ hq => hq)

theorem new_net (dist : Draws) (mem : Nat → Nat → ℝ) (L : Layer) (o : OutputLayer) (hs : List Nat) : ∃ i, Net.new dist mem L o hs =
    .ok { result := .empty, cost := o.cost, costd := o.costd, input := i, hidden := hs, output := { o with y := .empty } } := by
  obtain ⟨M, e, -⟩ := C53_copy_partial dist mem 2 L
  unfold copies copies copies at e
  obtain ⟨M1, e1, e⟩ := bind_eq_ok e
  obtain ⟨M2, e2, e⟩ := bind_eq_ok e
  unfold Net.new
  rw [e1, ok_bind, e2, ok_bind]
  exact ⟨_, rfl⟩

theorem build_sim {dist : Draws} {mem mem' : Nat → Nat → Nat → ℝ} (r : Spec.Recipe) : RelRes (Sim2 False) (r.build dist mem) (r.build dist mem') := by
  unfold Spec.Recipe.build
  dsimp only
  have hin : RelRes (fun L M : Layer => L.W.nr = M.W.nr ∧ L.W.nc = M.W.nc) (InputLayer.new (mem (r.hidden.length + 1)) r.inputs) (InputLayer.new (mem' (r.hidden.length + 1)) r.inputs) := by
    unfold InputLayer.new
    rcases mk_size (junk := mem 0) (r := r.inputs) (c := r.inputs) with ⟨e, he⟩ | ⟨m, n, he⟩
    · rw [he, he]; exact .err e
    · obtain ⟨W, e1, w1, w2⟩ := he (mem (r.hidden.length + 1))
      obtain ⟨W', e1', w1', w2'⟩ := he (mem' (r.hidden.length + 1))
      rw [e1, e1', ok_bind, ok_bind, ok_bind, ok_bind]
      exact .ok ⟨by rw [w1, w1'], by rw [w2, w2']⟩
  refine RelRes.bind hin fun L M _ => ?_
  refine RelRes.bind (makeHidden_sim (mem := mem) (mem' := mem') r.hidden (fun _ => .mk .rfl')) fun s t hs => ?_
  refine RelRes.bind (Q := fun o o' : OutputLayer => LSim False o.toLayer o'.toLayer ∧ o.cost = o'.cost ∧ o.costd = o'.costd) ?_ fun o o' ho => ?_
  · unfold OutputLayer.newDev
    exact RelRes.bind (newDev_sim r.out) fun L M hL => .ok ⟨hL, rfl, rfl⟩
  · obtain ⟨i, e1⟩ := new_net dist (mem (r.hidden.length + 2)) L o (List.range r.hidden.length)
    obtain ⟨j, e2⟩ := new_net dist (mem' (r.hidden.length + 2)) M o' (List.range r.hidden.length)
    rw [e1, e2, ok_bind, ok_bind]
    exact .ok ⟨hs.mono fun p hp => hp.1, ⟨rfl, ho.2.1, rfl, ho.1, ho.2.1, ho.2.2⟩⟩

/-- **C69.** A program that builds a network of dense layers, makes trainers, feeds them, and calls methods of the network in any order returns the same values, fails in the same way and writes
the same files whatever the memory contained that the library allocates and does not initialise, provided no `update()`, `gethidden()` or `getoutput()` comes before the first `backprop` or fed
batch. -/
theorem C69_determinate (dist : Draws) (io : TextIO) (mem mem' : Nat → Nat → Nat → ℝ) (fs : Files) (r : Spec.Recipe) (prog : List Spec.Stmt) (h : Spec.GradientsFirst False prog) :
    Spec.run dist io mem fs r prog = Spec.run dist io mem' fs r prog := by
  unfold Spec.run
  have hb := build_sim (dist := dist) (mem := mem) (mem' := mem') r
  generalize r.build dist mem = X at hb
  generalize r.build dist mem' = Y at hb
  cases hb with
  | err st => rfl
  | @ok a b hab =>
    obtain ⟨s, n⟩ := a
    obtain ⟨t, m⟩ := b
    exact execAll_sim prog ⟨rfl, hab, rfl, fun _ => rfl⟩ h

/-- One input, one output, no hidden layer. -/
def exRecipe : Spec.Recipe :=
  { inputs := 1, hidden := [], out := ⟨1, 1, 1, 1, 0, Act.identity⟩, cost := Quadratic.cost, costd := Quadratic.costd }

theorem exRecipe_update (dist : Draws) (io : TextIO) (g : ℝ) (fs : Files) :
    Spec.run dist io (fun _ _ _ => g) fs exRecipe [.call .update, .call (.forwardprop (Mat.of 1 1 (fun _ _ => 1)))] =
      ([.nothing, .matrix (Mat.of 1 1 (fun _ _ => (initW dist 2 1 1).f 0 0 + (initW dist 2 1 1).f 1 0 - 2 * g))], .ok fs) := by
  set L : Layer := { Layer.default with lrate := 1, lambda := 0, actfunc := Act.identity, W := initW dist 2 1 1, grad := Mat.of 2 1 (fun _ _ => g) } with hL
  set o : OutputLayer := { L with cost := Quadratic.cost, costd := Quadratic.costd, y := .empty } with ho
  set s : Store := fun _ => ⟨Layer.default, .dense⟩ with hs
  have hb : ∃ i, exRecipe.build dist (fun _ _ _ => g) = .ok (s, { result := .empty, cost := Quadratic.cost, costd := Quadratic.costd, input := i, hidden := [], output := o }) := by
    have ein : InputLayer.new (fun _ _ => g) 1 = .ok { Layer.default with W := Mat.of 1 1 (fun _ _ => g), grad := Mat.of 1 1 (fun _ _ => g) } := by
      unfold InputLayer.new Mat.mk'
      rw [if_pos (by omega), ok_bind, ok_bind]
      rfl
    unfold Spec.Recipe.build
    simp only [exRecipe, List.length_nil, Spec.makeHidden]
    rw [ein, ok_bind, ok_bind]
    have e : OutputLayer.newDev dist (fun _ _ => g) 1 1 1 1 0 Act.identity Quadratic.cost Quadratic.costd = .ok o := by
      unfold OutputLayer.newDev Layer.newDev Mat.mk'
      rw [if_pos (by omega), ok_bind, ok_bind, randominit_ok]
      rfl
    rw [e, ok_bind]
    obtain ⟨i, e2⟩ := new_net dist (fun _ _ => g) { Layer.default with W := Mat.of 1 1 (fun _ _ => g), grad := Mat.of 1 1 (fun _ _ => g) } o []
    exact ⟨i, by
      show (do let net ← Net.new dist _ { Layer.default with W := Mat.of 1 1 (fun _ _ => g), grad := Mat.of 1 1 (fun _ _ => g) } o []; Except.ok (s, net)) = _
      rw [e2, ok_bind]⟩
  obtain ⟨i, hb⟩ := hb
  set n1 : Net := { result := .empty, cost := Quadratic.cost, costd := Quadratic.costd, input := i, hidden := [], output := { o with toLayer := L.upd } } with hn1
  have hu : Net.update s { result := .empty, cost := Quadratic.cost, costd := Quadratic.costd, input := i, hidden := [], output := o } = .ok (s, n1) := by
    unfold Net.update
    rw [show OutputLayer.toLayer o = L from rfl, Layer.update_ok ⟨rfl, rfl⟩]
    rfl
  have hlin : Spec.LinearNet s n1 1 1 := ⟨⟨by simp [hn1], fun _ h => absurd h (by simp [hn1]), by omega, by
    simp [Net.layers, Net.hiddenLayers, hn1, Spec.Fits]
    exact ⟨rfl, by show 0 < 1; omega, rfl⟩⟩, rfl, rfl, rfl, rfl, rfl⟩
  obtain ⟨s2, n2, hf, -⟩ := Net.forwardprop_ok (junk := fun _ _ => g) hlin.wf (x := Mat.of 1 1 (fun _ _ => 1)) (by show 0 < 1; omega) rfl
  have hs2 : s2 = s := by
    unfold Net.forwardprop at hf
    rw [show n1.hidden = [] from rfl] at hf
    simp only [InputLayer.forwardprop, Net.hiddenForward, ok_bind] at hf
    obtain ⟨a, -, hf⟩ := bind_eq_ok hf
    exact (Prod.mk.inj (Prod.mk.inj (Except.ok.inj hf)).2).1.symm
  unfold Spec.run
  rw [hb]
  simp only [Spec.execAll, Spec.Stmt.exec, Spec.Method.call]
  rw [hu]
  simp only [ok_bind]
  have hw : (World.put ⟨fun _ => { result := .empty, cost := Quadratic.cost, costd := Quadratic.costd, input := i, hidden := [], output := o }, s⟩ 0 s n1).nets 0 = n1 := by simp [World.put]
  rw [hw, show (World.put ⟨fun _ => { result := .empty, cost := Quadratic.cost, costd := Quadratic.costd, input := i, hidden := [], output := o }, s⟩ 0 s n1).store = s from rfl, hf]
  simp only [ok_bind]
  congr 4
  obtain ⟨d1, d2⟩ := outL_dims (Ls := n1.layers s) (x := Mat.of 1 1 (fun _ _ => 1)) (q := 1) hlin.wf.fits
  refine Mat.ext' d1 d2 fun a b ha hb' => ?_
  have ha' : a < 1 := by rw [d1] at ha; exact ha
  have hb'' : b < 1 := by omega
  obtain rfl : a = 0 := by omega
  obtain rfl : b = 0 := by omega
  rw [linear_out hlin rfl (by exact ha') (by omega), Mat.of_f' (by omega) (by omega), Finset.sum_range_succ, Finset.sum_range_one]
  have hW : ∀ k < 2, n1.output.W.f k 0 = (initW dist 2 1 1).f k 0 - g := by
    intro k hk
    show (Mat.of (initW dist 2 1 1).nr (initW dist 2 1 1).nc (fun i j => (initW dist 2 1 1).f i j - 1 * (Mat.of 2 1 (fun _ _ => g)).f i j)).f k 0 = _
    rw [Mat.of_f' (by exact hk) (by show 0 < 1; omega), Mat.of_f' (by omega) (by omega)]
    ring
  rw [hW 0 (by omega), hW 1 (by omega)]
  unfold Spec.withOne
  simp only [if_true, Nat.one_ne_zero, if_false]
  rw [Mat.of_f' (by omega) (by omega)]
  ring

/-- **C69 needs its condition**: with `update()` as the first call the next prediction depends on uninitialised memory. -/
theorem C69_update_refuted (dist : Draws) (io : TextIO) (fs : Files) : ∃ (mem mem' : Nat → Nat → Nat → ℝ) (r : Spec.Recipe) (prog : List Spec.Stmt),
    (Spec.run dist io mem fs r prog).2 = .ok fs ∧ (Spec.run dist io mem' fs r prog).2 = .ok fs ∧ Spec.run dist io mem fs r prog ≠ Spec.run dist io mem' fs r prog := by
  refine ⟨fun _ _ _ => 0, fun _ _ _ => 1, exRecipe, [.call .update, .call (.forwardprop (Mat.of 1 1 (fun _ _ => 1)))], ?_, ?_, ?_⟩
  · rw [exRecipe_update]
  · rw [exRecipe_update]
  · rw [exRecipe_update, exRecipe_update]
    intro h
    have h1 := (List.cons.inj (Prod.mk.inj h).1).2
    have h2 := (List.cons.inj h1).1
    have h3 := Spec.Returned.matrix.inj h2
    have h4 : (Mat.of 1 1 (fun _ _ => (initW dist 2 1 1).f 0 0 + (initW dist 2 1 1).f 1 0 - 2 * 0)).f 0 0 = (Mat.of 1 1 (fun _ _ => (initW dist 2 1 1).f 0 0 + (initW dist 2 1 1).f 1 0 - 2 * 1)).f 0 0 := by rw [h3]
    rw [Mat.of_f' (by omega) (by omega), Mat.of_f' (by omega) (by omega)] at h4
    linarith

end
end Nnet.NN
