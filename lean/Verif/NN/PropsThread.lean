import Verif.NN.NetThreadLemmas
import Verif.NN.PropsForward
/-!
# C107: networks used by several threads
-/
namespace Nnet.NN
noncomputable section
open Conc NetThread

/-! ## Specification -/

/-- The member function a call of a thread names. -/
def NetThread.Call.method : NetThread.Call → Spec.Method
  | .forwardprop x => .forwardprop x
  | .predict x => .predict x
  | .backprop y => .backprop y
  | .update => .update
  | .updateWith og hg => .updateWith og hg
  | .computecost p y => .computecost p y
  | .getresult => .getresult
  | .setlrate r => .setlrate r
  | .setoutputw v => .setoutputw v

/-- The calls for network `q` one after the other with no other thread around: what they return, and the networks and layers at the end; or how the first call that fails does. -/
def Spec.alone (e : Spec.Env) (q : Nat) : World → List NetThread.Call → Res (List Spec.Returned × World)
  | w, [] => .ok ([], w)
  | w, c :: cs =>
    match c.method.call e (fun _ => none) w.store (w.nets q) with
    | .error st => .error st
    | .ok (r, _, s, n) =>
      match Spec.alone e q (w.put q s n) cs with
      | .error st => .error st
      | .ok (rs, w) => .ok (r :: rs, w)

/-! ## A thread that runs alone calls the functions of Net.lean -/

theorem Layer.forwardpropT_res (pa : Mat ℝ) (L : Layer) : (Layer.forwardpropT pa).res L = L.forwardprop pa := by
  unfold Layer.forwardpropT
  simp only [res_bind, res_assign, res_eval, bind_assoc, ok_bind]
  rfl

theorem Layer.backpropT_res (d : Mat ℝ) (L : Layer) : (Layer.backpropT d).res L = L.backprop d := by
  unfold Layer.backpropT
  simp only [res_bind, res_assign, res_eval, bind_assoc, ok_bind]
  rfl

theorem Layer.updateT_res (L : Layer) : Layer.updateT.res L = L.update >>= fun L => .ok ((), L) := by
  unfold Layer.updateT
  simp only [res_assign, bind_assoc, ok_bind, Layer.update]

theorem Layer.updateWithT_res (g : Mat ℝ) (L : Layer) : (Layer.updateWithT g).res L = L.updateWith g >>= fun L => .ok ((), L) := by
  unfold Layer.updateWithT
  simp only [res_assign, bind_assoc, ok_bind, Layer.updateWith]

theorem InputLayer.forwardpropT_res (x : Mat ℝ) (L : Layer) : (InputLayer.forwardpropT x).res L = .ok (InputLayer.forwardprop L x) := rfl

theorem lens_base : Lens OutputLayer.toLayer (fun L o => { o with toLayer := L }) := ⟨fun _ _ => rfl, fun _ _ _ => rfl, fun _ => rfl⟩
theorem lens_dense : Lens HLayer.base (fun L h => { h with base := L }) := ⟨fun _ _ => rfl, fun _ _ _ => rfl, fun _ => rfl⟩
theorem lens_output : Lens Net.output (fun o n => { n with output := o }) := ⟨fun _ _ => rfl, fun _ _ _ => rfl, fun _ => rfl⟩
theorem lens_input : Lens Net.input (fun o n => { n with input := o }) := ⟨fun _ _ => rfl, fun _ _ _ => rfl, fun _ => rfl⟩
theorem lens_net (q : Nat) : Lens (fun w : World => w.nets q) (fun n w => { w with nets := fun j => if j = q then n else w.nets j }) := by
  refine ⟨fun _ _ => by simp, fun _ _ s => ?_, fun s => ?_⟩
  · congr 1
    funext j
    simp only
    split <;> rfl
  · cases s with
    | mk a b =>
      congr 1
      funext j
      simp only
      split
      · rename_i h; rw [h]
      · rfl
theorem lens_hidden (p : Nat) : Lens (fun w : World => w.store p) (fun h w => { w with store := w.store.put p h }) := by
  refine ⟨fun _ _ => by simp [Store.put], fun _ _ s => ?_, fun s => ?_⟩
  · congr 1
    funext j
    simp only [Store.put]
    split <;> rfl
  · cases s with
    | mk a b =>
      congr 1
      funext j
      simp only [Store.put]
      split
      · rename_i h; rw [h]
      · rfl

theorem OutputLayer.forwardpropT_res (pa : Mat ℝ) (o : OutputLayer) : (OutputLayer.baseT (Layer.forwardpropT pa)).res o = o.forwardprop pa := by
  unfold OutputLayer.baseT
  rw [res_on lens_base, Layer.forwardpropT_res]
  rfl

theorem OutputLayer.backpropT_res (y : Mat ℝ) (o : OutputLayer) : (OutputLayer.backpropT y).res o = o.backprop y := by
  unfold OutputLayer.backpropT
  simp only [res_bind, res_assign, res_eval, bind_assoc, ok_bind]
  rfl

theorem HLayer.otherT_res {α : Type} (f : HLayer → Res (α × HLayer)) (h : HLayer) : (HLayer.otherT f).res h = f h := by
  unfold HLayer.otherT
  simp only [res_bind, res_op, res_ret, bind_assoc, ok_bind]
  cases f h <;> rfl

theorem HLayer.forwardpropT_res (junk : Nat → Nat → ℝ) (pa : Mat ℝ) (h : HLayer) : (HLayer.forwardpropT junk pa).res h = h.forwardprop junk pa := by
  unfold HLayer.forwardpropT
  rw [res_bind, res_get, ok_bind]
  obtain ⟨L, k⟩ := h
  cases k with
  | dense => show (HLayer.denseT _).res _ = _; unfold HLayer.denseT; rw [res_on lens_dense, Layer.forwardpropT_res]; rfl
  | _ => exact HLayer.otherT_res _ _

theorem HLayer.backpropT_res (junk : Nat → Nat → ℝ) (pa : Mat ℝ) (h : HLayer) : (HLayer.backpropT junk pa).res h = h.backprop junk pa := by
  unfold HLayer.backpropT
  rw [res_bind, res_get, ok_bind]
  obtain ⟨L, k⟩ := h
  cases k with
  | dense => show (HLayer.denseT _).res _ = _; unfold HLayer.denseT; rw [res_on lens_dense, Layer.backpropT_res]; rfl
  | _ => exact HLayer.otherT_res _ _

theorem HLayer.updateT_res (h : HLayer) : HLayer.updateT.res h = h.update >>= fun h => .ok ((), h) := by
  unfold HLayer.updateT
  rw [res_bind, res_get, ok_bind]
  obtain ⟨L, k⟩ := h
  cases k with
  | dense => show (HLayer.denseT _).res _ = _; unfold HLayer.denseT; rw [res_on lens_dense, Layer.updateT_res]; simp only [HLayer.update, bind_assoc, ok_bind]
  | _ => exact HLayer.otherT_res _ _

theorem HLayer.updateWithT_res (g : Mat ℝ) (h : HLayer) : (HLayer.updateWithT g).res h = h.updateWith g >>= fun h => .ok ((), h) := by
  unfold HLayer.updateWithT
  rw [res_bind, res_get, ok_bind]
  obtain ⟨L, k⟩ := h
  cases k with
  | dense => show (HLayer.denseT _).res _ = _; unfold HLayer.denseT; rw [res_on lens_dense, Layer.updateWithT_res]; simp only [HLayer.updateWith, bind_assoc, ok_bind]
  | _ => exact HLayer.otherT_res _ _

namespace NetThread
variable {α : Type}

theorem onHidden_res (p : Nat) (m : Conc HLayer α) (w : World) : (onHidden p m).res w = m.res (w.store p) >>= fun r => .ok (r.1, ⟨w.nets, w.store.put p r.2⟩) := res_on (lens_hidden p) m w
theorem onNet_res (q : Nat) (m : Conc Net α) (w : World) : (onNet q m).res w = m.res (w.nets q) >>= fun r => .ok (r.1, w.put q w.store r.2) := res_on (lens_net q) m w
theorem onOutput_res (m : Conc OutputLayer α) (n : Net) : (onOutput m).res n = m.res n.output >>= fun r => .ok (r.1, { n with output := r.2 }) := res_on lens_output m n
theorem onInput_res (m : Conc Layer α) (n : Net) : (onInput m).res n = m.res n.input >>= fun r => .ok (r.1, { n with input := r.2 }) := res_on lens_input m n
theorem baseT_res (m : Conc Layer α) (o : OutputLayer) : (OutputLayer.baseT m).res o = m.res o.toLayer >>= fun r => .ok (r.1, { o with toLayer := r.2 }) := res_on lens_base m o

theorem put_nets (w : World) (q : Nat) (s : Store) (n : Net) : (w.put q s n).nets q = n := by simp [World.put]
theorem put_store (w : World) (q : Nat) (s : Store) (n : Net) : (w.put q s n).store = s := rfl
theorem put_put (w : World) (q : Nat) (s s' : Store) (n n' : Net) : (w.put q s n).put q s' n' = w.put q s' n' := by
  unfold World.put
  congr 1
  funext j
  simp only
  split <;> rfl
theorem put_mk (w : World) (q : Nat) (s s' : Store) (n : Net) : (⟨(w.put q s n).nets, s'⟩ : World) = w.put q s' n := rfl
theorem hiddenForward_res (junk : Nat → Nat → ℝ) : ∀ (ps : List Nat) (c : Mat ℝ) (w : World), (hiddenForward junk ps c).res w = Net.hiddenForward junk ps w.store c >>= fun r => .ok (r.1, ⟨w.nets, r.2⟩)
  | [], c, w => rfl
  | p :: ps, c, w => by
    unfold hiddenForward
    simp only [res_bind, onHidden_res, HLayer.forwardpropT_res, bind_assoc, ok_bind, hiddenForward_res junk ps, Net.hiddenForward]

theorem hiddenBackward_res (junk : Nat → Nat → ℝ) : ∀ (ps : List Nat) (c : Mat ℝ) (w : World), (hiddenBackward junk ps c).res w = Net.hiddenBackward junk ps w.store c >>= fun r => .ok ((), ⟨w.nets, r⟩)
  | [], c, w => rfl
  | p :: ps, c, w => by
    unfold hiddenBackward
    simp only [res_bind, onHidden_res, HLayer.backpropT_res, bind_assoc, ok_bind, hiddenBackward_res junk ps, Net.hiddenBackward]

theorem hiddenUpdate_res : ∀ (ps : List Nat) (w : World), (hiddenUpdate ps).res w = Net.hiddenUpdate ps w.store >>= fun r => .ok ((), ⟨w.nets, r⟩)
  | [], w => rfl
  | p :: ps, w => by
    unfold hiddenUpdate
    simp only [res_bind, onHidden_res, HLayer.updateT_res, bind_assoc, ok_bind, hiddenUpdate_res ps, Net.hiddenUpdate]

theorem hiddenUpdateWith_res : ∀ (ps : List Nat) (gs : List (Mat ℝ)) (w : World), (hiddenUpdateWith ps gs).res w = Net.hiddenUpdateWith ps gs w.store >>= fun r => .ok ((), ⟨w.nets, r⟩)
  | [], _, w => rfl
  | _ :: _, [], w => rfl
  | p :: ps, g :: gs, w => by
    unfold hiddenUpdateWith
    simp only [res_bind, onHidden_res, HLayer.updateWithT_res, bind_assoc, ok_bind, hiddenUpdateWith_res ps, Net.hiddenUpdateWith]

theorem hiddenSetlrate_res (r : ℝ) : ∀ (ps : List Nat) (w : World), (hiddenSetlrate r ps).res w = .ok ((), ⟨w.nets, ps.foldl (fun s p => s.put p ((s p).setlrate r)) w.store⟩)
  | [], w => rfl
  | p :: ps, w => by
    unfold hiddenSetlrate
    simp only [res_bind, onHidden_res, res_op, bind_assoc, ok_bind, hiddenSetlrate_res r ps, List.foldl_cons]

theorem forwardprop_res (junk : Nat → Nat → ℝ) (q : Nat) (x : Mat ℝ) (w : World) :
    (NetThread.forwardprop junk q x).res w = (w.nets q).forwardprop junk w.store x >>= fun r => .ok (r.1, w.put q r.2.1 r.2.2) := by
  unfold NetThread.forwardprop
  simp only [res_bind, onNet_res, onInput_res, InputLayer.forwardpropT_res, res_get, bind_assoc, ok_bind, hiddenForward_res, put_nets, put_store, onOutput_res, OutputLayer.forwardpropT_res,
    res_assign, put_put, put_mk, Net.forwardprop, InputLayer.forwardprop]

theorem backprop_res (junk : Nat → Nat → ℝ) (q : Nat) (y : Mat ℝ) (w : World) :
    (NetThread.backprop junk q y).res w = (w.nets q).backprop junk w.store y >>= fun r => .ok ((), w.put q r.1 r.2) := by
  unfold NetThread.backprop
  simp only [res_bind, onNet_res, res_get, bind_assoc, ok_bind, hiddenBackward_res, put_nets, put_store, onOutput_res, OutputLayer.backpropT_res,
    put_put, put_mk, Net.backprop]

theorem update_res (q : Nat) (w : World) : (NetThread.update q).res w = (w.nets q).update w.store >>= fun r => .ok ((), w.put q r.1 r.2) := by
  unfold NetThread.update
  simp only [res_bind, onNet_res, res_get, bind_assoc, ok_bind, hiddenUpdate_res, put_nets, put_store, onOutput_res, baseT_res, Layer.updateT_res, put_put, put_mk, Net.update]

theorem updateWith_res (q : Nat) (og : Mat ℝ) (hg : List (Mat ℝ)) (w : World) :
    (NetThread.updateWith q og hg).res w = (w.nets q).updateWith w.store og hg >>= fun r => .ok ((), w.put q r.1 r.2) := by
  unfold NetThread.updateWith
  simp only [res_bind, onNet_res, res_get, bind_assoc, ok_bind, hiddenUpdateWith_res, put_nets, put_store, onOutput_res, baseT_res, Layer.updateWithT_res, put_put, put_mk, Net.updateWith]

theorem predict_res (junk : Nat → Nat → ℝ) (q : Nat) (x : Mat ℝ) (w : World) :
    (NetThread.predict junk q x).res w = (w.nets q).predict junk w.store x >>= fun r => .ok (r.1, w.put q r.2.1 r.2.2) := by
  unfold NetThread.predict
  simp only [res_bind, onNet_res, forwardprop_res, res_assign, res_eval, bind_assoc, ok_bind, put_nets, put_store, put_put, Net.predict]

theorem setlrate_res (q : Nat) (r : ℝ) (w : World) : (NetThread.setlrate q r).res w = .ok ((), w.put q ((w.nets q).setlrate w.store r).1 ((w.nets q).setlrate w.store r).2) := by
  unfold NetThread.setlrate
  simp only [res_bind, onNet_res, onInput_res, res_op, res_get, bind_assoc, ok_bind, hiddenSetlrate_res, put_nets, put_store, onOutput_res, baseT_res, put_put, put_mk, Net.setlrate]

theorem body_res (e : Spec.Env) (q : Nat) (c : NetThread.Call) (w : World) :
    (c.body e.junk q).res w = c.method.call e (fun _ => none) w.store (w.nets q) >>= fun r => .ok (r.1, w.put q r.2.2.1 r.2.2.2) := by
  cases c <;> simp only [Call.body, NetThread.Call.method, Spec.Method.call, res_bind, res_ret, res_get, res_op, res_eval, onNet_res, forwardprop_res, backprop_res, update_res, updateWith_res, predict_res,
    setlrate_res, bind_assoc, ok_bind, put_store]

/-- A thread that runs alone does what its calls do one after the other. -/
theorem prog_res (e : Spec.Env) (q : Nat) : ∀ (cs : List NetThread.Call) (w : World), (prog e.junk q cs).res w = Spec.alone e q w cs
  | [], w => rfl
  | c :: cs, w => by
    unfold prog Spec.alone
    simp only [res_bind, res_ret, body_res, bind_assoc, ok_bind, prog_res e q cs]
    cases c.method.call e (fun _ => none) w.store (w.nets q) with
    | error st => rfl
    | ok r =>
      simp only [ok_bind]
      cases Spec.alone e q (w.put q r.2.2.1 r.2.2.2) cs <;> rfl

/-! ## A call uses the network and its layers only -/

/-- Network `q` and the layers `ps`. -/
def areaOf (q : Nat) (ps : List Nat) : Area := ⟨{q}, {p | p ∈ ps}⟩

/-- The pointers of network `q` are `ps`. -/
def has (q : Nat) (ps : List Nat) (w : World) : Prop := (w.nets q).hidden = ps

theorem local_hidden {q : Nat} {ps : List Nat} {p : Nat} (hp : p ∈ ps) (m : Conc HLayer α) : Local (areaOf q ps) (has q ps) (fun _ => True) (onHidden p m) := by
  have hm : Stays (fun _ => True) (fun _ => True) m := by
    induction m with
    | ret a => trivial
    | fail e => trivial
    | step γ r w k ih => exact fun s b _ _ => ⟨trivial, ih b⟩
  refine Local.on hm ?_ ?_ (fun _ _ => trivial) (fun _ _ h _ => h)
  · intro w v _
    exact Area.mix_store (P := areaOf q ps) hp
  · intro t w v _
    unfold Area.mix Store.put
    congr 1
    funext j
    simp only
    split
    · rename_i h; rw [if_pos (by rw [h]; exact hp)]
    · rfl

theorem local_net {q : Nat} {ps : List Nat} {R : α → Prop} {m : Conc Net α} (hm : Stays (fun n => n.hidden = ps) R m) : Local (areaOf q ps) (has q ps) R (onNet q m) := by
  refine Local.on hm ?_ ?_ (fun _ h => h) ?_
  · intro w v _
    exact Area.mix_nets (P := areaOf q ps) (Set.mem_singleton q)
  · intro t w v _
    unfold Area.mix
    congr 1
    funext j
    simp only
    split
    · rename_i h; rw [if_pos (by rw [h]; exact Set.mem_singleton q)]
    · rfl
  · intro t w _ ht
    unfold has
    simpa using ht

theorem stays_op {ps : List Nat} (r : Net → Res α) (w : α → Net → Net) (h : ∀ a n, (w a n).hidden = n.hidden) : Stays (fun n : Net => n.hidden = ps) (fun _ => True) (op r w) :=
  fun n a hn _ => ⟨(h a n).trans hn, trivial⟩

theorem stays_assign {ps : List Nat} (r : Net → Res (Mat ℝ)) (w : Mat ℝ → Net → Net) (h : ∀ a n, (w a n).hidden = n.hidden) :
    Stays (fun n : Net => n.hidden = ps) (fun _ => True) (assign w r) :=
  fun n a hn _ => ⟨(h a n).trans hn, trivial⟩

theorem stays_eval {ps : List Nat} (r : Net → Res α) : Stays (fun n : Net => n.hidden = ps) (fun _ => True) (Conc.eval r) := stays_op r _ fun _ _ => rfl

theorem stays_getHidden (ps : List Nat) : Stays (fun n : Net => n.hidden = ps) (fun l => l = ps) (Conc.get Net.hidden) := by
  intro n b hn hb
  refine ⟨hn, ?_⟩
  cases hb
  exact hn

theorem stays_output {ps : List Nat} (m : Conc OutputLayer α) : Stays (fun n : Net => n.hidden = ps) (fun _ => True) (onOutput m) :=
  Stays.on (get := Net.output) (put := fun o n => { n with output := o }) (fun _ _ h => h) m
theorem stays_input {ps : List Nat} (m : Conc Layer α) : Stays (fun n : Net => n.hidden = ps) (fun _ => True) (onInput m) :=
  Stays.on (get := Net.input) (put := fun o n => { n with input := o }) (fun _ _ h => h) m

variable {q : Nat} {ps : List Nat} (junk : Nat → Nat → ℝ)

theorem local_hiddenForward : ∀ {l : List Nat} (_ : ∀ p ∈ l, p ∈ ps) (x : Mat ℝ), Local (areaOf q ps) (has q ps) (fun _ => True) (hiddenForward junk l x)
  | [], _, _ => trivial
  | p :: l, h, x => (local_hidden (h p (by simp)) _).bind fun _ _ => local_hiddenForward (fun r hr => h r (by simp [hr])) _

theorem local_hiddenBackward : ∀ {l : List Nat} (_ : ∀ p ∈ l, p ∈ ps) (x : Mat ℝ), Local (areaOf q ps) (has q ps) (fun _ => True) (hiddenBackward junk l x)
  | [], _, _ => trivial
  | p :: l, h, x => (local_hidden (h p (by simp)) _).bind fun _ _ => local_hiddenBackward (fun r hr => h r (by simp [hr])) _

theorem local_hiddenUpdate : ∀ {l : List Nat} (_ : ∀ p ∈ l, p ∈ ps), Local (areaOf q ps) (has q ps) (fun _ => True) (hiddenUpdate l)
  | [], _ => trivial
  | p :: l, h => (local_hidden (h p (by simp)) _).bind fun _ _ => local_hiddenUpdate (fun r hr => h r (by simp [hr]))

theorem local_hiddenUpdateWith : ∀ {l : List Nat} (_ : ∀ p ∈ l, p ∈ ps) (gs : List (Mat ℝ)), Local (areaOf q ps) (has q ps) (fun _ => True) (hiddenUpdateWith l gs)
  | [], _, _ => trivial
  | _ :: _, _, [] => trivial
  | p :: l, h, g :: gs => (local_hidden (h p (by simp)) _).bind fun _ _ => local_hiddenUpdateWith (fun r hr => h r (by simp [hr])) gs

theorem local_hiddenSetlrate (r : ℝ) : ∀ {l : List Nat} (_ : ∀ p ∈ l, p ∈ ps), Local (areaOf q ps) (has q ps) (fun _ => True) (hiddenSetlrate r l)
  | [], _ => trivial
  | p :: l, h => (local_hidden (h p (by simp)) _).bind fun _ _ => local_hiddenSetlrate r (fun r hr => h r (by simp [hr]))

theorem local_forwardprop (x : Mat ℝ) : Local (areaOf q ps) (has q ps) (fun _ => True) (NetThread.forwardprop junk q x) := by
  refine (local_net (stays_input _)).bind fun c _ => (local_net (stays_getHidden ps)).bind fun l hl => ?_
  subst hl
  exact (local_hiddenForward junk (fun _ h => h) c).bind fun c _ => (local_net (stays_output _)).bind fun r _ => (local_net (stays_assign _ (fun m n => { n with result := m }) fun _ _ => rfl)).bind fun _ _ =>
    local_net (stays_eval _)

theorem local_body (c : NetThread.Call) : Local (areaOf q ps) (has q ps) (fun _ => True) (c.body junk q) := by
  cases c with
  | forwardprop x => exact (local_forwardprop junk x).bind fun _ _ => trivial
  | predict x =>
    refine Local.bind (R := fun _ => True) ?_ fun _ _ => trivial
    exact (local_forwardprop junk x).bind fun r _ => (local_net (stays_assign _ (fun m n => { n with result := m }) fun _ _ => rfl)).bind fun _ _ => local_net (stays_eval _)
  | backprop y =>
    refine Local.bind (R := fun _ => True) ?_ fun _ _ => trivial
    refine (local_net (stays_output _)).bind fun c _ => (local_net (stays_getHidden ps)).bind fun l hl => ?_
    subst hl
    exact local_hiddenBackward junk (fun _ h => by simpa using h) c
  | update =>
    refine Local.bind (R := fun _ => True) ?_ fun _ _ => trivial
    refine (local_net (stays_output _)).bind fun c _ => (local_net (stays_getHidden ps)).bind fun l hl => ?_
    subst hl
    exact local_hiddenUpdate (fun _ h => h)
  | updateWith og hg =>
    refine Local.bind (R := fun _ => True) ?_ fun _ _ => trivial
    refine (local_net (stays_output _)).bind fun c _ => (local_net (stays_getHidden ps)).bind fun l hl => ?_
    subst hl
    exact local_hiddenUpdateWith (fun _ h => h) hg
  | computecost p y => exact (local_net (stays_eval _)).bind fun _ _ => trivial
  | getresult => exact (local_net (stays_eval _)).bind fun _ _ => trivial
  | setlrate r =>
    refine Local.bind (R := fun _ => True) ?_ fun _ _ => trivial
    refine (local_net (stays_input _)).bind fun c _ => (local_net (stays_getHidden ps)).bind fun l hl => ?_
    subst hl
    exact (local_hiddenSetlrate r (fun _ h => h)).bind fun _ _ => local_net (stays_output _)
  | setoutputw v => exact (local_net (stays_op (fun _ => .ok ()) (fun _ n => n.setoutputw v) fun _ _ => rfl)).bind (f := fun _ => ret Spec.Returned.nothing) fun _ _ => trivial

theorem local_prog : ∀ cs : List NetThread.Call, Local (areaOf q ps) (has q ps) (fun _ => True) (prog junk q cs)
  | [] => trivial
  | c :: cs => (local_body junk c).bind fun _ _ => (local_prog cs).bind (f := fun rs => ret _) fun _ _ => trivial

end NetThread

/-- **C107** Threads that use different networks without common layers do not disturb each other, whatever the schedule: a thread that has ended returned what its calls return when no other thread runs (or ended by the same
exception), its network and its layers are then as after running alone, nothing else was touched, and every thread ends after a number of turns that does not depend on the others. -/
theorem C107_disjoint (e : Spec.Env) {ι : Type} [DecidableEq ι] (w : World) (q : ι → Nat) (cs : ι → List NetThread.Call) (hq : ∀ i j, i ≠ j → q i ≠ q j)
    (hl : ∀ i j, i ≠ j → ∀ p ∈ (w.nets (q i)).hidden, p ∉ (w.nets (q j)).hidden) (sched : List ι) :
    (∀ i rs, (Conc.interleave sched (fun i => NetThread.prog e.junk (q i) (cs i)) w).1 i = .ret rs → ∃ w', Spec.alone e (q i) w (cs i) = .ok (rs, w') ∧
      (Conc.interleave sched (fun i => NetThread.prog e.junk (q i) (cs i)) w).2.nets (q i) = w'.nets (q i) ∧
      ∀ p ∈ (w.nets (q i)).hidden, (Conc.interleave sched (fun i => NetThread.prog e.junk (q i) (cs i)) w).2.store p = w'.store p) ∧
    (∀ i st, (Conc.interleave sched (fun i => NetThread.prog e.junk (q i) (cs i)) w).1 i = .fail st → Spec.alone e (q i) w (cs i) = .error st) ∧
    (∀ j, (∀ i, j ≠ q i) → (Conc.interleave sched (fun i => NetThread.prog e.junk (q i) (cs i)) w).2.nets j = w.nets j) ∧
    (∀ p, (∀ i, p ∉ (w.nets (q i)).hidden) → (Conc.interleave sched (fun i => NetThread.prog e.junk (q i) (cs i)) w).2.store p = w.store p) ∧
    ∀ i, (NetThread.prog e.junk (q i) (cs i)).turns w ≤ sched.count i →
      (∃ rs, (Conc.interleave sched (fun i => NetThread.prog e.junk (q i) (cs i)) w).1 i = .ret rs) ∨ ∃ st, (Conc.interleave sched (fun i => NetThread.prog e.junk (q i) (cs i)) w).1 i = .fail st := by
  obtain ⟨v, h1, h2, h3, h4, h5⟩ := interleave_inv (P := fun i => areaOf (q i) (w.nets (q i)).hidden) (I := fun i => has (q i) (w.nets (q i)).hidden) (R := fun _ _ => True)
    (fun i j hij => ⟨fun n h1 h2 => hq i j hij (by rw [Set.mem_singleton_iff.mp h1] at h2; exact Set.mem_singleton_iff.mp h2), fun p hp => hl i j hij p hp⟩) sched
    (fun i => NetThread.prog e.junk (q i) (cs i)) w (fun _ => w) (fun i => local_prog e.junk (cs i)) (fun _ => rfl) (fun i => Area.mix_same _ w)
  refine ⟨?_, ?_, ?_, ?_, ?_⟩
  · intro i rs hi
    have := h1 i
    rw [hi, prog_res] at this
    refine ⟨v i, this.symm, ?_, ?_⟩
    · rw [← h3 i]
      exact Area.mix_nets (P := areaOf (q i) (w.nets (q i)).hidden) (Set.mem_singleton _)
    · intro p hp
      rw [← h3 i]
      exact Area.mix_store (P := areaOf (q i) (w.nets (q i)).hidden) hp
  · intro i st hi
    have := h1 i
    rw [hi, prog_res] at this
    exact this.symm
  · intro j hj
    exact h4 j fun i h => hj i (Set.mem_singleton_iff.mp h)
  · intro p hp
    exact h5 p hp
  · intro i hi
    have := h2 i
    rw [Nat.sub_eq_zero_of_le hi] at this
    exact turns_zero this

/-! ## Copies share the hidden layers -/

namespace Conc
variable {σ τ α β γ : Type}

theorem bind_bind (m : Conc σ α) (f : α → Conc σ β) (g : β → Conc σ γ) : (m.bind f).bind g = m.bind fun a => (f a).bind g := by
  induction m with
  | ret a => rfl
  | fail e => rfl
  | step δ r w k ih => simp only [Conc.bind, ih]

theorem on_bind (get : σ → τ) (put : τ → σ → σ) (m : Conc τ α) (f : α → Conc τ β) : (m.bind f).on get put = (m.on get put).bind fun a => (f a).on get put := by
  induction m with
  | ret a => rfl
  | fail e => rfl
  | step δ r w k ih => simp only [Conc.bind, Conc.on, ih]

/-- `k` turns in a row. -/
def ticks : Nat → Conc σ α → σ → Conc σ α × σ
  | 0, t, s => (t, s)
  | k + 1, t, s => ticks k (t.tick s).1 (t.tick s).2

theorem ticks_add (k l : Nat) (t : Conc σ α) (s : σ) : ticks (k + l) t s = ticks l (ticks k t s).1 (ticks k t s).2 := by
  induction k generalizing t s with
  | zero => rw [Nat.zero_add]; rfl
  | succ k ih => rw [Nat.succ_add]; exact ih _ _

/-- A thread can be brought to the end of the first part of its program. -/
theorem advance (m : Conc σ α) (f : α → Conc σ β) {s s' : σ} {a : α} (h : m.res s = .ok (a, s')) : ∃ k, ticks k (m.bind f) s = (f a, s') := by
  induction m generalizing s with
  | ret b => cases h; exact ⟨0, rfl⟩
  | fail e => cases h
  | step γ r w k ih =>
    obtain ⟨b, h1, h2⟩ := bind_eq_ok h
    obtain ⟨n, hn⟩ := ih b h2
    refine ⟨n + 1, ?_⟩
    show ticks n ((Conc.step γ r w fun b => (k b).bind f).tick s).1 ((Conc.step γ r w fun b => (k b).bind f).tick s).2 = _
    simp only [tick, h1]
    exact hn

theorem advance_end (m : Conc σ α) {s s' : σ} {a : α} (h : m.res s = .ok (a, s')) : ∃ k, ticks k m s = (.ret a, s') := by
  obtain ⟨k, hk⟩ := advance m ret h
  have : m.bind ret = m := by
    clear h hk
    induction m with
    | ret a => rfl
    | fail e => rfl
    | step γ r w k ih => simp only [Conc.bind, ih]
  rw [this] at hk
  exact ⟨k, hk⟩

theorem interleave_ticks {ι : Type} [DecidableEq ι] (i : ι) (l : List ι) : ∀ (k : Nat) (ts : ι → Conc σ α) (s : σ),
    interleave (List.replicate k i ++ l) ts s = interleave l (Function.update ts i (ticks k (ts i) s).1) (ticks k (ts i) s).2
  | 0, ts, s => by simp [ticks]
  | k + 1, ts, s => by
    rw [List.replicate_succ, List.cons_append]
    show interleave (List.replicate k i ++ l) _ _ = _
    rw [interleave_ticks i l k]
    rw [Function.update_self, Function.update_idem]
    rfl

end Conc

theorem Layer.forward_parts {L : Layer} {x r : Mat ℝ} {L' : Layer} (h : L.forwardprop x = .ok (r, L')) :
    ∃ pa z, addcol x = .ok pa ∧ pa.mul L.W = .ok z ∧ r = funcop z L.actfunc.act ∧ L' = { L with pa := pa, z := z, a := r } := by
  unfold Layer.forwardprop at h
  obtain ⟨pa, h1, h⟩ := bind_eq_ok h
  obtain ⟨z, h2, h⟩ := bind_eq_ok h
  cases h
  exact ⟨pa, z, h1, h2, rfl, rfl⟩

theorem Layer.forward_of_parts {L : Layer} {x pa z : Mat ℝ} (h1 : addcol x = .ok pa) (h2 : pa.mul L.W = .ok z) :
    L.forwardprop x = .ok (funcop z L.actfunc.act, { L with pa := pa, z := z, a := funcop z L.actfunc.act }) := by
  unfold Layer.forwardprop
  rw [h1, ok_bind, h2, ok_bind]


namespace NetThread

/-- The end of a program that makes one forward pass, from the output layer on. -/
def finish (q : Nat) (c : Mat ℝ) : Conc World (List Spec.Returned) :=
  (onNet q (onOutput (OutputLayer.baseT (Layer.forwardpropT c)))).bind fun r =>
    (onNet q (Conc.assign (fun m n => { n with result := m }) (fun _ => .ok r))).bind fun _ => (onNet q (Conc.get Net.result)).bind fun r => ret [Spec.Returned.matrix r]

theorem prog_forward (junk : Nat → Nat → ℝ) (q : Nat) (x : Mat ℝ) : prog junk q [.forwardprop x] =
    (onNet q (onInput (InputLayer.forwardpropT x))).bind fun c => (onNet q (Conc.get Net.hidden)).bind fun hid => (hiddenForward junk hid c).bind (finish q) := by
  show ((NetThread.forwardprop junk q x).bind fun r => ret (Spec.Returned.matrix r)).bind (fun r => (ret []).bind fun rs => ret (r :: rs)) = _
  unfold NetThread.forwardprop
  simp only [bind_def, bind_bind]
  rfl

theorem hiddenForward_dense (junk : Nat → Nat → ℝ) (p : Nat) (x : Mat ℝ) (f : Mat ℝ → Conc World (List Spec.Returned)) : (hiddenForward junk [p] x).bind f =
    (onHidden p (Conc.get HLayer.kind)).bind fun k => (onHidden p (match k with
      | .dense => HLayer.denseT (Layer.forwardpropT x)
      | _ => HLayer.otherT (fun h => h.forwardprop junk x))).bind f := by
  show ((onHidden p ((Conc.get HLayer.kind).bind _)).bind _).bind f = _
  unfold onHidden
  rw [on_bind, bind_bind, bind_bind]
  rfl

/-- The statements of `Layer::forwardprop` before the last one. -/
def forwardMost (x : Mat ℝ) : Conc Layer Unit :=
  (Conc.assign (fun m L => { L with pa := m }) (fun _ => addcol x)).bind fun _ => (Conc.assign (fun m L => { L with z := m }) (fun L => L.pa.mul L.W)).bind fun _ =>
    Conc.assign (fun m L => { L with a := m }) (fun L => .ok (funcop L.z L.actfunc.act))

theorem forwardpropT_most (x : Mat ℝ) : Layer.forwardpropT x = (forwardMost x).bind fun _ => Conc.eval (fun L => .ok L.a) := by
  unfold forwardMost
  rw [bind_bind]
  simp only [bind_bind]
  rfl

theorem forwardMost_res {L : Layer} {x pa z : Mat ℝ} (h1 : addcol x = .ok pa) (h2 : pa.mul L.W = .ok z) :
    (forwardMost x).res L = .ok ((), { L with pa := pa, z := z, a := funcop z L.actfunc.act }) := by
  unfold forwardMost
  simp only [← bind_def, res_bind, res_assign, h1, ok_bind, h2]

end NetThread

/-- **C107** Networks that share a hidden layer (copies of each other, or one network used by two threads) may not be used at the same time: for all inputs there is a schedule with which one thread's forward pass returns
the other thread's answer. -/
theorem C107_shared (e : Spec.Env) (w : World) {q1 q2 p : Nat} (h1 : (w.nets q1).hidden = [p]) (h2 : (w.nets q2).hidden = [p]) (hk : (w.store p).kind = .dense) {x1 x2 : Mat ℝ}
    {t1 t2 t3 : Mat ℝ × Store × Net} (r1 : (w.nets q1).forwardprop e.junk w.store x1 = .ok t1) (r2 : (w.nets q1).forwardprop e.junk w.store x2 = .ok t2)
    (r3 : (w.nets q2).forwardprop e.junk w.store x2 = .ok t3) :
    ∃ sched : List Bool, (Conc.interleave sched (fun b => NetThread.prog e.junk (if b then q2 else q1) [.forwardprop (if b then x2 else x1)]) w).1 false = .ret [.matrix t2.1] ∧
      (Conc.interleave sched (fun b => NetThread.prog e.junk (if b then q2 else q1) [.forwardprop (if b then x2 else x1)]) w).1 true = .ret [.matrix t3.1] := by
  have hid : ∀ (s : Store) (x : Mat ℝ) (r : Mat ℝ × Store), (s p).kind = .dense → Net.hiddenForward e.junk [p] s x = .ok r → ∃ L', (s p).base.forwardprop x = .ok (r.1, L') ∧ r.2 = s.put p ⟨L', .dense⟩ := by
    intro s x r hs hr
    unfold Net.hiddenForward at hr
    obtain ⟨a, ha, hr⟩ := bind_eq_ok hr
    cases hr
    unfold HLayer.forwardprop at ha
    rw [hs] at ha
    obtain ⟨b, hb, ha⟩ := bind_eq_ok ha
    cases ha
    exact ⟨b.2, hb, rfl⟩
  have hidd : ∀ (s : Store) (x pa z : Mat ℝ), (s p).kind = .dense → addcol x = .ok pa → pa.mul (s p).base.W = .ok z →
      Net.hiddenForward e.junk [p] s x = .ok (funcop z (s p).base.actfunc.act, s.put p ⟨{ (s p).base with pa := pa, z := z, a := funcop z (s p).base.actfunc.act }, .dense⟩) := by
    intro s x pa z hs e1 e2
    unfold Net.hiddenForward HLayer.forwardprop
    rw [hs]
    simp only [Layer.forward_of_parts e1 e2, ok_bind]
    rfl
  -- the pieces of the three passes
  obtain ⟨c1, d1, _⟩ := bind_eq_ok r1
  obtain ⟨c2, d2, f2⟩ := bind_eq_ok r2
  obtain ⟨c3, d3, f3⟩ := bind_eq_ok r3
  obtain ⟨o2, g2, u2⟩ := bind_eq_ok f2
  obtain ⟨o3, g3, u3⟩ := bind_eq_ok f3
  rw [h1] at d1 d2
  rw [h2] at d3
  obtain ⟨L1, k1, _⟩ := hid _ _ _ hk d1
  obtain ⟨L2, k2, _⟩ := hid _ _ _ hk d2
  obtain ⟨L3, k3, _⟩ := hid _ _ _ hk d3
  obtain ⟨pa1, z1, e1, e2, _, _⟩ := Layer.forward_parts k1
  obtain ⟨pa2, z2, e3, e4, e5, _⟩ := Layer.forward_parts k2
  have e6 : c3.1 = c2.1 := by
    have := Layer.forward_parts k3
    obtain ⟨pa3, z3, y1, y2, y3, _⟩ := this
    have hx : pa3 = pa2 := Except.ok.inj (y1.symm.trans e3)
    subst hx
    have hz : z3 = z2 := Except.ok.inj (y2.symm.trans e4)
    subst hz
    rw [y3, e5]
  -- thread `false` up to the point where the hidden layer's activations are computed
  set n1 : Net := { w.nets q1 with input := { (w.nets q1).input with z := x1, a := x1 } } with hn1
  set M1 : Layer := { (w.store p).base with pa := pa1, z := z1, a := funcop z1 (w.store p).base.actfunc.act } with hM1
  set w1 : World := w.put q1 (w.store.put p ⟨M1, .dense⟩) n1 with hw1
  obtain ⟨k, hkA⟩ : ∃ k, ticks k (prog e.junk q1 [.forwardprop x1]) w = ((onHidden p (HLayer.denseT (Conc.eval (fun L => .ok L.a)))).bind (finish q1), w1) := by
    rw [prog_forward]
    obtain ⟨a1, ha1⟩ := advance (onNet q1 (onInput (InputLayer.forwardpropT x1))) (fun c => (onNet q1 (Conc.get Net.hidden)).bind fun hid => (hiddenForward e.junk hid c).bind (finish q1))
      (s := w) (s' := w.put q1 w.store n1) (a := x1) (by rw [onNet_res, onInput_res, InputLayer.forwardpropT_res]; rfl)
    obtain ⟨a2, ha2⟩ := advance (onNet q1 (Conc.get Net.hidden)) (fun hid => (hiddenForward e.junk hid x1).bind (finish q1)) (s := w.put q1 w.store n1) (s' := w.put q1 w.store n1) (a := [p])
      (by rw [onNet_res, res_get, ok_bind, put_put, put_nets]; rw [show n1.hidden = [p] from h1]; rfl)
    obtain ⟨a3, ha3⟩ := advance (onHidden p (Conc.get HLayer.kind)) (fun k => (onHidden p (match k with
      | .dense => HLayer.denseT (Layer.forwardpropT x1)
      | _ => HLayer.otherT (fun h => h.forwardprop e.junk x1))).bind (finish q1)) (s := w.put q1 w.store n1) (s' := w.put q1 w.store n1) (a := .dense)
      (by
        rw [onHidden_res, res_get, ok_bind, put_store, hk]
        have : w.store.put p (w.store p) = w.store := by
          funext j
          unfold Store.put
          split
          · rename_i h; rw [h]
          · rfl
        rw [this]
        rfl)
    obtain ⟨a4, ha4⟩ := advance (onHidden p (HLayer.denseT (forwardMost x1))) (fun _ => (onHidden p (HLayer.denseT (Conc.eval (fun L => .ok L.a)))).bind (finish q1)) (s := w.put q1 w.store n1) (s' := w1) (a := ())
      (by
        rw [onHidden_res, put_store]
        unfold HLayer.denseT
        rw [res_on lens_dense, forwardMost_res e1 e2, ok_bind, ok_bind, hk]
        rfl)
    refine ⟨a1 + (a2 + (a3 + a4)), ?_⟩
    rw [ticks_add, ha1, ticks_add, ha2]
    simp only
    rw [hiddenForward_dense, ticks_add, ha3]
    simp only
    have split : (onHidden p (HLayer.denseT (Layer.forwardpropT x1))).bind (finish q1) =
        (onHidden p (HLayer.denseT (forwardMost x1))).bind fun _ => (onHidden p (HLayer.denseT (Conc.eval (fun L => .ok L.a)))).bind (finish q1) := by
      rw [forwardpropT_most]
      unfold HLayer.denseT onHidden
      rw [on_bind, on_bind, bind_bind]
    rw [split]
    exact ha4
  -- thread `true` from there to its end
  have hp1 : w1.store p = ⟨M1, .dense⟩ := by simp [hw1, World.put, Store.put]
  have hq2 : (w1.nets q2).hidden = [p] ∧ (w1.nets q2).output = (w.nets q2).output := by
    by_cases hq : q2 = q1
    · subst hq
      rw [hw1, put_nets]
      exact ⟨h1, rfl⟩
    · have : w1.nets q2 = w.nets q2 := if_neg hq
      rw [this]
      exact ⟨h2, rfl⟩
  set M2 : Layer := { M1 with pa := pa2, z := z2, a := c2.1 } with hM2
  set s2 : Store := w1.store.put p ⟨M2, .dense⟩ with hs2
  have d3' : Net.hiddenForward e.junk [p] w1.store x2 = .ok (c2.1, s2) := by
    have := hidd w1.store x2 pa2 z2 (by rw [hp1]) e3 (by rw [hp1]; exact e4)
    rw [hp1] at this
    rw [this, hs2, hM2, e5]
  have hB : (w1.nets q2).forwardprop e.junk w1.store x2 = .ok (t3.1, s2, { w1.nets q2 with input := (InputLayer.forwardprop (w1.nets q2).input x2).2, output := o3.2, result := o3.1 }) := by
    unfold Net.forwardprop
    simp only
    rw [hq2.1, show (InputLayer.forwardprop (w1.nets q2).input x2).1 = x2 from rfl, d3', ok_bind]
    simp only
    rw [hq2.2]
    have : (w.nets q2).output.forwardprop c2.1 = .ok o3 := by rw [← e6]; exact g3
    rw [this, ok_bind]
    cases u3
    rfl
  set w2 : World := w1.put q2 s2 { w1.nets q2 with input := (InputLayer.forwardprop (w1.nets q2).input x2).2, output := o3.2, result := o3.1 } with hw2
  obtain ⟨l, hlB⟩ : ∃ l, ticks l (prog e.junk q2 [.forwardprop x2]) w1 = (.ret [.matrix t3.1], w2) := by
    apply advance_end
    rw [prog_res]
    simp only [Spec.alone, NetThread.Call.method, Spec.Method.call, hB, ok_bind]
    rfl
  -- thread `false` again
  have hp2 : (w2.store p).base.a = c2.1 := by simp [hw2, hs2, hM2, World.put, Store.put]
  have hq1 : ∃ r', (w2.nets q1).output.forwardprop c2.1 = .ok (o2.1, r') := by
    have hWa : (w2.nets q1).output.toLayer.W = (w.nets q1).output.toLayer.W ∧ (w2.nets q1).output.toLayer.actfunc = (w.nets q1).output.toLayer.actfunc := by
      by_cases hq : q1 = q2
      · subst hq
        rw [hw2, put_nets]
        obtain ⟨b, hb1, hb2⟩ := bind_eq_ok g3
        obtain ⟨_, _, _, _, _, hL⟩ := Layer.forward_parts hb1
        cases hb2
        show b.2.W = _ ∧ b.2.actfunc = _
        rw [hL]
        exact ⟨rfl, rfl⟩
      · have : w2.nets q1 = n1 := by
          show (if q1 = q2 then _ else w1.nets q1) = _
          rw [if_neg hq, hw1, put_nets]
        rw [this]
        exact ⟨rfl, rfl⟩
    obtain ⟨b, hb1, hb2⟩ := bind_eq_ok g2
    obtain ⟨pa, z, y1, y2, y3, _⟩ := Layer.forward_parts hb1
    have := Layer.forward_of_parts (L := (w2.nets q1).output.toLayer) y1 (by rw [hWa.1]; exact y2)
    unfold OutputLayer.forwardprop
    rw [this, ok_bind, hWa.2]
    cases hb2
    simp only [y3]
    exact ⟨_, rfl⟩
  obtain ⟨r', hr'⟩ := hq1
  obtain ⟨m, hmA⟩ : ∃ m, (ticks m ((onHidden p (HLayer.denseT (Conc.eval (fun L => .ok L.a)))).bind (finish q1)) w2).1 = .ret [.matrix t2.1] := by
    have : ∃ w3, ((onHidden p (HLayer.denseT (Conc.eval (fun L => .ok L.a)))).bind (finish q1)).res w2 = .ok ([.matrix t2.1], w3) := by
      rw [← bind_def, res_bind, onHidden_res]
      unfold HLayer.denseT
      rw [res_on lens_dense, res_eval]
      simp only [ok_bind]
      rw [hp2]
      unfold finish
      simp only [← bind_def, res_bind, onNet_res, onOutput_res, OutputLayer.forwardpropT_res, hr', ok_bind, res_assign, put_nets, res_get, res_ret]
      cases u2
      exact ⟨_, rfl⟩
    obtain ⟨w3, hw3⟩ := this
    obtain ⟨m, hm⟩ := advance_end _ hw3
    exact ⟨m, by rw [hm]⟩
  refine ⟨List.replicate k false ++ (List.replicate l true ++ (List.replicate m false ++ [])), ?_⟩
  rw [interleave_ticks]
  simp only [Bool.false_eq_true, if_false, hkA]
  rw [interleave_ticks, Function.update_of_ne (by decide)]
  simp only [if_true, hlB]
  rw [interleave_ticks, Function.update_of_ne (by decide), Function.update_self]
  unfold interleave
  refine ⟨?_, ?_⟩
  · dsimp only
    rw [Function.update_self]
    exact hmA
  · dsimp only
    rw [Function.update_of_ne (by decide), Function.update_self]

end
end Nnet.NN
