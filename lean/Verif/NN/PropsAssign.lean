import Verif.NN.PropsShare
import Verif.NN.PropsPar
/-!
# C62: a copied or assigned network behaves like the original
-/
namespace Nnet.NN
open Finset
noncomputable section

/-- The public member functions of `NeuralNet` (neuralnet.h:25-44), except `getinput()`. -/
inductive Spec.Method where
  | forwardprop (x : Mat ℝ)
  | predict (sample : Mat ℝ)
  | backprop (y : Mat ℝ)
  | update
  | updateWith (ograd : Mat ℝ) (hgrad : List (Mat ℝ))
  | computecost (pred y : Mat ℝ)
  | randomize (rand : Nat) (stddev : ℝ)
  | randomizeAt (index : Nat) (stddev : ℝ)
  | save (path : String) (canOpen : Bool)
  | load (path : String)
  | getresult
  | getnumhidden
  | gethidden (index : Nat)
  | getoutput
  | setlrate (r : ℝ)
  | sethiddenw (index : Nat) (w : Mat ℝ)
  | setoutputw (w : Mat ℝ)

/-- What a call returns. -/
inductive Spec.Returned where
  | nothing
  | matrix (m : Mat ℝ)
  | number (r : ℝ)
  | count (k : Nat)
  | layer (L : Layer)
  | outputLayer (o : OutputLayer)

/-- One call: its result, the files, the layers and the network after it. -/
def Spec.Method.call (e : Spec.Env) (fs : Files) (s : Store) (n : Net) : Spec.Method → Res (Spec.Returned × Files × Store × Net)
  | .forwardprop x => do let (r, s, n) ← n.forwardprop e.junk s x; .ok (.matrix r, fs, s, n)
  | .predict x => do let (r, s, n) ← n.predict e.junk s x; .ok (.matrix r, fs, s, n)
  | .backprop y => do let (s, n) ← n.backprop e.junk s y; .ok (.nothing, fs, s, n)
  | .update => do let (s, n) ← n.update s; .ok (.nothing, fs, s, n)
  | .updateWith og hg => do let (s, n) ← n.updateWith s og hg; .ok (.nothing, fs, s, n)
  | .computecost p y => do let c ← n.computecost p y; .ok (.number c, fs, s, n)
  | .randomize r d => do let (s, n) ← n.randomize e.dist r s d; .ok (.nothing, fs, s, n)
  | .randomizeAt i d => do let (s, n) ← n.randomizeAt e.dist s i d; .ok (.nothing, fs, s, n)
  | .save p b => do let fs ← n.save e.io s p b fs; .ok (.nothing, fs, s, n)
  | .load p => do let (s, n) ← n.load e.io s p fs; .ok (.nothing, fs, s, n)
  | .getresult => .ok (.matrix n.getresult, fs, s, n)
  | .getnumhidden => .ok (.count n.hidden.length, fs, s, n)
  | .gethidden i => do let L ← n.gethidden s i; .ok (.layer L, fs, s, n)
  | .getoutput => .ok (.outputLayer n.output.copyCtor, fs, s, n)
  | .setlrate r => .ok (.nothing, fs, (n.setlrate s r).1, (n.setlrate s r).2)
  | .sethiddenw i w => do let s ← n.sethiddenw s i w; .ok (.nothing, fs, s, n)
  | .setoutputw w => .ok (.nothing, fs, s, n.setoutputw w)

/-- A program that calls methods of one network: the values the calls return, in order, and, if no call fails, the files and the layers at the end;
otherwise how the first failing call failed. -/
def Spec.session (e : Spec.Env) : Files → Store → Net → List Spec.Method → List Spec.Returned × Res (Files × Store)
  | fs, s, _, [] => ([], .ok (fs, s))
  | fs, s, n, c :: cs =>
    match c.call e fs s n with
    | .error st => ([], .error st)
    | .ok (r, fs, s, n) => (r :: (Spec.session e fs s n cs).1, (Spec.session e fs s n cs).2)

/-- Networks that no call distinguishes: they may differ in the input layer's own members and in the remembered label. -/
structure Net.Twin (m n : Net) : Prop where
  result : m.result = n.result
  cost : m.cost = n.cost
  hidden : m.hidden = n.hidden
  layer : m.output.toLayer = n.output.toLayer
  ocost : m.output.cost = n.output.cost
  ocostd : m.output.costd = n.output.costd

/-- Same outcome, twin networks. -/
def SameCall : Spec.Returned × Files × Store × Net → Spec.Returned × Files × Store × Net → Prop :=
  fun a b => a.1 = b.1 ∧ a.2.1 = b.2.1 ∧ a.2.2.1 = b.2.2.1 ∧ a.2.2.2.Twin b.2.2.2

theorem twin_forward {junk : Nat → Nat → ℝ} {s : Store} {m n : Net} (h : m.Twin n) (x : Mat ℝ) :
    RelRes (fun a b => a.1 = b.1 ∧ a.2.1 = b.2.1 ∧ a.2.2.Twin b.2.2) (m.forwardprop junk s x) (n.forwardprop junk s x) := by
  unfold Net.forwardprop
  simp only [InputLayer.forwardprop]
  rw [h.hidden]
  refine RelRes.same _ fun a _ => ?_
  unfold OutputLayer.forwardprop
  rw [h.layer]
  cases hf : n.output.toLayer.forwardprop a.1 with
  | error st => exact .err st
  | ok v =>
    obtain ⟨r, L⟩ := v
    exact .ok ⟨rfl, rfl, ⟨rfl, h.cost, (by first | rfl | exact h.hidden), rfl, h.ocost, (by first | rfl | exact h.ocostd)⟩⟩

theorem twin_update {s : Store} {m n : Net} (h : m.Twin n) : RelRes (fun a b => a.1 = b.1 ∧ a.2.Twin b.2) (m.update s) (n.update s) := by
  unfold Net.update
  rw [h.layer, h.hidden]
  refine RelRes.same _ fun L _ => RelRes.same _ fun s' _ => .ok ⟨rfl, ⟨h.result, h.cost, (by first | rfl | exact h.hidden), rfl, h.ocost, (by first | rfl | exact h.ocostd)⟩⟩

theorem twin_updateWith {s : Store} {m n : Net} (h : m.Twin n) (og : Mat ℝ) (hg : List (Mat ℝ)) :
    RelRes (fun a b => a.1 = b.1 ∧ a.2.Twin b.2) (m.updateWith s og hg) (n.updateWith s og hg) := by
  unfold Net.updateWith
  rw [h.layer, h.hidden]
  refine RelRes.same _ fun L _ => RelRes.same _ fun s' _ => .ok ⟨rfl, ⟨h.result, h.cost, (by first | rfl | exact h.hidden), rfl, h.ocost, (by first | rfl | exact h.ocostd)⟩⟩

theorem twin_randomizeAt {dist : Draws} {s : Store} {m n : Net} (h : m.Twin n) (i : Nat) (d : ℝ) :
    RelRes (fun a b => a.1 = b.1 ∧ a.2.Twin b.2) (m.randomizeAt dist s i d) (n.randomizeAt dist s i d) := by
  unfold Net.randomizeAt
  rw [h.layer, h.hidden]
  split
  · exact RelRes.same _ fun L _ => .ok ⟨rfl, h⟩
  · exact RelRes.same _ fun L _ => .ok ⟨rfl, ⟨h.result, h.cost, (by first | rfl | exact h.hidden), rfl, h.ocost, (by first | rfl | exact h.ocostd)⟩⟩

theorem twin_backprop {junk : Nat → Nat → ℝ} {s : Store} {m n : Net} (h : m.Twin n) (y : Mat ℝ) :
    RelRes (fun a b => a.1 = b.1 ∧ a.2.Twin b.2) (m.backprop junk s y) (n.backprop junk s y) := by
  unfold Net.backprop OutputLayer.backprop
  dsimp only
  rw [h.layer, h.hidden, h.ocostd]
  refine RelRes.bind (Q := fun a b => a.1 = b.1 ∧ a.2.toLayer = b.2.toLayer ∧ a.2.cost = b.2.cost ∧ a.2.costd = b.2.costd) ?_ ?_
  · exact RelRes.same _ fun D _ => RelRes.same _ fun G _ => RelRes.same _ fun G' _ => RelRes.same _ fun N _ => RelRes.same _ fun N' _ => .ok ⟨rfl, rfl, h.ocost, (by first | rfl | exact h.ocostd)⟩
  · rintro ⟨d, o⟩ ⟨d', o'⟩ ⟨h1, h2, h3, h4⟩
    cases h1
    exact RelRes.same _ fun s' _ => .ok ⟨rfl, ⟨h.result, h.cost, (by first | rfl | exact h.hidden), h2, h3, (by first | rfl | exact h4)⟩⟩

theorem twin_load {io : TextIO} {s : Store} {m n : Net} (h : m.Twin n) (p : String) (fs : Files) :
    RelRes (fun a b => a.1 = b.1 ∧ a.2.Twin b.2) (m.load io s p fs) (n.load io s p fs) := by
  unfold Net.load
  rw [h.layer, h.hidden]
  split
  · exact .ok ⟨rfl, h⟩
  · refine RelRes.same _ fun a _ => RelRes.same _ fun b _ => .ok ⟨rfl, ⟨h.result, h.cost, (by first | rfl | exact h.hidden), rfl, h.ocost, (by first | rfl | exact h.ocostd)⟩⟩

theorem twin_predict {junk : Nat → Nat → ℝ} {s : Store} {m n : Net} (h : m.Twin n) (x : Mat ℝ) :
    RelRes (fun a b => a.1 = b.1 ∧ a.2.1 = b.2.1 ∧ a.2.2.Twin b.2.2) (m.predict junk s x) (n.predict junk s x) := by
  unfold Net.predict
  refine RelRes.bind (twin_forward h x) ?_
  rintro ⟨r, s1, m1⟩ ⟨r', s1', n1⟩ ⟨h1, h2, h3⟩
  cases h1; cases h2
  dsimp only
  unfold OutputLayer.argmax
  rw [h3.layer]
  exact RelRes.same _ fun a _ => .ok ⟨rfl, rfl, ⟨rfl, h3.cost, h3.hidden, h3.layer, h3.ocost, h3.ocostd⟩⟩

theorem twin_call {e : Spec.Env} {fs : Files} {s : Store} {m n : Net} (h : m.Twin n) (c : Spec.Method) :
    RelRes SameCall (c.call e fs s m) (c.call e fs s n) := by
  have two : ∀ {x y : Res (Store × Net)}, RelRes (fun a b => a.1 = b.1 ∧ a.2.Twin b.2) x y →
      RelRes SameCall (do let (s, n) ← x; .ok (.nothing, fs, s, n)) (do let (s, n) ← y; .ok (.nothing, fs, s, n)) := by
    intro x y hxy
    refine RelRes.bind hxy ?_
    rintro ⟨s1, m1⟩ ⟨s2, n1⟩ ⟨h1, h2⟩
    exact .ok ⟨rfl, rfl, h1, h2⟩
  have three : ∀ {x y : Res (Mat ℝ × Store × Net)}, RelRes (fun a b => a.1 = b.1 ∧ a.2.1 = b.2.1 ∧ a.2.2.Twin b.2.2) x y →
      RelRes SameCall (do let (r, s, n) ← x; .ok (.matrix r, fs, s, n)) (do let (r, s, n) ← y; .ok (.matrix r, fs, s, n)) := by
    intro x y hxy
    refine RelRes.bind hxy ?_
    rintro ⟨r1, s1, m1⟩ ⟨r2, s2, n1⟩ ⟨h1, h2, h3⟩
    exact .ok ⟨congrArg Spec.Returned.matrix h1, rfl, h2, h3⟩
  cases c with
  | forwardprop x => exact three (twin_forward h x)
  | predict x => exact three (twin_predict h x)
  | backprop y => exact two (twin_backprop h y)
  | update => exact two (twin_update h)
  | updateWith og hg => exact two (twin_updateWith h og hg)
  | computecost p y =>
    show RelRes SameCall (do let c ← m.computecost p y; .ok _) (do let c ← n.computecost p y; .ok _)
    unfold Net.computecost
    rw [h.cost]
    exact RelRes.same _ fun a _ => .ok ⟨rfl, rfl, rfl, h⟩
  | randomize r d =>
    refine two ?_
    unfold Net.randomize
    rw [h.hidden]
    exact twin_randomizeAt h _ d
  | randomizeAt i d => exact two (twin_randomizeAt h i d)
  | save p b =>
    show RelRes SameCall (do let fs ← m.save e.io s p b fs; .ok _) (do let fs ← n.save e.io s p b fs; .ok _)
    unfold Net.save Net.saveText
    rw [h.layer, h.hidden]
    exact RelRes.same _ fun a _ => .ok ⟨rfl, rfl, rfl, h⟩
  | load p => exact two (twin_load h p fs)
  | getresult => exact .ok ⟨congrArg Spec.Returned.matrix h.result, rfl, rfl, h⟩
  | getnumhidden => exact .ok ⟨by show Spec.Returned.count _ = .count _; rw [h.hidden], rfl, rfl, h⟩
  | gethidden i =>
    show RelRes SameCall (do let L ← m.gethidden s i; .ok _) (do let L ← n.gethidden s i; .ok _)
    unfold Net.gethidden
    rw [h.hidden]
    exact RelRes.same _ fun a _ => .ok ⟨rfl, rfl, rfl, h⟩
  | getoutput =>
    refine .ok ⟨?_, rfl, rfl, h⟩
    show Spec.Returned.outputLayer _ = .outputLayer _
    unfold OutputLayer.copyCtor
    rw [h.layer, h.ocost, h.ocostd]
  | setlrate r =>
    refine .ok ⟨rfl, rfl, ?_, ?_⟩
    · unfold Net.setlrate
      rw [h.hidden]
    · exact ⟨h.result, h.cost, h.hidden, by show m.output.toLayer.setlrate r = n.output.toLayer.setlrate r; rw [h.layer], h.ocost, h.ocostd⟩
  | sethiddenw i w =>
    show RelRes SameCall (do let s ← m.sethiddenw s i w; .ok _) (do let s ← n.sethiddenw s i w; .ok _)
    unfold Net.sethiddenw
    rw [h.hidden]
    exact RelRes.same _ fun a _ => .ok ⟨rfl, rfl, rfl, h⟩
  | setoutputw w =>
    exact .ok ⟨rfl, rfl, rfl, ⟨h.result, h.cost, h.hidden, by show m.output.toLayer.setw w = n.output.toLayer.setw w; rw [h.layer], h.ocost, h.ocostd⟩⟩

theorem twin_session {e : Spec.Env} : ∀ (cs : List Spec.Method) {fs : Files} {s : Store} {m n : Net}, m.Twin n → Spec.session e fs s m cs = Spec.session e fs s n cs
  | [], _, _, _, _, _ => rfl
  | c :: cs, fs, s, m, n, h => by
    have hc := twin_call (e := e) (fs := fs) (s := s) h c
    unfold Spec.session
    generalize c.call e fs s m = x at hc
    generalize c.call e fs s n = y at hc
    cases hc with
    | err st => rfl
    | @ok a b hab =>
      obtain ⟨r1, f1, s1, m1⟩ := a
      obtain ⟨r2, f2, s2, n2⟩ := b
      obtain ⟨h1, h2, h3, h4⟩ := hab
      dsimp only at h1 h2 h3 h4
      subst h1 h2 h3
      dsimp only
      rw [twin_session cs h4]

/-- **C62.** The copy of a network, made by the copy constructor or by assigning to any other network, behaves as the original does: whatever sequence of
calls is made, on whatever layers and files, the calls return the same values, fail in the same way and leave the same layers and files (only `getinput()` is not
among the calls, see C53). -/
theorem C62_behaves_alike (e : Spec.Env) {n m : Net} (hm : n.copyCtor e.dist e.junk = .ok m ∨ ∃ self : Net, m = self.assign n) (fs : Files) (s : Store)
    (calls : List Spec.Method) : Spec.session e fs s m calls = Spec.session e fs s n calls := by
  refine twin_session calls ?_
  rcases hm with h | ⟨self, rfl⟩
  · unfold Net.copyCtor at h
    obtain ⟨i, -, h⟩ := bind_eq_ok h
    cases h
    exact ⟨rfl, rfl, rfl, rfl, rfl, rfl⟩
  · exact ⟨rfl, rfl, rfl, rfl, rfl, rfl⟩

/-- The copy constructor itself never fails. -/
theorem C62_copy_succeeds (dist : Draws) (junk : Nat → Nat → ℝ) (n : Net) : ∃ m, n.copyCtor dist junk = .ok m := by
  obtain ⟨L, e, -⟩ := C53_copy_partial dist junk 1 n.input
  unfold copies at e
  obtain ⟨M, e1, e2⟩ := bind_eq_ok e
  unfold Net.copyCtor
  rw [e1, ok_bind]
  exact ⟨_, rfl⟩

/-- The sessions of C62 are not all failures: a network without hidden layers, asked for its number of hidden layers and its result. -/
example (e : Spec.Env) (fs : Files) (s : Store) (n : Net) (h : n.hidden = []) : Spec.session e fs s n [.setlrate 3, .getnumhidden, .getresult] =
    ([.nothing, .count 0, .matrix n.result], .ok (fs, s)) := by
  simp [Spec.session, Spec.Method.call, Net.setlrate, h, Net.getresult]

end
end Nnet.NN
