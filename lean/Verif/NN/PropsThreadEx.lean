import Verif.NN.PropsThread
import Verif.NN.PropsBalance
/-!
# C107: copies of a network, and examples
-/
namespace Nnet.NN
noncomputable section
open Conc NetThread

/-- A 1-1-1 network that returns its input, with the layer `p` as its hidden layer. -/
def idNet (p : Nat) : Net := { lin3Net 0 1 with hidden := [p] }

theorem idNet_forward (junk : Nat → Nat → ℝ) (p : Nat) (v : ℝ) : ∃ s n, (idNet p).forwardprop junk (tieStore (1 / 10) 0 1) (m11 v) = .ok (m11 v, s, n) ∧ n.getresult = m11 v := by
  have wf : (idNet p).WF (tieStore (1 / 10) 0 1) 1 1 := by
    refine ⟨by simp [idNet], fun _ _ => rfl, by omega, ?_⟩
    simp [Net.layers, Net.hiddenLayers, idNet, lin3Net, tieNet, tieStore, lin11, exLayer, w21, Spec.Fits]
  obtain ⟨s, n, h, hg, -⟩ := C28_network (junk := junk) wf (x := m11 v) Nat.one_pos rfl
  have : Spec.denseNet ((idNet p).params (tieStore (1 / 10) 0 1)) (m11 v) = m11 v := by
    refine m11_ext rfl rfl ?_
    show (Spec.dense Act.identity.act (w21 0 1) (Spec.dense Act.identity.act (w21 0 1) (m11 v))).f 0 0 = v
    have hw : (w21 0 1).f 0 0 = 0 ∧ (w21 0 1).f (0 + 1) 0 = 1 := by
      constructor
      · unfold w21; rw [Mat.of_f' (by omega) (by omega)]; simp
      · unfold w21; rw [Mat.of_f' (by omega) (by omega)]; simp
    have key : ∀ y : Mat ℝ, y.nr = 1 → y.nc = 1 → (Spec.dense Act.identity.act (w21 0 1) y).f 0 0 = y.f 0 0 := by
      intro y h1 h2
      rw [dense_at (by omega) Nat.one_pos, h2, Finset.sum_range_one, hw.1, hw.2]
      show (0 : ℝ) + y.f 0 0 * 1 = _
      ring
    rw [key _ rfl rfl, key _ rfl rfl, m11_f]
  rw [this] at h hg
  exact ⟨s, n, h, hg⟩

/-- A network and its copy, each with the same hidden layer. -/
def twoNets (m : Net) : World := ⟨fun q => if q = 1 then m else idNet 7, tieStore (1 / 10) 0 1⟩

/-- C107, what does not hold: two threads, each with a network of its own, of which one is a copy of the other, do not compute what they would compute alone: there are two inputs and an order of the statements
in which both calls end and the first thread gets another answer for its input. -/
theorem C107_copies_refuted (e : Spec.Env) : ∃ (w : World) (x1 x2 a b : Mat ℝ) (w' : World), (w.nets 0).copyCtor e.dist e.junk = .ok (w.nets 1) ∧
    Spec.alone e 0 w [.forwardprop x1] = .ok ([.matrix a], w') ∧ a ≠ b ∧
    ∃ sched : List Bool, (Conc.interleave sched (fun t => NetThread.prog e.junk (if t then 1 else 0) [.forwardprop (if t then x2 else x1)]) w).1 false = .ret [.matrix b] ∧
      ∃ rs, (Conc.interleave sched (fun t => NetThread.prog e.junk (if t then 1 else 0) [.forwardprop (if t then x2 else x1)]) w).1 true = .ret rs := by
  obtain ⟨m, hm⟩ := C62_copy_succeeds e.dist e.junk (idNet 7)
  obtain ⟨s1, n1, f1, -⟩ := idNet_forward e.junk 7 0
  obtain ⟨s2, n2, f2, -⟩ := idNet_forward e.junk 7 1
  obtain ⟨t3, f3⟩ : ∃ t3, m.forwardprop e.junk (tieStore (1 / 10) 0 1) (m11 1) = .ok t3 := by
    have hm' := hm
    unfold Net.copyCtor at hm'
    obtain ⟨i, -, hi⟩ := bind_eq_ok hm'
    cases hi
    unfold Net.forwardprop at f2 ⊢
    obtain ⟨c, hc, f2⟩ := bind_eq_ok f2
    obtain ⟨o, ho, f2⟩ := bind_eq_ok f2
    unfold OutputLayer.forwardprop at ho
    obtain ⟨o', ho', ho⟩ := bind_eq_ok ho
    simp only [InputLayer.forwardprop, OutputLayer.forwardprop] at hc ho' ⊢
    rw [hc, ok_bind]
    rw [show (idNet 7).output.copyCtor.toLayer = (idNet 7).output.toLayer from rfl, ho', ok_bind, ok_bind]
    exact ⟨_, rfl⟩
  have hh : m.hidden = [7] := by
    unfold Net.copyCtor at hm
    obtain ⟨i, -, hi⟩ := bind_eq_ok hm
    cases hi
    rfl
  refine ⟨twoNets m, m11 0, m11 1, m11 0, m11 1, (twoNets m).put 0 s1 n1, hm, ?_, ?_, ?_⟩
  · have : ((twoNets m).nets 0).forwardprop e.junk (twoNets m).store (m11 0) = .ok (m11 0, s1, n1) := f1
    simp only [Spec.alone, NetThread.Call.method, Spec.Method.call, this, ok_bind]
  · intro h
    have := congrArg (fun m => m.f 0 0) h
    simp only [m11_f] at this
    exact absurd this (by norm_num)
  · obtain ⟨sched, h1, h2⟩ := C107_shared e (twoNets m) (q1 := 0) (q2 := 1) (p := 7) rfl hh rfl f1 f2 f3
    exact ⟨sched, h1, _, h2⟩

/-- C107 is about threads as in this case: two networks with a hidden layer of their own, each used for two calls; whatever the order of the statements, a thread that has ended has got its own input back. -/
example (e : Spec.Env) (v : Bool → ℝ) (sched : List Bool) (t : Bool) (rs : List Spec.Returned)
    (h : (Conc.interleave sched (fun t => NetThread.prog e.junk t.toNat [.forwardprop (m11 (v t)), .getresult]) ⟨fun q => idNet q, tieStore (1 / 10) 0 1⟩).1 t = .ret rs) :
    rs = [.matrix (m11 (v t)), .matrix (m11 (v t))] := by
  obtain ⟨w', h1, -⟩ := (C107_disjoint e ⟨fun q => idNet q, tieStore (1 / 10) 0 1⟩ Bool.toNat (fun t => [.forwardprop (m11 (v t)), .getresult])
    (fun i j hij => by revert hij; cases i <;> cases j <;> simp) (fun i j hij p hp hq => by
      rw [show (World.nets ⟨fun q => idNet q, tieStore (1 / 10) 0 1⟩ i.toNat).hidden = [i.toNat] from rfl, List.mem_singleton] at hp
      rw [show (World.nets ⟨fun q => idNet q, tieStore (1 / 10) 0 1⟩ j.toNat).hidden = [j.toNat] from rfl, List.mem_singleton] at hq
      rw [hp] at hq
      revert hij hq
      cases i <;> cases j <;> simp) sched).1 t rs h
  obtain ⟨s, n, f, g⟩ := idNet_forward e.junk t.toNat (v t)
  simp only [Spec.alone, NetThread.Call.method, Spec.Method.call, f, ok_bind, put_nets, g] at h1
  exact (Prod.mk.inj (Except.ok.inj h1)).1.symm

end
end Nnet.NN
