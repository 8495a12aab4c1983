import Verif.Tensor.PropsThreads
/-! # C116: refutations and a concrete case -/
namespace Nnet.Tensor

/-- One tensor of two elements, variable 0. -/
def shHeap : Heap Int := ⟨[⟨[some 1, some 2], true, true⟩]⟩
def shEnv : Env := fun x => if x = 0 then some ⟨⟨[2], [2]⟩, some 0⟩ else none
def shVals : AEnv Int := fun x => if x = 0 then some (.data [2] [1, 2]) else none

theorem shSame : SameValues shHeap shEnv shVals := by
  intro x
  by_cases hx : x = 0
  · subst hx
    exact ⟨_, 0, rfl, by decide, rfl, rfl, rfl⟩
  · simp [shVals, shEnv, hx]

theorem shOwners : OwnersBut [] shHeap shEnv := by
  refine exactOwners_iff.1 (fun p b hb hl => ?_)
  have hp : p = 0 := by
    by_contra hne
    obtain ⟨q, rfl⟩ := Nat.exists_eq_succ_of_ne_zero hne
    simp [shHeap] at hb
  subst hp
  refine ⟨0, ⟨_, rfl, rfl⟩, ?_⟩
  rintro y ⟨t, ht, -⟩
  by_contra hy
  simp [shEnv, hy] at ht

/-- A thread that adds 5 to the shared tensor, in a tensor of its own, and reads the sum of the two elements; and one that changes its own copy and reads that. -/
def shProg : Bool → Prog Int
  | true => .op (.decl 1 (.fn1 (.addS 5) 0)) fun _ => .op (.get 1 ((1 : Nat) : Int)) fun n => .op (.set 1 ((0 : Nat) : Int) (n.getD 0)) fun _ => .op (.sum 1) fun _ => .op (.destroy 1) fun _ => .done
  | false => .op (.decl 2 (.copy 0)) fun _ => .op (.set 2 ((0 : Nat) : Int) 9) fun _ => .op (.get 2 ((0 : Nat) : Int)) fun _ => .done

def shOuts : Bool → List Int
  | true => [7, 14]
  | false => [9]

def shFinal : Bool → AEnv Int
  | true => shVals
  | false => Function.update shVals 2 (some (.data [2] [9, 2]))

theorem shRuns : ∀ i, LRun shVals (shProg i) (shOuts i) (shFinal i) 0
  | true => by
    refine .op (o := none) (m := 0) (n := 0) (os := [7, 14]) (.clean (.decl rfl (.fn1 (d := [2]) (v := [1, 2]) rfl trivial))) ?_
    rw [show ([1, 2] : List Int).map (Fn1.fn (.addS 5)) = [6, 7] from rfl]
    refine .op (o := some 7) (m := 0) (n := 0) (os := [14]) (.clean (.get (d := [2]) (v := [6, 7]) (i := 1) rfl rfl)) ?_
    refine .op (o := none) (m := 0) (n := 0) (os := [14]) (.clean (.set (d := [2]) (v := [6, 7]) (i := 0) rfl (by decide))) ?_
    refine .op (o := some 14) (m := 0) (n := 0) (os := []) (.clean (.sum (d := [2]) (v := [7, 7]) rfl)) ?_
    refine .op (o := none) (m := 0) (n := 0) (os := []) (.clean (.destroy (a := .data [2] [7, 7]) rfl)) ?_
    have : ∀ A : AEnv Int, A = shVals → LRun A .done [] shVals 0 := by rintro _ rfl; exact .done
    refine this _ (funext fun x => ?_)
    simp only [Function.update_apply]
    split_ifs with h
    · subst h; rfl
    · rfl
  | false => by
    refine .op (o := none) (m := 0) (n := 0) (os := [9]) (.clean (.decl rfl (.copy (d := [2]) (v := [1, 2]) rfl))) ?_
    refine .op (o := none) (m := 0) (n := 0) (os := [9]) (.clean (.set (d := [2]) (v := [1, 2]) (i := 0) rfl (by decide))) ?_
    refine .op (o := some 9) (m := 0) (n := 0) (os := []) (.clean (.get (d := [2]) (v := [9, 2]) (i := 0) rfl rfl)) ?_
    rw [Function.update_idem]
    exact .done

/-- The two threads meet the hypotheses of C116. -/
example := C116_threads (ι := Bool) (W := fun i => if i then {1} else {2}) (S := {0}) shSame shOwners shRuns
  (fun i => by cases i <;> simp [shProg, Prog.Within, Cmd.writes, Cmd.reads, Rhs.reads])
  (fun i j hij => by cases i <;> cases j <;> simp at hij ⊢) (fun i => by cases i <;> simp)
example (σ : Nat → Sched) := C116_apart σ shSame shOwners (.clean (.set (x := 0) (d := [2]) (v := [1, 2]) (i := 0) (a := 9) rfl (by decide)))

/-- One thread reads the shared tensor, the other changes it. -/
def raceProg : Bool → Prog Int
  | true => .op (.get 0 ((0 : Nat) : Int)) fun _ => .done
  | false => .op (.set 0 ((0 : Nat) : Int) 9) fun _ => .done

/-- The reading thread alone reads 1 and has its preconditions met, and so has the other one. -/
theorem race_alone : LRun shVals (raceProg true) [1] shVals 0 ∧ (∃ F, LRun shVals (raceProg false) [] F 0) :=
  ⟨.op (o := some 1) (m := 0) (n := 0) (os := []) (.clean (.get (d := [2]) (v := [1, 2]) (i := 0) rfl rfl)) .done,
    ⟨_, .op (o := none) (m := 0) (n := 0) (os := []) (.clean (.set (d := [2]) (v := [1, 2]) (i := 0) rfl (by decide))) .done⟩⟩

/-- Full statement refuted: the threads need nothing in common but that each of them works alone. If one thread changes a tensor the other one reads, the number read depends on the order. -/
theorem C116_shared_refuted : ¬ ∀ (h : Heap Int) (env : Env) (A : AEnv Int) (p : Bool → Prog Int) (os : Bool → List Int), SameValues h env A → OwnersBut [] h env →
    (∀ i, ∃ F n, LRun A (p i) (os i) F n) → ∀ (σ : Nat → Nat → Sched) (turns : List Bool), ∃ T, Threads.run σ 0 turns ⟨p, fun _ => [], h, env⟩ = .ok T ∧
      ∀ i, T.progs i = .done → T.outs i = os i := by
  intro hh
  obtain ⟨T, e, h⟩ := hh shHeap shEnv shVals raceProg (fun i => if i then [1] else []) shSame shOwners (fun i => by
    cases i
    · obtain ⟨F, hF⟩ := race_alone.2
      exact ⟨F, 0, hF⟩
    · exact ⟨_, 0, race_alone.1⟩) (fun _ _ _ => 0) [false, true]
  have e2 : ∃ T, Threads.run (fun _ _ _ => 0) 0 [false, true] (⟨raceProg, fun _ => [], shHeap, shEnv⟩ : Threads Bool Int) = .ok T ∧ T.outs true = [9] ∧ T.progs true = .done := ⟨_, rfl, rfl, rfl⟩
  obtain ⟨T2, e2, o2, d2⟩ := e2
  rw [e] at e2
  cases e2
  have := h true d2
  rw [o2] at this
  simp at this

end Nnet.Tensor
