import Verif.Tensor.Threads
import Mathlib.Algebra.BigOperators.Group.Finset.Basic
/-! # C116: tensors used by several threads -/
namespace Nnet.Tensor
variable {R : Type} {ι : Type}

section
variable [Zero R] [One R] [Add R] [Sub R] [Mul R] [Div R] [Neg R] [CMath R] [BEq R] [LT R] [LE R]
  [DecidableRel (α := R) (· < ·)] [DecidableRel (α := R) (· ≤ ·)]

/-! ## Statements depend on their variables only -/

theorem means_frame {A B : AEnv R} {e : Rhs R} {d : List Int} {v : List R} (M : Means A e d v) (h : ∀ x ∈ e.reads, B x = A x) : Means B e d v := by
  cases M with
  | zeros h1 => exact .zeros h1
  | ones h1 => exact .ones h1
  | gaussian h1 => exact .gaussian h1
  | eyes h1 h2 => exact .eyes h1 h2
  | copy h1 => exact .copy (by rw [h _ (by simp [Rhs.reads])]; exact h1)
  | move h1 => exact .move (by rw [h _ (by simp [Rhs.reads])]; exact h1)
  | arith h1 h2 h3 => exact .arith (by rw [h _ (by simp [Rhs.reads])]; exact h1) (by rw [h _ (by simp [Rhs.reads])]; exact h2) h3
  | fn2 h1 h2 h3 => exact .fn2 (by rw [h _ (by simp [Rhs.reads])]; exact h1) (by rw [h _ (by simp [Rhs.reads])]; exact h2) h3
  | fn1 h1 h2 => exact .fn1 (by rw [h _ (by simp [Rhs.reads])]; exact h1) h2
  | red0 h1 h2 => exact .red0 (by rw [h _ (by simp [Rhs.reads])]; exact h1) h2
  | red1 h1 h2 h3 => exact .red1 (by rw [h _ (by simp [Rhs.reads])]; exact h1) h2 h3
  | matmul h1 h2 h3 h4 h5 h6 => exact .matmul (by rw [h _ (by simp [Rhs.reads])]; exact h1) (by rw [h _ (by simp [Rhs.reads])]; exact h2) h3 h4 h5 h6

/-- The values `B`, except for the variables of `l`, which have the values `A`. -/
def patch (l : List Nat) (A B : AEnv R) : AEnv R := fun x => if x ∈ l then A x else B x

theorem patch_nil (A B : AEnv R) : patch [] A B = B := by funext x; simp [patch]

theorem patch_same {x : Nat} {A B : AEnv R} (h : B x = A x) : patch [x] A B = B := by
  funext y
  by_cases hy : y = x
  · subst hy; simp [patch, h]
  · simp [patch, hy]

theorem patch_update {x : Nat} {A B : AEnv R} {a : Option (AVal R)} : patch [x] (Function.update A x a) B = Function.update B x a := by
  funext y
  by_cases hy : y = x
  · subst hy; simp [patch]
  · simp [patch, hy]

theorem patch_update2 {x y : Nat} {A B : AEnv R} {a b : Option (AVal R)} :
    patch [x, y] (Function.update (Function.update A x a) y b) B = Function.update (Function.update B x a) y b := by
  funext z
  by_cases hz : z = y
  · subst hz; simp [patch]
  · by_cases hx : z = x
    · subst hx; simp [patch, hz]
    · simp [patch, hz, hx]

theorem patch_update1 {x y : Nat} {A B : AEnv R} {a : Option (AVal R)} (hxy : x ≠ y) (h : B y = A y) : patch [x, y] (Function.update A x a) B = Function.update B x a := by
  funext z
  by_cases hz : z = x
  · subst hz; simp [patch]
  · by_cases hx : z = y
    · subst hx; simp [patch, hz, h]
    · simp [patch, hz, hx]

theorem patch_updateSelf {x : Nat} {A B : AEnv R} {a : Option (AVal R)} : patch [x, x] (Function.update A x a) B = Function.update B x a := by
  funext y
  by_cases hy : y = x
  · subst hy; simp [patch]
  · simp [patch, hy]

theorem patch_same2 {x : Nat} {A B : AEnv R} (h : B x = A x) : patch [x, x] A B = B := by
  funext y
  by_cases hy : y = x
  · subst hy; simp [patch, h]
  · simp [patch, hy]

theorem astep_frame {c : Cmd R} {A A' B : AEnv R} {o : Option R} (S : AStep c A o A') (hw : ∀ x ∈ c.writes, B x = A x) (hr : ∀ x ∈ c.reads, B x = A x) :
    AStep c B o (patch c.writes A' B) := by
  cases S with
  | decl h1 h2 => rw [Cmd.writes, patch_update]; exact .decl (by rw [hw _ (by simp [Cmd.writes])]; exact h1) (means_frame h2 hr)
  | declDefault h1 => rw [Cmd.writes, patch_update]; exact .declDefault (by rw [hw _ (by simp [Cmd.writes])]; exact h1)
  | destroy h1 => rw [Cmd.writes, patch_update]; exact .destroy (by rw [hw _ (by simp [Cmd.writes])]; exact h1)
  | assignSelf h1 =>
    have e := hw _ (by simp [Cmd.writes]; rfl)
    rw [Cmd.writes, patch_same e]; exact .assignSelf (by rw [e]; exact h1)
  | assignSelfEmpty h1 => rw [Cmd.writes, patch_update]; exact .assignSelfEmpty (by rw [hw _ (by simp [Cmd.writes])]; exact h1)
  | assign h1 h2 h3 h4 => rw [Cmd.writes, patch_update]; exact .assign h1 (by rw [hw _ (by simp [Cmd.writes])]; exact h2) (by rw [hr _ (by simp [Cmd.reads])]; exact h3) h4
  | assignEmpty h1 h2 h3 h4 => rw [Cmd.writes, patch_update]; exact .assignEmpty h1 (by rw [hw _ (by simp [Cmd.writes])]; exact h2) (by rw [hr _ (by simp [Cmd.reads])]; exact h3) h4
  | moveAssign h1 h2 h3 => rw [Cmd.writes, patch_update2]; exact .moveAssign h1 (by rw [hw _ (by simp [Cmd.writes])]; exact h2) (by rw [hw _ (by simp [Cmd.writes])]; exact h3)
  | moveSelfEmpty h1 =>
    have e := hw _ (by simp [Cmd.writes]; rfl)
    rw [Cmd.writes, patch_same2 e]; exact .moveSelfEmpty (by rw [e]; exact h1)
  | reshape h1 h2 h3 => rw [Cmd.writes, patch_update]; exact .reshape (by rw [hw _ (by simp [Cmd.writes])]; exact h1) h2 h3
  | reshapeEmpty h1 h2 h3 => rw [Cmd.writes, patch_update]; exact .reshapeEmpty (by rw [hw _ (by simp [Cmd.writes])]; exact h1) h2 h3
  | set h1 h2 => rw [Cmd.writes, patch_update]; exact .set (by rw [hw _ (by simp [Cmd.writes])]; exact h1) h2
  | get h1 h2 => rw [Cmd.writes, patch_nil]; exact .get (by rw [hr _ (by simp [Cmd.reads])]; exact h1) h2
  | sum h1 => rw [Cmd.writes, patch_nil]; exact .sum (by rw [hr _ (by simp [Cmd.reads])]; exact h1)
  | mean h1 => rw [Cmd.writes, patch_nil]; exact .mean (by rw [hr _ (by simp [Cmd.reads])]; exact h1)
  | matmulInto h1 h2 h3 h4 h5 h6 h7 h8 h9 h10 =>
    rw [Cmd.writes, patch_update]
    exact .matmulInto (by rw [hw _ (by simp [Cmd.writes])]; exact h1) h2 h3 h4 (by rw [hr _ (by simp [Cmd.reads])]; exact h5) (by rw [hr _ (by simp [Cmd.reads])]; exact h6) h7 h8 h9 h10

theorem lstep_frame {c : Cmd R} {A A' B : AEnv R} {o : Option R} {n : Nat} (S : LStep c A o A' n) (hw : ∀ x ∈ c.writes, B x = A x) (hr : ∀ x ∈ c.reads, B x = A x) :
    LStep c B o (patch c.writes A' B) n := by
  cases S with
  | clean S => exact .clean (astep_frame S hw hr)
  | moveAssign h1 h2 h3 => rw [Cmd.writes, patch_update2]; exact .moveAssign h1 (by rw [hw _ (by simp [Cmd.writes])]; exact h2) (by rw [hw _ (by simp [Cmd.writes])]; exact h3)
  | moveFromEmpty h1 h2 h3 =>
    rw [Cmd.writes, patch_update1 h1 (hw _ (by simp [Cmd.writes]))]
    exact .moveFromEmpty h1 (by rw [hw _ (by simp [Cmd.writes])]; exact h2) (by rw [hw _ (by simp [Cmd.writes])]; exact h3)
  | moveEmptyToEmpty h1 h2 h3 =>
    rw [Cmd.writes, patch_update1 h1 (hw _ (by simp [Cmd.writes]))]
    exact .moveEmptyToEmpty h1 (by rw [hw _ (by simp [Cmd.writes])]; exact h2) (by rw [hw _ (by simp [Cmd.writes])]; exact h3)
  | moveSelf h1 => rw [Cmd.writes, patch_updateSelf]; exact .moveSelf (by rw [hw _ (by simp [Cmd.writes])]; exact h1)
  | matmulInto h1 h2 h3 h4 h5 h6 h7 h8 h9 h10 =>
    rw [Cmd.writes, patch_update]
    exact .matmulInto (by rw [hw _ (by simp [Cmd.writes])]; exact h1) h2 h3 h4 (by rw [hr _ (by simp [Cmd.reads])]; exact h5) (by rw [hr _ (by simp [Cmd.reads])]; exact h6) h7 h8 h9 h10

theorem astep_keeps {c : Cmd R} {A A' : AEnv R} {o : Option R} (S : AStep c A o A') {x : Nat} (hx : x ∉ c.writes) : A' x = A x := by
  cases S <;> first
    | rfl
    | (simp only [Cmd.writes, List.mem_cons, List.not_mem_nil, or_false, not_or] at hx; simp [Function.update, hx])

theorem lstep_keeps {c : Cmd R} {A A' : AEnv R} {o : Option R} {n : Nat} (S : LStep c A o A' n) {x : Nat} (hx : x ∉ c.writes) : A' x = A x := by
  cases S with
  | clean S => exact astep_keeps S hx
  | _ => simp only [Cmd.writes, List.mem_cons, List.not_mem_nil, or_false, not_or] at hx; simp [Function.update, hx]

/-- A statement changes the objects of its own variables only. -/
theorem exec_env {σ : Nat → Sched} {h h' : Heap R} {env env' : Env} {c : Cmd R} {o : Option R} (e : c.exec σ h env = .ok (o, h', env')) {x : Nat} (hx : x ∉ c.writes) : env' x = env x := by
  cases c <;> simp only [Cmd.exec, Cmd.writes, List.mem_cons, List.not_mem_nil, or_false, not_or] at e hx
  case moveAssign a b =>
    obtain ⟨t, -, e⟩ := bind_ok e
    obtain ⟨u, -, e⟩ := bind_ok e
    split at e
    · obtain ⟨t', -, e⟩ := bind_ok e
      cases e
      simp [Function.update, hx]
    · obtain ⟨⟨t', u'⟩, -, e⟩ := bind_ok e
      cases e
      simp [Function.update, hx]
  case matmulInto a b d =>
    obtain ⟨t, -, e⟩ := bind_ok e
    obtain ⟨u, -, e⟩ := bind_ok e
    obtain ⟨w, -, e⟩ := bind_ok e
    obtain ⟨⟨q, r, h1⟩, -, e⟩ := bind_ok e
    obtain ⟨h2, -, e⟩ := bind_ok e
    cases e
    simp [Function.update, hx]
  case assign a b =>
    obtain ⟨t, -, e⟩ := bind_ok e
    obtain ⟨u, -, e⟩ := bind_ok e
    split at e
    all_goals
      obtain ⟨⟨w, h1⟩, -, e⟩ := bind_ok e
      cases e
      simp [Function.update, hx]
  case decl a b => obtain ⟨⟨t, h1⟩, -, e⟩ := bind_ok e; cases e; simp [Function.update, hx]
  case declDefault a => obtain ⟨t, -, e⟩ := bind_ok e; cases e; simp [Function.update, hx]
  case destroy a => obtain ⟨t, -, e⟩ := bind_ok e; obtain ⟨h1, -, e⟩ := bind_ok e; cases e; simp [Function.update, hx]
  case reshape a d => obtain ⟨t, -, e⟩ := bind_ok e; obtain ⟨h1, -, e⟩ := bind_ok e; cases e; simp [Function.update, hx]
  case set a i v => obtain ⟨t, -, e⟩ := bind_ok e; obtain ⟨h1, -, e⟩ := bind_ok e; cases e; rfl
  case get a i => obtain ⟨t, -, e⟩ := bind_ok e; obtain ⟨h1, -, e⟩ := bind_ok e; cases e; rfl
  case sum a => obtain ⟨t, -, e⟩ := bind_ok e; obtain ⟨h1, -, e⟩ := bind_ok e; cases e; rfl
  case mean a => obtain ⟨t, -, e⟩ := bind_ok e; obtain ⟨h1, -, e⟩ := bind_ok e; cases e; rfl

/-- **C116** (apart). In every state the threads can reach, a statement leaves the objects and the memory of all variables it does not name on its left alone, and its outcome does not depend on any
variable it does not name: so two statements of different threads that overlap in time touch no memory that either of them writes. -/
theorem C116_apart (σ : Nat → Sched) {L : List Nat} {h : Heap R} {env : Env} {A A' : AEnv R} {c : Cmd R} {o : Option R} {n : Nat} (hv : SameValues h env A) (ho : OwnersBut L h env)
    (S : LStep c A o A' n) :
    (∃ h' env', c.exec σ h env = .ok (o, h', env') ∧ ∀ x ∉ c.writes, env' x = env x ∧ ∀ t q, env x = some t → t.data = some q → h'.blocks[q]? = h.blocks[q]?) ∧
    ∀ (h2 : Heap R) (env2 : Env) (B : AEnv R) (L2 : List Nat), SameValues h2 env2 B → OwnersBut L2 h2 env2 → (∀ x, x ∈ c.writes ∨ x ∈ c.reads → B x = A x) →
      ∃ h' env' B', c.exec σ h2 env2 = .ok (o, h', env') ∧ SameValues h' env' B' ∧ ∀ x ∈ c.writes, B' x = A' x := by
  constructor
  · obtain ⟨L', h', env', e, H, -⟩ := lstep_ok σ ⟨hv, ho⟩ S
    refine ⟨h', env', e, fun x hx => ⟨exec_env e hx, fun t q ht hq => ?_⟩⟩
    have h1 := hv x
    have h2 := H.1 x
    rw [lstep_keeps S hx] at h2
    cases hA : A x with
    | none => rw [hA] at h1; dsimp only at h1; rw [ht] at h1; cases h1
    | some a =>
      rw [hA] at h1 h2
      cases a with
      | data d v =>
        obtain ⟨t1, q1, e1, -, -, d1, b1⟩ := h1
        obtain ⟨t2, q2, e2, -, -, d2, b2⟩ := h2
        rw [exec_env e hx, ht] at e2
        rw [ht] at e1
        cases e1
        cases e2
        rw [hq] at d1 d2
        cases d1
        cases d2
        rw [b1, b2]
      | empty d =>
        obtain ⟨t1, e1, -, d1⟩ := h1
        rw [ht] at e1
        cases e1
        rw [hq] at d1
        cases d1
  · intro h2 env2 B L2 hv2 ho2 hB
    obtain ⟨L', h', env', e, H, -⟩ := lstep_ok σ ⟨hv2, ho2⟩ (lstep_frame S (B := B) (fun x hx => hB x (Or.inl hx)) (fun x hx => hB x (Or.inr hx)))
    refine ⟨h', env', _, e, H.1, fun x hx => ?_⟩
    unfold patch
    rw [if_pos hx]

/-! ## The threads -/

/-- `LRun` with the number of statements executed. -/
inductive LRunK : AEnv R → Prog R → List R → AEnv R → Nat → Nat → Prop
  | done {A} : LRunK A .done [] A 0 0
  | op {A c o A' k os A'' m n j} : LStep c A o A' m → LRunK A' (k o) os A'' n j → LRunK A (.op c k) (o.toList ++ os) A'' (m + n) (j + 1)

theorem LRun.counted {A A' : AEnv R} {p : Prog R} {os : List R} {n : Nat} (h : LRun A p os A' n) : ∃ j, LRunK A p os A' n j := by
  induction h with
  | done => exact ⟨0, .done⟩
  | op S _ ih => obtain ⟨j, ih⟩ := ih; exact ⟨j + 1, .op S ih⟩

variable [DecidableEq ι]

/-- What holds between two statements. -/
structure Together [Fintype ι] (W : ι → Set Nat) (S : Set Nat) (os : ι → List R) (F : ι → AEnv R) (N : ι → Nat) (env0 : Env) (A0 : AEnv R) (L0 : List Nat) (m : ι → Nat)
    (T : Threads ι R) : Prop where
  state : ∃ (A : AEnv R) (L : List Nat) (Ai : ι → AEnv R) (rest : ι → List R) (n : ι → Nat), Rel (L ++ L0) T.heap T.env A ∧ (∀ i, LRunK (Ai i) (T.progs i) (rest i) (F i) (n i) (m i)) ∧
    (∀ i, (T.progs i).Within (W i) S) ∧ (∀ i, ∀ x, x ∈ W i ∨ x ∈ S → Ai i x = A x) ∧ (∀ i, T.outs i ++ rest i = os i) ∧ L.length + ∑ i, n i = ∑ i, N i ∧
    ∀ x, (∀ i, x ∉ W i) → A x = A0 x ∧ T.env x = env0 x

theorem together_turn [Fintype ι] {W : ι → Set Nat} {S : Set Nat} {os : ι → List R} {F : ι → AEnv R} {N : ι → Nat} {env0 : Env} {A0 : AEnv R} {L0 : List Nat} {m : ι → Nat}
    {T : Threads ι R} (hd : ∀ i j, i ≠ j → Disjoint (W i) (W j)) (hS : ∀ i, Disjoint (W i) S) (H : Together W S os F N env0 A0 L0 m T) (σ : Nat → Sched) (i : ι) :
    ∃ T', T.turn σ i = .ok T' ∧ Together W S os F N env0 A0 L0 (Function.update m i (m i - 1)) T' := by
  obtain ⟨A, L, Ai, rest, n, hR, hL, hW, hA, hO, hN, hK⟩ := H.state
  unfold Threads.turn
  have hLi := hL i
  have hWi := hW i
  have hOi := hO i
  cases hp : T.progs i with
  | done =>
    rw [hp] at hLi
    have hm : m i = 0 := by
      generalize rest i = ri at hLi
      generalize n i = ni at hLi
      generalize Ai i = ai at hLi
      generalize F i = fi at hLi
      generalize m i = mi at hLi
      cases hLi
      rfl
    refine ⟨T, rfl, ⟨A, L, Ai, rest, n, hR, fun j => ?_, hW, hA, hO, hN, hK⟩⟩
    by_cases hj : j = i
    · subst hj; rw [Function.update_self, hm, Nat.zero_sub, ← hm]; exact hL j
    · rw [Function.update_of_ne hj]; exact hL j
  | op c k =>
    rw [hp] at hLi hWi
    obtain ⟨w1, w2, w3⟩ := hWi
    generalize hr : rest i = ri at hLi hOi
    generalize hni : n i = ni at hLi
    generalize hmi : m i = mi at hLi
    cases hLi with
    | @op _ _ o A1 _ os' _ a b j S1 hrun =>
    have S2 := lstep_frame S1 (B := A) (fun x hx => (hA i x (Or.inl (w1 x hx))).symm) (fun x hx => (hA i x (w2 x hx)).symm)
    obtain ⟨L', h', env', e, hR', hl⟩ := lstep_ok σ hR S2
    dsimp only
    rw [e]
    refine ⟨_, rfl, ⟨patch c.writes A1 A, L' ++ L, Function.update Ai i A1, Function.update rest i os', Function.update n i b, by rw [List.append_assoc]; exact hR', fun l => ?_, fun l => ?_,
      fun l x hx => ?_, fun l => ?_, ?_, fun x hx => ?_⟩⟩
    · dsimp only
      by_cases hl : l = i
      · subst hl
        simp only [Function.update_self]
        exact hrun
      · simp only [Function.update_of_ne hl]
        exact hL l
    · dsimp only
      by_cases hl : l = i
      · subst hl
        rw [Function.update_self]
        exact w3 o
      · rw [Function.update_of_ne hl]
        exact hW l
    · unfold patch
      by_cases hl : l = i
      · subst hl
        rw [Function.update_self]
        by_cases hxw : x ∈ c.writes
        · rw [if_pos hxw]
        · rw [if_neg hxw, lstep_keeps S1 hxw]
          exact hA l x hx
      · rw [Function.update_of_ne hl, if_neg, hA l x hx]
        intro hxw
        rcases hx with hx | hx
        · exact Set.disjoint_left.1 (hd l i hl) hx (w1 x hxw)
        · exact Set.disjoint_left.1 (hS i) (w1 x hxw) hx
    · dsimp only
      by_cases hl : l = i
      · subst hl
        rw [Function.update_self, Function.update_self, List.append_assoc]
        exact hOi
      · rw [Function.update_of_ne hl, Function.update_of_ne hl]
        exact hO l
    · have hs : ∑ x ∈ Finset.univ.erase i, Function.update n i b x = ∑ x ∈ Finset.univ.erase i, n x :=
        Finset.sum_congr rfl (fun l hl => by rw [Function.update_of_ne (Finset.ne_of_mem_erase hl)])
      have h1 := Finset.add_sum_erase Finset.univ (fun x => Function.update n i b x) (Finset.mem_univ i)
      have h2 := Finset.add_sum_erase Finset.univ (fun x => n x) (Finset.mem_univ i)
      rw [Function.update_self, hs] at h1
      rw [hni] at h2
      rw [List.length_append]
      omega
    · have hxw : x ∉ c.writes := fun hh => hx i (w1 x hh)
      refine ⟨?_, ?_⟩
      · unfold patch
        rw [if_neg hxw]
        exact (hK x hx).1
      · show env' x = env0 x
        rw [exec_env e hxw]
        exact (hK x hx).2

theorem together_run [Fintype ι] {W : ι → Set Nat} {S : Set Nat} {os : ι → List R} {F : ι → AEnv R} {N : ι → Nat} {env0 : Env} {A0 : AEnv R} {L0 : List Nat}
    (hd : ∀ i j, i ≠ j → Disjoint (W i) (W j)) (hS : ∀ i, Disjoint (W i) S) (σ : Nat → Nat → Sched) :
    ∀ (turns : List ι) (s : Nat) (m : ι → Nat) (T : Threads ι R), Together W S os F N env0 A0 L0 m T →
      ∃ T', T.run σ s turns = .ok T' ∧ Together W S os F N env0 A0 L0 (fun i => m i - turns.count i) T'
  | [], s, m, T, H => ⟨T, rfl, by simpa using H⟩
  | i :: is, s, m, T, H => by
    obtain ⟨T1, e1, H1⟩ := together_turn hd hS H (σ s) i
    obtain ⟨T2, e2, H2⟩ := together_run hd hS σ is (s + 1) _ T1 H1
    refine ⟨T2, by unfold Threads.run; rw [e1]; exact e2, ?_⟩
    have : (fun j => m j - (i :: is).count j) = fun j => Function.update m i (m i - 1) j - is.count j := by
      funext j
      by_cases hj : j = i
      · subst hj; rw [Function.update_self, List.count_cons_self]; omega
      · rw [Function.update_of_ne hj, List.count_cons_of_ne (Ne.symm hj)]
    rw [this]
    exact H2

/-- **C116** (threads). Every thread has tensor variables of its own, and there are tensors that all threads only read. Each program alone meets its preconditions. Then under every interleaving of the
statements and every schedule of the parallel loops inside them: nothing fails; what a thread has read so far is a beginning of what it reads when it runs alone, and all of it when it has ended; every
thread ends after a number of turns that does not depend on the others; the shared tensors stay the same objects; at the end every variable has the value its thread alone would have given it, and the
number of buffers lost is the sum of the numbers the threads alone lose. -/
theorem C116_threads [Fintype ι] {h : Heap R} {env : Env} {A : AEnv R} {L : List Nat} {p : ι → Prog R} {os : ι → List R} {F : ι → AEnv R} {N : ι → Nat} {W : ι → Set Nat} {S : Set Nat}
    (hv : SameValues h env A) (ho : OwnersBut L h env) (hr : ∀ i, LRun A (p i) (os i) (F i) (N i)) (hw : ∀ i, (p i).Within (W i) S)
    (hd : ∀ i j, i ≠ j → Disjoint (W i) (W j)) (hS : ∀ i, Disjoint (W i) S) :
    (∀ i σ, ∃ h' env', (p i).run σ 0 h env = .ok (os i, h', env')) ∧
    ∃ m : ι → Nat, ∀ (σ : Nat → Nat → Sched) (turns : List ι), ∃ T, Threads.run σ 0 turns ⟨p, fun _ => [], h, env⟩ = .ok T ∧
      (∀ i, T.outs i <+: os i) ∧ (∀ i, T.progs i = .done → T.outs i = os i) ∧ (∀ i, m i ≤ turns.count i → T.progs i = .done) ∧
      (∀ x, (∀ i, x ∉ W i) → T.env x = env x) ∧
      ((∀ i, T.progs i = .done) → (∃ A', SameValues T.heap T.env A' ∧ (∀ i, ∀ x ∈ W i, A' x = F i x) ∧ ∀ x, (∀ i, x ∉ W i) → A' x = A x) ∧
        ∃ L', OwnersBut (L' ++ L) T.heap T.env ∧ L'.length = ∑ i, N i) := by
  refine ⟨fun i σ => ?_, ?_⟩
  · obtain ⟨L', h', env', e, -⟩ := C84_programs σ 0 hv ho (hr i)
    exact ⟨h', env', e⟩
  have hc : ∀ i, ∃ j, LRunK A (p i) (os i) (F i) (N i) j := fun i => (hr i).counted
  choose m hm using hc
  refine ⟨m, fun σ turns => ?_⟩
  have H0 : Together W S os F N env A L m (⟨p, fun _ => [], h, env⟩ : Threads ι R) :=
    ⟨A, [], fun _ => A, os, N, ⟨hv, ho⟩, hm, hw, fun _ _ _ => rfl, fun _ => rfl, by simp, fun _ _ => ⟨rfl, rfl⟩⟩
  obtain ⟨T, e, H⟩ := together_run hd hS σ turns 0 m _ H0
  obtain ⟨A', L', Ai, rest, n, hR, hL, hW, hA, hO, hN, hK⟩ := H.state
  have fin : ∀ i, T.progs i = .done → rest i = [] ∧ Ai i = F i ∧ n i = 0 := fun i hi => by
    have := hL i
    rw [hi] at this
    generalize hr : rest i = ri at this
    generalize hni : n i = ni at this
    generalize Ai i = ai at this
    generalize F i = fi at this
    generalize m i - turns.count i = mi at this
    cases this
    exact ⟨rfl, rfl, rfl⟩
  refine ⟨T, e, fun i => ⟨_, hO i⟩, fun i hi => ?_, fun i hi => ?_, fun x hx => (hK x hx).2, fun hall => ⟨⟨A', hR.1, fun i x hx => ?_, fun x hx => (hK x hx).1⟩, L', hR.2, ?_⟩⟩
  · rw [← hO i, (fin i hi).1, List.append_nil]
  · have := hL i
    rw [Nat.sub_eq_zero_of_le hi] at this
    generalize rest i = ri at this
    generalize n i = ni at this
    cases hp : T.progs i with
    | done => rfl
    | op c k => rw [hp] at this; cases this
  · rw [← hA i x (Or.inl hx), (fin i (hall i)).2.1]
  · rw [← hN, Finset.sum_eq_zero (fun i _ => (fin i (hall i)).2.2), Nat.add_zero]

end
end Nnet.Tensor
