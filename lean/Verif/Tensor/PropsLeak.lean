import Verif.Tensor.PropsProgram
/-!
# C84: programs that assign temporaries to tensors that already have data

`t = a + b;` calls the move assignment (tensor.cpp:62-68), which does not release the previous buffer of `t` (C09). Such programs are
outside C12. Here they are included: apart from the lost buffers the value semantics of C12 still holds, and the number of buffers
lost is exactly the number of such assignments.
-/
namespace Nnet.Tensor
variable {R : Type}

/-- Variable `x` forgets its buffer: it becomes one of the lost ones. -/
theorem Rel.forget {L : List Nat} {h : Heap R} {env : Env} {A : AEnv R} (H : Rel L h env A) {x : Nat} {t : Tensor} {p : Nat}
    {d : List Int} (hx : env x = some t) (hp : t.data = some p) (hs : mkShape d = .ok t.shape) :
    Rel (p :: L) h (Function.update env x (some ⟨t.shape, none⟩)) (Function.update A x (some (.empty d))) := by
  refine ⟨sameValues_iff.2 fun y => ?_, List.nodup_cons.2 ⟨H.notLost hx hp, H.2.1⟩, fun q hq => ?_, fun q b hq hbl hL => ?_⟩
  · by_cases hy : y = x
    · subst hy; rw [Function.update_self, Function.update_self]; exact ⟨_, rfl, hs, rfl⟩
    · rw [Function.update_of_ne hy, Function.update_of_ne hy]; exact H.rep y
  · rcases List.mem_cons.1 hq with rfl | hq
    · refine ⟨?_, fun y u hu huq => ?_⟩
      · obtain ⟨b, hb, hl, -⟩ := (H.rep x).live hx hp; exact ⟨b, hb, hl⟩
      · by_cases hy : y = x
        · subst hy; rw [Function.update_self] at hu; cases hu; cases huq
        · rw [Function.update_of_ne hy] at hu; exact hy (H.unique hu hx huq hp)
    · refine ⟨(H.2.2.1 q hq).1, fun y u hu huq => ?_⟩
      by_cases hy : y = x
      · subst hy; rw [Function.update_self] at hu; cases hu; cases huq
      · rw [Function.update_of_ne hy] at hu; exact (H.2.2.1 q hq).2 y u hu huq
  · rw [List.mem_cons, not_or] at hL
    obtain ⟨y, ⟨u, hu, huq⟩, hun⟩ := H.2.2.2 q b hq hbl hL.2
    have hy : y ≠ x := by rintro rfl; rw [hx] at hu; cases hu; rw [hp] at huq; cases huq; exact hL.1 rfl
    refine ⟨y, ⟨u, by rw [Function.update_of_ne hy]; exact hu, huq⟩, ?_⟩
    rintro z ⟨w, hw, hwq⟩
    by_cases hz : z = x
    · subst hz; rw [Function.update_self] at hw; cases hw; cases hwq
    · rw [Function.update_of_ne hz] at hw; exact hun z ⟨w, hw, hwq⟩

/-- A variable without data gets other dimensions, still without data. -/
theorem Rel.reshapeless {L : List Nat} {h : Heap R} {env : Env} {A : AEnv R} (H : Rel L h env A) {x : Nat} {t t' : Tensor}
    {d : List Int} (hx : env x = some t) (hp : t.data = none) (hp' : t'.data = none) (hs : mkShape d = .ok t'.shape) :
    Rel L h (Function.update env x (some t')) (Function.update A x (some (.empty d))) := by
  refine H.update x _ _ ⟨t', rfl, hs, hp'⟩ (fun _ _ _ _ _ _ => rfl) (fun u p hu hup => by cases hu; rw [hp'] at hup; cases hup)
    (fun _ _ => rfl) (fun p b hb hl => ?_)
  rcases H.owner hb hl with hL | ⟨y, u, hu, hup⟩
  · exact Or.inl hL
  refine Or.inr (Or.inr ⟨y, u, ?_, hu, hup⟩)
  rintro rfl; rw [hx] at hu; cases hu; rw [hp] at hup; cases hup

section
variable [Zero R] [One R] [Add R] [Sub R] [Mul R] [Div R] [Neg R] [CMath R] [BEq R] [LT R] [LE R]
  [DecidableRel (α := R) (· < ·)] [DecidableRel (α := R) (· ≤ ·)]

/-- `LStep c A o A' n`: as `AStep`, and also for the statements that lose a buffer; `n` is the number of buffers lost. -/
inductive LStep : Cmd R → AEnv R → Option R → AEnv R → Nat → Prop
  | clean {c A o A'} : AStep c A o A' → LStep c A o A' 0
  /-- `x = std::move(y)` or `x = f(...)` (with `y` the temporary), when `x` has data -/
  | moveAssign {x y A d1 v1 d2 v2} : x ≠ y → A x = some (.data d1 v1) → A y = some (.data d2 v2) →
      LStep (.moveAssign x y) A none (Function.update (Function.update A x (some (.data d2 v2))) y (some (.empty d2))) 1
  /-- the source has no data: then the target has none afterwards -/
  | moveFromEmpty {x y A d1 v1 d2} : x ≠ y → A x = some (.data d1 v1) → A y = some (.empty d2) →
      LStep (.moveAssign x y) A none (Function.update A x (some (.empty d2))) 1
  | moveEmptyToEmpty {x y A d1 d2} : x ≠ y → A x = some (.empty d1) → A y = some (.empty d2) →
      LStep (.moveAssign x y) A none (Function.update A x (some (.empty d2))) 0
  /-- `x = std::move(x)` loses the elements -/
  | moveSelf {x A d v} : A x = some (.data d v) → LStep (.moveAssign x x) A none (Function.update A x (some (.empty d))) 1
  /-- `matmul(y, z, x)` when `x` has data, but fewer elements than the product -/
  | matmulInto {x y z A d v v1 v2} {m k n : Nat} : A x = some (.data d v) → numel d < m * n → x ≠ y → x ≠ z →
      A y = some (.data [(m : Int), (k : Int)] v1) → A z = some (.data [(k : Int), (n : Int)] v2) →
      0 < m → 0 < k → 0 < n → IsInt ((m : Int) * n) →
      LStep (.matmulInto x y z) A none (Function.update A x (some (.data [(m : Int), (n : Int)] (prodVals m k n v1 v2)))) 1

/-- As `ARun`, with the total number of buffers lost. -/
inductive LRun : AEnv R → Prog R → List R → AEnv R → Nat → Prop
  | done {A} : LRun A .done [] A 0
  | op {A c o A' k os A'' m n} : LStep c A o A' m → LRun A' (k o) os A'' n → LRun A (.op c k) (o.toList ++ os) A'' (m + n)

theorem exec_move_dataless (σ : Nat → Sched) (h : Heap R) {env : Env} {x y : Nat} {t u : Tensor} (hxy : x ≠ y) (hx : env x = some t)
    (hy : env y = some u) : (Cmd.moveAssign x y : Cmd R).exec σ h (Function.update env x (some ⟨t.shape, none⟩)) =
      (Cmd.moveAssign x y : Cmd R).exec σ h env := by
  simp only [Cmd.exec, Env.look, Function.update_self, Function.update_of_ne (Ne.symm hxy), hx, hy, ok_bind, if_neg hxy,
    Tensor.moveAssign, Function.update_idem]

theorem matmul_dataless (σ : Nat → Sched) {h : Heap R} {t1 t2 out : Tensor} {m k n : Nat} {v1 v2 : List R} {d : List Int}
    (hm : 0 < m) (hint : IsInt ((m : Int) * n))
    (H1 : Holds h t1 [(m : Int), (k : Int)] v1) (H2 : Holds h t2 [(k : Int), (n : Int)] v2) (hs : mkShape d = .ok out.shape)
    (hlt : numel d < m * n) : matmul σ h t1 t2 ⟨out.shape, none⟩ = matmul σ h t1 t2 out := by
  have e0 : t1.shapeAt 0 = .ok (m : Int) := shapeAt_mk H1.mk (i := 0) (by simp)
  have e2 : t2.shapeAt 1 = .ok (n : Int) := shapeAt_mk H2.mk (i := 1) (by simp)
  have e1 : t1.shapeAt 1 = .ok (k : Int) := shapeAt_mk H1.mk (i := 1) (by simp)
  have hp : matmulPrepare h ⟨out.shape, none⟩ m n = matmulPrepare h out m n := by
    unfold matmulPrepare
    cases ho : out.data with
    | none => rfl
    | some q =>
      have c : out.chunkAt 0 = .ok (numel d : Int) := mkShape_chunk0 hs
      have ci : cint ((m : Int) * n) = .ok ((m : Int) * n) := if_pos hint
      simp only [c, ci, ok_bind, pure_eq_ok, Tensor.moveAssign]
      have : ((numel d : Int) < (m : Int) * n) := by exact_mod_cast hlt
      simp [this]
  unfold matmul
  simp only [e0, e1, e2, ok_bind, hp]

theorem lstep_ok (σ : Nat → Sched) {L : List Nat} {h : Heap R} {env : Env} {A A' : AEnv R} {c : Cmd R} {o : Option R} {n : Nat}
    (H : Rel L h env A) (S : LStep c A o A' n) :
    ∃ L' h' env', c.exec σ h env = .ok (o, h', env') ∧ Rel (L' ++ L) h' env' A' ∧ L'.length = n := by
  cases S with
  | clean S => obtain ⟨h', env', e, H'⟩ := step_ok σ H S; exact ⟨[], h', env', e, H', rfl⟩
  | @moveAssign x y A d1 v1 d2 v2 hxy hx hy =>
    obtain ⟨t, p, ht, hs, hl, hp, hb⟩ := H.dataOf hx
    obtain ⟨u, q, hu, hs2, hl2, hq, hb2⟩ := H.dataOf hy
    have H1 := H.forget ht hp hs
    obtain ⟨h', env', e, H'⟩ := step_ok σ H1 (.moveAssign (x := x) (y := y) (d1 := d1) (d2 := d2) (v2 := v2) hxy
      (Function.update_self ..) (by rw [Function.update_of_ne (Ne.symm hxy)]; exact hy))
    rw [exec_move_dataless σ h hxy ht hu] at e
    rw [Function.update_idem] at H'
    exact ⟨[p], h', env', e, H', rfl⟩
  | @moveFromEmpty x y A d1 v1 d2 hxy hx hy =>
    obtain ⟨t, p, ht, hs, hl, hp, hb⟩ := H.dataOf hx
    obtain ⟨u, hu, hs2, hd⟩ := H.emptyOf hy
    have H1 := (H.forget ht hp hs).reshapeless (t' := ⟨u.shape, none⟩) (Function.update_self ..) rfl rfl hs2
    rw [Function.update_idem, Function.update_idem] at H1
    have e : (⟨u.shape, none⟩ : Tensor) = u := by cases u; simp_all
    refine ⟨[p], h, Function.update env x (some u), ?_, by rw [e] at H1; exact H1, rfl⟩
    simp only [Cmd.exec, Env.look, ht, hu, ok_bind, if_neg hxy, Tensor.moveAssign, assignShape_mk hs2, pure_eq_ok, hd, e]
    congr 3
    funext z
    by_cases hz : z = y
    · subst hz; rw [Function.update_self, Function.update_of_ne (Ne.symm hxy), hu]
    · rw [Function.update_of_ne hz]
  | @moveEmptyToEmpty x y A d1 d2 hxy hx hy =>
    obtain ⟨t, ht, hs, hp⟩ := H.emptyOf hx
    obtain ⟨u, hu, hs2, hd⟩ := H.emptyOf hy
    have H1 := H.reshapeless (t' := ⟨u.shape, none⟩) ht hp rfl hs2
    have e : (⟨u.shape, none⟩ : Tensor) = u := by cases u; simp_all
    refine ⟨[], h, Function.update env x (some u), ?_, by rw [e] at H1; exact H1, rfl⟩
    simp only [Cmd.exec, Env.look, ht, hu, ok_bind, if_neg hxy, Tensor.moveAssign, assignShape_mk hs2, pure_eq_ok, hd, e]
    congr 3
    funext z
    by_cases hz : z = y
    · subst hz; rw [Function.update_self, Function.update_of_ne (Ne.symm hxy), hu]
    · rw [Function.update_of_ne hz]
  | @moveSelf x A d v hx =>
    obtain ⟨t, p, ht, hs, hl, hp, hb⟩ := H.dataOf hx
    refine ⟨[p], h, _, ?_, H.forget ht hp hs, rfl⟩
    simp only [Cmd.exec, Env.look, ht, ok_bind, if_true, Tensor.selfMoveAssign, assignShape_mk hs, pure_eq_ok]
  | @matmulInto x y z A d v v1 v2 m k n hx hlt hxy hxz hy hz hm hk hn hint =>
    obtain ⟨t, p, ht, hs, hl, hp, hb⟩ := H.dataOf hx
    obtain ⟨t1, ht1, -, K1⟩ := H.holds hy
    obtain ⟨t2, ht2, -, K2⟩ := H.holds hz
    have H1 := H.forget ht hp hs
    obtain ⟨h', env', e, H'⟩ := step_ok σ H1 (.matmulInto (x := x) (y := y) (z := z) (a := .empty d) (v1 := v1) (v2 := v2)
      (m := m) (k := k) (n := n) (Function.update_self ..) (fun _ _ h => by cases h) hxy hxz
      (by rw [Function.update_of_ne (Ne.symm hxy)]; exact hy) (by rw [Function.update_of_ne (Ne.symm hxz)]; exact hz) hm hk hn hint)
    rw [Function.update_idem] at H'
    refine ⟨[p], h', env', ?_, H', rfl⟩
    rw [← e]
    simp only [Cmd.exec, Env.look, Function.update_self, Function.update_of_ne (Ne.symm hxy), Function.update_of_ne (Ne.symm hxz),
      ht, ht1, ht2, ok_bind, Function.update_idem, matmul_dataless σ hm hint K1 K2 hs hlt]

theorem lrun_ok (σ : Nat → Nat → Sched) (s : Nat) {L : List Nat} {h : Heap R} {env : Env} {A A' : AEnv R} {p : Prog R} {os : List R}
    {n : Nat} (H : Rel L h env A) (hr : LRun A p os A' n) :
    ∃ L' h' env', p.run σ s h env = .ok (os, h', env') ∧ Rel (L' ++ L) h' env' A' ∧ L'.length = n := by
  induction hr generalizing s h env L with
  | done => exact ⟨[], h, env, rfl, H, rfl⟩
  | op S _ ih =>
    obtain ⟨L1, h1, env1, e1, H1, n1⟩ := lstep_ok (σ s) H S
    obtain ⟨L2, h2, env2, e2, H2, n2⟩ := ih (s + 1) H1
    refine ⟨L2 ++ L1, h2, env2, by simp [Prog.run, e1, e2], by rw [List.append_assoc]; exact H2, ?_⟩
    rw [List.length_append, n1, n2, Nat.add_comm]

/-- **C84**: every program that meets the preconditions, now including assignments of temporaries and moves to tensors that have
data and `matmul` into a tensor that is too small, runs under every schedule of every parallel loop without undefined behaviour,
abort or exception and reads exactly the numbers the value semantics predicts. At the end every variable has the predicted
dimensions and elements; exactly `n` buffers, one for each such assignment, are allocated without an owner in addition to those
that were lost before, and every other allocated buffer is owned by exactly one tensor. -/
theorem C84_programs (σ : Nat → Nat → Sched) (s : Nat) {L : List Nat} {h : Heap R} {env : Env} {A A' : AEnv R} {p : Prog R}
    {os : List R} {n : Nat} (hv : SameValues h env A) (ho : OwnersBut L h env) (hr : LRun A p os A' n) :
    ∃ L' h' env', p.run σ s h env = .ok (os, h', env') ∧ SameValues h' env' A' ∧ OwnersBut (L' ++ L) h' env' ∧ L'.length = n := by
  obtain ⟨L', h', env', e, H, hn⟩ := lrun_ok σ s ⟨hv, ho⟩ hr
  exact ⟨L', h', env', e, H.1, H.2, hn⟩

/-- **C84**, from the start to the end: when all variables of the program have been destroyed, exactly `n` buffers are still
allocated. -/
theorem C84_lost (σ : Nat → Nat → Sched) {p : Prog R} {os : List R} {n : Nat}
    (hr : LRun (fun _ => none) p os (fun _ => none) n) :
    ∃ h', p.run σ 0 ⟨[]⟩ (fun _ => none) = .ok (os, h', fun _ => none) ∧ (h'.blocks.filter (fun b => b.live)).length = n := by
  obtain ⟨L, h', env', e, hv, ho, hn⟩ := C84_programs σ 0 (L := []) (h := ⟨[]⟩) (env := fun _ => none) (fun _ => rfl)
    (exactOwners_iff.1 (fun p b hb => by simp at hb)) hr
  have he : env' = fun _ => none := funext fun x => hv x
  subst he
  rw [List.append_nil] at ho
  refine ⟨h', e, ?_⟩
  have hperm : L.Perm ((List.range h'.blocks.length).filter (fun i => ((h'.blocks[i]?).map Block.live).getD false)) := by
    refine (List.perm_ext_iff_of_nodup ho.1 (List.nodup_range.filter _)).2 fun i => ?_
    rw [List.mem_filter, List.mem_range]
    constructor
    · intro hi
      obtain ⟨⟨b, hb, hl⟩, -⟩ := ho.2.1 i hi
      exact ⟨lt_of_get hb, by simp [hb, hl]⟩
    · rintro ⟨hi, hl⟩
      by_contra hL
      have hb : h'.blocks[i]? = some h'.blocks[i] := List.getElem?_eq_getElem hi
      rw [hb] at hl
      obtain ⟨x, ⟨t, ht, -⟩, -⟩ := ho.2.2 i _ hb (by simpa using hl) hL
      cases ht
  rw [← hn, hperm.length_eq]
  clear * -
  generalize h'.blocks = l
  induction l using List.reverseRecOn with
  | nil => rfl
  | append_singleton l b ih =>
    rw [List.filter_append, List.length_append, ih, List.length_append, List.length_singleton, List.range_succ, List.filter_append,
      List.length_append]
    congr 1
    · congr 1
      refine List.filter_congr fun i hi => ?_
      rw [List.getElem?_append_left (List.mem_range.1 hi)]
    · cases hb : b.live <;> simp [hb]

end
end Nnet.Tensor
