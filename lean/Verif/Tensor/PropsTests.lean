import Verif.Tensor.Tests
import Verif.Tensor.PropsShape
import Mathlib.Algebra.Order.Field.Basic
import Mathlib.Algebra.BigOperators.Intervals
import Mathlib.Data.Nat.Factorial.Basic
/-!
# C85: what the project's tensor tests check for some sizes holds for all sizes
-/
namespace Nnet.Tensor
variable {R : Type}

section
variable [Zero R] [One R] [Add R] [Sub R] [Mul R] [Div R] [Neg R] [CMath R] [BEq R] [LT R] [LE R]
  [DecidableRel (α := R) (· < ·)] [DecidableRel (α := R) (· ≤ ·)]

theorem LRun.silent {A A' A'' : AEnv R} {c : Cmd R} {cs : List (Cmd R)} {os : List R} {m n : Nat} (S : LStep c A none A' m)
    (h : LRun A' (Prog.ofList cs) os A'' n) : LRun A (Prog.ofList (c :: cs)) os A'' (m + n) := LRun.op (o := none) S h

theorem LRun.value {A A' A'' : AEnv R} {c : Cmd R} {cs : List (Cmd R)} {x : R} {os : List R} {m n : Nat} (S : LStep c A (some x) A' m)
    (h : LRun A' (Prog.ofList cs) os A'' n) : LRun A (Prog.ofList (c :: cs)) (x :: os) A'' (m + n) := LRun.op (o := some x) S h

/-- Element `i` of variable `x` is `a`. -/
def HasElem (A : AEnv R) (q : Nat × Nat) (a : R) : Prop := ∃ d v, A q.1 = some (.data d v) ∧ v[q.2]? = some a

theorem LRun.readsL {A A' : AEnv R} {cs : List (Cmd R)} {os : List R} {n : Nat} (l : List (Nat × Nat)) (f : Nat × Nat → R)
    (hl : ∀ q ∈ l, HasElem A q (f q)) (h : LRun A (Prog.ofList cs) os A' n) :
    LRun A (Prog.ofList (reads l ++ cs)) (l.map f ++ os) A' n := by
  induction l with
  | nil => exact h
  | cons q l ih =>
    obtain ⟨d, v, hx, hv⟩ := hl q (by simp)
    have := LRun.value (c := .get q.1 (q.2 : Int)) (x := f q) (.clean (.get hx hv)) (ih fun q hq => hl q (by simp [hq]))
    rw [Nat.zero_add] at this
    exact this

theorem LRun.reassignL {A A' : AEnv R} {cs : List (Cmd R)} {os : List R} {n : Nat} {x : Nat} {e : Rhs R} {d1 d : List Int} {v1 v : List R}
    (hx : A x = some (.data d1 v1)) (ht : A temp = none) (hxt : x ≠ temp) (M : Means A e d v)
    (h : LRun (Function.update A x (some (.data d v))) (Prog.ofList cs) os A' n) :
    LRun A (Prog.ofList (reassign x e ++ cs)) os A' (n + 1) := by
  have := LRun.silent (A := A) (cs := .moveAssign x temp :: .destroy temp :: cs) (.clean (.decl ht M)) (LRun.silent (cs := .destroy temp :: cs)
    (.moveAssign (x := x) (y := temp) (d1 := d1) (v1 := v1) (d2 := d) (v2 := v) hxt (by rw [Function.update_of_ne hxt]; exact hx)
      (Function.update_self ..)) (LRun.silent (cs := cs) (os := os) (n := n) (A'' := A') (.clean (.destroy (x := temp) (a := .empty d) (Function.update_self ..))) ?_))
  · rw [show n + 1 = 0 + (1 + (0 + n)) by omega]; exact this
  · convert h using 1
    funext z
    by_cases hz : z = temp
    · subst hz; rw [Function.update_self, Function.update_of_ne (Ne.symm hxt), ht]
    · rw [Function.update_of_ne hz, Function.update_of_ne hz]
      by_cases hzx : z = x
      · subst hzx; rw [Function.update_self, Function.update_self]
      · rw [Function.update_of_ne hzx, Function.update_of_ne hzx, Function.update_of_ne hz]

theorem update_none_of {A : AEnv R} {x : Nat} {a : AVal R} (h : A x = none) :
    Function.update (Function.update A x (some a)) x none = A := by
  rw [Function.update_idem]; conv_rhs => rw [← Function.update_eq_self x A, h]

/-- `Tensor x = e(e0);` with `e0` a temporary. -/
theorem LRun.viaL {A A' : AEnv R} {cs : List (Cmd R)} {os : List R} {n x : Nat} {e0 e : Rhs R} {d0 d : List Int} {v0 v : List R}
    (ht : A temp = none) (hx : A x = none) (hxt : x ≠ temp) (M0 : Means A e0 d0 v0)
    (M : Means (Function.update A temp (some (.data d0 v0))) e d v)
    (h : LRun (Function.update A x (some (.data d v))) (Prog.ofList cs) os A' n) :
    LRun A (Prog.ofList (.decl temp e0 :: .decl x e :: .destroy temp :: cs)) os A' n := by
  have := LRun.silent (A := A) (cs := .decl x e :: .destroy temp :: cs) (.clean (.decl ht M0)) (LRun.silent (cs := .destroy temp :: cs)
    (.clean (.decl (by rw [Function.update_of_ne hxt]; exact hx) M)) (LRun.silent (cs := cs) (os := os) (n := n) (A'' := A')
      (.clean (.destroy (x := temp) (a := .data d0 v0) (by rw [Function.update_of_ne (Ne.symm hxt), Function.update_self]))) ?_))
  · simpa using this
  · rw [Function.update_comm (Ne.symm hxt), update_none_of (by rw [Function.update_of_ne (Ne.symm hxt)]; exact ht)]; exact h

theorem reads_nil_done {A : AEnv R} : LRun A (Prog.ofList []) [] A 0 := .done

end

/-- `1` on the diagonal, `0` elsewhere. -/
def eyeList [Zero R] [One R] (n : Nat) : List R := (List.range (n * n)).map (fun p => if p / n = p % n then 1 else 0)

theorem okDims_sq {n : Nat} (hn : 0 < n) (hint : ((n * n : Nat) : Int) ≤ intMax) : OkDims [(n : Int), (n : Int)] := by
  refine ⟨⟨n, [n], rfl, by positivity, by simpa using hn⟩, fun i => ?_⟩
  match i with
  | 0 => simpa using hint
  | 1 => simp only [List.drop_succ_cons, List.drop_zero, List.prod_cons, List.prod_nil, mul_one]; exact le_int hn hint
  | i + 2 => simp [intMax]

theorem eye_map_getD [Zero R] [One R] (f : R → R) {n i j : Nat} (hi : i < n) (hj : j < n) :
    ((eyeList n).map f).getD (i * n + j) 0 = f (if i = j then 1 else 0) := by
  have hlt : i * n + j < n * n := by nlinarith
  have e1 : (i * n + j) / n = i := by rw [Nat.mul_comm, Nat.mul_add_div (by omega), Nat.div_eq_of_lt hj]; omega
  have e2 : (i * n + j) % n = j := by rw [Nat.mul_comm, Nat.mul_add_mod, Nat.mod_eq_of_lt hj]
  rw [List.getD_eq_getElem?_getD, eyeList, List.map_map, List.getElem?_map, List.getElem?_range hlt]
  simp [e1, e2]

theorem eye_row [Zero R] [One R] (f : R → R) {n i : Nat} (hi : i < n) :
    row ((eyeList n).map f) n i = (List.range n).map (fun j => f (if i = j then 1 else 0)) := by
  unfold row
  refine List.map_congr_left fun j hj => ?_
  exact eye_map_getD f hi (List.mem_range.1 hj)

theorem eye_col [Zero R] [One R] (f : R → R) {n j : Nat} (hj : j < n) :
    col ((eyeList n).map f) n n j = (List.range n).map (fun i => f (if i = j then 1 else 0)) := by
  unfold col
  refine List.map_congr_left fun i hi => ?_
  exact eye_map_getD f (List.mem_range.1 hi) hj

theorem hasElem_map {A : AEnv R} {x : Nat} {d : List Int} {n i : Nat} {g : Nat → R} (hx : A x = some (.data d ((List.range n).map g)))
    (hi : i < n) : HasElem A (x, i) (g i) := ⟨d, _, hx, by simp [hi]⟩


/-- Started in an empty memory, under every schedule, the program runs to its end without undefined behaviour, abort or exception,
reads the numbers `os` in this order, and leaves `lost` buffers allocated (its tensors are destroyed). -/
def RunsTo [Zero R] [One R] [Add R] [Sub R] [Mul R] [Div R] [Neg R] [CMath R] [BEq R] [LT R] [LE R]
    [DecidableRel (α := R) (· < ·)] [DecidableRel (α := R) (· ≤ ·)] (p : List (Cmd R)) (os : List R) (lost : Nat) : Prop :=
  ∀ σ : Nat → Nat → Sched, ∃ h', (Prog.ofList p).run σ 0 ⟨[]⟩ (fun _ => none) = .ok (os, h', fun _ => none) ∧
    (h'.blocks.filter (fun b => b.live)).length = lost

section
variable [Zero R] [One R] [Add R] [Sub R] [Mul R] [Div R] [Neg R] [CMath R] [BEq R] [LT R] [LE R]
  [DecidableRel (α := R) (· < ·)] [DecidableRel (α := R) (· ≤ ·)]

theorem runsTo_of {p : List (Cmd R)} {os : List R} {n : Nat} (h : LRun (fun _ => none) (Prog.ofList p) os (fun _ => none) n) :
    RunsTo p os n := fun σ => C84_lost σ h

theorem destroy1 {A : AEnv R} {a : AVal R} (hA : A = Function.update (fun _ => none) 0 (some a)) :
    LRun A (Prog.ofList [.destroy 0]) [] (fun _ => none) 0 := by
  subst hA
  have := LRun.silent (R := R) (A := Function.update (fun _ => none) 0 (some a)) (cs := []) (.clean (.destroy (x := 0) (a := a) rfl)) .done
  rw [update_none_of rfl] at this
  exact this

theorem destroy2 {A : AEnv R} {a b : AVal R} (hA : A = Function.update (Function.update (fun _ => none) 0 (some a)) 1 (some b)) :
    LRun A (Prog.ofList [.destroy 1, .destroy 0]) [] (fun _ => none) 0 := by
  subst hA
  refine LRun.silent (m := 0) (n := 0) (.clean (.destroy (x := 1) (a := b) rfl)) ?_
  rw [update_none_of rfl]
  exact destroy1 rfl

theorem destroy3 {A : AEnv R} {a b c : AVal R}
    (hA : A = Function.update (Function.update (Function.update (fun _ => none) 0 (some a)) 1 (some b)) 2 (some c)) :
    LRun A (Prog.ofList [.destroy 2, .destroy 1, .destroy 0]) [] (fun _ => none) 0 := by
  subst hA
  refine LRun.silent (m := 0) (n := 0) (.clean (.destroy (x := 2) (a := c) rfl)) ?_
  rw [update_none_of rfl]
  exact destroy2 rfl

theorem destroy4 {A : AEnv R} {a b c e : AVal R}
    (hA : A = Function.update (Function.update (Function.update (Function.update (fun _ => none) 0 (some a)) 1 (some b)) 2 (some c)) 3 (some e)) :
    LRun A (Prog.ofList [.destroy 3, .destroy 2, .destroy 1, .destroy 0]) [] (fun _ => none) 0 := by
  subst hA
  refine LRun.silent (m := 0) (n := 0) (.clean (.destroy (x := 3) (a := e) rfl)) ?_
  rw [update_none_of rfl]
  exact destroy3 rfl

theorem LRun.declL {A A' : AEnv R} {cs : List (Cmd R)} {os : List R} {n x : Nat} {e : Rhs R} {d : List Int} {v : List R}
    (hx : A x = none) (M : Means A e d v)
    (h : LRun (Function.update A x (some (.data d v))) (Prog.ofList cs) os A' n) :
    LRun A (Prog.ofList (.decl x e :: cs)) os A' n := by
  simpa using LRun.silent (cs := cs) (.clean (.decl hx M)) h

theorem LRun.sumL {A A' : AEnv R} {cs : List (Cmd R)} {os : List R} {n x : Nat} {d : List Int} {v : List R} {r : R}
    (hx : A x = some (.data d v)) (hr : v.foldl (· + ·) 0 = r) (h : LRun A (Prog.ofList cs) os A' n) :
    LRun A (Prog.ofList (.sum x :: cs)) (r :: os) A' n := by
  subst hr; simpa using LRun.value (cs := cs) (.clean (.sum hx)) h

theorem LRun.meanL {A A' : AEnv R} {cs : List (Cmd R)} {os : List R} {n x : Nat} {d : List Int} {v : List R} {r : R}
    (hx : A x = some (.data d v)) (hr : v.foldl (· + ·) 0 / CMath.ofInt (v.length : Int) = r) (h : LRun A (Prog.ofList cs) os A' n) :
    LRun A (Prog.ofList (.mean x :: cs)) (r :: os) A' n := by
  subst hr; simpa using LRun.value (cs := cs) (.clean (.mean hx)) h

/-- Reading every element of `x`. -/
theorem LRun.eachL {A A' : AEnv R} {cs : List (Cmd R)} {os : List R} {n x k : Nat} {d : List Int} {g : Nat → R} (e : Nat → R)
    (hx : A x = some (.data d ((List.range k).map g))) (he : ∀ i < k, g i = e i) (h : LRun A (Prog.ofList cs) os A' n) :
    LRun A (Prog.ofList (readEach x k ++ cs)) ((List.range k).map e ++ os) A' n := by
  have := LRun.readsL (cs := cs) (os := os) ((List.range k).map fun i => (x, i)) (fun q => e q.2) (fun q hq => by
    obtain ⟨i, hi, rfl⟩ := List.mem_map.1 hq
    rw [← he i (List.mem_range.1 hi)]
    exact hasElem_map hx (List.mem_range.1 hi)) h
  rw [List.map_map] at this
  exact this

end

/-- The pairs read by `EXPECT_EQ(t2[i], f(t[i]))` when the expectation holds for every element. -/
def pairsOf (k : Nat) (draws : Nat → R) (f : R → R) : List R := (List.range k).flatMap (fun i => [f (draws i), draws i])

/-- The triples read by `EXPECT_EQ(t3[i], f(t1[i], t2[i]))` when the expectation holds for every element. -/
def triplesOf (k : Nat) (draws1 draws2 : Nat → R) (f : R → R → R) : List R :=
  (List.range k).flatMap (fun i => [f (draws1 i) (draws2 i), draws1 i, draws2 i])

/-- The triples read by `EXPECT_EQ(t3[i * chunk + j], f(t1[i * chunk + j], t2[j]))` when the expectation holds for every element. -/
def rowsOf (r c : Nat) (draws1 draws2 : Nat → R) (f : R → R → R) : List R :=
  (List.range r).flatMap fun i => (List.range c).flatMap fun j => [f (draws1 (i * c + j)) (draws2 j), draws1 (i * c + j), draws2 j]

theorem arith_same [Zero R] {k : Nat} (draws1 draws2 : Nat → R) (f : R → R → R) :
    ((List.range ((List.range k).map draws1).length).map fun i => f (((List.range k).map draws1).getD i 0)
      (((List.range k).map draws2).getD (i % ((List.range k).map draws2).length) 0)) = (List.range k).map fun i => f (draws1 i) (draws2 i) := by
  rw [List.length_map, List.length_range, List.length_map, List.length_range]
  refine List.map_congr_left fun i hi => ?_
  have hi := List.mem_range.1 hi
  simp [Nat.mod_eq_of_lt hi, hi]

theorem zip_same {k : Nat} (draws1 draws2 : Nat → R) (f : R → R → R) :
    List.zipWith f ((List.range k).map draws1) ((List.range k).map draws2) = (List.range k).map fun i => f (draws1 i) (draws2 i) := by
  rw [List.zipWith_map, List.zipWith_self]

theorem arith_rows [Zero R] {r c : Nat} (hc : 0 < c) (draws1 draws2 : Nat → R) (f : R → R → R) :
    ((List.range ((List.range (r * c)).map draws1).length).map fun i => f (((List.range (r * c)).map draws1).getD i 0)
      (((List.range c).map draws2).getD (i % ((List.range c).map draws2).length) 0)) =
    (List.range (r * c)).map fun i => f (draws1 i) (draws2 (i % c)) := by
  rw [List.length_map, List.length_range, List.length_map, List.length_range]
  refine List.map_congr_left fun i hi => ?_
  have hi := List.mem_range.1 hi
  simp [Nat.mod_lt _ hc, hi]

theorem rows_eq {r c : Nat} (draws1 draws2 : Nat → R) (f : R → R → R) :
    ((List.range r).flatMap fun i => (List.range c).flatMap fun j =>
      [f (draws1 (i * c + j)) (draws2 ((i * c + j) % c)), draws1 (i * c + j), draws2 j]) = rowsOf r c draws1 draws2 f := by
  unfold rowsOf
  congr 1; funext i
  rw [List.flatMap_def, List.flatMap_def]
  congr 1
  refine List.map_congr_left fun j hj => ?_
  rw [Nat.mul_comm, Nat.mul_add_mod, Nat.mod_eq_of_lt (List.mem_range.1 hj)]

theorem numel_cons {r : Nat} {d : List Int} (hr : 0 < r) (hd : ValidDims ((r : Int) :: d)) : numel ((r : Int) :: d) = r * numel d := by
  obtain ⟨d0, ds, he, -, hpos⟩ := hd
  injection he with h1 h2
  subst h2
  have hp : 0 < d.prod := prod_pos' hpos
  have hr' : (0 : Int) < r := by exact_mod_cast hr
  rw [numel, numel, if_neg hp.ne', List.prod_cons, if_neg (mul_pos hr' hp).ne', Int.toNat_mul (by positivity) hp.le]
  rfl

section
variable [Zero R] [One R] [Add R] [Sub R] [Mul R] [Div R] [Neg R] [CMath R] [BEq R] [LT R] [LE R]
  [DecidableRel (α := R) (· < ·)] [DecidableRel (α := R) (· ≤ ·)]

/-- Reading the elements of `x` and `y` alternately. -/
theorem LRun.pairsL {A A' : AEnv R} {cs : List (Cmd R)} {os : List R} {n x y k : Nat} {d d' : List Int} {g g' : Nat → R} (hxy : x ≠ y)
    (hx : A x = some (.data d ((List.range k).map g))) (hy : A y = some (.data d' ((List.range k).map g')))
    (h : LRun A (Prog.ofList cs) os A' n) :
    LRun A (Prog.ofList (readPairs x y k ++ cs)) ((List.range k).flatMap (fun i => [g i, g' i]) ++ os) A' n := by
  have := LRun.readsL (cs := cs) (os := os) ((List.range k).flatMap fun i => [(x, i), (y, i)])
    (fun q => if q.1 = x then g q.2 else g' q.2) (fun q hq => by
      obtain ⟨i, hi, hq⟩ := List.mem_flatMap.1 hq
      have hi := List.mem_range.1 hi
      simp only [List.mem_cons, List.not_mem_nil, or_false] at hq
      rcases hq with rfl | rfl
      · rw [if_pos rfl]; exact hasElem_map hx hi
      · rw [if_neg (Ne.symm hxy)]; exact hasElem_map hy hi) h
  rw [List.map_flatMap] at this
  simpa [readPairs, Ne.symm hxy] using this

/-- Reading the elements of `x`, `y` and `z` alternately. -/
theorem LRun.triplesL {A A' : AEnv R} {cs : List (Cmd R)} {os : List R} {n x y z k : Nat} {d d' d'' : List Int} {g g' g'' : Nat → R}
    (hxy : x ≠ y) (hxz : x ≠ z) (hyz : y ≠ z)
    (hx : A x = some (.data d ((List.range k).map g))) (hy : A y = some (.data d' ((List.range k).map g')))
    (hz : A z = some (.data d'' ((List.range k).map g''))) (h : LRun A (Prog.ofList cs) os A' n) :
    LRun A (Prog.ofList (readTriples x y z k ++ cs)) ((List.range k).flatMap (fun i => [g i, g' i, g'' i]) ++ os) A' n := by
  have := LRun.readsL (cs := cs) (os := os) ((List.range k).flatMap fun i => [(x, i), (y, i), (z, i)])
    (fun q => if q.1 = x then g q.2 else if q.1 = y then g' q.2 else g'' q.2) (fun q hq => by
      obtain ⟨i, hi, hq⟩ := List.mem_flatMap.1 hq
      have hi := List.mem_range.1 hi
      simp only [List.mem_cons, List.not_mem_nil, or_false] at hq
      rcases hq with rfl | rfl | rfl
      · rw [if_pos rfl]; exact hasElem_map hx hi
      · rw [if_neg (Ne.symm hxy), if_pos rfl]; exact hasElem_map hy hi
      · rw [if_neg (Ne.symm hxz), if_neg (Ne.symm hyz)]; exact hasElem_map hz hi) h
  rw [List.map_flatMap] at this
  simpa [readTriples, Ne.symm hxy, Ne.symm hxz, Ne.symm hyz] using this

/-- Reading `x` and `y` at every position of a grid, and `z` at the position in the row. -/
theorem LRun.rowsL {A A' : AEnv R} {cs : List (Cmd R)} {os : List R} {n x y z r c : Nat} {d d' d'' : List Int} {g g' g'' : Nat → R}
    (hxy : x ≠ y) (hxz : x ≠ z) (hyz : y ≠ z)
    (hx : A x = some (.data d ((List.range (r * c)).map g))) (hy : A y = some (.data d' ((List.range (r * c)).map g')))
    (hz : A z = some (.data d'' ((List.range c).map g''))) (h : LRun A (Prog.ofList cs) os A' n) :
    LRun A (Prog.ofList (readRows x y z r c ++ cs)) ((List.range r).flatMap (fun i => (List.range c).flatMap (fun j =>
      [g (i * c + j), g' (i * c + j), g'' j])) ++ os) A' n := by
  have := LRun.readsL (cs := cs) (os := os) ((List.range r).flatMap fun i => (List.range c).flatMap fun j =>
      [(x, i * c + j), (y, i * c + j), (z, j)])
    (fun q => if q.1 = x then g q.2 else if q.1 = y then g' q.2 else g'' q.2) (fun q hq => by
      obtain ⟨i, hi, hq⟩ := List.mem_flatMap.1 hq
      obtain ⟨j, hj, hq⟩ := List.mem_flatMap.1 hq
      have hi := List.mem_range.1 hi
      have hj := List.mem_range.1 hj
      have hij : i * c + j < r * c := by
        have : (i + 1) * c ≤ r * c := Nat.mul_le_mul_right _ hi
        nlinarith
      simp only [List.mem_cons, List.not_mem_nil, or_false] at hq
      rcases hq with rfl | rfl | rfl
      · rw [if_pos rfl]; exact hasElem_map hx hij
      · rw [if_neg (Ne.symm hxy), if_pos rfl]; exact hasElem_map hy hij
      · rw [if_neg (Ne.symm hxz), if_neg (Ne.symm hyz)]; exact hasElem_map hz hj) h
  rw [List.map_flatMap] at this
  simp only [List.map_flatMap, List.map_cons, List.map_nil, if_true, if_neg (Ne.symm hxy), if_neg (Ne.symm hxz), if_neg (Ne.symm hyz)] at this
  exact this

/-- **C85**, `TestBasicOps` with a scalar: for every shape, all draws and every scalar. -/
theorem C85_scalar_ops (shape : List Int) (hs : OkDims shape) (draws : Nat → R) (val : R) :
    RunsTo (testScalarOps shape draws val) (pairsOf (numel shape) draws (· + val) ++ pairsOf (numel shape) draws (· - val) ++
      pairsOf (numel shape) draws (· * val) ++ pairsOf (numel shape) draws (· / val) ++
      pairsOf (numel shape) draws (fun x => CMath.pow x val)) 4 := by
  apply runsTo_of
  unfold testScalarOps
  simp only [List.append_assoc, List.cons_append, List.nil_append]
  rw [← List.append_nil (pairsOf _ _ fun x => CMath.pow x val)]
  refine LRun.declL rfl (.gaussian hs) ?_
  refine LRun.declL rfl (.fn1 (d := shape) (v := (List.range (numel shape)).map draws) rfl trivial) ?_
  simp only [List.map_map]
  refine LRun.pairsL (by decide) (Function.update_self ..) rfl ?_
  refine LRun.reassignL (n := 3) (Function.update_self ..) rfl (by decide)
    (.fn1 (d := shape) (v := (List.range (numel shape)).map draws) rfl trivial) ?_
  simp only [List.map_map]
  refine LRun.pairsL (by decide) (Function.update_self ..) rfl ?_
  refine LRun.reassignL (n := 2) (Function.update_self ..) rfl (by decide)
    (.fn1 (d := shape) (v := (List.range (numel shape)).map draws) rfl trivial) ?_
  simp only [List.map_map]
  refine LRun.pairsL (by decide) (Function.update_self ..) rfl ?_
  refine LRun.reassignL (n := 1) (Function.update_self ..) rfl (by decide)
    (.fn1 (d := shape) (v := (List.range (numel shape)).map draws) rfl trivial) ?_
  simp only [List.map_map]
  refine LRun.pairsL (by decide) (Function.update_self ..) rfl ?_
  refine LRun.reassignL (n := 0) (Function.update_self ..) rfl (by decide)
    (.fn1 (d := shape) (v := (List.range (numel shape)).map draws) rfl trivial) ?_
  simp only [List.map_map]
  refine LRun.pairsL (by decide) (Function.update_self ..) rfl ?_
  simp only [Function.update_idem]
  exact destroy2 rfl

/-- **C85**, `TestBasicOps` with two tensors: for every shape and all draws. -/
theorem C85_tensor_ops (shape : List Int) (hs : OkDims shape) (draws1 draws2 : Nat → R) :
    RunsTo (testTensorOps shape draws1 draws2) (triplesOf (numel shape) draws1 draws2 (· + ·) ++
      triplesOf (numel shape) draws1 draws2 (· - ·) ++ triplesOf (numel shape) draws1 draws2 (· * ·) ++
      triplesOf (numel shape) draws1 draws2 (· / ·) ++ triplesOf (numel shape) draws1 draws2 CMath.pow) 4 := by
  apply runsTo_of
  unfold testTensorOps
  simp only [List.append_assoc, List.cons_append, List.nil_append]
  rw [← List.append_nil (triplesOf _ _ _ CMath.pow)]
  refine LRun.declL rfl (.gaussian hs) ?_
  refine LRun.declL rfl (.gaussian hs) ?_
  refine LRun.declL rfl (.arith (d1 := shape) (d2 := shape) (v1 := (List.range (numel shape)).map draws1)
    (v2 := (List.range (numel shape)).map draws2) rfl rfl (Or.inl rfl)) ?_
  rw [arith_same]
  refine LRun.triplesL (by decide) (by decide) (by decide) (Function.update_self ..) rfl rfl ?_
  refine LRun.reassignL (n := 3) (Function.update_self ..) rfl (by decide) (.arith (d1 := shape) (d2 := shape)
    (v1 := (List.range (numel shape)).map draws1) (v2 := (List.range (numel shape)).map draws2) rfl rfl (Or.inl rfl)) ?_
  rw [arith_same]
  refine LRun.triplesL (by decide) (by decide) (by decide) (Function.update_self ..) rfl rfl ?_
  refine LRun.reassignL (n := 2) (Function.update_self ..) rfl (by decide) (.arith (d1 := shape) (d2 := shape)
    (v1 := (List.range (numel shape)).map draws1) (v2 := (List.range (numel shape)).map draws2) rfl rfl (Or.inl rfl)) ?_
  rw [arith_same]
  refine LRun.triplesL (by decide) (by decide) (by decide) (Function.update_self ..) rfl rfl ?_
  refine LRun.reassignL (n := 1) (Function.update_self ..) rfl (by decide) (.arith (d1 := shape) (d2 := shape)
    (v1 := (List.range (numel shape)).map draws1) (v2 := (List.range (numel shape)).map draws2) rfl rfl (Or.inl rfl)) ?_
  rw [arith_same]
  refine LRun.triplesL (by decide) (by decide) (by decide) (Function.update_self ..) rfl rfl ?_
  refine LRun.reassignL (n := 0) (Function.update_self ..) rfl (by decide) (.fn2 (d := shape)
    (v1 := (List.range (numel shape)).map draws1) (v2 := (List.range (numel shape)).map draws2) rfl rfl trivial) ?_
  rw [zip_same]
  refine LRun.triplesL (by decide) (by decide) (by decide) (Function.update_self ..) rfl rfl ?_
  simp only [Function.update_idem]
  exact destroy3 rfl

/-- **C85**, `TestBroadcastOpsTensor`: for every number of rows, every shape of the second tensor and all draws. -/
theorem C85_broadcast_ops (rows : Nat) (hr : 0 < rows) (shape2 : List Int) (h1 : OkDims ((rows : Int) :: shape2)) (h2 : OkDims shape2)
    (draws1 draws2 : Nat → R) :
    RunsTo (testBroadcastOps rows shape2 draws1 draws2) (rowsOf rows (numel shape2) draws1 draws2 (· + ·) ++
      rowsOf rows (numel shape2) draws1 draws2 (· - ·) ++ rowsOf rows (numel shape2) draws1 draws2 (· * ·) ++
      rowsOf rows (numel shape2) draws1 draws2 (· / ·)) 3 := by
  have hN := numel_cons hr h1.1
  have hc : 0 < numel shape2 := numel_pos h2.1
  apply runsTo_of
  unfold testBroadcastOps
  simp only [List.append_assoc, List.cons_append, List.nil_append]
  rw [← List.append_nil (rowsOf _ _ _ _ (· / ·))]
  simp only [← rows_eq]
  refine LRun.declL rfl (.gaussian h1) ?_
  refine LRun.declL rfl (.gaussian h2) ?_
  rw [hN]
  have M : ∀ (o : Arith) (A : AEnv R), A 0 = some (.data ((rows : Int) :: shape2) ((List.range (rows * numel shape2)).map draws1)) →
      A 1 = some (.data shape2 ((List.range (numel shape2)).map draws2)) → Means A (.arith o 0 1) ((rows : Int) :: shape2)
        ((List.range (rows * numel shape2)).map fun i => o.fn (draws1 i) (draws2 (i % numel shape2))) := fun o A ha hb => by
    have := Means.arith (o := o) ha hb (Or.inr ⟨_, rfl⟩)
    rwa [arith_rows hc] at this
  refine LRun.declL rfl (M .add _ rfl rfl) ?_
  refine LRun.rowsL (by decide) (by decide) (by decide) (Function.update_self ..) rfl rfl ?_
  refine LRun.reassignL (n := 2) (Function.update_self ..) rfl (by decide) (M .sub _ rfl rfl) ?_
  refine LRun.rowsL (by decide) (by decide) (by decide) (Function.update_self ..) rfl rfl ?_
  refine LRun.reassignL (n := 1) (Function.update_self ..) rfl (by decide) (M .mul _ rfl rfl) ?_
  refine LRun.rowsL (by decide) (by decide) (by decide) (Function.update_self ..) rfl rfl ?_
  refine LRun.reassignL (n := 0) (Function.update_self ..) rfl (by decide) (M .div _ rfl rfl) ?_
  refine LRun.rowsL (by decide) (by decide) (by decide) (Function.update_self ..) rfl rfl ?_
  simp only [Function.update_idem]
  exact destroy3 rfl

/-- **C85**, `TestMathOps`: for every shape and all draws; no buffer is lost. -/
theorem C85_math_ops (shape : List Int) (hs : OkDims shape) (draws : Nat → R) (ten : R) :
    RunsTo (testMathOps shape draws ten) (pairsOf (numel shape) (fun i => draws i + ten) CMath.log ++
      pairsOf (numel shape) (fun i => draws i + ten) CMath.exp ++ pairsOf (numel shape) (fun i => draws i + ten) CMath.sqrt) 0 := by
  apply runsTo_of
  unfold testMathOps
  simp only [List.append_assoc, List.cons_append, List.nil_append]
  rw [← List.append_nil (pairsOf _ _ CMath.sqrt)]
  refine LRun.viaL rfl rfl (by decide) (.gaussian hs) (.fn1 (Function.update_self ..) trivial) ?_
  simp only [List.map_map]
  refine LRun.declL rfl (.fn1 (d := shape) (v := (List.range (numel shape)).map fun i => draws i + ten) rfl trivial) ?_
  refine LRun.declL rfl (.fn1 (d := shape) (v := (List.range (numel shape)).map fun i => draws i + ten) rfl trivial) ?_
  refine LRun.declL rfl (.fn1 (d := shape) (v := (List.range (numel shape)).map fun i => draws i + ten) rfl trivial) ?_
  simp only [List.map_map]
  refine LRun.pairsL (g' := fun i => draws i + ten) (by decide) rfl rfl ?_
  refine LRun.pairsL (g' := fun i => draws i + ten) (by decide) rfl rfl ?_
  refine LRun.pairsL (g' := fun i => draws i + ten) (by decide) (Function.update_self ..) rfl ?_
  exact destroy4 rfl

/-- **C85**, `TestTensorNegate`: for every shape and all draws `n[i]` is `-t[i]`. -/
theorem C85_negate (shape : List Int) (hs : OkDims shape) (draws : Nat → R) :
    RunsTo (testNegate shape draws) ((List.range (numel shape)).flatMap fun i => [draws i, -draws i]) 0 := by
  apply runsTo_of
  unfold testNegate
  simp only [List.append_assoc, List.cons_append, List.nil_append]
  rw [← List.append_nil (List.flatMap _ _)]
  refine LRun.declL rfl (.gaussian hs) ?_
  refine LRun.declL rfl (.fn1 (d := shape) (v := (List.range (numel shape)).map draws) rfl trivial) ?_
  simp only [List.map_map]
  refine LRun.pairsL (by decide) rfl (Function.update_self ..) ?_
  exact destroy2 rfl

/-- **C85**, `TestCreateZeroTensor` and `TestCreateOneTensor`: for every shape. -/
theorem C85_fill (shape : List Int) (hs : OkDims shape) :
    RunsTo (R := R) (testFill (.zeros shape) shape) (List.replicate (numel shape) 0) 0 ∧
    RunsTo (R := R) (testFill (.ones shape) shape) (List.replicate (numel shape) 1) 0 := by
  have key : ∀ (e : Rhs R) (a : R), Means (fun _ => none) e shape (List.replicate (numel shape) a) →
      RunsTo (testFill e shape) (List.replicate (numel shape) a) 0 := fun e a M => by
    apply runsTo_of
    unfold testFill
    simp only [List.append_assoc, List.cons_append, List.nil_append]
    have E : List.replicate (numel shape) a = (List.range (numel shape)).map (fun _ => a) := by simp
    rw [E] at M
    rw [E, ← List.append_nil (List.map _ _)]
    refine LRun.declL rfl M ?_
    exact LRun.eachL (fun _ => a) (Function.update_self ..) (fun _ _ => rfl) (destroy1 rfl)
  exact ⟨key _ 0 (.zeros hs), key _ 1 (.ones hs)⟩

/-- **C85**, `TestCreateIdentityMatixTensor`: for every size. -/
theorem C85_eyes (n : Nat) (hn : 0 < n) (hint : ((n * n : Nat) : Int) ≤ intMax) :
    RunsTo (R := R) (testEyes n) ((List.range (n * n)).map fun p => if p / n = p % n then 1 else 0) 0 := by
  apply runsTo_of
  unfold testEyes
  simp only [List.append_assoc, List.cons_append, List.nil_append]
  rw [← List.append_nil (List.map _ _)]
  refine LRun.declL rfl (.eyes hn (okDims_sq hn hint)) ?_
  exact LRun.eachL _ (Function.update_self ..) (fun _ _ => rfl) (destroy1 rfl)

/-- **C85**, `TestTensorMatMul`: for all sizes and draws, element `(i,j)` of `a % b` is the sum the test computes; the second
`matmul` into the same tensor runs like the first. -/
theorem C85_matmul (m n k : Nat) (hm : 0 < m) (hn : 0 < n) (hk : 0 < k) (h1 : OkDims [(m : Int), (k : Int)])
    (h2 : OkDims [(k : Int), (n : Int)]) (h3 : IsInt ((m : Int) * n)) (draws1 draws2 : Nat → R) :
    RunsTo (testMatmul m n k draws1 draws2) ((List.range (m * n)).map fun p =>
      (List.range k).foldl (fun sum l => sum + draws1 (p / n * k + l) * draws2 (l * n + p % n)) 0) 0 := by
  apply runsTo_of
  unfold testMatmul
  simp only [List.append_assoc, List.cons_append, List.nil_append]
  rw [← List.append_nil (List.map _ _)]
  have n1 : numel [(m : Int), (k : Int)] = m * k := numel2 hm hk
  have n2 : numel [(k : Int), (n : Int)] = k * n := numel2 hk hn
  refine LRun.declL rfl (.gaussian h1) ?_
  refine LRun.declL rfl (.gaussian h2) ?_
  rw [n1, n2]
  refine LRun.declL rfl (.matmul (m := m) (k := k) (n := n) (v1 := (List.range (m * k)).map draws1)
    (v2 := (List.range (k * n)).map draws2) rfl rfl hm hk hn h3) ?_
  refine LRun.silent (m := 0) (n := 0) (.clean (.declDefault rfl)) ?_
  refine LRun.silent (m := 0) (n := 0) (.clean (.matmulInto (a := .empty [0]) (m := m) (k := k) (n := n) (v1 := (List.range (m * k)).map draws1)
    (v2 := (List.range (k * n)).map draws2) rfl (fun _ _ h => by cases h) (by decide) (by decide) rfl rfl hm hk hn h3)) ?_
  refine LRun.silent (m := 0) (n := 0) (.clean (.matmulInto (m := m) (k := k) (n := n) (v1 := (List.range (m * k)).map draws1)
    (v2 := (List.range (k * n)).map draws2) (Function.update_self ..) (fun _ _ h => by injection h with h1 h2; exact h1.symm)
    (by decide) (by decide) rfl rfl hm hk hn h3)) ?_
  refine LRun.eachL (d := [(m : Int), (n : Int)]) _ rfl (fun p hp => ?_) ?_
  · have hi : p / n < m := Nat.div_lt_of_lt_mul (by rw [Nat.mul_comm]; exact hp)
    have hj : p % n < n := Nat.mod_lt _ hn
    refine List.foldl_ext _ _ _ fun acc l hl => ?_
    have hl := List.mem_range.1 hl
    have q1 : p / n * k + l < m * k := by nlinarith
    have q2 : l * n + p % n < k * n := by nlinarith
    simp [List.getD_eq_getElem?_getD, q1, q2]
  simp only [Function.update_idem]
  exact destroy4 rfl

end

section
variable [Field R] [LinearOrder R] [IsStrictOrderedRing R] [CMath R] [BEq R]

theorem best_max {l : List R} {x : R} (hx : x ∈ l) (hl : ∀ y ∈ l, y ≤ x) : bestOf (fun val cur => decide (cur < val)) l = x := by
  have hne : ∀ j : Nat, ∃ a as, (fun _ => l) j = a :: as := fun _ => by cases l with
    | nil => simp at hx
    | cons a as => exact ⟨a, as, rfl⟩
  have := picked_max (n := 1) (line := fun _ => l) hne 0 (bestOf (fun val cur => decide (cur < val)) l) (by simp [bestOf_eq])
  exact le_antisymm (hl _ this.1) (this.2 _ hx)

theorem best_min {l : List R} {x : R} (hx : x ∈ l) (hl : ∀ y ∈ l, x ≤ y) : bestOf (fun val cur => decide (val < cur)) l = x := by
  have hne : ∀ j : Nat, ∃ a as, (fun _ => l) j = a :: as := fun _ => by cases l with
    | nil => simp at hx
    | cons a as => exact ⟨a, as, rfl⟩
  have := picked_min (n := 1) (line := fun _ => l) hne 0 (bestOf (fun val cur => decide (val < cur)) l) (by simp [bestOf_eq])
  exact le_antisymm (this.2 _ hx) (hl _ this.1)

theorem means_eyes {A : AEnv R} {n : Nat} (hn : 0 < n) (hint : ((n * n : Nat) : Int) ≤ intMax) :
    Means A (.eyes n) [(n : Int), (n : Int)] (eyeList n) := .eyes hn (okDims_sq hn hint)

/-- **C85**, `TestArgmax`: for every size, every element read is the 10 of the diagonal. -/
theorem C85_argmax (n : Nat) (hn : 0 < n) (hint : ((n * n : Nat) : Int) ≤ intMax) (ten : R) (h10 : 0 < ten) :
    RunsTo (testArgmax n ten) (List.replicate (2 * n) ten) 1 := by
  have hL : ∀ i < n, bestOf (fun val cur => decide (cur < val))
      ((List.range n).map (fun j => (if i = j then (1 : R) else 0) * ten)) = ten := fun i hi => by
    refine best_max (List.mem_map.2 ⟨i, List.mem_range.2 hi, by simp⟩) fun y hy => ?_
    obtain ⟨j, -, rfl⟩ := List.mem_map.1 hy
    split
    · simp
    · simpa using h10.le
  have hC : ∀ j < n, bestOf (fun val cur => decide (cur < val))
      ((List.range n).map (fun i => (if i = j then (1 : R) else 0) * ten)) = ten := fun i hi => by
    have := hL i hi
    simp only [eq_comm (a := i)] at this
    exact this
  apply runsTo_of
  unfold testArgmax
  simp only [List.append_assoc, List.cons_append, List.nil_append]
  refine LRun.viaL rfl rfl (by decide) (means_eyes hn hint) (.fn1 (Function.update_self ..) trivial) ?_
  refine LRun.declL rfl (.red1 (v := (eyeList n).map (fun x => x * ten)) (r := n) (c := n) rfl hn (by decide)) ?_
  have e : List.replicate (2 * n) ten = (List.range n).map (fun _ => ten) ++ ((List.range n).map (fun _ => ten) ++ []) := by
    simp [two_mul, List.replicate_append_replicate]
  rw [e]
  refine LRun.eachL (fun _ => ten) (Function.update_self ..) (fun i hi => ?_) ?_
  · simp only [Red.line, eye_row _ hi]; exact hL i hi
  refine LRun.reassignL (n := 0) (Function.update_self ..) rfl (by decide) (.red0 (v := (eyeList n).map (fun x => x * ten)) (r := n) (c := n) rfl hn) ?_
  refine LRun.eachL (fun _ => ten) (Function.update_self ..) (fun i hi => ?_) ?_
  · simp only [Red.line, eye_col _ hi]; exact hC i hi
  exact destroy2 (Function.update_idem ..)

/-- **C85**, `TestArgmin`: for every size, every element read is the -10 of the diagonal. -/
theorem C85_argmin (n : Nat) (hn : 0 < n) (hint : ((n * n : Nat) : Int) ≤ intMax) (ten : R) (h10 : 0 < ten) :
    RunsTo (testArgmin n ten) (List.replicate (2 * n) (-ten)) 1 := by
  have hL : ∀ i < n, bestOf (fun val cur => decide (val < cur))
      ((List.range n).map (fun j => -(if i = j then (1 : R) else 0) * ten)) = -ten := fun i hi => by
    refine best_min (List.mem_map.2 ⟨i, List.mem_range.2 hi, by simp⟩) fun y hy => ?_
    obtain ⟨j, -, rfl⟩ := List.mem_map.1 hy
    split
    · simp
    · simpa using h10.le
  have hC : ∀ j < n, bestOf (fun val cur => decide (val < cur))
      ((List.range n).map (fun i => -(if i = j then (1 : R) else 0) * ten)) = -ten := fun i hi => by
    have := hL i hi
    simp only [eq_comm (a := i)] at this
    exact this
  apply runsTo_of
  unfold testArgmin
  simp only [List.append_assoc, List.cons_append, List.nil_append]
  refine LRun.declL rfl (means_eyes hn hint) ?_
  refine LRun.declL rfl (.fn1 (d := [(n : Int), (n : Int)]) (v := eyeList n) rfl trivial) ?_
  refine LRun.declL rfl (.fn1 (d := [(n : Int), (n : Int)]) (Function.update_self ..) trivial) ?_
  rw [List.map_map]
  refine LRun.silent (m := 0) (n := 1) (.clean (.destroy (a := .data [(n : Int), (n : Int)] ((eyeList n).map fun x => -x)) rfl)) ?_
  refine LRun.silent (m := 0) (n := 1) (.clean (.destroy (a := .data [(n : Int), (n : Int)] (eyeList n)) rfl)) ?_
  have hA : Function.update (Function.update (Function.update (Function.update (Function.update (fun _ => none) temp
      (some (AVal.data [(n : Int), (n : Int)] (eyeList n)))) 2 (some (.data [(n : Int), (n : Int)] ((eyeList n).map fun x => -x)))) 0
      (some (.data [(n : Int), (n : Int)] ((eyeList n).map fun x : R => -x * ten)))) 2 none) temp none =
      Function.update (fun _ => none) 0 (some (.data [(n : Int), (n : Int)] ((eyeList n).map fun x : R => -x * ten))) := by
    funext z
    simp only [Function.update_apply, temp]
    split_ifs <;> simp_all
  refine Eq.mp (congrArg (fun A => LRun A _ _ _ _) hA.symm) ?_
  refine LRun.declL rfl (.red1 (v := (eyeList n).map (fun x => -x * ten)) (r := n) (c := n) rfl hn (by decide)) ?_
  have e : List.replicate (2 * n) (-ten) = (List.range n).map (fun _ => -ten) ++ ((List.range n).map (fun _ => -ten) ++ []) := by
    simp [two_mul, List.replicate_append_replicate]
  rw [e]
  refine LRun.eachL (fun _ => -ten) (Function.update_self ..) (fun i hi => ?_) ?_
  · simp only [Red.line, eye_row _ hi]; exact hL i hi
  refine LRun.reassignL (n := 0) (Function.update_self ..) rfl (by decide) (.red0 (v := (eyeList n).map (fun x => -x * ten)) (r := n) (c := n) rfl hn) ?_
  refine LRun.eachL (fun _ => -ten) (Function.update_self ..) (fun i hi => ?_) ?_
  · simp only [Red.line, eye_col _ hi]; exact hC i hi
  exact destroy2 (Function.update_idem ..)

theorem line_sum {n i : Nat} (hi : i < n) (val : R) :
    ((List.range n).map (fun j => (if i = j then (1 : R) else 0) * val)).foldl (· + ·) 0 = val := by
  rw [foldl_add_sum, list_sum_range]
  simp [hi]

theorem line_sum' {n j : Nat} (hj : j < n) (val : R) :
    ((List.range n).map (fun i => (if i = j then (1 : R) else 0) * val)).foldl (· + ·) 0 = val := by
  rw [foldl_add_sum, list_sum_range]
  simp [hj]

theorem eye_total (n : Nat) (val : R) : ((eyeList n).map (fun x => x * val)).foldl (· + ·) 0 = val * n := by
  rw [foldl_add_sum, eyeList, List.map_map, list_sum_range, sum_grid]
  rw [Finset.sum_congr rfl (g := fun _ => val)]
  · simp [mul_comm]
  · intro i hi
    rw [Finset.sum_eq_single i]
    · have hn : i < n := Finset.mem_range.1 hi
      have e1 : (i * n + i) / n = i := by rw [Nat.mul_comm, Nat.mul_add_div (by omega), Nat.div_eq_of_lt hn]; omega
      have e2 : (i * n + i) % n = i := by rw [Nat.mul_comm, Nat.mul_add_mod, Nat.mod_eq_of_lt hn]
      simp [e1, e2]
    · intro j hj hne
      have hj : j < n := Finset.mem_range.1 hj
      have e1 : (i * n + j) / n = i := by rw [Nat.mul_comm, Nat.mul_add_div (by omega), Nat.div_eq_of_lt hj]; omega
      have e2 : (i * n + j) % n = j := by rw [Nat.mul_comm, Nat.mul_add_mod, Nat.mod_eq_of_lt hj]
      simp [e1, e2, Ne.symm hne]
    · intro h; exact absurd hi h

/-- **C85**, `TestReduceSum`: for every size and value, in exact arithmetic: along each axis `val`, in total `val * scale`. -/
theorem C85_reduce_sum (n : Nat) (hn : 0 < n) (hint : ((n * n : Nat) : Int) ≤ intMax) (val : R) :
    RunsTo (testReduceSum n val) (List.replicate (2 * n) val ++ [val * n]) 1 := by
  apply runsTo_of
  unfold testReduceSum
  simp only [List.append_assoc, List.cons_append, List.nil_append]
  refine LRun.viaL rfl rfl (by decide) (means_eyes hn hint) (.fn1 (Function.update_self ..) trivial) ?_
  refine LRun.declL rfl (.red0 (v := (eyeList n).map (fun x => x * val)) (r := n) (c := n) rfl hn) ?_
  have e : List.replicate (2 * n) val ++ [val * n] = (List.range n).map (fun _ => val) ++ ((List.range n).map (fun _ => val) ++ [val * n]) := by
    simp [two_mul, ← List.append_assoc, List.replicate_append_replicate]
  rw [e]
  refine LRun.eachL (fun _ => val) (Function.update_self ..) (fun i hi => ?_) ?_
  · simp only [Red.line, eye_col _ hi]; exact line_sum' hi val
  refine LRun.reassignL (n := 0) (Function.update_self ..) rfl (by decide) (.red1 (v := (eyeList n).map (fun x => x * val)) (r := n) (c := n) rfl hn (by decide)) ?_
  refine LRun.eachL (fun _ => val) (Function.update_self ..) (fun i hi => ?_) ?_
  · simp only [Red.line, eye_row _ hi]; exact line_sum hi val
  exact LRun.sumL (d := [(n : Int), (n : Int)]) (v := (eyeList n).map (fun x => x * val)) rfl (eye_total n val) (destroy2 (Function.update_idem ..))

/-- **C85**, `TestReduceMean`: for every size and value, in exact arithmetic: along each axis `val / scale`, in total
`val / scale` too (the test divides as `int`s, `val / scale` rounded towards 0, which is the same only when `scale` divides
`val`; it always calls with `val = scale`). -/
theorem C85_reduce_mean (n : Nat) (hn : 0 < n) (hint : ((n * n : Nat) : Int) ≤ intMax) (val : R)
    (hof : ∀ i : Int, CMath.ofInt i = (i : R)) :
    RunsTo (testReduceMean n val) (List.replicate (2 * n) (val / n) ++ [val / n]) 1 := by
  apply runsTo_of
  unfold testReduceMean
  simp only [List.append_assoc, List.cons_append, List.nil_append]
  refine LRun.viaL rfl rfl (by decide) (means_eyes hn hint) (.fn1 (Function.update_self ..) trivial) ?_
  refine LRun.declL rfl (.red0 (v := (eyeList n).map (fun x => x * val)) (r := n) (c := n) rfl hn) ?_
  have e : List.replicate (2 * n) (val / n) ++ [val / n] =
      (List.range n).map (fun _ => val / n) ++ ((List.range n).map (fun _ => val / n) ++ [val / n]) := by
    simp [two_mul, ← List.append_assoc, List.replicate_append_replicate]
  rw [e]
  refine LRun.eachL (fun _ => val / n) (Function.update_self ..) (fun i hi => ?_) ?_
  · simp only [Red.line, eye_col _ hi, List.length_map, List.length_range, hof]
    rw [show _ = val from line_sum' hi val, Int.cast_natCast]
  refine LRun.reassignL (n := 0) (Function.update_self ..) rfl (by decide) (.red1 (v := (eyeList n).map (fun x => x * val)) (r := n) (c := n) rfl hn (by decide)) ?_
  refine LRun.eachL (fun _ => val / n) (Function.update_self ..) (fun i hi => ?_) ?_
  · simp only [Red.line, eye_row _ hi, List.length_map, List.length_range, hof]
    rw [show _ = val from line_sum hi val, Int.cast_natCast]
  have hn' : (n : R) ≠ 0 := by exact_mod_cast hn.ne'
  have hmean : ((eyeList n).map (fun x => x * val)).foldl (· + ·) 0 / CMath.ofInt (((eyeList n).map (fun x => x * val)).length : Int) = val / (n : R) := by
    rw [eye_total, hof, eyeList]
    simp only [List.length_map, List.length_range]
    push_cast
    exact mul_div_mul_right _ _ hn'
  exact LRun.meanL (d := [(n : Int), (n : Int)]) (v := (eyeList n).map (fun x => x * val)) rfl hmean (destroy2 (Function.update_idem ..))

/-- **C85**, `TestEqual`: for every size `t1 == t1` gives ones, `t1 == t1 - 1` zeros, `t1 == 0` the opposite of the identity. -/
theorem C85_equal [LawfulBEq R] (n : Nat) (hn : 0 < n) (hint : ((n * n : Nat) : Int) ≤ intMax) :
    RunsTo (R := R) (testEqual n) (List.replicate (n * n) 1 ++ List.replicate (n * n) 0 ++
      (List.range (n * n)).map (fun p => if p / n = p % n then 0 else 1)) 2 := by
  apply runsTo_of
  unfold testEqual
  simp only [List.append_assoc, List.cons_append, List.nil_append]
  rw [← List.append_nil (List.map (fun p => if p / n = p % n then (0 : R) else 1) _)]
  rw [show List.replicate (n * n) (1 : R) = (List.range (n * n)).map (fun _ => 1) by simp,
    show List.replicate (n * n) (0 : R) = (List.range (n * n)).map (fun _ => 0) by simp]
  refine LRun.declL rfl (means_eyes hn hint) ?_
  refine LRun.viaL rfl rfl (by decide) (means_eyes hn hint) (.fn1 (Function.update_self ..) trivial) ?_
  refine LRun.declL rfl (.fn2 (d := [(n : Int), (n : Int)]) (v1 := eyeList n) (v2 := eyeList n) rfl rfl trivial) ?_
  simp only [eyeList, List.map_map, zip_same]
  refine LRun.eachL (fun _ => 1) (Function.update_self ..) (fun i hi => by simp [Fn2.fn]) ?_
  refine LRun.reassignL (n := 1) (Function.update_self ..) rfl (by decide) (.fn2 (d := [(n : Int), (n : Int)])
    (v1 := (List.range (n * n)).map (fun p => if p / n = p % n then (1 : R) else 0))
    (v2 := (List.range (n * n)).map ((fun x => x - 1) ∘ fun p => if p / n = p % n then (1 : R) else 0)) rfl rfl trivial) ?_
  simp only [zip_same]
  refine LRun.eachL (fun _ => 0) (Function.update_self ..) (fun i hi => by
    simp only [Fn2.fn, Function.comp]
    split <;> simp) ?_
  refine LRun.reassignL (n := 0) (Function.update_self ..) rfl (by decide) (.fn1 (d := [(n : Int), (n : Int)])
    (v := (List.range (n * n)).map (fun p => if p / n = p % n then (1 : R) else 0)) rfl trivial) ?_
  simp only [List.map_map]
  refine LRun.eachL (fun p => if p / n = p % n then 0 else 1) (Function.update_self ..) (fun i hi => by
    simp only [Fn1.fn, Function.comp]
    split <;> simp) ?_
  simp only [Function.update_idem]
  exact destroy3 rfl

end

/-! ## Expectations about shapes and pointers -/

/-- **C85**, test_tensor_shape.cpp: `{n, ..., n}` (`k` times) has `chunk(j) = n^(k-j)` and `shape(j) = n`, for all `n` and `k`
whose product is an `int`; `{1, 2, ..., m}` has `chunk(0) = m!`; `{0}` has `shape(0) = 0` and `chunk(0) = 1`. -/
theorem C85_shapes :
    (∀ (n k : Nat), 0 < n → 0 < k → ((n ^ k : Nat) : Int) ≤ intMax → ∃ s, mkShape (List.replicate k (n : Int)) = .ok s ∧
      ∀ j : Nat, j < k → s.chunkAt j = .ok ((n ^ (k - j) : Nat) : Int) ∧ s.shapeAt j = .ok (n : Int)) ∧
    (∀ m : Nat, 0 < m → ((m.factorial : Nat) : Int) ≤ intMax → ∃ s, mkShape ((List.range m).map fun i => ((i + 1 : Nat) : Int)) = .ok s ∧
      s.chunkAt 0 = .ok ((m.factorial : Nat) : Int)) ∧
    (∃ s, mkShape [0] = .ok s ∧ s.shapeAt 0 = .ok 0 ∧ s.chunkAt 0 = .ok 1) := by
  have mono : ∀ (l : List Int), (∀ x ∈ l, 0 < x) → l.prod ≤ intMax → FitsInt l := fun l hl hp i => by
    refine le_trans ?_ hp
    have hsplit : l.prod = (l.take i).prod * (l.drop i).prod := by rw [← List.prod_append, List.take_append_drop]
    have h1 : 0 < (l.take i).prod := prod_pos' fun x hx => hl x (List.mem_of_mem_take hx)
    have h2 : 0 < (l.drop i).prod := prod_pos' fun x hx => hl x (List.mem_of_mem_drop hx)
    rw [hsplit]
    nlinarith
  refine ⟨fun n k hn hk hint => ?_, fun m hm hint => ?_, ⟨⟨[0], [1]⟩, by decide, by decide, by decide⟩⟩
  · have hpos : ∀ x ∈ List.replicate k (n : Int), 0 < x := fun x hx => by rw [List.eq_of_mem_replicate hx]; exact_mod_cast hn
    have hv : ValidDims (List.replicate k (n : Int)) := by
      obtain ⟨k, rfl⟩ : ∃ k', k = k' + 1 := ⟨k - 1, by omega⟩
      exact ⟨n, List.replicate k n, List.replicate_succ .., by positivity, fun x hx => hpos x (by simp [List.replicate_succ, (List.mem_replicate.1 hx).2])⟩
    have hs := mkShape_ok hv (mono _ hpos (by rw [List.prod_replicate]; exact_mod_cast hint))
    refine ⟨_, hs, fun j hj => ?_⟩
    obtain ⟨h1, h2⟩ := (C01_chunk_table _ _ hs).2 j (by simpa using hj)
    rw [h1, h2, List.drop_replicate, List.prod_replicate, if_neg]
    · simp
    · have : (0 : Int) < (n : Int) ^ (k - j) := by positivity
      omega
  · have hpos : ∀ x ∈ (List.range m).map fun i => ((i + 1 : Nat) : Int), 0 < x := fun x hx => by
      obtain ⟨i, -, rfl⟩ := List.mem_map.1 hx; positivity
    have hprod : ((List.range m).map fun i => ((i + 1 : Nat) : Int)).prod = ((m.factorial : Nat) : Int) := by
      clear hm hint hpos
      induction m with
      | zero => rfl
      | succ m ih => rw [List.range_succ, List.map_append, List.prod_append, ih, Nat.factorial_succ]; simp [mul_comm]
    have hv : ValidDims ((List.range m).map fun i => ((i + 1 : Nat) : Int)) := by
      obtain ⟨m, rfl⟩ : ∃ m', m = m' + 1 := ⟨m - 1, by omega⟩
      rw [List.range_succ_eq_map, List.map_cons] at hpos ⊢
      exact ⟨_, _, rfl, by positivity, fun x hx => hpos x (List.mem_cons_of_mem _ hx)⟩
    have hs := mkShape_ok hv (mono _ hpos (by rw [hprod]; exact hint))
    refine ⟨_, hs, ?_⟩
    obtain ⟨-, h2⟩ := (C01_chunk_table _ _ hs).2 0 (by simpa using hm)
    have h2 : (shapeOf ((List.range m).map fun i => ((i + 1 : Nat) : Int))).chunkAt 0 = _ := h2
    rw [h2, List.drop_zero, hprod, if_neg]
    have : (0 : Int) < ((m.factorial : Nat) : Int) := by exact_mod_cast m.factorial_pos
    omega

/-- **C85**, `EmptyContructor`, `TestReshapeTensor`, `TestCopyTensor`, `ConstructorWithSingleValue` (test_tensor.cpp): the default tensor has no
buffer; `Eyes(n)` reshaped to `{n * n}` has `chunk(0) = shape(0) = n * n`; `t1 = t2` for equal shapes keeps the buffer of `t1`; a
tensor made from a single value holds it, but its destruction at the end of the test is undefined. -/
theorem C85_objects [Zero R] [One R] :
    (∃ t, Tensor.mkDefault = .ok t ∧ t.data = none) ∧
    (∀ (h : Heap R) (n : Nat), 0 < n → ((n * n : Nat) : Int) ≤ intMax → ∃ t h' t', Tensor.eyes h n = .ok (t, h') ∧
      t.reshapeDims [((n * n : Nat) : Int)] = .ok t' ∧ t'.chunkAt 0 = .ok ((n * n : Nat) : Int) ∧ t'.shapeAt 0 = .ok ((n * n : Nat) : Int)) ∧
    (∀ (h : Heap R) (d : List Int) (hs : OkDims d) (draws1 draws2 : Nat → R), ∃ t1 h1 t2 h2 t3 h3, Tensor.gaussianDims h d draws1 = .ok (t1, h1) ∧
      Tensor.gaussianDims h1 d draws2 = .ok (t2, h2) ∧ Tensor.copyAssign h2 t1 t2 = .ok (t3, h3) ∧ t3.data = t1.data ∧
      Holds h3 t3 d ((List.range (numel d)).map draws2)) ∧
    (∀ (h : Heap R) (v : R), ∃ t h', Tensor.ofVal h v = .ok (t, h') ∧ t.get h' 0 = .ok v ∧ t.destroy h' = .error (.ub .mismatchedDelete)) := by
  refine ⟨⟨⟨⟨[0], [1]⟩, none⟩, by decide, rfl⟩, fun h n hn hint => ?_, fun h d hs draws1 draws2 => ?_, fun h v => ?_⟩
  · obtain ⟨t, h', e, F⟩ := eyes_ok h n hn hint
    have hd : OkDims [((n * n : Nat) : Int)] := ⟨⟨_, [], rfl, by positivity, by simp⟩, fun i => by
      match i with
      | 0 => simpa using hint
      | i + 1 => simp [intMax]⟩
    have hnn : 0 < n * n := Nat.mul_pos hn hn
    have hnum : numel [((n * n : Nat) : Int)] = n * n := by
      rw [numel_pos_dims (fun x hx => by rw [List.mem_singleton.1 hx]; exact_mod_cast hnn), List.prod_singleton, Int.toNat_natCast]
    obtain ⟨t', e', hs', hd'⟩ := reshape_ok (d2 := [((n * n : Nat) : Int)]) F.1 hd (by rw [numel2 hn hn, hnum])
    refine ⟨t, h', t', e, e', ?_, ?_⟩
    · exact (mkShape_chunk0 hs').trans (by rw [hnum])
    · exact shapeAt_mk hs' (i := 0) (by simp)
  · obtain ⟨s, hsh⟩ := okDims_mk hs
    obtain ⟨t1, h1, -, e1, F1⟩ := C04_gaussian h d s hsh draws1
    obtain ⟨t2, h2, -, e2, F2⟩ := C04_gaussian h1 d s hsh draws2
    have b1 : h2.blocks[h.blocks.length]? = some ⟨((List.range (numel d)).map draws1).map some, true, true⟩ := by
      rw [F2.2.2.2, F1.2.2.2]; simp
    have b2 : h2.blocks[h1.blocks.length]? = some ⟨((List.range (numel d)).map draws2).map some, true, true⟩ := by
      rw [F2.2.2.2]; simp
    obtain ⟨t3, h3, e3, H3, -⟩ := C07_copy_assign_partial h2 t1 t2 h.blocks.length h1.blocks.length d d _ _
      ⟨F1.1, F1.2.1, F1.2.2.1, true, b1⟩ ⟨F2.1, F2.2.1, F2.2.2.1, true, b2⟩ (by rw [F1.2.2.2]; simp) rfl
    exact ⟨t1, h1, t2, h2, t3, h3, e1, e2, e3, by rw [H3.2.2.1, F1.2.2.1], _, H3⟩
  · refine ⟨⟨⟨[0], [1]⟩, some h.blocks.length⟩, ⟨h.blocks ++ [⟨[some v], false, true⟩]⟩, ?_, ?_, ?_⟩
    · have hs : mkShape [0] = .ok ⟨[0], [1]⟩ := by decide
      simp [Tensor.ofVal, hs, Heap.alloc]
    · simp [Tensor.get, Heap.read, Heap.access, Heap.cell]
    · simp [Tensor.destroy, Heap.deleteArr]

/-- **C85**, `TestBroadcastOpsTensor` when `shape1` has two dimensions more than `shape2`, as in its calls with `{i, 1, i}` and `{i}` and
with `{i, i, i}` and `{i}`: every element the test reads is right, and every element it does not read is 0: the test cannot notice
that the result is incomplete (C14). -/
theorem C85_broadcast_blind [Zero R] (f : R → R → R) (σ : Sched) (h : Heap R) (t1 t2 : Tensor) (a b : Nat) (d2 : List Int)
    (v1 v2 : List R) (ha : 0 < a) (hb : 0 < b) (H1 : Holds h t1 ((a : Int) :: (b : Int) :: d2) v1) (H2 : Holds h t2 d2 v2) :
    ∃ t h' out, broadcastOp f σ h t1 t2 = .ok (t, h') ∧ Fresh h h' t ((a : Int) :: (b : Int) :: d2) out ∧
      (∀ i < b, ∀ j < numel d2, ∃ x y, v1[i * numel d2 + j]? = some x ∧ v2[j]? = some y ∧ out[i * numel d2 + j]? = some (f x y)) ∧
      (∀ p, b * numel d2 ≤ p → p < a * (b * numel d2) → out[p]? = some 0) := by
  have hv : ValidDims ((a : Int) :: (b : Int) :: d2) := (mkShape_ok_imp H1.mk).1
  have hd2 : ∀ x ∈ d2, 0 < x := fun x hx => valid_tail hv x (by simp [hx])
  have hb' : (0 : Int) < b := by exact_mod_cast hb
  have ha' : (0 : Int) < a := by exact_mod_cast ha
  have hbv : ValidDims ((b : Int) :: d2) := ⟨_, _, rfl, hb'.le, hd2⟩
  have nb : numel ((b : Int) :: d2) = b * numel d2 := numel_cons hb hbv
  have na : numel ((a : Int) :: (b : Int) :: d2) = a * (b * numel d2) := by rw [numel_cons ha hv, nb]
  have hz : ([(a : Int), (b : Int)] ++ d2).prod ≠ 0 := by
    have := prod_pos' hd2
    simp only [List.cons_append, List.nil_append, List.prod_cons]
    positivity
  obtain ⟨t, h', e, F⟩ := broadcastOp_ok f σ (pre := [(a : Int), (b : Int)]) (d2 := d2) H1 H2 (Or.inr hz)
  have hw : written [(a : Int), (b : Int)] d2 = b * numel d2 := nb
  have l1 : v1.length = a * (b * numel d2) := by rw [H1.len, na]
  have l2 : v2.length = numel d2 := H2.len
  have hab : b * numel d2 ≤ a * (b * numel d2) := Nat.le_mul_of_pos_left _ ha
  refine ⟨t, h', _, e, F, fun i hi j hj => ?_, fun p hp1 hp2 => ?_⟩
  · have hij : i * numel d2 + j < b * numel d2 := by nlinarith
    have q1 : i * numel d2 + j < v1.length := by omega
    have q2 : j < v2.length := by omega
    refine ⟨v1[i * numel d2 + j], v2[j], List.getElem?_eq_getElem q1, List.getElem?_eq_getElem q2, ?_⟩
    have hm : (i * numel d2 + j) % v2.length = j := by rw [l2, Nat.mul_comm, Nat.mul_add_mod, Nat.mod_eq_of_lt hj]
    unfold broadcastVals
    rw [List.getElem?_map, show numel ([(a : Int), (b : Int)] ++ d2) = a * (b * numel d2) from na, List.getElem?_range (by omega), hw]
    simp only [Option.map_some, if_pos hij, hm, List.getElem?_eq_getElem q1, List.getElem?_eq_getElem q2]
  · unfold broadcastVals
    rw [List.getElem?_map, show numel ([(a : Int), (b : Int)] ++ d2) = a * (b * numel d2) from na, List.getElem?_range (by omega), hw]
    simp only [Option.map_some, if_neg (by omega : ¬ p < b * numel d2)]

end Nnet.Tensor
