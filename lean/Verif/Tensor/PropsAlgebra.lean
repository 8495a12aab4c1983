import Verif.Tensor.Expr
import Verif.Tensor.PropsElem
import Verif.Tensor.PropsLife
import Verif.Tensor.PropsRed
import Verif.Tensor.PropsMatmul
/-!
# C92: tensor expressions obey the laws of matrix algebra
-/
namespace Nnet.Tensor
variable {R : Type}

theorem Sh.Ok.mk {s : Sh} (h : s.Ok) : ∃ t, mkShape s.dims = .ok t := by
  refine ⟨_, mkShape_ok ?_ ?_⟩
  · match s, h with
    | .vec n, ⟨h1, h2⟩ => exact ⟨_, _, rfl, by omega, by simp⟩
    | .mat m n, ⟨h1, h2, h3⟩ => exact ⟨_, _, rfl, by omega, by simpa using h2⟩
  · match s, h with
    | .vec n, ⟨h1, h2⟩ =>
      intro i
      match i with
      | 0 => simpa [Sh.dims] using h2
      | i + 1 => simp [Sh.dims, intMax]
    | .mat m n, ⟨h1, h2, h3⟩ =>
      have : n ≤ m * n := Nat.le_mul_of_pos_left n h1
      intro i
      match i with
      | 0 => simpa [Sh.dims] using h3
      | 1 => simp [Sh.dims]; omega
      | i + 2 => simp [Sh.dims, intMax]

/-- The number of elements. -/
def Sh.numel : Sh → Nat
  | .vec n => n
  | .mat m n => m * n

theorem Sh.Ok.count {s : Sh} (h : s.Ok) : Nnet.Tensor.numel s.dims = s.numel := by
  match s, h with
  | .vec n, ⟨h1, h2⟩ => exact numel1 h1
  | .mat m n, ⟨h1, h2, h3⟩ => exact numel2 h1 h2

theorem Sh.pos_lt : (s : Sh) → (i : s.Idx) → s.pos i < s.numel
  | .vec _, i => Fin.is_lt i
  | .mat m n, (i, j) => by
    show i.val * n + j.val < m * n
    have := i.is_lt
    have := j.is_lt
    calc i.val * n + j.val < i.val * n + n := by omega
      _ = (i.val + 1) * n := by ring
      _ ≤ m * n := Nat.mul_le_mul_right _ (by omega)

theorem Sh.pos_surj : (s : Sh) → (k : Nat) → k < s.numel → ∃ i, s.pos i = k
  | .vec _, k, hk => ⟨⟨k, hk⟩, rfl⟩
  | .mat m n, k, hk => by
    have hk : k < m * n := hk
    have hn : 0 < n := Nat.pos_of_ne_zero (by rintro rfl; simp at hk)
    refine ⟨(⟨k / n, Nat.div_lt_of_lt_mul (by rwa [Nat.mul_comm])⟩, ⟨k % n, Nat.mod_lt _ hn⟩), ?_⟩
    show k / n * n + k % n = k
    rw [Nat.mul_comm]; exact Nat.div_add_mod k n

theorem Expr.Ok.sh : {s : Sh} → {e : Expr R s} → e.Ok → s.Ok
  | _, .var _, h => h
  | _, .zeros _, h => h
  | _, .ones _, h => h
  | _, .eyes _, h => h
  | _, .neg _ a, h => Expr.Ok.sh (e := a) h
  | _, .bin _ _ a _, h => Expr.Ok.sh (e := a) h.1
  | _, .scalar _ _ a _, h => Expr.Ok.sh (e := a) h
  | _, .row _ _ a _, h => Expr.Ok.sh (e := a) h.1
  | _, .matmul _ _ _, h => h.1
  | _, .sumRows (m := m) (n := n) _ a, h => by
    have : (Sh.mat m n).Ok := Expr.Ok.sh (e := a) h
    obtain ⟨h1, h2, h3⟩ := this
    have : n ≤ m * n := Nat.le_mul_of_pos_left n h1
    exact ⟨h2, by omega⟩
  | _, .sumCols (m := m) (n := n) _ a, h => by
    have : (Sh.mat m n).Ok := Expr.Ok.sh (e := a) h
    obtain ⟨h1, h2, h3⟩ := this
    have : m ≤ m * n := Nat.le_mul_of_pos_right m h2
    exact ⟨h1, by omega⟩

variable [Ring R] [Div R]

omit [Ring R] [Div R] in
theorem Value.append {h h' : Heap R} {t : Tensor} {s : Sh} {A : s.Idx → R} (H : Value h t A) {bs : List (Block R)} (hb : h'.blocks = h.blocks ++ bs) :
    Value h' t A := by
  obtain ⟨v, h1, h2⟩ := H
  refine ⟨v, ?_, h2⟩
  have := h1.append bs
  rw [← hb] at this
  exact this

theorem Expr.Ready.append {vars : Nat → Tensor} {env : (s : Sh) → Nat → s.Idx → R} {h h' : Heap R} {bs : List (Block R)} (hb : h'.blocks = h.blocks ++ bs) :
    {s : Sh} → {e : Expr R s} → e.Ready vars env h → e.Ready vars env h'
  | _, .var _, H => Value.append (by exact H) hb
  | _, .zeros _, _ => trivial
  | _, .ones _, _ => trivial
  | _, .eyes _, _ => trivial
  | _, .neg _ a, H => Expr.Ready.append hb (e := a) (by exact H)
  | _, .bin _ _ a b, H => ⟨Expr.Ready.append hb (e := a) H.1, Expr.Ready.append hb (e := b) H.2⟩
  | _, .scalar _ _ a _, H => Expr.Ready.append hb (e := a) (by exact H)
  | _, .row _ _ a b, H => ⟨Expr.Ready.append hb (e := a) H.1, Expr.Ready.append hb (e := b) H.2⟩
  | _, .matmul _ a b, H => ⟨Expr.Ready.append hb (e := a) H.1, Expr.Ready.append hb (e := b) H.2⟩
  | _, .sumRows _ a, H => Expr.Ready.append hb (e := a) (by exact H)
  | _, .sumCols _ a, H => Expr.Ready.append hb (e := a) (by exact H)

omit [Ring R] [Div R] in
theorem Fresh.value {h h' : Heap R} {t : Tensor} {s : Sh} {v : List R} {A : s.Idx → R} (F : Fresh h h' t s.dims v)
    (hv : ∀ i, v[s.pos i]? = some (A i)) : (∃ bs, h'.blocks = h.blocks ++ bs) ∧ Value h' t A := ⟨⟨_, F.2.2.2⟩, v, F.holds, hv⟩

theorem Op.run_same (op : Op) (σ : Sched) {h : Heap R} {t u : Tensor} {d : List Int} {v w : List R} (H1 : Holds h t d v) (H2 : Holds h u d w) :
    ∃ o h', op.run σ h t u = .ok (o, h') ∧ Fresh h h' o d (List.zipWith op.fn v w) := by
  cases op
  · exact C13_add σ h t u d v w H1 H2
  · exact C13_sub σ h t u d v w H1 H2
  · exact C13_mul σ h t u d v w H1 H2
  · exact C13_div σ h t u d v w H1 H2

theorem Op.run_row (op : Op) (σ : Sched) {h : Heap R} {t u : Tensor} {a b : Int} {v w : List R} (H1 : Holds h t [a, b] v) (H2 : Holds h u [b] w) :
    ∃ o h' out, op.run σ h t u = .ok (o, h') ∧ Fresh h h' o [a, b] out ∧ IsBroadcast op.fn [a] [b] v w out := by
  obtain ⟨h1, h2, h3, h4⟩ := C14_broadcast_partial σ h t u [a] [b] v w (by simp) H1 H2
  cases op
  · exact h1
  · exact h2
  · exact h3
  · exact h4

theorem Op.runS_ok (op : Op) (σ : Sched) {h : Heap R} {t : Tensor} {d : List Int} {v : List R} (val : R) (H : Holds h t d v) :
    ∃ o h', op.runS σ h t val = .ok (o, h') ∧ Fresh h h' o d (v.map (fun x => op.fn x val)) := by
  cases op
  · exact map_op _ σ H
  · exact map_op _ σ H
  · exact map_op _ σ H
  · exact map_op _ σ H

omit [Div R] in
theorem foldl_fin (n : Nat) (f : Nat → R) (g : Fin n → R) (hg : ∀ k : Fin n, f k = g k) :
    ((List.range n).map f).foldl (· + ·) 0 = ∑ k, g k := by
  rw [foldl_add_sum, list_sum_range, ← Fin.sum_univ_eq_sum_range]
  exact Finset.sum_congr rfl fun k _ => hg k

theorem eval_ok (vars : Nat → Tensor) (env : (s : Sh) → Nat → s.Idx → R) : {s : Sh} → (e : Expr R s) → (h : Heap R) → e.Ok → e.Ready vars env h →
    ∃ t h', e.eval vars h = .ok (t, h') ∧ (∃ bs, h'.blocks = h.blocks ++ bs) ∧ Value h' t (e.denote env)
  | _, .var x, h, _, H => ⟨vars x, h, rfl, ⟨[], by simp⟩, H⟩
  | _, .zeros s, h, hk, _ => by
    obtain ⟨sh, hs⟩ := Sh.Ok.mk (s := s) hk
    obtain ⟨t, h', -, e, -, -, F⟩ := C04_zeros h s.dims sh hs
    refine ⟨t, h', e, F.value fun i => ?_⟩
    rw [Sh.Ok.count (s := s) hk, List.getElem?_replicate, if_pos (s.pos_lt i)]
    rfl
  | _, .ones s, h, hk, _ => by
    obtain ⟨sh, hs⟩ := Sh.Ok.mk (s := s) hk
    obtain ⟨t, h', -, e, F⟩ := C04_ones h s.dims sh hs
    refine ⟨t, h', e, F.value fun i => ?_⟩
    rw [Sh.Ok.count (s := s) hk, List.getElem?_replicate, if_pos (s.pos_lt i)]
    rfl
  | _, .eyes n, h, hk, _ => by
    obtain ⟨h1, h2, h3⟩ : (Sh.mat n n).Ok := hk
    obtain ⟨t, h', v, e, F, hv⟩ := C05_eyes (R := R) h n h1 h3
    refine ⟨t, h', e, Fresh.value (s := .mat n n) F fun i => ?_⟩
    have := hv i.1 i.2 i.1.is_lt i.2.is_lt
    rw [show (Sh.mat n n).pos i = i.1 * n + i.2 from rfl, this]
    show _ = some ((1 : Matrix (Fin n) (Fin n) R) i.1 i.2)
    rw [Matrix.one_apply]
    congr 1
    simp only [Fin.ext_iff]
  | s, .neg σ a, h, hk, H => by
    obtain ⟨t, h1, e1, ⟨b1, hb1⟩, v, V, hv⟩ := eval_ok vars env a h hk H
    obtain ⟨⟨o, h', e, F⟩, -⟩ := (⟨map_op (fun x => -x) σ V, trivial⟩ : _ ∧ True)
    obtain ⟨⟨b2, hb2⟩, val⟩ := F.value (s := s) (A := (Expr.neg σ a).denote env) fun i => by
      rw [List.getElem?_map, hv]; rfl
    refine ⟨o, h', ?_, ⟨b1 ++ b2, by rw [hb2, hb1, List.append_assoc]⟩, val⟩
    show (a.eval vars h >>= fun x => negT σ x.2 x.1) = _
    rw [e1]; exact e
  | s, .scalar op σ a c, h, hk, H => by
    obtain ⟨t, h1, e1, ⟨b1, hb1⟩, v, V, hv⟩ := eval_ok vars env a h hk H
    obtain ⟨o, h', e, F⟩ := op.runS_ok σ c V
    obtain ⟨⟨b2, hb2⟩, val⟩ := F.value (s := s) (A := (Expr.scalar op σ a c).denote env) fun i => by
      rw [List.getElem?_map, hv]; rfl
    refine ⟨o, h', ?_, ⟨b1 ++ b2, by rw [hb2, hb1, List.append_assoc]⟩, val⟩
    show (a.eval vars h >>= fun x => op.runS σ x.2 x.1 c) = _
    rw [e1]; exact e
  | s, .bin op σ a b, h, hk, H => by
    obtain ⟨t, h1, e1, ⟨b1, hb1⟩, V1⟩ := eval_ok vars env a h hk.1 H.1
    obtain ⟨u, h2, e2, ⟨b2, hb2⟩, w, W, hw⟩ := eval_ok vars env b h1 hk.2 (H.2.append hb1)
    obtain ⟨v, V, hv⟩ := V1.append hb2
    obtain ⟨o, h', e, F⟩ := op.run_same σ V W
    obtain ⟨⟨b3, hb3⟩, val⟩ := F.value (s := s) (A := (Expr.bin op σ a b).denote env) fun i => by
      rw [List.getElem?_zipWith, hv, hw]; rfl
    refine ⟨o, h', ?_, ⟨b1 ++ b2 ++ b3, by rw [hb3, hb2, hb1, List.append_assoc, List.append_assoc, List.append_assoc]⟩, val⟩
    show (a.eval vars h >>= fun x => b.eval vars x.2 >>= fun y => op.run σ y.2 x.1 y.1) = _
    rw [e1]
    show (b.eval vars h1 >>= fun y => op.run σ y.2 t y.1) = _
    rw [e2]; exact e
  | _, .row (m := m) (n := n) op σ a b, h, hk, H => by
    obtain ⟨t, h1, e1, ⟨b1, hb1⟩, V1⟩ := eval_ok vars env a h hk.1 H.1
    obtain ⟨u, h2, e2, ⟨b2, hb2⟩, w, W, hw⟩ := eval_ok vars env b h1 hk.2 (H.2.append hb1)
    obtain ⟨v, V, hv⟩ := V1.append hb2
    obtain ⟨o, h', out, e, F, B⟩ := op.run_row σ (a := m) (b := n) V W
    obtain ⟨⟨b3, hb3⟩, val⟩ := Fresh.value (s := .mat m n) (A := (Expr.row op σ a b).denote env) F fun i => by
      obtain ⟨x, y, hx, hy, hz⟩ := B [i.1.val, i.2.val] ⟨by have := i.1.is_lt; exact_mod_cast this, by have := i.2.is_lt; exact_mod_cast this, trivial⟩
      have e1 : flatIndex ([(m : Int)] ++ [(n : Int)]) [i.1.val, i.2.val] = (Sh.mat m n).pos i := by
        simp [flatIndex]; rfl
      have e2 : flatIndex [(n : Int)] (List.drop [(m : Int)].length [i.1.val, i.2.val]) = (Sh.vec n).pos i.2 := by
        simp [flatIndex, Sh.pos]
      rw [e1] at hx hz
      rw [e2] at hy
      rw [hv i] at hx
      rw [hw i.2] at hy
      cases hx; cases hy
      rw [hz]; rfl
    refine ⟨o, h', ?_, ⟨b1 ++ b2 ++ b3, by rw [hb3, hb2, hb1, List.append_assoc, List.append_assoc, List.append_assoc]⟩, val⟩
    show (a.eval vars h >>= fun x => b.eval vars x.2 >>= fun y => op.run σ y.2 x.1 y.1) = _
    rw [e1]
    show (b.eval vars h1 >>= fun y => op.run σ y.2 t y.1) = _
    rw [e2]; exact e
  | _, .matmul (m := m) (k := k) (n := n) σ a b, h, hk, H => by
    obtain ⟨t, h1, e1, ⟨b1, hb1⟩, V1⟩ := eval_ok vars env a h hk.2.1 H.1
    obtain ⟨u, h2, e2, ⟨b2, hb2⟩, w, W, hw⟩ := eval_ok vars env b h1 hk.2.2 (H.2.append hb1)
    obtain ⟨v, V, hv⟩ := V1.append hb2
    obtain ⟨s1, s2, s3⟩ : (Sh.mat m n).Ok := hk.1
    obtain ⟨-, s4, -⟩ : (Sh.mat m k).Ok := Expr.Ok.sh hk.2.1
    obtain ⟨o, h', vals, e, F, hvals, -, hb3⟩ := C21_product σ h2 t u m k n v w s1 s4 s2 ⟨by simp only [intMin]; nlinarith [Int.natCast_nonneg m, Int.natCast_nonneg n], by exact_mod_cast s3⟩ V W
    refine ⟨o, h', ?_, ⟨b1 ++ b2 ++ _, by rw [hb3, hb2, hb1, List.append_assoc, List.append_assoc, List.append_assoc]⟩, vals, F, fun i => ?_⟩
    · show (a.eval vars h >>= fun x => b.eval vars x.2 >>= fun y => matmulOp σ y.2 x.1 y.1) = _
      rw [e1]
      show (b.eval vars h1 >>= fun y => matmulOp σ y.2 t y.1) = _
      rw [e2]; exact e
    · rw [show (Sh.mat m n).pos i = i.1 * n + i.2 from rfl, hvals i.1 i.1.is_lt i.2 i.2.is_lt]
      congr 1
      show _ = (asMatrix (a.denote env) * asMatrix (b.denote env)) i.1 i.2
      rw [Matrix.mul_apply, ← foldl_fin k (fun l => v.getD (i.1 * k + l) 0 * w.getD (l * n + i.2) 0), List.foldl_map]
      intro l
      have q1 := hv (i.1, l)
      have q2 := hw (l, i.2)
      have q1 : v[i.1.val * k + l.val]? = some (a.denote env (i.1, l)) := q1
      have q2 : w[l.val * n + i.2.val]? = some (b.denote env (l, i.2)) := q2
      rw [List.getD_eq_getElem?_getD, q1, List.getD_eq_getElem?_getD, q2]
      rfl
  | _, .sumRows (m := m) (n := n) σ a, h, hk, H => by
    obtain ⟨t, h1, e1, ⟨b1, hb1⟩, v, V, hv⟩ := eval_ok vars env a h hk H
    obtain ⟨s1, s2⟩ : (Sh.vec n).Ok := Expr.Ok.sh (e := Expr.sumRows σ a) hk
    obtain ⟨o, h', e, F⟩ := C18_axis0 σ h1 t m n v V ⟨by simp only [intMin]; omega, s2⟩
    obtain ⟨⟨b2, hb2⟩, val⟩ := Fresh.value (s := .vec n) (A := (Expr.sumRows σ a).denote env) F fun j => by
      have hj : Fin.val j < n := Fin.is_lt j
      rw [show (Sh.vec n).pos j = Fin.val j from rfl, List.getElem?_map, List.getElem?_range hj]
      show some ((col v m n (Fin.val j)).foldl (· + ·) 0) = some (∑ i, asMatrix (a.denote env) i j)
      congr 1
      refine foldl_fin m _ _ fun i => ?_
      have q : v[i.val * n + Fin.val j]? = some (a.denote env (i, j)) := hv (i, j)
      rw [List.getD_eq_getElem?_getD, q]; rfl
    refine ⟨o, h', ?_, ⟨b1 ++ b2, by rw [hb2, hb1, List.append_assoc]⟩, val⟩
    show (a.eval vars h >>= fun x => reduceSumAxis σ x.2 x.1 0) = _
    rw [e1]; exact e
  | _, .sumCols (m := m) (n := n) σ a, h, hk, H => by
    obtain ⟨t, h1, e1, ⟨b1, hb1⟩, v, V, hv⟩ := eval_ok vars env a h hk H
    obtain ⟨s1, s2⟩ : (Sh.vec m).Ok := Expr.Ok.sh (e := Expr.sumCols σ a) hk
    obtain ⟨o, h', e, F⟩ := C18_axis1 σ h1 t m n v 1 V s1 (by omega)
    obtain ⟨⟨b2, hb2⟩, val⟩ := Fresh.value (s := .vec m) (A := (Expr.sumCols σ a).denote env) F fun i => by
      have hi : Fin.val i < m := Fin.is_lt i
      rw [show (Sh.vec m).pos i = Fin.val i from rfl, List.getElem?_map, List.getElem?_range hi]
      show some ((row v n (Fin.val i)).foldl (· + ·) 0) = some (∑ j, asMatrix (a.denote env) i j)
      congr 1
      refine foldl_fin n _ _ fun j => ?_
      have q : v[Fin.val i * n + j.val]? = some (a.denote env (i, j)) := hv (i, j)
      rw [List.getD_eq_getElem?_getD, q]; rfl
    refine ⟨o, h', ?_, ⟨b1 ++ b2, by rw [hb2, hb1, List.append_assoc]⟩, val⟩
    show (a.eval vars h >>= fun x => reduceSumAxis σ x.2 x.1 1) = _
    rw [e1]; exact e

/-! ## The property -/

/-- **C92.** The library evaluates every well-shaped expression, changes no existing tensor (the old buffers stay as they are), and the result has
exactly the elements matrix algebra gives - whatever the schedules of the parallel loops. -/
theorem C92_meaning (vars : Nat → Tensor) (env : (s : Sh) → Nat → s.Idx → R) {s : Sh} (e : Expr R s) (h : Heap R) (hk : e.Ok) (hr : e.Ready vars env h) :
    ∃ t h', e.eval vars h = .ok (t, h') ∧ (∃ bs, h'.blocks = h.blocks ++ bs) ∧ Value h' t (e.denote env) := eval_ok vars env e h hk hr

omit [Ring R] [Div R] in
theorem Value.same {h : Heap R} {t u : Tensor} {s : Sh} {A B : s.Idx → R} (hs : s.Ok) (H : Value h t A) (K : Value h u B) :
    SameTensor h t u ↔ A = B := by
  obtain ⟨v, h1, h2⟩ := H
  obtain ⟨w, k1, k2⟩ := K
  have lv : v.length = s.numel := h1.len.trans hs.count
  have lw : w.length = s.numel := k1.len.trans hs.count
  constructor
  · rintro ⟨d, z, z1, z2⟩
    have ev : v = z := by
      obtain ⟨p, -, -, p3, arr, p4⟩ := h1
      obtain ⟨q, -, -, q3, arr', q4⟩ := z1
      rw [p3] at q3; cases q3
      rw [p4] at q4
      simp only [Option.some.injEq, Block.mk.injEq] at q4
      exact List.map_injective_iff.2 (Option.some_injective _) q4.1
    have ew : w = z := by
      obtain ⟨p, -, -, p3, arr, p4⟩ := k1
      obtain ⟨q, -, -, q3, arr', q4⟩ := z2
      rw [p3] at q3; cases q3
      rw [p4] at q4
      simp only [Option.some.injEq, Block.mk.injEq] at q4
      exact List.map_injective_iff.2 (Option.some_injective _) q4.1
    funext i
    have := (h2 i).symm.trans ((by rw [ev, ew] : v[s.pos i]? = w[s.pos i]?).trans (k2 i))
    exact Option.some_injective _ this
  · rintro rfl
    refine ⟨s.dims, v, h1, ?_⟩
    have : v = w := by
      apply List.ext_getElem?
      intro k
      by_cases hk : k < s.numel
      · obtain ⟨i, rfl⟩ := s.pos_surj k hk
        rw [h2, k2]
      · rw [List.getElem?_eq_none (by omega), List.getElem?_eq_none (by omega)]
    rw [this]; exact k1

/-- Evaluating `e1` and then `e2` gives two tensors with the same dimensions and elements. -/
def Agree (vars : Nat → Tensor) (h : Heap R) {s : Sh} (e1 e2 : Expr R s) : Prop :=
  ∃ t h1 u h2, e1.eval vars h = .ok (t, h1) ∧ e2.eval vars h1 = .ok (u, h2) ∧ SameTensor h2 t u

/-- **C92.** Two expressions give the same tensor exactly if they mean the same in matrix algebra. -/
theorem C92_agree (vars : Nat → Tensor) (env : (s : Sh) → Nat → s.Idx → R) {s : Sh} (e1 e2 : Expr R s) (h : Heap R) (k1 : e1.Ok) (k2 : e2.Ok)
    (r1 : e1.Ready vars env h) (r2 : e2.Ready vars env h) : Agree vars h e1 e2 ↔ e1.denote env = e2.denote env := by
  obtain ⟨t, h1, a1, ⟨bs, hb⟩, V⟩ := eval_ok vars env e1 h k1 r1
  obtain ⟨u, h2, a2, ⟨bs', hb'⟩, W⟩ := eval_ok vars env e2 h1 k2 (r2.append hb)
  rw [← (V.append hb').same k1.sh W]
  constructor
  · rintro ⟨t', h1', u', h2', c1, c2, c3⟩
    rw [a1] at c1; cases c1
    rw [a2] at c2; cases c2
    exact c3
  · exact fun c => ⟨t, h1, u, h2, a1, a2, c⟩

/-- **C92.** `reduce_sum` of an expression is the sum of its elements. -/
theorem C92_total (vars : Nat → Tensor) (env : (s : Sh) → Nat → s.Idx → R) {m n : Nat} (e : Expr R (.mat m n)) (h : Heap R) (hk : e.Ok)
    (hr : e.Ready vars env h) : ∃ t h', e.eval vars h = .ok (t, h') ∧ reduceSum h' t = .ok (∑ i, ∑ j, asMatrix (e.denote env) i j) := by
  obtain ⟨t, h', a, -, v, V, hv⟩ := eval_ok vars env e h hk hr
  refine ⟨t, h', a, ?_⟩
  rw [C18_total h' t _ v V, foldl_add_sum, sum_getD, V.len, Sh.Ok.count (s := .mat m n) hk.sh, show (Sh.mat m n).numel = m * n from rfl, sum_grid,
    ← Fin.sum_univ_eq_sum_range (fun i => ∑ j ∈ Finset.range n, v.getD (i * n + j) 0)]
  congr 1
  refine Finset.sum_congr rfl fun i _ => ?_
  rw [← Fin.sum_univ_eq_sum_range (fun j => v.getD (i * n + j) 0)]
  refine Finset.sum_congr rfl fun j _ => ?_
  have q : v[i.val * n + j.val]? = some (e.denote env (i, j)) := hv (i, j)
  rw [List.getD_eq_getElem?_getD, q]; rfl

theorem agree_of {vars : Nat → Tensor} {env : (s : Sh) → Nat → s.Idx → R} {s : Sh} {e1 e2 : Expr R s} {h : Heap R} (k1 : e1.Ok) (k2 : e2.Ok)
    (r1 : e1.Ready vars env h) (r2 : e2.Ready vars env h) (he : e1.denote env = e2.denote env) : Agree vars h e1 e2 :=
  (C92_agree vars env e1 e2 h k1 k2 r1 r2).2 he

/-! ## Laws -/

section Laws
variable {vars : Nat → Tensor} {env : (s : Sh) → Nat → s.Idx → R} {h : Heap R} {m k l n : Nat} (σ τ ρ : Sched) (μ ν ξ ο : Nat → Sched)

/-- `(a % b) % c` and `a % (b % c)`. -/
theorem C92_matmul_assoc {a : Expr R (.mat m k)} {b : Expr R (.mat k l)} {c : Expr R (.mat l n)} (s1 : (Sh.mat m l).Ok) (s2 : (Sh.mat k n).Ok)
    (s3 : (Sh.mat m n).Ok) (ka : a.Ok) (kb : b.Ok) (kc : c.Ok) (ra : a.Ready vars env h) (rb : b.Ready vars env h) (rc : c.Ready vars env h) :
    Agree vars h (.matmul μ (.matmul ν a b) c) (.matmul ξ a (.matmul ο b c)) := by
  refine agree_of (env := env) ⟨s3, ⟨s1, ka, kb⟩, kc⟩ ⟨s3, ka, s2, kb, kc⟩ ⟨⟨ra, rb⟩, rc⟩ ⟨ra, rb, rc⟩ (funext fun p => ?_)
  exact congrFun (congrFun (Matrix.mul_assoc (asMatrix (a.denote env)) (asMatrix (b.denote env)) (asMatrix (c.denote env))) p.1) p.2

/-- `a % (b + c)` and `a % b + a % c`. -/
theorem C92_matmul_add {a : Expr R (.mat m k)} {b c : Expr R (.mat k n)} (s1 : (Sh.mat m n).Ok) (ka : a.Ok) (kb : b.Ok) (kc : c.Ok)
    (ra : a.Ready vars env h) (rb : b.Ready vars env h) (rc : c.Ready vars env h) :
    Agree vars h (.matmul μ a (.bin .add σ b c)) (.bin .add τ (.matmul ν a b) (.matmul ξ a c)) := by
  refine agree_of (env := env) ⟨s1, ka, kb, kc⟩ ⟨⟨s1, ka, kb⟩, s1, ka, kc⟩ ⟨ra, rb, rc⟩ ⟨⟨ra, rb⟩, ra, rc⟩ (funext fun p => ?_)
  exact congrFun (congrFun (Matrix.mul_add (asMatrix (a.denote env)) (asMatrix (b.denote env)) (asMatrix (c.denote env))) p.1) p.2

/-- `(a - b) % c` and `a % c - b % c`. -/
theorem C92_sub_matmul {a b : Expr R (.mat m k)} {c : Expr R (.mat k n)} (s1 : (Sh.mat m n).Ok) (ka : a.Ok) (kb : b.Ok) (kc : c.Ok)
    (ra : a.Ready vars env h) (rb : b.Ready vars env h) (rc : c.Ready vars env h) :
    Agree vars h (.matmul μ (.bin .sub σ a b) c) (.bin .sub τ (.matmul ν a c) (.matmul ξ b c)) := by
  refine agree_of (env := env) ⟨s1, ⟨ka, kb⟩, kc⟩ ⟨⟨s1, ka, kc⟩, s1, kb, kc⟩ ⟨⟨ra, rb⟩, rc⟩ ⟨⟨ra, rc⟩, rb, rc⟩ (funext fun p => ?_)
  exact congrFun (congrFun (Matrix.sub_mul (asMatrix (a.denote env)) (asMatrix (b.denote env)) (asMatrix (c.denote env))) p.1) p.2

/-- `Eyes(m) % a`, `a % Eyes(n)` and `a`. -/
theorem C92_eyes {a : Expr R (.mat m n)} (s1 : (Sh.mat m m).Ok) (s2 : (Sh.mat n n).Ok) (ka : a.Ok) (ra : a.Ready vars env h) :
    Agree vars h (.matmul μ (.eyes m) a) a ∧ Agree vars h (.matmul ν a (.eyes n)) a := by
  have s3 : (Sh.mat m n).Ok := ka.sh
  refine ⟨agree_of (env := env) ⟨s3, s1, ka⟩ ka ⟨trivial, ra⟩ ra (funext fun p => ?_), agree_of (env := env) ⟨s3, ka, s2⟩ ka ⟨ra, trivial⟩ ra (funext fun p => ?_)⟩
  · exact congrFun (congrFun (Matrix.one_mul (asMatrix (a.denote env))) p.1) p.2
  · exact congrFun (congrFun (Matrix.mul_one (asMatrix (a.denote env))) p.1) p.2

/-- `a + b` and `b + a`, `(a + b) + c` and `a + (b + c)`, `a * (b + c)` and `a * b + a * c`, `a - b` and `a + -b`, in any shape. -/
theorem C92_elementwise {s : Sh} {a b c : Expr R s} (ka : a.Ok) (kb : b.Ok) (kc : c.Ok) (ra : a.Ready vars env h) (rb : b.Ready vars env h)
    (rc : c.Ready vars env h) :
    Agree vars h (.bin .add σ a b) (.bin .add τ b a) ∧ Agree vars h (.bin .add σ (.bin .add τ a b) c) (.bin .add τ a (.bin .add σ b c)) ∧
    Agree vars h (.bin .mul σ a (.bin .add τ b c)) (.bin .add ρ (.bin .mul σ a b) (.bin .mul τ a c)) ∧
    Agree vars h (.bin .sub σ a b) (.bin .add τ a (.neg ρ b)) :=
  ⟨agree_of (env := env) ⟨ka, kb⟩ ⟨kb, ka⟩ ⟨ra, rb⟩ ⟨rb, ra⟩ (funext fun _ => add_comm _ _),
   agree_of (env := env) ⟨⟨ka, kb⟩, kc⟩ ⟨ka, kb, kc⟩ ⟨⟨ra, rb⟩, rc⟩ ⟨ra, rb, rc⟩ (funext fun _ => add_assoc _ _ _),
   agree_of (env := env) ⟨ka, kb, kc⟩ ⟨⟨ka, kb⟩, ka, kc⟩ ⟨ra, rb, rc⟩ ⟨⟨ra, rb⟩, ra, rc⟩ (funext fun _ => mul_add _ _ _),
   agree_of (env := env) ⟨ka, kb⟩ ⟨ka, kb⟩ ⟨ra, rb⟩ ⟨ra, rb⟩ (funext fun _ => sub_eq_add_neg _ _)⟩

/-- `reduce_sum(a + b, axis)` and `reduce_sum(a, axis) + reduce_sum(b, axis)`. -/
theorem C92_sums {a b : Expr R (.mat m n)} (ka : a.Ok) (kb : b.Ok) (ra : a.Ready vars env h) (rb : b.Ready vars env h) :
    Agree vars h (.sumRows σ (.bin .add τ a b)) (.bin .add σ (.sumRows τ a) (.sumRows ρ b)) ∧
    Agree vars h (.sumCols σ (.bin .add τ a b)) (.bin .add σ (.sumCols τ a) (.sumCols ρ b)) :=
  ⟨agree_of (env := env) ⟨ka, kb⟩ ⟨ka, kb⟩ ⟨ra, rb⟩ ⟨ra, rb⟩ (funext fun _ => Finset.sum_add_distrib),
   agree_of (env := env) ⟨ka, kb⟩ ⟨ka, kb⟩ ⟨ra, rb⟩ ⟨ra, rb⟩ (funext fun _ => Finset.sum_add_distrib)⟩

/-- A linear layer written with tensors, `x % w + b`, is linear in `x`: the difference of its values at `x` and `y` is `(x - y) % w`. -/
theorem C92_layer {x y : Expr R (.mat m k)} {w : Expr R (.mat k n)} {b : Expr R (.vec n)} (s1 : (Sh.mat m n).Ok) (kx : x.Ok) (ky : y.Ok) (kw : w.Ok)
    (kb : b.Ok) (rx : x.Ready vars env h) (ry : y.Ready vars env h) (rw : w.Ready vars env h) (rb : b.Ready vars env h) :
    Agree vars h (.bin .sub σ (.row .add τ (.matmul μ x w) b) (.row .add ρ (.matmul ν y w) b)) (.matmul ξ (.bin .sub σ x y) w) := by
  refine agree_of (env := env) ⟨⟨⟨s1, kx, kw⟩, kb⟩, ⟨s1, ky, kw⟩, kb⟩ ⟨s1, ⟨kx, ky⟩, kw⟩ ⟨⟨⟨rx, rw⟩, rb⟩, ⟨ry, rw⟩, rb⟩ ⟨⟨rx, ry⟩, rw⟩ (funext fun p => ?_)
  have := congrFun (congrFun (Matrix.sub_mul (asMatrix (x.denote env)) (asMatrix (y.denote env)) (asMatrix (w.denote env))) p.1) p.2
  refine Eq.trans ?_ this.symm
  exact add_sub_add_right_eq_sub _ _ _

end Laws

/-! ## A concrete case -/

/-- Variable 0 is the tensor `exA` (`1 2 / 3 4`), all others are `exC` (`8 9`). -/
def exVars : Nat → Tensor := fun x => if x = 0 then exA else exC

/-- Their values. -/
def exEnv : (s : Sh) → Nat → s.Idx → Int
  | .vec _, _ => fun j => 8 + (Fin.val j : Int)
  | .mat _ n, _ => fun p => (p.1.val * n + p.2.val : Int) + 1

theorem exVal0 : Value exHeap (exVars 0) (exEnv (.mat 2 2) 0) :=
  ⟨_, ⟨0, exA_holds⟩, fun ⟨i, j⟩ => by rcases i with ⟨_ | _ | i, hi⟩ <;> rcases j with ⟨_ | _ | j, hj⟩ <;> first | rfl | omega⟩

theorem exVal1 : Value exHeap (exVars 1) (exEnv (.vec 2) 1) :=
  ⟨_, ⟨2, exC_holds⟩, fun i => by
    have hi : Fin.val i < 2 := Fin.is_lt i
    rcases (by omega : Fin.val i = 0 ∨ Fin.val i = 1) with h | h <;> simp [Sh.pos, exEnv, h]⟩

/-- The matrix variable. -/
abbrev exM : Expr Int (.mat 2 2) := .var 0
/-- The vector variable. -/
abbrev exV : Expr Int (.vec 2) := .var 1

theorem ok22 : (Sh.mat 2 2).Ok := ⟨by omega, by omega, by decide⟩
theorem ok2 : (Sh.vec 2).Ok := ⟨by omega, by decide⟩

/-- `A % (A * c) + Eyes(2)`, `A` and `c` the tensors above: all operators run and the element at `(1, 0)` is `3*8 + 4*24 + 0`. -/
example (σ τ : Sched) (μ : Nat → Sched) : ∃ t h', (Expr.bin (R := Int) .add σ (.matmul μ exM (.row .mul τ exM exV)) (.eyes 2) : Expr Int (.mat 2 2)).eval exVars exHeap = .ok (t, h') ∧
    t.get h' 2 = .ok 120 := by
  obtain ⟨t, h', e, -, v, V, hv⟩ := C92_meaning exVars exEnv (Expr.bin (R := Int) .add σ (.matmul μ exM (.row .mul τ exM exV)) (.eyes 2) : Expr Int (.mat 2 2)) exHeap
    ⟨⟨ok22, ok22, ok22, ok2⟩, ok22⟩ ⟨⟨exVal0, exVal0, exVal1⟩, trivial⟩
  exact ⟨t, h', e, V.read (hv (1, 0))⟩

/-- `%` does not commute: `A % (A * c)` and `(A * c) % A` differ, under all schedules. -/
theorem C92_not_commutative (τ : Sched) (μ ν : Nat → Sched) : ¬ Agree exVars exHeap (.matmul μ exM (.row .mul τ exM exV) : Expr Int (.mat 2 2))
    (.matmul ν (.row .mul τ exM exV) exM) := by
  rw [C92_agree exVars exEnv _ _ exHeap (by exact ⟨ok22, ok22, ok22, ok2⟩) (by exact ⟨ok22, ⟨ok22, ok2⟩, ok22⟩) (by exact ⟨exVal0, exVal0, exVal1⟩) (by exact ⟨⟨exVal0, exVal1⟩, exVal0⟩)]
  intro hc
  have h0 : (56 : Int) = 62 := congrFun hc (0, 0)
  omega

example (μ ν ξ ο : Nat → Sched) : Agree exVars exHeap (.matmul μ (.matmul ν exM exM) exM : Expr Int (.mat 2 2)) (.matmul ξ exM (.matmul ο exM exM : Expr Int (.mat 2 2))) :=
  C92_matmul_assoc (env := exEnv) μ ν ξ ο ok22 ok22 ok22 ok22 ok22 ok22 exVal0 exVal0 exVal0
example (σ τ : Sched) (μ ν ξ : Nat → Sched) : Agree exVars exHeap (.matmul μ exM (.bin .add σ exM (.ones (.mat 2 2))) : Expr Int (.mat 2 2)) (.bin .add τ (.matmul ν exM exM) (.matmul ξ exM (.ones (.mat 2 2)))) :=
  C92_matmul_add (env := exEnv) σ τ μ ν ξ ok22 ok22 ok22 ok22 exVal0 exVal0 trivial
example (σ τ : Sched) (μ ν ξ : Nat → Sched) : Agree exVars exHeap (.matmul μ (.bin .sub σ exM (.eyes 2)) exM : Expr Int (.mat 2 2)) (.bin .sub τ (.matmul ν exM exM) (.matmul ξ (.eyes 2) exM)) :=
  C92_sub_matmul (env := exEnv) σ τ μ ν ξ ok22 ok22 ok22 ok22 exVal0 trivial exVal0
example (μ ν : Nat → Sched) : Agree exVars exHeap (.matmul μ (.eyes 2) exM : Expr Int (.mat 2 2)) exM ∧ Agree exVars exHeap (.matmul ν exM (.eyes 2) : Expr Int (.mat 2 2)) exM :=
  C92_eyes (env := exEnv) μ ν ok22 ok22 ok22 exVal0
example (σ τ ρ : Sched) := C92_elementwise (env := exEnv) (a := exV) (b := .ones _) (c := .sumRows σ exM) σ τ ρ ok2 ok2 ok22 exVal1 trivial exVal0
example (σ τ ρ : Sched) := C92_sums (env := exEnv) (a := exM) (b := .ones _) σ τ ρ ok22 ok22 exVal0 trivial
example (σ τ ρ : Sched) (μ ν ξ : Nat → Sched) := C92_layer (env := exEnv) (x := exM) (y := .ones _) (w := exM) (b := exV) σ τ ρ μ ν ξ ok22 ok22 ok22 ok22 ok2 exVal0 trivial exVal0 exVal1
example (μ : Nat → Sched) : ∃ t h', (Expr.matmul μ exM exM : Expr Int (.mat 2 2)).eval exVars exHeap = .ok (t, h') ∧ reduceSum h' t = .ok 54 := by
  obtain ⟨t, h', e, hs⟩ := C92_total exVars exEnv (Expr.matmul μ exM exM : Expr Int (.mat 2 2)) exHeap ⟨ok22, ok22, ok22⟩ ⟨exVal0, exVal0⟩
  exact ⟨t, h', e, hs⟩

end Nnet.Tensor
