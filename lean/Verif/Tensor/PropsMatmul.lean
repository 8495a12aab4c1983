import Verif.Tensor.PropsRed
/-!
# C21, C22: the matrix product
-/
namespace Nnet.Tensor
variable {R : Type}

theorem matmulCheck_ok {h : Heap R} {t1 t2 : Tensor} {m k n : Nat} {v1 v2 : List R} (hm : 0 < m) (hk : 0 < k) (hn : 0 < n)
    (H1 : Holds h t1 [(m : Int), (k : Int)] v1) (H2 : Holds h t2 [(k : Int), (n : Int)] v2) : matmulCheck t1 t2 = .ok () := by
  obtain ⟨s1, a0, a1⟩ := holds_size2 H1
  obtain ⟨s2, b0, b1⟩ := holds_size2 H2
  unfold matmulCheck
  rw [assertC_true ⟨s1, s2⟩, ok_bind, a1, ok_bind, b0, ok_bind, assertC_true rfl, ok_bind, a0, ok_bind]
  simp [b1, assertC, hm, hk, hn]

theorem mkShape_mn {m n : Nat} (hm : 0 < m) (hn : 0 < n) (hint : ((m * n : Nat) : Int) ≤ intMax) :
    ∃ s, mkShape [(m : Int), (n : Int)] = .ok s :=
  ⟨_, mkShape_ok ⟨m, [n], rfl, by omega, by simpa using hn⟩ (by
    intro i
    match i with
    | 0 => simpa using hint
    | 1 =>
      have : n ≤ m * n := Nat.le_mul_of_pos_left n hm
      simp; omega
    | i + 2 => simp [intMax])⟩

theorem prodVals_length [Zero R] [Add R] [Mul R] (m k n : Nat) (v1 v2 : List R) : (prodVals m k n v1 v2).length = m * n := by
  simp [prodVals]

theorem prodVals_get [Zero R] [Add R] [Mul R] {m k n : Nat} {v1 v2 : List R} {i j : Nat} (hi : i < m) (hj : j < n) :
    (prodVals m k n v1 v2)[i * n + j]? = some (dotSpec k n v1 v2 i j) := by
  have := idx_lt hi hj
  have e1 : (i * n + j) / n = i := by
    rw [Nat.mul_comm, Nat.mul_add_div (by omega), Nat.div_eq_of_lt hj]; rfl
  have e2 : (i * n + j) % n = j := by rw [Nat.mul_comm, Nat.mul_add_mod, Nat.mod_eq_of_lt hj]
  simp [prodVals, List.getElem?_range this, e1, e2]

theorem prodVals_getD [Zero R] [Add R] [Mul R] {m k n : Nat} {v1 v2 : List R} {i j : Nat} (hi : i < m) (hj : j < n) :
    (prodVals m k n v1 v2).getD (i * n + j) 0 = dotSpec k n v1 v2 i j := by
  rw [List.getD, prodVals_get hi hj]; rfl

/-- The loop on a buffer holding `w`. -/
theorem matmulLoop_full [Zero R] [Add R] [Mul R] (σ : Nat → Sched) {h : Heap R} {t1 t2 out : Tensor} {m k n q : Nat}
    {v1 v2 w : List R} {arr : Bool} (hm : 0 < m) (hk : 0 < k) (hn : 0 < n) (hint : ((m * n : Nat) : Int) ≤ intMax)
    (hout : out.data = some q) (hq1 : t1.data ≠ some q) (hq2 : t2.data ≠ some q)
    (hb : h.blocks[q]? = some ⟨w.map some, arr, true⟩) (hlen : m * n ≤ w.length)
    (H1 : Holds h t1 [(m : Int), (k : Int)] v1) (H2 : Holds h t2 [(k : Int), (n : Int)] v2) :
    matmulLoop σ t1 t2 out (k : Int) (n : Int) m 0 h =
      .ok ⟨h.blocks.set q ⟨(prodVals m k n v1 v2 ++ w.drop (m * n)).map some, arr, true⟩⟩ := by
  rw [matmulLoop_ok σ hm hk hn hout hq1 hq2 hint m 0 (by omega) hb rfl (by simpa using hlen) H1 H2]
  congr 4
  apply List.ext_getElem
  · simp [prodVals_length]; omega
  · intro p g1 g2
    simp only [List.getElem_mapIdx, List.getElem_map, Nat.zero_mul, Nat.zero_le, true_and]
    by_cases hp : p < m * n
    · rw [if_pos hp, List.getElem_append_left (by rw [prodVals_length]; exact hp)]
      simp [prodVals]
    · rw [if_neg hp, List.getElem_append_right (by rw [prodVals_length]; omega)]
      simp only [List.getElem_drop, prodVals_length]
      congr 2; omega

/-- Whether `output` is (re)allocated: data-less or too small. -/
theorem matmulPrepare_fresh [Zero R] {h : Heap R} {out : Tensor} {m n : Nat} {s : TensorShape}
    (hs : mkShape [(m : Int), (n : Int)] = .ok s) (hm : 0 < m) (hn : 0 < n) (hint : ((m * n : Nat) : Int) ≤ intMax)
    (ho : out.data = none ∨ ∃ dout w, Holds h out dout w ∧ numel dout < m * n) :
    matmulPrepare h out (m : Int) (n : Int) = .ok (⟨s, some h.blocks.length⟩, withZeros h (m * n)) := by
  have key : (do
      let s ← mkShape [(m : Int), (n : Int)]
      let (tmp, h) ← Tensor.ofShape h s
      let (out', tmp') ← Tensor.moveAssign out tmp
      let h ← tmp'.destroy h
      pure (out', h) : Res (Tensor × Heap R)) = .ok (⟨s, some h.blocks.length⟩, withZeros h (m * n)) := by
    rw [hs, ok_bind, ofShape_ok h hs, ok_bind]
    simp only [Tensor.moveAssign, assignShape_mk hs, ok_bind, pure_eq_ok, Tensor.destroy, numel2 hm hn]
  rcases ho with ho | ⟨dout, w, Ho, hlt⟩
  · unfold matmulPrepare
    rw [ho]
    simpa using key
  · obtain ⟨p, g1, g2, g3, g4⟩ := Ho
    unfold matmulPrepare
    rw [g3]
    have e : (m : Int) * n = ((m * n : Nat) : Int) := by push_cast; rfl
    simp only [Tensor.chunkAt, mkShape_chunk0 g1, ok_bind]
    rw [e, cint_nat hint, ok_bind, pure_eq_ok, ok_bind, decide_eq_true (by omega)]
    simpa using key

theorem matmulPrepare_keep [Zero R] {h : Heap R} {out : Tensor} {m n : Nat} {dout : List Int} {w : List R}
    (hint : ((m * n : Nat) : Int) ≤ intMax) (Ho : Holds h out dout w) (hge : m * n ≤ numel dout) :
    matmulPrepare h out (m : Int) (n : Int) = .ok (out, h) := by
  obtain ⟨p, g1, g2, g3, g4⟩ := Ho
  unfold matmulPrepare
  rw [g3]
  have e : (m : Int) * n = ((m * n : Nat) : Int) := by push_cast; rfl
  simp only [Tensor.chunkAt, mkShape_chunk0 g1, ok_bind]
  rw [e, cint_nat hint, ok_bind, pure_eq_ok, ok_bind, decide_eq_false (by omega)]
  rfl

/-- `matmul` when a new buffer is allocated. -/
theorem matmul_fresh [Zero R] [Add R] [Mul R] (σ : Nat → Sched) {h : Heap R} {t1 t2 out : Tensor} {m k n : Nat} {v1 v2 : List R}
    (hm : 0 < m) (hk : 0 < k) (hn : 0 < n) (hint : ((m * n : Nat) : Int) ≤ intMax)
    (H1 : Holds h t1 [(m : Int), (k : Int)] v1) (H2 : Holds h t2 [(k : Int), (n : Int)] v2)
    (ho : out.data = none ∨ ∃ dout w, Holds h out dout w ∧ numel dout < m * n) :
    ∃ h1 out' ret h', matmul σ h t1 t2 out = .ok (out', ret, h') ∧
      Fresh h h1 out' [(m : Int), (n : Int)] (prodVals m k n v1 v2) ∧
      Fresh h1 h' ret [(m : Int), (n : Int)] (prodVals m k n v1 v2) := by
  obtain ⟨s, hs⟩ := mkShape_mn hm hn hint
  obtain ⟨-, a0, a1⟩ := holds_size2 H1
  obtain ⟨-, b0, b1⟩ := holds_size2 H2
  have hzl : (withZeros h (m * n)).blocks[h.blocks.length]? = some ⟨(List.replicate (m * n) (0 : R)).map some, true, true⟩ := by
    simp [withZeros]
  have hne : ∀ {t : Tensor} {d : List Int} {v : List R}, Holds h t d v → t.data ≠ some h.blocks.length := by
    intro t d v H; obtain ⟨p, -, -, g3, arr, g4⟩ := H
    rw [g3]; intro he; cases he
    rw [List.getElem?_eq_some_iff] at g4; obtain ⟨hlt, -⟩ := g4; omega
  have hloop := matmulLoop_full σ (out := ⟨s, some h.blocks.length⟩) hm hk hn hint rfl (hne H1) (hne H2) hzl (by simp)
    (H1.append [⟨List.replicate (m * n) (some 0), true, true⟩]) (H2.append [⟨List.replicate (m * n) (some 0), true, true⟩])
  have hF : Fresh h ⟨(withZeros h (m * n)).blocks.set h.blocks.length ⟨(prodVals m k n v1 v2 ++
      (List.replicate (m * n) (0 : R)).drop (m * n)).map some, true, true⟩⟩ ⟨s, some h.blocks.length⟩
      [(m : Int), (n : Int)] (prodVals m k n v1 v2) := by
    refine ⟨hs, by rw [prodVals_length, numel2 hm hn], rfl, ?_⟩
    simp only [withZeros, set_last]; simp
  obtain ⟨ret, h', ec, Fc, -, -⟩ := C06_deep_copy _ _ _ _ hF.holds
  refine ⟨_, _, ret, h', ?_, hF, Fc⟩
  unfold matmul
  rw [matmulCheck_ok hm hk hn H1 H2, ok_bind, a0, ok_bind, a1, ok_bind, b1, ok_bind, matmulPrepare_fresh hs hm hn hint ho, ok_bind]
  simp only [Int.toNat_natCast]
  rw [show (withZeros h (m * n)) = ⟨h.blocks ++ [⟨List.replicate (m * n) (some 0), true, true⟩]⟩ from rfl] at *
  rw [hloop, ok_bind, ec]; rfl

/-! ## C21 -/

/-- **C21**: `t1 % t2` succeeds under every schedule and gives an `m x n` tensor whose `(i,j)` element is the in-order sum of
`t1(i,l) * t2(l,j)`; old buffers are untouched, the result has one new buffer, and the only other new buffer (the copy returned by
the three-argument `matmul`) is released. -/
theorem C21_product [Zero R] [Add R] [Mul R] (σ : Nat → Sched) (h : Heap R) (t1 t2 : Tensor) (m k n : Nat) (v1 v2 : List R)
    (hm : 0 < m) (hk : 0 < k) (hn : 0 < n) (hint : IsInt ((m : Int) * n))
    (H1 : Holds h t1 [(m : Int), (k : Int)] v1) (H2 : Holds h t2 [(k : Int), (n : Int)] v2) :
    ∃ out h' vals, matmulOp σ h t1 t2 = .ok (out, h') ∧ Holds h' out [(m : Int), (n : Int)] vals ∧
      (∀ i < m, ∀ j < n, vals[i * n + j]? =
        some ((List.range k).foldl (fun acc l => acc + v1.getD (i * k + l) 0 * v2.getD (l * n + j) 0) 0)) ∧
      out.data = some h.blocks.length ∧
      h'.blocks = h.blocks ++ [⟨vals.map some, true, true⟩, ⟨vals.map some, true, false⟩] := by
  have hint' : ((m * n : Nat) : Int) ≤ intMax := by push_cast; exact hint.2
  have hd : Tensor.mkDefault = .ok ⟨⟨[0], [1]⟩, none⟩ := by decide
  obtain ⟨h1, out, ret, h2, e, F1, F2⟩ := matmul_fresh σ (out := ⟨⟨[0], [1]⟩, none⟩) hm hk hn hint' H1 H2 (.inl rfl)
  obtain ⟨h3, ed, hb⟩ := C10_fresh_destroyable _ _ _ _ _ F2
  have hb' : h3.blocks = h.blocks ++ [⟨(prodVals m k n v1 v2).map some, true, true⟩, ⟨(prodVals m k n v1 v2).map some, true, false⟩] := by
    rw [hb, F1.2.2.2]; simp
  refine ⟨out, h3, prodVals m k n v1 v2, ?_, ⟨h.blocks.length, F1.1, F1.2.1, F1.2.2.1, true, by rw [hb']; simp⟩,
    fun i hi j hj => prodVals_get hi hj, F1.2.2.1, hb'⟩
  unfold matmulOp
  rw [hd, ok_bind, e, ok_bind]
  simp only
  rw [ed]; rfl

/-- **C21**, `m*n` not representable: undefined behaviour, never a wrong result. -/
theorem C21_overflow [Zero R] [Add R] [Mul R] (σ : Nat → Sched) (h : Heap R) (t1 t2 : Tensor) (m k n : Nat) (v1 v2 : List R)
    (hm : 0 < m) (hk : 0 < k) (hn : 0 < n) (hint : ¬ IsInt ((m : Int) * n)) (hmi : IsInt m) (hni : IsInt n)
    (H1 : Holds h t1 [(m : Int), (k : Int)] v1) (H2 : Holds h t2 [(k : Int), (n : Int)] v2) :
    matmulOp σ h t1 t2 = .error (.ub .signedOverflow) := by
  have hd : Tensor.mkDefault = .ok ⟨⟨[0], [1]⟩, none⟩ := by decide
  obtain ⟨-, a0, a1⟩ := holds_size2 H1
  obtain ⟨-, b0, b1⟩ := holds_size2 H2
  have hs : mkShape [(m : Int), (n : Int)] = .error (.ub .signedOverflow) := by
    apply mkShape_overflow ⟨m, [n], rfl, by omega, by simpa using hn⟩
    · intro x hx; simp at hx; rcases hx with rfl | rfl <;> assumption
    · intro hf; apply hint
      have := hf 0
      simp at this
      refine ⟨le_trans (by decide : intMin ≤ 0) ?_, this⟩
      positivity
  unfold matmulOp
  rw [hd, ok_bind]
  unfold matmul
  rw [matmulCheck_ok hm hk hn H1 H2, ok_bind, a0, ok_bind, a1, ok_bind, b1, ok_bind]
  unfold matmulPrepare
  simp only [pure_eq_ok, ok_bind, if_true, hs, error_bind]

theorem dotSpec_sum [Semiring R] (k n : Nat) (v1 v2 : List R) (i j : Nat) :
    dotSpec k n v1 v2 i j = ∑ l ∈ Finset.range k, v1.getD (i * k + l) 0 * v2.getD (l * n + j) 0 := by
  rw [← list_sum_range, List.sum_eq_foldl, List.foldl_map]; rfl

theorem list_eq_grid [Zero R] {m n : Nat} {v w : List R} (hv : v.length = m * n) (hw : w.length = m * n)
    (h : ∀ i < m, ∀ j < n, v.getD (i * n + j) 0 = w.getD (i * n + j) 0) : v = w := by
  apply List.ext_getElem (by omega)
  intro p g1 g2
  have hn : 0 < n := by
    rcases Nat.eq_zero_or_pos n with rfl | hn
    · omega
    · exact hn
  have hp : p / n < m := Nat.div_lt_of_lt_mul (by rw [Nat.mul_comm]; omega)
  have := h (p / n) hp (p % n) (Nat.mod_lt _ hn)
  rw [Nat.mul_comm, Nat.div_add_mod] at this
  simpa [List.getD, g1, g2] using this

theorem eyeVals_getD [Zero R] [One R] {n i j : Nat} (hi : i < n) (hj : j < n) :
    (eyeVals n : List R).getD (i * n + j) 0 = if i = j then 1 else 0 := by
  have := idx_lt hi hj
  have e1 : (i * n + j) / n = i := by
    rw [Nat.mul_comm, Nat.mul_add_div (by omega), Nat.div_eq_of_lt hj]; rfl
  have e2 : (i * n + j) % n = j := by rw [Nat.mul_comm, Nat.mul_add_mod, Nat.mod_eq_of_lt hj]
  simp [eyeVals, List.getD, List.getElem?_range this, e1, e2]

/-- Product of element lists: everything `C21_product` says, with the elements named. -/
theorem matmulOp_vals [Zero R] [Add R] [Mul R] (σ : Nat → Sched) {h : Heap R} {t1 t2 : Tensor} {m k n : Nat} {v1 v2 : List R}
    (hm : 0 < m) (hk : 0 < k) (hn : 0 < n) (hint : IsInt ((m : Int) * n))
    (H1 : Holds h t1 [(m : Int), (k : Int)] v1) (H2 : Holds h t2 [(k : Int), (n : Int)] v2) :
    ∃ out h', matmulOp σ h t1 t2 = .ok (out, h') ∧ Holds h' out [(m : Int), (n : Int)] (prodVals m k n v1 v2) ∧
      ∀ u d w, Holds h u d w → Holds h' u d w := by
  obtain ⟨out, h', vals, e, Ho, hv, -, hb⟩ := C21_product σ h t1 t2 m k n v1 v2 hm hk hn hint H1 H2
  have : vals = prodVals m k n v1 v2 := by
    apply list_eq_grid (m := m) (n := n) (by rw [Ho.len, numel2 hm hn]) (prodVals_length _ _ _ _ _)
    intro i hi j hj
    rw [List.getD, hv i hi j hj, prodVals_getD hi hj]; rfl
  subst this
  refine ⟨out, h', e, Ho, ?_⟩
  intro u d w Hu
  have := Hu.append [⟨(prodVals m k n v1 v2).map some, true, true⟩, ⟨(prodVals m k n v1 v2).map some, true, false⟩]
  rw [← hb] at this
  exact this

/-- **C21**, exact arithmetic: the tensor built by `Eyes` is neutral on both sides. -/
theorem C21_eyes_neutral [Semiring R] (σ : Nat → Sched) (h : Heap R) (t : Tensor) (m n : Nat) (v : List R) (hm : 0 < m) (hn : 0 < n)
    (hnn : IsInt ((n : Int) * n)) (hmm : IsInt ((m : Int) * m)) (H : Holds h t [(m : Int), (n : Int)] v) :
    (∃ e h1 out h2, Tensor.eyes h n = .ok (e, h1) ∧ matmulOp σ h1 t e = .ok (out, h2) ∧ Holds h2 out [(m : Int), (n : Int)] v) ∧
    (∃ e h1 out h2, Tensor.eyes h m = .ok (e, h1) ∧ matmulOp σ h1 e t = .ok (out, h2) ∧ Holds h2 out [(m : Int), (n : Int)] v) := by
  have hmn := (mkShape2 H.mk).2.2
  have hint : IsInt ((m : Int) * n) := ⟨le_trans (by decide : intMin ≤ 0) (by positivity), hmn⟩
  have hl : v.length = m * n := by rw [H.len, numel2 hm hn]
  constructor
  · obtain ⟨e, h1, ee, F⟩ := eyes_ok h n hn (by push_cast; exact hnn.2)
    obtain ⟨out, h2, eo, Ho, -⟩ := matmulOp_vals σ hm hn hn hint (F.keeps H) F.holds
    refine ⟨e, h1, out, h2, ee, eo, ?_⟩
    have : prodVals m n n v (eyeVals n) = v := by
      apply list_eq_grid (m := m) (n := n) (prodVals_length _ _ _ _ _) hl
      intro i hi j hj
      rw [prodVals_getD hi hj, dotSpec_sum, Finset.sum_eq_single j]
      · rw [eyeVals_getD hj hj]; simp
      · intro l hl' hne
        rw [eyeVals_getD (Finset.mem_range.1 hl') hj, if_neg hne, mul_zero]
      · intro hnot; exact absurd (Finset.mem_range.2 hj) hnot
    rwa [this] at Ho
  · obtain ⟨e, h1, ee, F⟩ := eyes_ok h m hm (by push_cast; exact hmm.2)
    obtain ⟨out, h2, eo, Ho, -⟩ := matmulOp_vals σ hm hm hn hint F.holds (F.keeps H)
    refine ⟨e, h1, out, h2, ee, eo, ?_⟩
    have : prodVals m m n (eyeVals m) v = v := by
      apply list_eq_grid (m := m) (n := n) (prodVals_length _ _ _ _ _) hl
      intro i hi j hj
      rw [prodVals_getD hi hj, dotSpec_sum, Finset.sum_eq_single i]
      · rw [eyeVals_getD hi hi]; simp
      · intro l hl' hne
        rw [eyeVals_getD hi (Finset.mem_range.1 hl'), if_neg (Ne.symm hne), zero_mul]
      · intro hnot; exact absurd (Finset.mem_range.2 hi) hnot
    rwa [this] at Ho

/-- **C21**, exact arithmetic: `(a % b) % c` and `a % (b % c)` have the same elements. -/
theorem C21_assoc [Semiring R] (σ : Nat → Nat → Sched) (h : Heap R) (a b c : Tensor) (m k l n : Nat) (va vb vc : List R)
    (hm : 0 < m) (hk : 0 < k) (hl : 0 < l) (hn : 0 < n) (i1 : IsInt ((m : Int) * l)) (i2 : IsInt ((k : Int) * n))
    (i3 : IsInt ((m : Int) * n)) (Ha : Holds h a [(m : Int), (k : Int)] va) (Hb : Holds h b [(k : Int), (l : Int)] vb)
    (Hc : Holds h c [(l : Int), (n : Int)] vc) :
    ∃ ab h1 x h2 bc h3 y h4 vals, matmulOp (σ 0) h a b = .ok (ab, h1) ∧ matmulOp (σ 1) h1 ab c = .ok (x, h2) ∧
      matmulOp (σ 2) h2 b c = .ok (bc, h3) ∧ matmulOp (σ 3) h3 a bc = .ok (y, h4) ∧
      Holds h4 x [(m : Int), (n : Int)] vals ∧ Holds h4 y [(m : Int), (n : Int)] vals := by
  obtain ⟨ab, h1, e1, Hab, k1⟩ := matmulOp_vals (σ 0) hm hk hl i1 Ha Hb
  obtain ⟨x, h2, e2, Hx, k2⟩ := matmulOp_vals (σ 1) hm hl hn i3 Hab (k1 _ _ _ Hc)
  obtain ⟨bc, h3, e3, Hbc, k3⟩ := matmulOp_vals (σ 2) hk hl hn i2 (k2 _ _ _ (k1 _ _ _ Hb)) (k2 _ _ _ (k1 _ _ _ Hc))
  obtain ⟨y, h4, e4, Hy, k4⟩ := matmulOp_vals (σ 3) hm hk hn i3 (k3 _ _ _ (k2 _ _ _ (k1 _ _ _ Ha))) Hbc
  refine ⟨ab, h1, x, h2, bc, h3, y, h4, _, e1, e2, e3, e4, k4 _ _ _ (k3 _ _ _ Hx), ?_⟩
  have : prodVals m l n (prodVals m k l va vb) vc = prodVals m k n va (prodVals k l n vb vc) := by
    apply list_eq_grid (m := m) (n := n) (prodVals_length _ _ _ _ _) (prodVals_length _ _ _ _ _)
    intro i hi j hj
    rw [prodVals_getD hi hj, prodVals_getD hi hj, dotSpec_sum, dotSpec_sum]
    have L : ∀ p ∈ Finset.range l, (prodVals m k l va vb).getD (i * l + p) 0 * vc.getD (p * n + j) 0 =
        ∑ q ∈ Finset.range k, va.getD (i * k + q) 0 * (vb.getD (q * l + p) 0 * vc.getD (p * n + j) 0) := by
      intro p hp
      rw [prodVals_getD hi (Finset.mem_range.1 hp), dotSpec_sum, Finset.sum_mul]
      apply Finset.sum_congr rfl; intro q _; rw [mul_assoc]
    rw [Finset.sum_congr rfl L, Finset.sum_comm]
    apply Finset.sum_congr rfl
    intro q hq
    rw [prodVals_getD (Finset.mem_range.1 hq) hj, dotSpec_sum, Finset.mul_sum]
  rwa [this]

example : ∃ out h', matmulOp (fun i s => i + 5 * s) exHeap exA exA = .ok (out, h') ∧ out.get h' 0 = .ok 7 ∧ out.get h' 3 = .ok 22 := by
  obtain ⟨t, h', e, F, -⟩ := matmulOp_vals (fun i s => i + 5 * s) (h := exHeap) (t1 := exA) (t2 := exA) (m := 2) (k := 2) (n := 2)
    (by decide) (by decide) (by decide) (by decide) ⟨0, exA_holds⟩ ⟨0, exA_holds⟩
  exact ⟨t, h', e, F.read rfl, F.read rfl⟩

/-! ## C22 -/

/-- **C22 (partial)**: if `output` has no data, or already has shape `{m,n}` (in a buffer of its own), then afterwards it has shape
`{m,n}` and holds the product; the returned tensor is an independent copy in one new buffer, and nothing is leaked: the blocks of
the final heap are the old ones (with the reused one overwritten) plus one for `output` (if it had none) plus the returned copy.
Missing: outputs of other shapes, where the claim is false (`C22_larger_keeps_shape`, `C22_smaller_leaks`, `C22_alias_race`). -/
theorem C22_matmul_partial [Zero R] [Add R] [Mul R] (σ : Nat → Sched) (h : Heap R) (t1 t2 out : Tensor) (m k n : Nat)
    (v1 v2 : List R) (hm : 0 < m) (hk : 0 < k) (hn : 0 < n) (hint : IsInt ((m : Int) * n))
    (H1 : Holds h t1 [(m : Int), (k : Int)] v1) (H2 : Holds h t2 [(k : Int), (n : Int)] v2) :
    (out.data = none → ∃ h1 out' ret h', matmul σ h t1 t2 out = .ok (out', ret, h') ∧
      Fresh h h1 out' [(m : Int), (n : Int)] (prodVals m k n v1 v2) ∧
      Fresh h1 h' ret [(m : Int), (n : Int)] (prodVals m k n v1 v2)) ∧
    (∀ q w arr, HoldsAt h out q [(m : Int), (n : Int)] w → h.blocks[q]? = some ⟨w.map some, arr, true⟩ →
      t1.data ≠ some q → t2.data ≠ some q → ∃ ret h', matmul σ h t1 t2 out = .ok (out, ret, h') ∧
        Fresh ⟨h.blocks.set q ⟨(prodVals m k n v1 v2).map some, arr, true⟩⟩ h' ret [(m : Int), (n : Int)] (prodVals m k n v1 v2) ∧
        HoldsAt h' out q [(m : Int), (n : Int)] (prodVals m k n v1 v2)) := by
  have hint' : ((m * n : Nat) : Int) ≤ intMax := by push_cast; exact hint.2
  refine ⟨fun ho => matmul_fresh σ hm hk hn hint' H1 H2 (.inl ho), ?_⟩
  intro q w arr Ho hb q1 q2
  obtain ⟨-, a0, a1⟩ := holds_size2 H1
  obtain ⟨-, b0, b1⟩ := holds_size2 H2
  have hw : w.length = m * n := by rw [Ho.2.1, numel2 hm hn]
  have hloop := matmulLoop_full σ (out := out) hm hk hn hint' Ho.2.2.1 q1 q2 hb (by omega) H1 H2
  rw [List.drop_of_length_le (by omega), List.append_nil] at hloop
  have hlt : q < h.blocks.length := by rw [List.getElem?_eq_some_iff] at hb; exact hb.1
  have HA : HoldsAt ⟨h.blocks.set q ⟨(prodVals m k n v1 v2).map some, arr, true⟩⟩ out q [(m : Int), (n : Int)] (prodVals m k n v1 v2) :=
    ⟨Ho.1, by rw [prodVals_length, numel2 hm hn], Ho.2.2.1, arr, by simp [hlt]⟩
  obtain ⟨ret, h', ec, Fc, -, -⟩ := C06_deep_copy _ _ _ _ ⟨q, HA⟩
  refine ⟨ret, h', ?_, Fc, ?_⟩
  · unfold matmul
    rw [matmulCheck_ok hm hk hn H1 H2, ok_bind, a0, ok_bind, a1, ok_bind, b1, ok_bind,
      matmulPrepare_keep hint' ⟨q, Ho⟩ (by rw [numel2 hm hn]), ok_bind]
    simp only [Int.toNat_natCast]
    rw [hloop, ok_bind, ec]; rfl
  · obtain ⟨g1, g2, g3, arr', g4⟩ := HA
    refine ⟨g1, g2, g3, arr', ?_⟩
    rw [Fc.2.2.2]
    exact getElem?_append_some g4

/-- **C22, what happens with a larger buffer**: `output` keeps its old shape and its old elements after the first `m*n`, which hold
the product; the returned tensor has that old shape as well. -/
theorem C22_larger_keeps_shape [Zero R] [Add R] [Mul R] (σ : Nat → Sched) (h : Heap R) (t1 t2 out : Tensor) (m k n : Nat)
    (v1 v2 w : List R) (dout : List Int) (q : Nat) (hm : 0 < m) (hk : 0 < k) (hn : 0 < n) (hint : IsInt ((m : Int) * n))
    (H1 : Holds h t1 [(m : Int), (k : Int)] v1) (H2 : Holds h t2 [(k : Int), (n : Int)] v2)
    (Ho : HoldsAt h out q dout w) (hge : m * n ≤ numel dout) (q1 : t1.data ≠ some q) (q2 : t2.data ≠ some q) :
    ∃ ret h', matmul σ h t1 t2 out = .ok (out, ret, h') ∧ HoldsAt h' out q dout (prodVals m k n v1 v2 ++ w.drop (m * n)) ∧
      Holds h' ret dout (prodVals m k n v1 v2 ++ w.drop (m * n)) := by
  have hint' : ((m * n : Nat) : Int) ≤ intMax := by push_cast; exact hint.2
  obtain ⟨-, a0, a1⟩ := holds_size2 H1
  obtain ⟨-, b0, b1⟩ := holds_size2 H2
  obtain ⟨o1, o2, o3, arr, hb⟩ := Ho
  have hloop := matmulLoop_full σ (out := out) hm hk hn hint' o3 q1 q2 hb (by omega) H1 H2
  have hlt : q < h.blocks.length := by rw [List.getElem?_eq_some_iff] at hb; exact hb.1
  have HA : HoldsAt ⟨h.blocks.set q ⟨(prodVals m k n v1 v2 ++ w.drop (m * n)).map some, arr, true⟩⟩ out q dout
      (prodVals m k n v1 v2 ++ w.drop (m * n)) :=
    ⟨o1, by simp [prodVals_length]; omega, o3, arr, by simp [hlt]⟩
  obtain ⟨ret, h', ec, Fc, -, -⟩ := C06_deep_copy _ _ _ _ ⟨q, HA⟩
  refine ⟨ret, h', ?_, ?_, Fc.holds⟩
  · unfold matmul
    rw [matmulCheck_ok hm hk hn H1 H2, ok_bind, a0, ok_bind, a1, ok_bind, b1, ok_bind,
      matmulPrepare_keep hint' ⟨q, o1, o2, o3, arr, hb⟩ hge, ok_bind]
    simp only [Int.toNat_natCast]
    rw [hloop, ok_bind, ec]; rfl
  · obtain ⟨g1, g2, g3, arr', g4⟩ := HA
    refine ⟨g1, g2, g3, arr', ?_⟩
    rw [Fc.2.2.2]
    exact getElem?_append_some g4

/-- **C22, leak**: if `output` has a buffer with fewer than `m*n` elements, then `output` moves to a new buffer and its old one
stays allocated although neither `output` nor the returned tensor refers to it. -/
theorem C22_smaller_leaks [Zero R] [Add R] [Mul R] (σ : Nat → Sched) (h : Heap R) (t1 t2 out : Tensor) (m k n : Nat)
    (v1 v2 w : List R) (dout : List Int) (q : Nat) (hm : 0 < m) (hk : 0 < k) (hn : 0 < n) (hint : IsInt ((m : Int) * n))
    (H1 : Holds h t1 [(m : Int), (k : Int)] v1) (H2 : Holds h t2 [(k : Int), (n : Int)] v2)
    (Ho : HoldsAt h out q dout w) (hlt : numel dout < m * n) :
    ∃ out' ret h', matmul σ h t1 t2 out = .ok (out', ret, h') ∧ Holds h' out' [(m : Int), (n : Int)] (prodVals m k n v1 v2) ∧
      out'.data ≠ some q ∧ ret.data ≠ some q ∧ ∃ b, h'.blocks[q]? = some b ∧ b.live = true := by
  have hint' : ((m * n : Nat) : Int) ≤ intMax := by push_cast; exact hint.2
  obtain ⟨h1, out', ret, h', e, F1, F2⟩ := matmul_fresh σ hm hk hn hint' H1 H2 (.inr ⟨dout, w, ⟨q, Ho⟩, hlt⟩)
  obtain ⟨o1, o2, o3, arr, hb⟩ := Ho
  have hl : q < h.blocks.length := by rw [List.getElem?_eq_some_iff] at hb; exact hb.1
  refine ⟨out', ret, h', e, F2.keeps F1.holds, ?_, ?_, ⟨w.map some, arr, true⟩, ?_, rfl⟩
  · rw [F1.2.2.1]; simp; omega
  · rw [F2.2.2.1, F1.2.2.2]; simp; omega
  · rw [F2.2.2.2, F1.2.2.2]
    exact getElem?_append_some (getElem?_append_some hb)

/-- **C22 is false as stated**: a larger output keeps a shape different from `{m,n}`. -/
theorem C22_shape_refuted : ∃ out ret h', matmul (fun _ _ => 0) exHeap ⟨⟨[1, 1], [1, 1]⟩, some 3⟩ ⟨⟨[1, 1], [1, 1]⟩, some 3⟩ exB =
    .ok (out, ret, h') ∧ mkShape [1, 1] ≠ .ok out.shape ∧ out.get h' 0 = .ok 100 ∧ out.get h' 1 = .ok 6 := by
  obtain ⟨ret, h', e, F, -⟩ := C22_larger_keeps_shape (fun _ _ => 0) exHeap ⟨⟨[1, 1], [1, 1]⟩, some 3⟩ ⟨⟨[1, 1], [1, 1]⟩, some 3⟩ exB
    1 1 1 [10] [10] [5, 6, 7] [3] 1 (by decide) (by decide) (by decide) (by decide) ⟨3, by decide, by decide, rfl, false, rfl⟩
    ⟨3, by decide, by decide, rfl, false, rfl⟩ exB_holds (by decide) (by decide) (by decide)
  exact ⟨exB, ret, h', e, by decide, Holds.read ⟨1, F⟩ rfl, Holds.read ⟨1, F⟩ rfl⟩

/-- **C22, aliasing**: passing an operand as output is a data race (undefined behaviour). -/
theorem C22_alias_race : matmul (fun _ s => s) exHeap exA exA exA = .error (.ub .dataRace) := by decide

/-- **C22, aliasing**: the conflict exists whatever the schedule happens to be: even with the schedule that runs the iterations one
after another, the second one reads an element the first one wrote, which is a data race of the parallel loop. (In a build without
OpenMP the loop is sequential and there is no race, but the second iteration then reads an already overwritten element.) -/
theorem C22_alias_race_sequential : matmul (fun _ _ => 0) exHeap exA exA exA = .error (.ub .dataRace) := by decide

end Nnet.Tensor
