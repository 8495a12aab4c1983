import Verif.NN.Demo
/-!
# C71: the demo programs
-/
namespace Nnet.NN
noncomputable section

/-! ## Specification -/

/-- Labels as one-hot rows. -/
def Spec.oneHot (n m : Nat) (ys : Nat → Int) : Mat ℝ := Mat.of n m (fun i j => if ys i = j then 1 else 0)

/-- What a demo's calls return: nothing for making the trainer, the costs of all rounds, then for every point a class below `q`. -/
def Spec.DemoResult (rounds points q : Nat) (rs : List Spec.Returned) (R : Mat ℝ) : Prop :=
  (∃ costs : List ℝ, costs.length = rounds ∧ rs = .nothing :: (costs.map .number ++ [.matrix R])) ∧ R.nr = points ∧ R.nc = 2 ∧ ∀ i < points, ∃ k < q, R.f i 0 = (k : ℝ)

/-! ## Training programs -/

theorem forall₂_replicate_feed {q l k : Nat} {x y : Mat ℝ} {c : Spec.Stmt} : ∀ {T : Nat} {rs : List Spec.Returned},
    List.Forall₂ (Spec.Returns q l) (List.replicate T (.feed k x y true) ++ [c]) rs → ∃ (costs : List ℝ) (r : Spec.Returned), costs.length = T ∧ rs = costs.map .number ++ [r] ∧ Spec.Returns q l c r
  | 0, _, .cons h .nil => ⟨[], _, rfl, rfl, h⟩
  | T + 1, r :: rs, .cons h1 h2 => by
    obtain ⟨cs, r', h3, h4, h5⟩ := forall₂_replicate_feed h2
    cases r <;> first | exact False.elim h1 | skip
    rename_i v
    exact ⟨v :: cs, r', by simp [h3], by simp [h4], h5⟩

theorem demo_run {dist : Draws} {io : TextIO} {mem : Nat → Nat → Nat → ℝ} {fs : Files} {r : Spec.Recipe} {p q : Nat} {x y m : Mat ℝ} {T : Nat} {a : Spec.TrainerArgs} (h : r.Chains p q)
    (ha : ∀ b d, a ≠ .batch b d) (hd : OutputLayer.DeltaOK r.costd) (hc : Spec.CostOK r.cost) (hT : T + 2 < 2 ^ 64) (hx : 0 < x.nr) (hxc : x.nc = p) (hy : y.nr = x.nr) (hyc : y.nc = q)
    (hm : 0 < m.nr) (hmc : m.nc = p) :
    ∃ rs R, Spec.run dist io mem fs r (.make 0 a :: (List.replicate T (.feed 0 x y true) ++ [.call (.predict m)])) = (rs, .ok fs) ∧ Spec.DemoResult T m.nr q rs R := by
  have hfit : ∀ (l T : Nat) (last : Option Nat), Spec.AllFit p q l (fun j => if j = 0 then a else .trainer none) last (List.replicate T (.feed 0 x y true) ++ [.call (.predict m)]) := by
    intro l T
    induction T with
    | zero => intro last; exact ⟨⟨hm, hmc⟩, trivial⟩
    | succ T ih =>
      intro last
      refine ⟨⟨hx, hxc, hy, hyc, ?_⟩, ih _⟩
      show match a with
        | .batch b _ => 2 ≤ b ∧ b ≤ x.nr + 1 ∧ true = false
        | _ => True
      cases a <;> first | exact trivial | exact absurd rfl (ha _ _)
  obtain ⟨rs, fs', e, h1, h2⟩ := C70_program dist io mem fs h hd hc (by simp; omega) (prog := .make 0 a :: (List.replicate T (.feed 0 x y true) ++ [.call (.predict m)]))
    ⟨trivial, hfit _ T none⟩
  have hfs : fs' = fs := h2 (by
    intro c hc
    rcases List.mem_cons.1 hc with rfl | hc
    · exact trivial
    · rcases List.mem_append.1 hc with hc | hc
      · rw [(List.mem_replicate.1 hc).2]; exact trivial
      · rw [List.mem_singleton.1 hc]; exact trivial)
  rw [hfs] at e
  cases h1 with
  | @cons _ r0 _ rs' g1 g2 =>
    cases r0 <;> first | exact False.elim g1 | skip
    obtain ⟨costs, r1, h3, h4, h5⟩ := forall₂_replicate_feed g2
    cases r1 <;> first | exact False.elim h5 | skip
    rename_i R
    exact ⟨_, R, e, ⟨costs, h3, by rw [h4]⟩, h5⟩

/-! ## Loading -/

/-- A loop that fills the rows of `x` and `y` from top to bottom. -/
theorem load_loop {N c : Nat} {f0 f1 : Nat → ℝ} {ys : Nat → Int} {x0 : Mat ℝ} (hx : x0.nr = N) (hxc : x0.nc = 2) (body : Nat → Mat ℝ × Mat ℝ → Res (Mat ℝ × Mat ℝ))
    (hb : ∀ i xy, body i xy = (do
      let x ← xy.1.setAt i 0 (f0 i)
      let x ← x.setAt i 1 (f1 i)
      let y ← xy.2.setAt i (ys i) 1
      .ok (x, y))) :
    ∀ n ≤ N, (∀ i < n, 0 ≤ ys i ∧ ys i < c) →
      loop n body (x0, Mat.of N c (fun _ _ => 0)) = .ok (Mat.of N 2 (fun i j => if i < n then (if j = 0 then f0 i else f1 i) else x0.f i j),
        Mat.of N c (fun i j => if i < n ∧ ys i = j then 1 else 0))
  | 0, _, _ => by
    show Except.ok _ = _
    congr 2
    refine Mat.ext' (by rw [hx]; rfl) (by rw [hxc]; rfl) fun i j hi hj => ?_
    rw [Mat.of_f' (by omega) (by omega)]
    simp
  | n + 1, hn, hy => by
    unfold loop
    rw [load_loop hx hxc body hb n (by omega) fun i hi => hy i (by omega), ok_bind, hb]
    obtain ⟨h1, h2⟩ := hy n (by omega)
    simp only
    rw [Mat.setAt_ok (i := (n : Int)) (j := (0 : Int)) (a := n) (b := 0) _ rfl rfl (by exact hn) (by show 0 < 2; omega), ok_bind,
      Mat.setAt_ok (i := (n : Int)) (j := (1 : Int)) (a := n) (b := 1) _ rfl rfl (by exact hn) (by show 1 < 2; omega), ok_bind,
      Mat.setAt_ok (a := n) (b := (ys n).toNat) _ rfl (by omega) (by exact hn) (by show (ys n).toNat < c; omega), ok_bind]
    congr 2
    · refine Mat.ext' rfl rfl fun i j hi hj => ?_
      replace hi : i < N := hi
      replace hj : j < 2 := hj
      rw [Mat.of_f' (by exact hi) (by exact hj), Mat.of_f' (by exact hi) (by exact hj), Mat.of_f' (by exact hi) (by exact hj), Mat.of_f' hi hj]
      rcases Nat.lt_trichotomy i n with h | h | h
      · rw [if_neg (by omega), if_neg (by omega), if_pos h, if_pos (by omega : i < n + 1)]
      · subst h
        rw [if_pos (by omega : i < i + 1)]
        by_cases h0 : j = 0
        · rw [if_neg (by omega), if_pos (by omega), if_pos h0]
        · rw [if_pos (by omega), if_neg h0]
      · rw [if_neg (by omega), if_neg (by omega), if_neg (by omega), if_neg (by omega)]
    · refine Mat.ext' rfl rfl fun i j hi hj => ?_
      replace hi : i < N := hi
      replace hj : j < c := hj
      rw [Mat.of_f' (by exact hi) (by exact hj), Mat.of_f' (by exact hi) (by exact hj), Mat.of_f' hi hj]
      by_cases h : i = n
      · subst h
        by_cases hj' : ys i = j
        · rw [if_pos (by omega), if_pos (by omega)]
        · rw [if_neg (by omega), if_neg (by omega), if_neg (by omega)]
      · rw [if_neg (by omega)]
        by_cases hq : i < n ∧ ys i = j
        · rw [if_pos hq, if_pos ⟨by omega, hq.2⟩]
        · rw [if_neg hq, if_neg (by omega)]

/-- A label outside the classes makes the loop throw. -/
theorem load_loop_bad {N c : Nat} {f0 f1 : Nat → ℝ} {ys : Nat → Int} {x0 : Mat ℝ} (hx : x0.nr = N) (hxc : x0.nc = 2) (body : Nat → Mat ℝ × Mat ℝ → Res (Mat ℝ × Mat ℝ))
    (hb : ∀ i xy, body i xy = (do
      let x ← xy.1.setAt i 0 (f0 i)
      let x ← x.setAt i 1 (f1 i)
      let y ← xy.2.setAt i (ys i) 1
      .ok (x, y))) (n : Nat) (hn : n ≤ N) (hy : ∃ i < n, ¬ (0 ≤ ys i ∧ ys i < c)) : loop n body (x0, Mat.of N c (fun _ _ => 0)) = .error .throw := by
  induction n with
  | zero => obtain ⟨i, hi, _⟩ := hy; omega
  | succ n ih =>
    unfold loop
    by_cases hprev : ∃ i < n, ¬ (0 ≤ ys i ∧ ys i < c)
    · rw [ih (by omega) hprev]; rfl
    · have hgood : ∀ i < n, 0 ≤ ys i ∧ ys i < c := fun i hi => by
        by_contra hc
        exact hprev ⟨i, hi, hc⟩
      obtain ⟨i, hi, hbad⟩ := hy
      obtain rfl : i = n := by
        by_contra hne
        exact hbad (hgood i (by omega))
      rw [load_loop hx hxc body hb i (by omega) hgood, ok_bind, hb]
      simp only
      rw [Mat.setAt_ok (i := (i : Int)) (j := (0 : Int)) (a := i) (b := 0) _ rfl rfl (by exact hn) (by show 0 < 2; omega), ok_bind,
        Mat.setAt_ok (i := (i : Int)) (j := (1 : Int)) (a := i) (b := 1) _ rfl rfl (by exact hn) (by show 1 < 2; omega), ok_bind]
      unfold Mat.setAt
      rw [if_neg (by
        rintro ⟨_, h1, _, h2⟩
        exact hbad ⟨h1, h2⟩)]
      rfl

/-- A loop that fills a matrix with two columns. -/
theorem sample_loop {N : Nat} {f0 f1 : Nat → ℝ} {x0 : Mat ℝ} (hx : x0.nr = N) (hxc : x0.nc = 2) (body : Nat → Mat ℝ → Res (Mat ℝ))
    (hb : ∀ i x, body i x = (do
      let x ← x.setAt i 0 (f0 i)
      x.setAt i 1 (f1 i))) :
    ∀ n ≤ N, loop n body x0 = .ok (Mat.of N 2 (fun i j => if i < n then (if j = 0 then f0 i else f1 i) else x0.f i j))
  | 0, _ => by
    show Except.ok _ = _
    congr 1
    refine Mat.ext' (by rw [hx]; rfl) (by rw [hxc]; rfl) fun i j hi hj => ?_
    rw [Mat.of_f' (by omega) (by omega)]
    simp
  | n + 1, hn => by
    unfold loop
    rw [sample_loop hx hxc body hb n (by omega), ok_bind, hb]
    rw [Mat.setAt_ok (i := (n : Int)) (j := (0 : Int)) (a := n) (b := 0) _ rfl rfl (by exact hn) (by show 0 < 2; omega), ok_bind,
      Mat.setAt_ok (i := (n : Int)) (j := (1 : Int)) (a := n) (b := 1) _ rfl rfl (by exact hn) (by show 1 < 2; omega)]
    congr 1
    refine Mat.ext' rfl rfl fun i j hi hj => ?_
    replace hi : i < N := hi
    replace hj : j < 2 := hj
    rw [Mat.of_f' (by exact hi) (by exact hj), Mat.of_f' (by exact hi) (by exact hj), Mat.of_f' (by exact hi) (by exact hj), Mat.of_f' hi hj]
    rcases Nat.lt_trichotomy i n with h | h | h
    · rw [if_neg (by omega), if_neg (by omega), if_pos h, if_pos (by omega : i < n + 1)]
    · subst h
      rw [if_pos (by omega : i < i + 1)]
      by_cases h0 : j = 0
      · rw [if_neg (by omega), if_pos (by omega), if_pos h0]
      · rw [if_pos (by omega), if_neg h0]
    · rw [if_neg (by omega), if_neg (by omega), if_neg (by omega), if_neg (by omega)]

/-! ## xor_problem.cpp -/

/-- The demo's own cost functions are those of `CrossEntropyOutput`. -/
theorem Xor.cost_eq : Xor.cost = CrossEntropy.cost ∧ Xor.costd = CrossEntropy.costd := ⟨rfl, rfl⟩

theorem Xor.chains : Xor.recipe.Chains 2 2 := by
  refine ⟨rfl, by omega, ?_⟩
  simp [Xor.recipe, Spec.SizesChain]

theorem Spiral.chains : Spiral.recipe.Chains 2 3 := by
  refine ⟨rfl, by omega, ?_⟩
  simp [Spiral.recipe, Spec.SizesChain]

/-- **C71, loading (xor_problem.cpp).** With both files open and every label 0 or 1 the rows of `x` are the second and third numbers of each line and `y` is one-hot; with another label
`load` throws; with a file missing `x` is whatever the memory contained and `y` is 0, and nothing is reported. -/
theorem C71_xor_load (junk : Nat → Nat → ℝ) (xs : Nat → ℝ) (ys : Nat → Int) :
    ((∀ i < 100, 0 ≤ ys i ∧ ys i < 2) → Xor.load junk true xs ys = .ok (Mat.of 100 2 (fun i j => if j = 0 then xs (3 * i + 1) else xs (3 * i + 2)), Spec.oneHot 100 2 ys)) ∧
    ((∃ i < 100, ¬ (0 ≤ ys i ∧ ys i < 2)) → Xor.load junk true xs ys = .error .throw) ∧
    Xor.load junk false xs ys = .ok (Mat.of 100 2 junk, Mat.of 100 2 (fun _ _ => 0)) := by
  have hmk : Mat.mk' junk 100 2 = .ok (Mat.of 100 2 junk) := by unfold Mat.mk'; rw [if_pos (by omega)]; rfl
  refine ⟨fun h => ?_, fun h => ?_, ?_⟩
  · unfold Xor.load
    rw [hmk, ok_bind, if_pos rfl]
    rw [load_loop (N := 100) (c := 2) (f0 := fun i => xs (3 * i + 1)) (f1 := fun i => xs (3 * i + 2)) (ys := ys) rfl rfl _ (fun _ _ => rfl) 100 (le_refl _) h]
    congr 2
    · exact Mat.ext' rfl rfl fun i j hi hj => by
        rw [Mat.of_f' (by exact hi) (by exact hj), if_pos (by exact hi), Mat.of_f' (by exact hi) (by exact hj)]
    · exact Mat.ext' rfl rfl fun i j hi hj => by
        unfold Spec.oneHot
        rw [Mat.of_f' (by exact hi) (by exact hj), Mat.of_f' (by exact hi) (by exact hj)]
        have : i < 100 := hi
        simp [this]
  · unfold Xor.load
    rw [hmk, ok_bind, if_pos rfl]
    exact load_loop_bad (N := 100) (c := 2) (f0 := fun i => xs (3 * i + 1)) (f1 := fun i => xs (3 * i + 2)) (ys := ys) rfl rfl _ (fun _ _ => rfl) 100 (le_refl _) h
  · unfold Xor.load
    rw [hmk, ok_bind, if_neg (by simp)]

/-- The grid of points: row `r * w + c` is the point of pixel `(r, c)`. -/
theorem C71_xor_sample (junk : Nat → Nat → ℝ) (w h : Nat) :
    ∃ m, Xor.loadsample junk w h = .ok m ∧ m.nr = w * h ∧ m.nc = 2 ∧ ∀ r < h, ∀ c < w, m.f (r * w + c) 0 = (c : ℝ) / w ∧ m.f (r * w + c) 1 = (r : ℝ) / h := by
  have hmk : Mat.mk' junk (w * h : Nat) 2 = .ok (Mat.of (w * h) 2 junk) := by
    unfold Mat.mk'
    rw [if_pos (by omega)]
    rfl
  unfold Xor.loadsample
  rw [hmk, ok_bind, sample_loop (N := w * h) (f0 := fun i => 1 * ((i % w : Nat) : ℝ) / w) (f1 := fun i => 1 * ((i / w : Nat) : ℝ) / h) rfl rfl _ (fun _ _ => rfl) (h * w) (by rw [Nat.mul_comm])]
  refine ⟨_, rfl, rfl, rfl, fun r hr c hc => ?_⟩
  have hlt : r * w + c < w * h := by
    calc r * w + c < r * w + w := by omega
      _ = (r + 1) * w := by ring
      _ ≤ h * w := Nat.mul_le_mul_right _ hr
      _ = w * h := Nat.mul_comm _ _
  have hmod : (r * w + c) % w = c := by rw [Nat.mul_comm, Nat.mul_add_mod]; exact Nat.mod_eq_of_lt hc
  have hdiv : (r * w + c) / w = r := by
    rw [Nat.mul_comm, Nat.mul_add_div (by omega), Nat.div_eq_of_lt hc, Nat.add_zero]
  have hlt' : r * w + c < h * w := by rw [Nat.mul_comm h w]; exact hlt
  constructor
  · rw [Mat.of_f' hlt (by omega), if_pos hlt', if_pos rfl, hmod, one_mul]
  · rw [Mat.of_f' hlt (by omega), if_pos hlt', if_neg (by omega), hdiv, one_mul]


/-- A pixel loop that visits the rows of the result in order. -/
theorem draw_loop {w h : Nat} {body : Nat → (Nat → Nat → Nat) → Res (Nat → Nat → Nat)} (v : Nat → Nat)
    (hb : ∀ i c, i < w * h → body i c = .ok (fun a b => if a = i / w ∧ b = i % w then v i else c a b)) : ∀ n ≤ w * h,
    ∃ c, loop n body (fun _ _ => 0) = .ok c ∧ ∀ r < h, ∀ k < w, r * w + k < n → c r k = v (r * w + k)
  | 0, _ => ⟨_, rfl, fun _ _ _ _ h => by omega⟩
  | n + 1, hn => by
    obtain ⟨c, e, hc⟩ := draw_loop v hb n (by omega)
    refine ⟨_, by unfold loop; rw [e, ok_bind, hb n c (by omega)], fun r hr k hk hlt => ?_⟩
    have hmod : (r * w + k) % w = k := by rw [Nat.mul_comm, Nat.mul_add_mod]; exact Nat.mod_eq_of_lt hk
    have hdiv : (r * w + k) / w = r := by rw [Nat.mul_comm, Nat.mul_add_div (by omega), Nat.div_eq_of_lt hk, Nat.add_zero]
    by_cases hq : r * w + k = n
    · rw [← hq, hmod, hdiv, if_pos ⟨rfl, rfl⟩]
    · rw [if_neg, hc r hr k hk (by omega)]
      rintro ⟨h1, h2⟩
      have := Nat.div_add_mod n w
      rw [← h1, ← h2, Nat.mul_comm] at this
      exact hq this

theorem pixel_in {w h i : Nat} (hi : i < w * h) : i / w < h ∧ i % w < w := by
  have hw : 0 < w := by
    rcases Nat.eq_zero_or_pos w with e | e
    · subst e; simp at hi
    · exact e
  exact ⟨(Nat.div_lt_iff_lt_mul hw).2 (by rw [Nat.mul_comm]; exact hi), Nat.mod_lt _ hw⟩

/-- **C71, drawing (xor_problem.cpp).** With a result of `w * h` rows no pixel outside the canvas is written, and every pixel shows the class of its own point. -/
theorem C71_xor_draw (w h : Nat) (R : Mat ℝ) (hR : R.nr = w * h) (hc : 0 < R.nc) :
    ∃ c, Xor.draw w h R = .ok c ∧ ∀ r < h, ∀ k < w, c r k = if R.f (r * w + k) 0 = 1 then 128 else 0 := by
  unfold Xor.draw
  rw [hR]
  obtain ⟨c, e, hv⟩ := draw_loop (w := w) (h := h) (fun i => if R.f i 0 = 1 then 128 else 0) (body := fun i (c : Nat → Nat → Nat) => do
    if i / w < h ∧ i % w < w then
      let v ← R.at' i 0
      .ok (fun a b => if a = i / w ∧ b = i % w then (if v = 1 then 128 else 0) else c a b)
    else .error (.ub .vectorIndex)) (fun i c hi => by
      rw [if_pos (pixel_in hi), Mat.at_ok' (i := (i : Int)) (j := (0 : Int)) (a := i) (b := 0) rfl rfl (by omega) hc, ok_bind]) (w * h) (le_refl _)
  refine ⟨c, e, fun r hr k hk => hv r hr k hk ?_⟩
  calc r * w + k < r * w + w := by omega
    _ = (r + 1) * w := by ring
    _ ≤ h * w := Nat.mul_le_mul_right _ hr
    _ = w * h := Nat.mul_comm _ _

/-- **C71 (xor_problem.cpp).** Whatever the random numbers, the uninitialised memory and the data: if the files are missing or all labels are 0 or 1 the program trains for 120000 rounds and
predicts a class, 0 or 1, for each of the 480000 points without any failure; with another label it ends with an exception before training. -/
theorem C71_xor (dist : Draws) (io : TextIO) (mem : Nat → Nat → Nat → ℝ) (junk : Nat → Nat → ℝ) (fs : Files) (opened : Bool) (xs : Nat → ℝ) (ys : Nat → Int) :
    (opened = false ∨ (∀ i < 100, 0 ≤ ys i ∧ ys i < 2) → ∃ rs R, Xor.main dist io mem junk fs opened xs ys = (rs, .ok fs) ∧ Spec.DemoResult 120000 480000 2 rs R) ∧
    (opened = true → (∃ i < 100, ¬ (0 ≤ ys i ∧ ys i < 2)) → Xor.main dist io mem junk fs opened xs ys = ([], .error .throw)) := by
  obtain ⟨l1, l2, l3⟩ := C71_xor_load junk xs ys
  constructor
  · intro h
    have hl : ∃ x y, Xor.load junk opened xs ys = .ok (x, y) ∧ x.nr = 100 ∧ x.nc = 2 ∧ y.nr = 100 ∧ y.nc = 2 := by
      cases opened with
      | false => exact ⟨_, _, l3, rfl, rfl, rfl, rfl⟩
      | true => exact ⟨_, _, l1 (h.resolve_left (by simp)), rfl, rfl, rfl, rfl⟩
    obtain ⟨x, y, e, x1, x2, y1, y2⟩ := hl
    obtain ⟨m, em, m1, m2, _⟩ := C71_xor_sample junk 800 600
    unfold Xor.main
    rw [e, ok_bind, em, ok_bind]
    have := demo_run (dist := dist) (io := io) (mem := mem) (fs := fs) (x := x) (y := y) (m := m) (T := 120000) (a := .momentum 0.5 none) Xor.chains (fun _ _ h => nomatch h) C54_costs.2.1 C70_costs.2.1
      (by norm_num) (by omega) x2 (by omega) y2 (by rw [m1]; norm_num) m2
    rw [m1] at this
    exact this
  · rintro rfl h
    unfold Xor.main
    rw [l2 h]
    rfl

/-! ## spiral.cpp -/

/-- **C71, loading (spiral.cpp).** As for xor_problem.cpp, with two numbers per line and three classes. -/
theorem C71_spiral_load (junk : Nat → Nat → ℝ) (xs : Nat → ℝ) (ys : Nat → Int) :
    ((∀ i < 300, 0 ≤ ys i ∧ ys i < 3) → Spiral.load junk true xs ys = .ok (Mat.of 300 2 (fun i j => if j = 0 then xs (2 * i) else xs (2 * i + 1)), Spec.oneHot 300 3 ys)) ∧
    ((∃ i < 300, ¬ (0 ≤ ys i ∧ ys i < 3)) → Spiral.load junk true xs ys = .error .throw) ∧
    Spiral.load junk false xs ys = .ok (Mat.of 300 2 junk, Mat.of 300 3 (fun _ _ => 0)) := by
  have hmk : Mat.mk' junk 300 2 = .ok (Mat.of 300 2 junk) := by unfold Mat.mk'; rw [if_pos (by omega)]; rfl
  refine ⟨fun h => ?_, fun h => ?_, ?_⟩
  · unfold Spiral.load
    rw [hmk, ok_bind, if_pos rfl]
    rw [load_loop (N := 300) (c := 3) (f0 := fun i => xs (2 * i)) (f1 := fun i => xs (2 * i + 1)) (ys := ys) rfl rfl _ (fun _ _ => rfl) 300 (le_refl _) h]
    congr 2
    · exact Mat.ext' rfl rfl fun i j hi hj => by
        rw [Mat.of_f' (by exact hi) (by exact hj), if_pos (by exact hi), Mat.of_f' (by exact hi) (by exact hj)]
    · exact Mat.ext' rfl rfl fun i j hi hj => by
        unfold Spec.oneHot
        rw [Mat.of_f' (by exact hi) (by exact hj), Mat.of_f' (by exact hi) (by exact hj)]
        have : i < 300 := hi
        simp [this]
  · unfold Spiral.load
    rw [hmk, ok_bind, if_pos rfl]
    exact load_loop_bad (N := 300) (c := 3) (f0 := fun i => xs (2 * i)) (f1 := fun i => xs (2 * i + 1)) (ys := ys) rfl rfl _ (fun _ _ => rfl) 300 (le_refl _) h
  · unfold Spiral.load
    rw [hmk, ok_bind, if_neg (by simp)]

/-- The grid of points covers the square from -1 to 1. -/
theorem C71_spiral_sample (junk : Nat → Nat → ℝ) (w h : Nat) :
    ∃ m, Spiral.loadsample junk w h = .ok m ∧ m.nr = w * h ∧ m.nc = 2 ∧ ∀ r < h, ∀ c < w, m.f (r * w + c) 0 = (c : ℝ) / w * 2 - 1 ∧ m.f (r * w + c) 1 = (r : ℝ) / h * 2 - 1 := by
  have hmk : Mat.mk' junk (w * h : Nat) 2 = .ok (Mat.of (w * h) 2 junk) := by
    unfold Mat.mk'
    rw [if_pos (by omega)]
    rfl
  unfold Spiral.loadsample
  rw [hmk, ok_bind, sample_loop (N := w * h) (f0 := fun i => 1 * ((i % w : Nat) : ℝ) / w * 2 - 1) (f1 := fun i => 1 * ((i / w : Nat) : ℝ) / h * 2 - 1) rfl rfl _ (fun _ _ => rfl) (h * w)
    (by rw [Nat.mul_comm])]
  refine ⟨_, rfl, rfl, rfl, fun r hr c hc => ?_⟩
  have hlt : r * w + c < w * h := by
    calc r * w + c < r * w + w := by omega
      _ = (r + 1) * w := by ring
      _ ≤ h * w := Nat.mul_le_mul_right _ hr
      _ = w * h := Nat.mul_comm _ _
  have hmod : (r * w + c) % w = c := by rw [Nat.mul_comm, Nat.mul_add_mod]; exact Nat.mod_eq_of_lt hc
  have hdiv : (r * w + c) / w = r := by
    rw [Nat.mul_comm, Nat.mul_add_div (by omega), Nat.div_eq_of_lt hc, Nat.add_zero]
  have hlt' : r * w + c < h * w := by rw [Nat.mul_comm h w]; exact hlt
  constructor
  · rw [Mat.of_f' hlt (by omega), if_pos hlt', if_pos rfl, hmod, one_mul]
  · rw [Mat.of_f' hlt (by omega), if_pos hlt', if_neg (by omega), hdiv, one_mul]

/-- **C71, drawing (spiral.cpp).** With a result of `w * h` rows whose classes are 0, 1 or 2 no pixel outside the canvas is written, every pixel is painted, in the colour of the class of its
own point. -/
theorem C71_spiral_draw (w h : Nat) (R : Mat ℝ) (hR : R.nr = w * h) (hc : 0 < R.nc) (hk : ∀ i < w * h, ∃ k < 3, R.f i 0 = ((k : Nat) : ℝ)) :
    ∃ c, Spiral.draw w h R = .ok c ∧ ∀ r < h, ∀ k < w, ∃ cl < 3, R.f (r * w + k) 0 = ((cl : Nat) : ℝ) ∧ c r k = cl + 1 := by
  unfold Spiral.draw
  rw [hR]
  obtain ⟨c, e, hv⟩ := draw_loop (w := w) (h := h) (fun i => if R.f i 0 = 0 then 1 else if R.f i 0 = 1 then 2 else 3) (body := fun i (c : Nat → Nat → Nat) => do
    let v ← R.at' i 0
    if v = 0 ∨ v = 1 ∨ v = 2 then
      if i / w < h ∧ i % w < w then
        .ok (fun a b => if a = i / w ∧ b = i % w then (if v = 0 then 1 else if v = 1 then 2 else 3) else c a b)
      else .error (.ub .vectorIndex)
    else .ok c) (fun i c hi => by
      rw [Mat.at_ok' (i := (i : Int)) (j := (0 : Int)) (a := i) (b := 0) rfl rfl (by omega) hc, ok_bind, if_pos, if_pos (pixel_in hi)]
      obtain ⟨k, hk3, hk⟩ := hk i hi
      rw [hk]
      interval_cases k <;> simp) (w * h) (le_refl _)
  refine ⟨c, e, fun r hr k hkw => ?_⟩
  have hlt : r * w + k < w * h := by
    calc r * w + k < r * w + w := by omega
      _ = (r + 1) * w := by ring
      _ ≤ h * w := Nat.mul_le_mul_right _ hr
      _ = w * h := Nat.mul_comm _ _
  obtain ⟨cl, h3, hcl⟩ := hk _ hlt
  refine ⟨cl, h3, hcl, ?_⟩
  rw [hv r hr k hkw hlt, hcl]
  interval_cases cl <;> norm_num

/-- **C71 (spiral.cpp).** As for xor_problem.cpp, with 36000 rounds and three classes. -/
theorem C71_spiral (dist : Draws) (io : TextIO) (mem : Nat → Nat → Nat → ℝ) (junk : Nat → Nat → ℝ) (fs : Files) (opened : Bool) (xs : Nat → ℝ) (ys : Nat → Int) :
    (opened = false ∨ (∀ i < 300, 0 ≤ ys i ∧ ys i < 3) → ∃ rs R, Spiral.main dist io mem junk fs opened xs ys = (rs, .ok fs) ∧ Spec.DemoResult 36000 480000 3 rs R) ∧
    (opened = true → (∃ i < 300, ¬ (0 ≤ ys i ∧ ys i < 3)) → Spiral.main dist io mem junk fs opened xs ys = ([], .error .throw)) := by
  obtain ⟨l1, l2, l3⟩ := C71_spiral_load junk xs ys
  constructor
  · intro h
    have hl : ∃ x y, Spiral.load junk opened xs ys = .ok (x, y) ∧ x.nr = 300 ∧ x.nc = 2 ∧ y.nr = 300 ∧ y.nc = 3 := by
      cases opened with
      | false => exact ⟨_, _, l3, rfl, rfl, rfl, rfl⟩
      | true => exact ⟨_, _, l1 (h.resolve_left (by simp)), rfl, rfl, rfl, rfl⟩
    obtain ⟨x, y, e, x1, x2, y1, y2⟩ := hl
    obtain ⟨m, em, m1, m2, _⟩ := C71_spiral_sample junk 800 600
    unfold Spiral.main
    rw [e, ok_bind, em, ok_bind]
    have := demo_run (dist := dist) (io := io) (mem := mem) (fs := fs) (x := x) (y := y) (m := m) (T := 36000) (a := .trainer none) Spiral.chains (fun _ _ h => nomatch h) C54_costs.2.2.1 C70_costs.2.2.1
      (by norm_num) (by omega) x2 (by omega) y2 (by rw [m1]; norm_num) m2
    rw [m1] at this
    exact this
  · rintro rfl h
    unfold Spiral.main
    rw [l2 h]
    rfl

end
end Nnet.NN
