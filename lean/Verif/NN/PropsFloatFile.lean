import Verif.NN.FloatFileLemmas2
/-!
# C79 saving and loading weights of type `double`

`Spec.allWeights` lists the weights of a network layer by layer and row by row, which is the order of the file.
-/
namespace Nnet.NN.Flt
open B64 FV
noncomputable section

/-- The weight is a finite number (not an infinity, not NaN). -/
def Spec.Finite {P : Platform} (x : Double P) : Prop := ∃ r, Dbl.v x = fin r

/-- The weight `x` has come back as `y`: finite, of the same sign (also of a zero), with a relative error of at most one part in 100000. -/
def Spec.CameBack {P : Platform} (x y : Double P) : Prop := ∃ r r', Dbl.v x = fin r ∧ Dbl.v y = fin r' ∧ |r' - r| ≤ 1 / 10 ^ 5 * |r| ∧ sign y = sign x

variable (P : Platform) (nn : Dbl → Bool)

/-- A weight printed and read. -/
def back (x : Double P) : Double P := (convD P (fmtD nn x)).1

/-- What loading the file of `n` gives, if all weights of `n` up to number `t` are finite. -/
theorem load_prefix {n n' n'' : Net (Double P)} (hsh : Spec.SameShapes n n') (haw : Spec.allWeights n'' = (List.range (n'.weights.map Mat.size).sum).map
      (readV (dblText P nn) ⟨NN.Spec.fileText (dblText P nn).fmt n.weights, true⟩)) :
    (Spec.allWeights n'').length = (Spec.allWeights n).length ∧
    (∀ (t : Nat) x, (Spec.allWeights n)[t]? = some x → (∀ (s : Nat) u, s ≤ t → (Spec.allWeights n)[s]? = some u → Spec.Finite u) →
      (Spec.allWeights n'')[t]? = some (back P nn x)) ∧
    ∀ (t : Nat) x, (Spec.allWeights n)[t]? = some x → ¬ Spec.Finite x → (∀ (s : Nat) u, s < t → (Spec.allWeights n)[s]? = some u → Spec.Finite u) →
      ∀ (s : Nat) y, t ≤ s → (Spec.allWeights n'')[s]? = some y → y = (0 : Double P) := by
  have hlen : (Spec.allWeights n'').length = (Spec.allWeights n).length := by
    rw [haw, List.length_map, List.length_range, allWeights_length, sizes_of_shapes hsh]
  have hget : ∀ t y, (Spec.allWeights n'')[t]? = some y → y = readV (dblText P nn) ⟨NN.Spec.fileText (dblText P nn).fmt n.weights, true⟩ t := by
    intro t y h
    rw [haw, List.getElem?_map, Option.map_eq_some_iff] at h
    obtain ⟨k, hk, rfl⟩ := h
    rw [List.getElem?_range (by
      by_contra hc
      rw [List.getElem?_eq_none (by simpa using hc)] at hk
      cases hk)] at hk
    cases hk
    rfl
  refine ⟨hlen, ?_, ?_⟩
  · intro t x hx hfin
    have hlt : t < (Spec.allWeights n'').length := by
      rw [hlen]
      exact (List.getElem?_eq_some_iff.1 hx).1
    rw [List.getElem?_eq_getElem hlt]
    congr 1
    rw [hget t _ (List.getElem?_eq_getElem hlt)]
    exact read_file (round := back P nn) n.weights hx (fun s u hs hu => by
      obtain ⟨r, hr⟩ := hfin s u hs hu
      exact (back_fin P nn hr).1)
  · intro t x hx hnf hfin s y hts hy
    rw [hget s y hy]
    obtain ⟨m, rfl⟩ := Nat.exists_eq_add_of_le hts
    exact read_file_fail (round := back P nn) n.weights hx (fails_nan P nn (fun r hr => hnf ⟨r, hr⟩)) (fun s u hs hu => by
      obtain ⟨r, hr⟩ := hfin s u hs hu
      exact (back_fin P nn hr).1) m

theorem cameBack {x : Double P} (hx : Spec.Finite x) : Spec.CameBack x (back P nn x) := by
  obtain ⟨r, hr⟩ := hx
  obtain ⟨-, h2, h3, -⟩ := back_fin P nn hr
  exact ⟨r, _, hr, h2, round6_near (by rw [← hr]; exact Dbl.ok x), h3⟩

theorem text_pieces {F : Type} [Arith F] (fmt : F → List Char) (Ws : List (Mat F)) :
    (NN.Spec.fileText fmt Ws).length = (((Ws.flatMap NN.Spec.flat).map fun v => (fmt v).length + 1)).sum + Ws.length := by
  induction Ws with
  | nil => rfl
  | cons W Ws ih =>
    show (NN.Spec.matText fmt W ++ NN.Spec.fileText fmt Ws).length = _
    rw [List.length_append, ih, List.flatMap_cons, List.map_append, List.sum_append, List.length_cons]
    unfold NN.Spec.matText
    rw [List.length_append, List.length_flatMap]
    simp only [List.length_append, List.length_singleton]
    omega

/-- Texts of files of equally shaped weights are equal if the texts of all numbers are. -/
theorem text_congr {F : Type} [Arith F] (fmt : F → List Char) : ∀ (Ws Ws' : List (Mat F)), Ws'.map (fun W => (W.nr, W.nc)) = Ws.map (fun W => (W.nr, W.nc)) →
    (Ws'.flatMap NN.Spec.flat).map fmt = (Ws.flatMap NN.Spec.flat).map fmt → NN.Spec.fileText fmt Ws' = NN.Spec.fileText fmt Ws
  | [], [], _, _ => rfl
  | [], _ :: _, h, _ => by simp at h
  | _ :: _, [], h, _ => by simp at h
  | W :: Ws, W' :: Ws', h, h' => by
    rw [List.map_cons, List.map_cons, List.cons_eq_cons, Prod.mk.injEq] at h
    rw [List.flatMap_cons, List.flatMap_cons, List.map_append, List.map_append] at h'
    have := List.append_inj h' (by rw [List.length_map, List.length_map, flat_length, flat_length, h.1.1, h.1.2])
    show NN.Spec.matText fmt W' ++ NN.Spec.fileText fmt Ws' = NN.Spec.matText fmt W ++ NN.Spec.fileText fmt Ws
    rw [text_congr fmt Ws Ws' h.2 this.2]
    congr 1
    unfold NN.Spec.matText
    congr 1
    have e : ∀ l : List F, l.flatMap (fun v => fmt v ++ [' ']) = (l.map fmt).flatMap (fun t => t ++ [' ']) := fun l => by rw [List.flatMap_map]
    rw [e, e, this.1]

/-- **C79, finite weights.** Save a network all of whose weights are finite doubles and load the file into any network of the same architecture: `load` succeeds, nothing but weights
changes, every weight comes back finite, with its sign and a relative error of at most one part in 100000. Saving that network gives the identical file if, and only if, no weight
is plus or minus 202403 * 2^-1074. -/
theorem C79_finite {n n' : Net (Double P)} (hsh : Spec.SameShapes n n') (hfin : ∀ x ∈ Spec.allWeights n, Spec.Finite x) (path : String) (fs : Files) :
    ∃ fs' n'', n.save (dblText P nn) path true fs = .ok fs' ∧ (∀ q, q ≠ path → fs' q = fs q) ∧ n'.load (dblText P nn) path fs' = .ok n'' ∧ Spec.OnlyWeights n' n'' ∧
      List.Forall₂ Spec.CameBack (Spec.allWeights n) (Spec.allWeights n'') ∧
      ∀ path' gs, ∃ gs', n''.save (dblText P nn) path' true gs = .ok gs' ∧
        (gs' path' = fs' path ↔ ∀ x ∈ Spec.allWeights n, Dbl.v x ≠ fin (202403 * 2 ^ (-1074 : ℤ)) ∧ Dbl.v x ≠ fin (-(202403 * 2 ^ (-1074 : ℤ)))) := by
  obtain ⟨n'', h1, h2, h3⟩ := load_ok (dblText P nn) n' path (fs.put path (NN.Spec.fileText (dblText P nn).fmt n.weights)) (if_pos rfl)
  obtain ⟨hlen, hpre, -⟩ := load_prefix P nn hsh h3
  have haw : Spec.allWeights n'' = (Spec.allWeights n).map (back P nn) := by
    apply List.ext_getElem?
    intro t
    rw [List.getElem?_map]
    cases hx : (Spec.allWeights n)[t]? with
    | none =>
      rw [List.getElem?_eq_none_iff] at hx
      rw [List.getElem?_eq_none (by rw [hlen]; exact hx)]
      rfl
    | some x => exact hpre t x hx (fun s u _ hu => hfin u (List.mem_of_getElem? hu))
  refine ⟨_, n'', save_ok _ n path fs, fun q hq => if_neg hq, h1, h2, ?_, ?_⟩
  · rw [haw, List.forall₂_map_right_iff, List.forall₂_same]
    exact fun x hx => cameBack P nn (hfin x hx)
  · intro path' gs
    refine ⟨_, save_ok _ n'' path' gs, ?_⟩
    rw [show (gs.put path' (NN.Spec.fileText (dblText P nn).fmt n''.weights)) path' = some _ from if_pos rfl,
      show (fs.put path (NN.Spec.fileText (dblText P nn).fmt n.weights)) path = some _ from if_pos rfl, Option.some.injEq]
    have hodd : ∀ x : Double P, Spec.Finite x → ((Dbl.v x ≠ fin (202403 * 2 ^ (-1074 : ℤ)) ∧ Dbl.v x ≠ fin (-(202403 * 2 ^ (-1074 : ℤ)))) ↔
        ∃ r, Dbl.v x = fin r ∧ |r| ≠ B64.Spec.odd) := by
      rintro x ⟨r, hr⟩
      have h0 : 0 < B64.Spec.odd := mul_pos (by norm_num) (two_zpow_pos _)
      rw [hr]
      show (fin r ≠ fin B64.Spec.odd ∧ fin r ≠ fin (-B64.Spec.odd)) ↔ _
      constructor
      · rintro ⟨a, b⟩
        refine ⟨r, rfl, fun h => ?_⟩
        rcases (abs_eq h0.le).1 h with h | h
        · exact a (by rw [h])
        · exact b (by rw [h])
      · rintro ⟨r', h, h'⟩
        cases h
        refine ⟨fun h => h' ?_, fun h => h' ?_⟩
        · injection h with h
          rw [h, abs_of_pos h0]
        · injection h with h
          rw [h, abs_neg, abs_of_pos h0]
    constructor
    · intro heq x hx
      obtain ⟨r, hr⟩ := hfin x hx
      refine (hodd x ⟨r, hr⟩).2 ⟨r, hr, fun ho => ?_⟩
      have hl := congrArg List.length heq
      rw [text_pieces, text_pieces, show n''.weights.flatMap NN.Spec.flat = Spec.allWeights n'' from rfl, show n.weights.flatMap NN.Spec.flat = Spec.allWeights n from rfl, haw,
        List.map_map] at hl
      have hwl : n''.weights.length = n.weights.length := by
        have := congrArg List.length ((Spec.OnlyWeights.shapes h2).trans hsh)
        simpa using this
      have hsum := List.sum_lt_sum (l := Spec.allWeights n) (fun x : Double P => ((dblText P nn).fmt x).length + 1) ((fun v : Double P => ((dblText P nn).fmt v).length + 1) ∘ back P nn)
        (fun y hy => by
          obtain ⟨r, hr⟩ := hfin y hy
          exact Nat.succ_le_succ (back_fin P nn hr).2.2.2.2.1)
        ⟨x, hx, Nat.succ_lt_succ ((back_fin P nn hr).2.2.2.2.2 ho)⟩
      rw [hwl] at hl
      exact absurd hl (by omega)
    · intro hno
      refine text_congr _ _ _ ((Spec.OnlyWeights.shapes h2).trans hsh) ?_
      show (Spec.allWeights n'').map _ = (Spec.allWeights n).map _
      rw [haw, List.map_map]
      refine List.map_congr_left fun x hx => ?_
      obtain ⟨r, hr, ho⟩ := (hodd x (hfin x hx)).1 (hno x hx)
      exact (back_fin P nn hr).2.2.2.1.2 ho

/-- **C79, infinities and NaN.** If a weight is infinite or NaN, saving and loading loses it *and every weight after it in the file*: they are all +0 afterwards. The weights before
the first such weight come back as in `C79_finite`. -/
theorem C79_nonfinite {n n' : Net (Double P)} (hsh : Spec.SameShapes n n') {t : Nat} {x : Double P} (hx : (Spec.allWeights n)[t]? = some x) (hnf : ¬ Spec.Finite x)
    (hfirst : ∀ s u, s < t → (Spec.allWeights n)[s]? = some u → Spec.Finite u) (path : String) (fs : Files) :
    ∃ fs' n'', n.save (dblText P nn) path true fs = .ok fs' ∧ n'.load (dblText P nn) path fs' = .ok n'' ∧ Spec.OnlyWeights n' n'' ∧
      (Spec.allWeights n'').length = (Spec.allWeights n).length ∧
      ∀ s y u, (Spec.allWeights n)[s]? = some u → (Spec.allWeights n'')[s]? = some y → (s < t → Spec.CameBack u y) ∧ (t ≤ s → Dbl.v y = fin 0 ∧ sign y = false) := by
  obtain ⟨n'', h1, h2, h3⟩ := load_ok (dblText P nn) n' path (fs.put path (NN.Spec.fileText (dblText P nn).fmt n.weights)) (if_pos rfl)
  obtain ⟨hlen, hpre, hpost⟩ := load_prefix P nn hsh h3
  refine ⟨_, n'', save_ok _ n path fs, h1, h2, hlen, fun s y u hu hy => ⟨fun hs => ?_, fun hs => ?_⟩⟩
  · have := hpre s u hu (fun s' u' hs' hu' => hfirst s' u' (by omega) hu')
    rw [hy] at this
    cases this
    exact cameBack P nn (hfirst s u hs hu)
  · rw [hpost t x hx hnf hfirst s y hs hy]
    refine ⟨rfl, ?_⟩
    show sign ⟨fin 0, false, rnd_zero⟩ = false
    unfold sign
    simp

/-- **C79, any file.** Whatever an existing file contains, after `load` all weights are finite numbers, and nothing but weights has changed. -/
theorem C79_any_file (n : Net (Double P)) (path : String) (fs : Files) :
    ∃ n', n.load (dblText P nn) path fs = .ok n' ∧ (fs path = none → n' = n) ∧ (fs path ≠ none → Spec.OnlyWeights n n' ∧ ∀ x ∈ Spec.allWeights n', Spec.Finite x) := by
  cases hf : fs path with
  | none => exact ⟨n, load_none _ n path fs hf, fun _ => rfl, fun h => absurd rfl h⟩
  | some text =>
    obtain ⟨n', h1, h2, h3⟩ := load_ok (dblText P nn) n path fs hf
    refine ⟨n', h1, fun h => absurd h (by simp), fun _ => ⟨h2, fun x hx => ?_⟩⟩
    rw [h3, List.mem_map] at hx
    obtain ⟨k, -, rfl⟩ := hx
    exact read_finite P nn _ k

/-! ## Concrete networks -/

/-- A network of one output layer with the given row of weights. -/
def rowNet {F : Type} [Arith F] (ws : List F) : Net F where
  hidden := []
  output := { lrate := 1, lambda := 0, actfunc := ⟨Act.identityF, Act.identityG⟩, pa := .empty, z := .empty, a := .empty, delta := .empty,
              W := Mat.of 1 ws.length (fun _ j => ws.getD j 0), grad := .empty, cost := Quadratic.cost, costd := Quadratic.costd, y := .empty }

theorem rowNet_weights {F : Type} [Arith F] (ws : List F) : Spec.allWeights (rowNet ws) = ws := by
  unfold Spec.allWeights Net.weights rowNet NN.Spec.flat
  simp only [List.map_nil, List.nil_append, List.flatMap_singleton]
  show (List.range 1).flatMap _ = _
  rw [List.range_one, List.flatMap_singleton]
  apply List.ext_getElem?
  intro j
  rw [List.getElem?_map]
  by_cases hj : j < ws.length
  · rw [List.getElem?_range (by exact hj), Option.map_some, Mat.of_f' (by norm_num) hj, List.getD_eq_getElem?_getD, List.getElem?_eq_getElem hj]
    rfl
  · rw [List.getElem?_eq_none (by simpa using hj), List.getElem?_eq_none (by simpa using hj)]
    rfl

/-- 202403 * 2^-1074 is a double. -/
def oddD : Double P := ⟨fin (202403 * 2 ^ (-1074 : ℤ)), false, by
  show rnd _ = _
  have h : r64 (202403 * 2 ^ (-1074 : ℤ)) = 202403 * 2 ^ (-1074 : ℤ) := by
    have := r64_exact (n := 202403) (e := -1074) (by norm_num) (le_refl _)
    push_cast at this
    exact this
  rw [rnd_fin, h]
  rw [h, abs_of_pos (mul_pos (by norm_num) (two_zpow_pos _)), overflow_zpow]
  calc (202403 : ℝ) * 2 ^ (-1074 : ℤ) < 2 ^ (18 : ℤ) * 2 ^ (-1074 : ℤ) := mul_lt_mul_of_pos_right (by norm_num) (two_zpow_pos _)
    _ = 2 ^ (-1056 : ℤ) := by rw [← zpow_add₀ (by norm_num)]; norm_num
    _ ≤ 2 ^ (1024 : ℤ) := zpow_le_zpow_right₀ (by norm_num) (by norm_num)⟩

/-- Minus zero. -/
def mzero : Double P := ⟨fin 0, true, rnd_zero⟩

/-- Infinity. -/
def infD : Double P := ⟨pinf, false, trivial⟩

/-- **C79, the exception is real.** There is a network of finite weights that is not saved as the same file after it was saved and loaded. -/
theorem C79_same_file_refuted : ∃ n : Net (Double P), (∀ x ∈ Spec.allWeights n, Spec.Finite x) ∧ ∃ fs n'', n.save (dblText P nn) "w" true (fun _ => none) = .ok fs ∧
    n.load (dblText P nn) "w" fs = .ok n'' ∧ ∃ gs, n''.save (dblText P nn) "v" true (fun _ => none) = .ok gs ∧ gs "v" ≠ fs "w" := by
  have hf : ∀ x ∈ Spec.allWeights (rowNet [(1 : Double P), oddD P]), Spec.Finite x := by
    rw [rowNet_weights]
    intro x hx
    rcases List.mem_cons.1 hx with rfl | hx
    · exact ⟨1, rfl⟩
    · rw [List.mem_singleton.1 hx]
      exact ⟨_, rfl⟩
  obtain ⟨fs, n'', h1, -, h2, -, -, h3⟩ := C79_finite P nn (n := rowNet [(1 : Double P), oddD P]) (n' := rowNet [(1 : Double P), oddD P]) rfl hf "w" (fun _ => none)
  obtain ⟨gs, h4, h5⟩ := h3 "v" (fun _ => none)
  refine ⟨_, hf, fs, n'', h1, h2, gs, h4, fun h => ?_⟩
  have := h5.1 h (oddD P) (by rw [rowNet_weights]; simp)
  exact this.1 rfl

/-- Minus zero comes back as minus zero; the weight 1 after an infinite weight comes back as 0. -/
example : ∃ fs n'', (rowNet [mzero P, infD P, (1 : Double P)]).save (dblText P nn) "w" true (fun _ => none) = .ok fs ∧
    (rowNet [(1 : Double P), 1, 1]).load (dblText P nn) "w" fs = .ok n'' ∧
    ∃ a b c, Spec.allWeights n'' = [a, b, c] ∧ Dbl.v a = fin 0 ∧ sign a = true ∧ Dbl.v b = fin 0 ∧ Dbl.v c = fin 0 := by
  obtain ⟨fs, n'', h1, h2, -, h3, h4⟩ := C79_nonfinite P nn (n := rowNet [mzero P, infD P, (1 : Double P)]) (n' := rowNet [(1 : Double P), 1, 1]) rfl (t := 1) (x := infD P)
    (by rw [rowNet_weights]; rfl) (by rintro ⟨r, hr⟩; cases hr) (by
      intro s u hs hu
      obtain rfl : s = 0 := by omega
      rw [rowNet_weights] at hu
      simp only [List.getElem?_cons_zero, Option.some.injEq] at hu
      rw [← hu]
      exact ⟨0, rfl⟩) "w" (fun _ => none)
  rw [rowNet_weights] at h3 h4
  refine ⟨fs, n'', h1, h2, ?_⟩
  match hw : Spec.allWeights n'', h3 with
  | [a, b, c], _ =>
    rw [hw] at h4
    obtain ⟨r, r', hr, hr', he, hsg⟩ := (h4 0 a (mzero P) rfl rfl).1 (by norm_num)
    have h0 : r = 0 := by
      change fin 0 = fin r at hr
      injection hr with hr
      exact hr.symm
    rw [h0, abs_zero, mul_zero, sub_zero, abs_nonpos_iff] at he
    refine ⟨a, b, c, rfl, by rw [hr', he], ?_, ((h4 1 b (infD P) rfl rfl).2 (by norm_num)).1, ((h4 2 c 1 rfl rfl).2 (by norm_num)).1⟩
    rw [hsg]
    show sign ⟨fin 0, true, rnd_zero⟩ = true
    unfold sign
    simp

end
end Nnet.NN.Flt
