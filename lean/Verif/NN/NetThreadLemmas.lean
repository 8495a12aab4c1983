import Verif.NN.NetThread
import Mathlib.Logic.Function.Basic
/-!
# Threads: a thread that runs alone, and the part of the memory it uses
-/
namespace Nnet.NN
noncomputable section

namespace Conc
variable {σ τ α β : Type}

theorem bind_def (m : Conc σ α) (f : α → Conc σ β) : (m >>= f) = m.bind f := rfl

/-- What the thread delivers when it runs alone. -/
def res : Conc σ α → σ → Res (α × σ)
  | .ret a, s => .ok (a, s)
  | .fail e, _ => .error e
  | .step _ r w k, s => r s >>= fun b => (k b).res (w b s)

/-- How many turns it takes to the end when it runs alone. -/
def turns : Conc σ α → σ → Nat
  | .ret _, _ => 0
  | .fail _, _ => 0
  | .step _ r w k, s => match r s with
    | .ok b => (k b).turns (w b s) + 1
    | .error _ => 1

theorem tick_res (t : Conc σ α) (s : σ) : (t.tick s).1.res (t.tick s).2 = t.res s := by
  cases t with
  | ret a => rfl
  | fail e => rfl
  | step β r w k =>
    unfold tick
    cases h : r s with
    | ok b => simp only [res, h, ok_bind]
    | error e => simp only [res, h, error_bind]

theorem tick_turns (t : Conc σ α) (s : σ) : (t.tick s).1.turns (t.tick s).2 = t.turns s - 1 := by
  cases t with
  | ret a => rfl
  | fail e => rfl
  | step β r w k =>
    unfold tick
    cases h : r s with
    | ok b => simp only [turns, h]; omega
    | error e => simp only [turns, h]

theorem turns_zero {t : Conc σ α} {s : σ} (h : t.turns s = 0) : (∃ a, t = .ret a) ∨ ∃ e, t = .fail e := by
  cases t with
  | ret a => exact .inl ⟨a, rfl⟩
  | fail e => exact .inr ⟨e, rfl⟩
  | step β r w k =>
    unfold turns at h
    cases hr : r s <;> simp [hr] at h

/-! ## Results of composed programs -/

theorem res_bind (m : Conc σ α) (f : α → Conc σ β) (s : σ) : (m >>= f).res s = m.res s >>= fun r => (f r.1).res r.2 := by
  rw [bind_def]
  induction m generalizing s with
  | ret a => rfl
  | fail e => rfl
  | step γ r w k ih =>
    show (r s >>= fun b => ((k b).bind f).res (w b s)) = _
    simp only [res]
    cases r s with
    | error e => rfl
    | ok b => simp only [ok_bind]; exact ih b (w b s)

theorem res_ret (a : α) (s : σ) : (ret a : Conc σ α).res s = .ok (a, s) := rfl
theorem res_op (r : σ → Res α) (w : α → σ → σ) (s : σ) : (op r w).res s = r s >>= fun a => .ok (a, w a s) := rfl
theorem res_assign (set : Mat ℝ → σ → σ) (e : σ → Res (Mat ℝ)) (s : σ) : (assign set e).res s = e s >>= fun m => .ok ((), set m s) := rfl
theorem res_eval (e : σ → Res α) (s : σ) : (eval e).res s = e s >>= fun a => .ok (a, s) := rfl
theorem res_get (f : σ → α) (s : σ) : (get f).res s = .ok (f s, s) := rfl

/-- A part of the memory. -/
structure Lens (get : σ → τ) (put : τ → σ → σ) : Prop where
  gp : ∀ v s, get (put v s) = v
  pp : ∀ v v' s, put v (put v' s) = put v s
  pg : ∀ s, put (get s) s = s

theorem res_on {get : σ → τ} {put : τ → σ → σ} (h : Lens get put) (m : Conc τ α) (s : σ) : (m.on get put).res s = m.res (get s) >>= fun r => .ok (r.1, put r.2 s) := by
  induction m generalizing s with
  | ret a => simp only [on, res, ok_bind, h.pg]
  | fail e => rfl
  | step γ r w k ih =>
    simp only [on, res]
    cases hr : r (get s) with
    | error e => rfl
    | ok b =>
      simp only [ok_bind]
      rw [ih b]
      simp only [h.gp, h.pp]

/-! ## Interleavings -/

/-- The thread changes only what satisfies the invariant `J`, and ends with a value that satisfies `R`. -/
def Stays (J : σ → Prop) (R : α → Prop) : Conc σ α → Prop
  | .ret a => R a
  | .fail _ => True
  | .step _ r w k => ∀ s b, J s → r s = .ok b → J (w b s) ∧ Stays J R (k b)

theorem Stays.bind {J : σ → Prop} {R : α → Prop} {Q : β → Prop} {m : Conc σ α} {f : α → Conc σ β} (hm : Stays J R m) (hf : ∀ a, R a → Stays J Q (f a)) : Stays J Q (m >>= f) := by
  rw [bind_def]
  induction m with
  | ret a => exact hf a hm
  | fail e => trivial
  | step γ r w k ih =>
    intro s b hs hb
    exact ⟨(hm s b hs hb).1, ih b (hm s b hs hb).2⟩

theorem Stays.on {J : σ → Prop} {get : σ → τ} {put : τ → σ → σ} (h : ∀ v s, J s → J (put v s)) (m : Conc τ α) : Stays J (fun _ => True) (m.on get put) := by
  induction m with
  | ret a => trivial
  | fail e => trivial
  | step γ r w k ih =>
    intro s b hs hb
    exact ⟨h _ _ hs, ih b⟩

end Conc

namespace NetThread
open Conc

/-- Some networks and some layers. -/
structure Area where
  nets : Set Nat
  layers : Set Nat

open Classical in
/-- The networks and layers of the area from `w`, the others from `v`. -/
def Area.mix (P : Area) (w v : World) : World :=
  ⟨fun j => if j ∈ P.nets then w.nets j else v.nets j, fun p => if p ∈ P.layers then w.store p else v.store p⟩

theorem Area.mix_nets {P : Area} {w v : World} {j : Nat} (h : j ∈ P.nets) : (P.mix w v).nets j = w.nets j := if_pos h
theorem Area.mix_store {P : Area} {w v : World} {p : Nat} (h : p ∈ P.layers) : (P.mix w v).store p = w.store p := if_pos h
theorem Area.mix_same (P : Area) (w : World) : P.mix w w = w := by
  unfold Area.mix
  congr 1 <;> funext n <;> exact ite_self _

/-- The areas have nothing in common. -/
def Area.Apart (P Q : Area) : Prop := (∀ j, j ∈ P.nets → j ∉ Q.nets) ∧ ∀ p, p ∈ P.layers → p ∉ Q.layers

/-- The thread reads and writes only the area, as long as the invariant `I` holds, which it keeps; it ends with a value that satisfies `R`. -/
def Local {α : Type} (P : Area) (I : World → Prop) (R : α → Prop) : Conc World α → Prop
  | .ret a => R a
  | .fail _ => True
  | .step _ r wr k => (∀ w v, I w → r (P.mix w v) = r w) ∧ ∀ w b, I w → r w = .ok b → I (wr b w) ∧ (∀ v, wr b (P.mix w v) = P.mix (wr b w) v) ∧ Local P I R (k b)

variable {α β : Type} {P : Area} {I : World → Prop}

theorem Local.bind {R : α → Prop} {Q : β → Prop} {m : Conc World α} {f : α → Conc World β} (hm : Local P I R m) (hf : ∀ a, R a → Local P I Q (f a)) : Local P I Q (m >>= f) := by
  rw [bind_def]
  induction m with
  | ret a => exact hf a hm
  | fail e => trivial
  | step γ r w k ih =>
    refine ⟨hm.1, fun w b hw hb => ?_⟩
    obtain ⟨h1, h2, h3⟩ := hm.2 w b hw hb
    exact ⟨h1, h2, ih b h3⟩

theorem Local.on {τ : Type} {J : τ → Prop} {R : α → Prop} {get : World → τ} {put : τ → World → World} {m : Conc τ α} (hm : Stays J R m) (h1 : ∀ w v, I w → get (P.mix w v) = get w)
    (h2 : ∀ t w v, I w → put t (P.mix w v) = P.mix (put t w) v) (h3 : ∀ w, I w → J (get w)) (h4 : ∀ t w, I w → J t → I (put t w)) : Local P I R (m.on get put) := by
  induction m with
  | ret a => exact hm
  | fail e => trivial
  | step γ r w k ih =>
    refine ⟨fun w v hw => by beta_reduce; rw [h1 w v hw], fun w b hw hb => ?_⟩
    obtain ⟨g1, g2⟩ := hm _ b (h3 w hw) hb
    refine ⟨h4 _ _ hw g1, fun v => ?_, ih b g2⟩
    beta_reduce
    rw [h1 w v hw, h2 _ _ _ hw]

/-- Threads whose areas have nothing in common: after any interleaving every thread is where it would be if it ran alone. -/
theorem interleave_inv {ι : Type} [DecidableEq ι] {P : ι → Area} {I : ι → World → Prop} (hd : ∀ i j, i ≠ j → (P i).Apart (P j)) {R : ι → α → Prop} :
    ∀ (l : List ι) (ts : ι → Conc World α) (w : World) (v : ι → World), (∀ i, Local (P i) (I i) (R i) (ts i)) → (∀ i, I i (v i)) → (∀ i, (P i).mix (v i) w = w) →
      ∃ v' : ι → World, (∀ i, ((interleave l ts w).1 i).res (v' i) = (ts i).res (v i)) ∧ (∀ i, ((interleave l ts w).1 i).turns (v' i) = (ts i).turns (v i) - l.count i) ∧
        (∀ i, (P i).mix (v' i) (interleave l ts w).2 = (interleave l ts w).2) ∧
        (∀ j, (∀ i, j ∉ (P i).nets) → (interleave l ts w).2.nets j = w.nets j) ∧ ∀ p, (∀ i, p ∉ (P i).layers) → (interleave l ts w).2.store p = w.store p
  | [], ts, w, v, _, _, hv => ⟨v, fun _ => rfl, fun _ => by simp [interleave], hv, fun _ _ => rfl, fun _ _ => rfl⟩
  | i :: l, ts, w, v, hl, hI, hv => by
    have key : ∃ v1 : World, I i v1 ∧ ((ts i).tick w).1 = ((ts i).tick (v i)).1 ∧ v1 = ((ts i).tick (v i)).2 ∧ ((ts i).tick w).2 = (P i).mix v1 w ∧ Local (P i) (I i) (R i) ((ts i).tick w).1 := by
      have h0 := hl i
      cases ht : ts i with
      | ret a => exact ⟨v i, hI i, rfl, rfl, (hv i).symm, by rw [ht] at h0; exact h0⟩
      | fail e => exact ⟨v i, hI i, rfl, rfl, (hv i).symm, trivial⟩
      | step γ r wr k =>
        rw [ht] at h0
        have e : r w = r (v i) := by
          have := h0.1 (v i) w (hI i)
          rwa [hv i] at this
        cases hr : r (v i) with
        | error er =>
          refine ⟨v i, hI i, ?_, ?_, ?_, ?_⟩ <;> simp only [tick, e, hr]
          · exact (hv i).symm
          · trivial
        | ok b =>
          obtain ⟨g1, g2, g3⟩ := h0.2 (v i) b (hI i) hr
          have := g2 w
          rw [hv i] at this
          refine ⟨wr b (v i), g1, ?_, ?_, ?_, ?_⟩ <;> simp only [tick, e, hr]
          · exact this
          · exact g3
    obtain ⟨v1, k1, k2, k3, k4, k5⟩ := key
    obtain ⟨v', a1, a2, a3, a4, a5⟩ := interleave_inv hd l (Function.update ts i ((ts i).tick w).1) ((ts i).tick w).2 (Function.update v i v1) (by
        intro j
        by_cases hj : j = i
        · subst hj; rw [Function.update_self]; exact k5
        · rw [Function.update_of_ne hj]; exact hl j) (by
        intro j
        by_cases hj : j = i
        · subst hj; rw [Function.update_self]; exact k1
        · rw [Function.update_of_ne hj]; exact hI j) (by
        intro j
        by_cases hj : j = i
        · subst hj
          rw [Function.update_self, k4]
          unfold Area.mix
          congr 1 <;> funext n <;> simp only [] <;> split <;> rfl
        · rw [Function.update_of_ne hj, k4]
          have hjw := hv j
          have hap := hd j i hj
          unfold Area.mix at hjw ⊢
          have e1 := congrArg World.nets hjw
          have e2 := congrArg World.store hjw
          congr 1 <;> funext n <;> simp only []
          · by_cases hn : n ∈ (P j).nets
            · rw [if_pos hn, if_neg (hap.1 n hn)]
              have := congrFun e1 n
              simp only [if_pos hn] at this
              exact this
            · rw [if_neg hn]
          · by_cases hn : n ∈ (P j).layers
            · rw [if_pos hn, if_neg (hap.2 n hn)]
              have := congrFun e2 n
              simp only [if_pos hn] at this
              exact this
            · rw [if_neg hn])
    refine ⟨v', ?_, ?_, a3, ?_, ?_⟩
    · intro j
      rw [show interleave (i :: l) ts w = interleave l (Function.update ts i ((ts i).tick w).1) ((ts i).tick w).2 from rfl, a1 j]
      by_cases hj : j = i
      · subst hj; rw [Function.update_self, Function.update_self, k2, k3, tick_res]
      · rw [Function.update_of_ne hj, Function.update_of_ne hj]
    · intro j
      rw [show interleave (i :: l) ts w = interleave l (Function.update ts i ((ts i).tick w).1) ((ts i).tick w).2 from rfl, a2 j]
      by_cases hj : j = i
      · subst hj; rw [Function.update_self, Function.update_self, k2, k3, tick_turns, List.count_cons_self]; omega
      · rw [Function.update_of_ne hj, Function.update_of_ne hj, List.count_cons_of_ne (Ne.symm hj)]
    · intro n hn
      rw [show interleave (i :: l) ts w = interleave l (Function.update ts i ((ts i).tick w).1) ((ts i).tick w).2 from rfl, a4 n hn, k4]
      unfold Area.mix
      simp only [if_neg (hn i)]
    · intro n hn
      rw [show interleave (i :: l) ts w = interleave l (Function.update ts i ((ts i).tick w).1) ((ts i).tick w).2 from rfl, a5 n hn, k4]
      unfold Area.mix
      simp only [if_neg (hn i)]

end NetThread
end
end Nnet.NN
