import Verif.NN.PropsSpecial
import Verif.NN.PropsGrad
import Verif.NN.PropsBatch
import Verif.NN.PropsShare
import Mathlib.Tactic.Ring
import Mathlib.Tactic.FieldSimp
/-!
# C122: networks with normalising layers
-/
namespace Nnet.NN
open Finset
noncomputable section

namespace Spec

/-- The hidden layers `ids` are dense or normalising and lead from `p` values to `r` values; a normalising layer keeps the number of values. -/
def Chain (s : Store) : Nat → List Nat → Nat → Prop
  | p, [], r => p = r
  | p, id :: ids, r =>
    match (s id).kind with
    | .dense => (s id).base.W.nr = p + 1 ∧ 0 < (s id).base.W.nc ∧ Chain s (s id).base.W.nc ids r
    | .norm _ => Chain s p ids r
    | _ => False

/-- What the normalising layers divide by when the batch `x` arrives: layer `id` by `c id`, which is not 0, and is the number the layer holds, or the range of the values that reach it if it holds 0. -/
def Divides (s : Store) (c : Nat → ℝ) : List Nat → Mat ℝ → Prop
  | [], _ => True
  | id :: ids, x =>
    match (s id).kind with
    | .norm v => c id ≠ 0 ∧ (v ≠ 0 → c id = v) ∧ (v = 0 → ∃ M m, Extremes x M m ∧ c id = M - m) ∧ Divides s c ids (scaled x (c id))
    | _ => Divides s c ids (dense (s id).base.actfunc.act (s id).base.W x)

/-- A dense layer without activation, bias and regularisation that divides each of its `p` inputs by `v`. -/
def divider (p : Nat) (v : ℝ) : Layer :=
  { Layer.default with W := Mat.of (p + 1) p (fun i j => if i = j + 1 then 1 / v else 0) }

/-- `t` has the dense layers of `s`, and in the place of a normalising layer `id` a dense layer that divides by the constant `c id`. -/
def Plain (s t : Store) (c : Nat → ℝ) : Nat → List Nat → Prop
  | _, [] => True
  | p, id :: ids =>
    match (s id).kind with
    | .norm _ => t id = ⟨divider p (c id), .dense⟩ ∧ Plain s t c p ids
    | _ => t id = s id ∧ Plain s t c (s id).base.W.nc ids

end Spec

/-- A network whose hidden layers are dense or normalising ones, no layer object used twice, with sizes that lead from `p ≥ 1` inputs to `q ≥ 1` outputs. -/
structure Net.WFN (s : Store) (n : Net) (p q : Nat) : Prop where
  nodup : n.hidden.Nodup
  pos : 0 < p
  chain : ∃ r, Spec.Chain s p n.hidden r ∧ n.output.W.nr = r + 1 ∧ n.output.W.nc = q ∧ 0 < q

/-! ## Lemmas -/

theorem chain_congr {s s' : Store} : ∀ {ids : List Nat} {p r : Nat}, (∀ id ∈ ids, s' id = s id) → Spec.Chain s p ids r → Spec.Chain s' p ids r
  | [], _, _, _, h => h
  | id :: ids, p, r, he, h => by
    unfold Spec.Chain at h ⊢
    rw [he id List.mem_cons_self]
    split at h
    · rename_i hk; exact ⟨h.1, h.2.1, chain_congr (fun i hi => he i (List.mem_cons_of_mem _ hi)) h.2.2⟩
    · exact chain_congr (fun i hi => he i (List.mem_cons_of_mem _ hi)) h
    · exact h.elim

theorem divides_congr {s s' : Store} {c : Nat → ℝ} : ∀ {ids : List Nat} {x : Mat ℝ}, (∀ id ∈ ids, s' id = s id) → Spec.Divides s c ids x → Spec.Divides s' c ids x
  | [], _, _, _ => trivial
  | id :: ids, x, he, h => by
    unfold Spec.Divides at h ⊢
    rw [he id List.mem_cons_self]
    split at h
    · exact ⟨h.1, h.2.1, h.2.2.1, divides_congr (fun i hi => he i (List.mem_cons_of_mem _ hi)) h.2.2.2⟩
    · exact divides_congr (fun i hi => he i (List.mem_cons_of_mem _ hi)) h

theorem plain_congr {s s' t t' : Store} {c : Nat → ℝ} : ∀ {ids : List Nat} {p : Nat}, (∀ id ∈ ids, s' id = s id) → (∀ id ∈ ids, t' id = t id) → Spec.Plain s t c p ids → Spec.Plain s' t' c p ids
  | [], _, _, _, _ => trivial
  | id :: ids, p, he, ht, h => by
    unfold Spec.Plain at h ⊢
    rw [he id List.mem_cons_self, ht id List.mem_cons_self]
    split at h
    · exact ⟨h.1, plain_congr (fun i hi => he i (List.mem_cons_of_mem _ hi)) (fun i hi => ht i (List.mem_cons_of_mem _ hi)) h.2⟩
    · exact ⟨h.1, plain_congr (fun i hi => he i (List.mem_cons_of_mem _ hi)) (fun i hi => ht i (List.mem_cons_of_mem _ hi)) h.2⟩

theorem plain_exists (s : Store) (c : Nat → ℝ) : ∀ (ids : List Nat) (p : Nat), ids.Nodup → ∃ t, Spec.Plain s t c p ids
  | [], _, _ => ⟨s, trivial⟩
  | id :: ids, p, hn => by
    rw [List.nodup_cons] at hn
    have hne : ∀ (t : Store) (v : HLayer), ∀ i ∈ ids, t.put id v i = t i := fun t v i hi => put_other (fun e => hn.1 (e ▸ hi))
    unfold Spec.Plain
    cases hk : (s id).kind with
    | norm v =>
      obtain ⟨t, ht⟩ := plain_exists s c ids p hn.2
      exact ⟨t.put id ⟨Spec.divider p (c id), .dense⟩, put_same, plain_congr (fun _ _ => rfl) (hne t _) ht⟩
    | _ =>
      obtain ⟨t, ht⟩ := plain_exists s c ids (s id).base.W.nc hn.2
      exact ⟨t.put id (s id), put_same, plain_congr (fun _ _ => rfl) (hne t _) ht⟩

theorem plain_dense {s t : Store} {c : Nat → ℝ} : ∀ {ids : List Nat} {p r : Nat}, Spec.Plain s t c p ids → Spec.Chain s p ids r → ∀ id ∈ ids, (t id).kind = .dense
  | [], _, _, _, _ => by simp
  | id :: ids, p, r, h, hc => by
    unfold Spec.Plain at h
    unfold Spec.Chain at hc
    intro i hi
    rcases List.mem_cons.1 hi with rfl | hi
    · cases hk : (s i).kind <;> rw [hk] at h hc <;> first | exact hc.elim | skip
      · rw [h.1, hk]
      · rw [h.1]
    · cases hk : (s id).kind <;> rw [hk] at h hc <;> first | exact hc.elim | skip
      · exact plain_dense h.2 hc.2.2 i hi
      · exact plain_dense h.2 hc i hi

theorem plain_fits {s t : Store} {c : Nat → ℝ} : ∀ {ids : List Nat} {p r : Nat}, 0 < p → Spec.Plain s t c p ids → Spec.Chain s p ids r → 0 < r ∧ Spec.Fits p ((ids.map (fun i => (t i).base)).map (·.W)) r
  | [], _, _, hp, _, h => ⟨by unfold Spec.Chain at h; omega, h⟩
  | id :: ids, p, r, hp, h, hc => by
    unfold Spec.Plain at h
    unfold Spec.Chain at hc
    simp only [List.map_cons, Spec.Fits]
    cases hk : (s id).kind <;> rw [hk] at h hc <;> first | exact hc.elim | skip
    · obtain ⟨h1, h2⟩ := plain_fits hc.2.1 h.2 hc.2.2
      rw [h.1]
      exact ⟨h1, hc.1, hc.2.1, h2⟩
    · obtain ⟨h1, h2⟩ := plain_fits hp h.2 hc
      rw [h.1]
      exact ⟨h1, rfl, hp, h2⟩

theorem plain_wf {s t : Store} {n : Net} {c : Nat → ℝ} {p q : Nat} (h : n.WFN s p q) (hp : Spec.Plain s t c p n.hidden) : n.WF t p q := by
  obtain ⟨r, hch, h1, h2, h3⟩ := h.chain
  refine ⟨h.nodup, plain_dense hp hch, h.pos, ?_⟩
  unfold Net.layers Net.hiddenLayers
  rw [List.map_append, fits_append]
  refine ⟨r, (plain_fits h.pos hp hch).2, ?_⟩
  simp only [List.map_cons, List.map_nil, Spec.Fits]
  exact ⟨h1, by rw [h2]; exact h3, h2⟩

theorem divider_pre {x : Mat ℝ} {v : ℝ} : Spec.pre (Spec.divider x.nc v).W x = Spec.scaled x v := by
  unfold Spec.pre Spec.divider Spec.scaled
  refine Mat.of_congr (fun i j hi hj => ?_)
  have hj : j < x.nc := hj
  simp only
  rw [Mat.of_f' (by omega) hj, if_neg (by omega), zero_add, sum_eq_single j]
  · rw [Mat.of_f' (by omega) hj, if_pos rfl, mul_one_div]
  · intro k hk hne
    have := mem_range.1 hk
    rw [Mat.of_f' (by omega) hj, if_neg (by omega), mul_zero]
  · intro h
    exact absurd (mem_range.2 hj) h

theorem divider_fwd {x : Mat ℝ} {v : ℝ} : ((Spec.divider x.nc v).fwd x).a = Spec.scaled x v := by
  rw [Layer.fwd_a]
  have : Spec.dense (Spec.divider x.nc v).actfunc.act (Spec.divider x.nc v).W x = Spec.pre (Spec.divider x.nc v).W x := rfl
  rw [this, divider_pre]

/-- The layers `h` of the network and `k` of its plain version after a forward pass of `m` samples. -/
def PlainTwinAfter (c : Nat → ℝ) (m : Nat) (id : Nat) (h k : HLayer) : Prop :=
  (h.kind = .dense ∧ h = k) ∨ (h.kind = .norm (c id) ∧ k.kind = .dense ∧ ∃ p, 0 < p ∧ k.base.actfunc = Act.identity ∧ k.base.W = (Spec.divider p (c id)).W ∧ k.base.Cached m)

theorem plainTwin_forward {junk junk' : Nat → Nat → ℝ} {c : Nat → ℝ} : ∀ {ids : List Nat} {s t : Store} {p r : Nat} {x : Mat ℝ}, ids.Nodup → 0 < p → Spec.Chain s p ids r → Spec.Plain s t c p ids →
    Spec.Divides s c ids x → 0 < x.nr → x.nc = p →
    ∃ y s1 t1, Net.hiddenForward junk ids s x = .ok (y, s1) ∧ Net.hiddenForward junk' ids t x = .ok (y, t1) ∧ y.nr = x.nr ∧ y.nc = r ∧ 0 < r ∧
      (∀ id ∈ ids, PlainTwinAfter c x.nr id (s1 id) (t1 id) ∧ ((s id).kind = .dense → (s1 id).kind = .dense ∧ (s1 id).base.W = (s id).base.W ∧ (s1 id).base.actfunc = (s id).base.actfunc)
        ∧ ∀ v, (s id).kind = .norm v → (s1 id).kind = .norm (c id)) ∧ (∀ i, i ∉ ids → s1 i = s i ∧ t1 i = t i)
  | [], s, t, p, r, x, _, hp, hch, _, _, hr, hc => by
    unfold Spec.Chain at hch
    exact ⟨x, s, t, rfl, rfl, rfl, by omega, by omega, by simp, fun i _ => ⟨rfl, rfl⟩⟩
  | id :: ids, s, t, p, r, x, hn, hp, hch, hpl, hd, hr, hc => by
    rw [List.nodup_cons] at hn
    unfold Spec.Chain at hch
    unfold Spec.Plain at hpl
    unfold Spec.Divides at hd
    have hne : ∀ (s : Store) (v : HLayer), ∀ i ∈ ids, s.put id v i = s i := fun s v i hi => put_other (fun e => hn.1 (e ▸ hi))
    cases hk : (s id).kind <;> rw [hk] at hch hpl hd <;> first | exact hch.elim | skip
    · -- dense
      obtain ⟨h1, h2, h3⟩ := hch
      obtain ⟨g1, g2⟩ := hpl
      have hs : (s id).forwardprop junk x = .ok (((s id).base.fwd x).a, ⟨(s id).base.fwd x, .dense⟩) := by
        unfold HLayer.forwardprop
        rw [hk]
        simp only
        rw [Layer.forwardprop_ok hr (by omega) (by omega), ok_bind]
      have hs' : (s id).forwardprop junk' x = .ok (((s id).base.fwd x).a, ⟨(s id).base.fwd x, .dense⟩) := by
        unfold HLayer.forwardprop
        rw [hk]
        simp only
        rw [Layer.forwardprop_ok hr (by omega) (by omega), ok_bind]
      obtain ⟨y, s1, t1, e1, e2, d1, d2, d3, d4, d5⟩ := plainTwin_forward (junk := junk) (junk' := junk') (x := ((s id).base.fwd x).a) hn.2 h2 (chain_congr (hne s ⟨(s id).base.fwd x, .dense⟩) h3)
        (plain_congr (hne s ⟨(s id).base.fwd x, .dense⟩) (hne t ⟨(s id).base.fwd x, .dense⟩) g2)
        (divides_congr (hne s _) (by rw [Layer.fwd_a]; exact hd)) (by exact hr) rfl
      refine ⟨y, s1, t1, ?_, ?_, d1, d2, d3, ?_, ?_⟩
      · unfold Net.hiddenForward
        rw [hs, ok_bind]
        exact e1
      · unfold Net.hiddenForward
        rw [g1, hs', ok_bind]
        exact e2
      · intro i hi
        rcases List.mem_cons.1 hi with rfl | hi
        · rw [(d5 i hn.1).1, (d5 i hn.1).2, put_same, put_same]
          exact ⟨Or.inl ⟨rfl, rfl⟩, fun _ => ⟨rfl, rfl, rfl⟩, fun v hv => by rw [hk] at hv; cases hv⟩
        · have := d4 i hi
          rw [hne s _ i hi] at this
          exact this
      · intro i hi
        simp only [List.mem_cons, not_or] at hi
        rw [(d5 i hi.2).1, (d5 i hi.2).2, put_other hi.1, put_other hi.1]
        exact ⟨rfl, rfl⟩
    · -- norm
      rename_i v
      obtain ⟨hd0, hd1, hd2, hd3⟩ := hd
      obtain ⟨g1, g2⟩ := hpl
      obtain ⟨L', hs⟩ : ∃ L', (s id).forwardprop junk x = .ok (Spec.scaled x (c id), ⟨L', .norm (c id)⟩) := by
        obtain ⟨M, m, -, -, he⟩ := maxmin_ok hr (show 0 < x.nc by omega)
        obtain ⟨L', e⟩ := norm_forward junk (s id).base v hr (by omega) he
        have : (if v = 0 then M - m else v) = c id := by
          by_cases hv : v = 0
          · rw [if_pos hv]
            obtain ⟨M', m', he', e'⟩ := hd2 hv
            obtain ⟨rfl, rfl⟩ := extremes_unique he he'
            exact e'.symm
          · rw [if_neg hv]; exact (hd1 hv).symm
        rw [this] at e
        refine ⟨L', ?_⟩
        rw [← e, ← hk]
      subst hc
      have ht : (t id).forwardprop junk' x = .ok (Spec.scaled x (c id), ⟨(Spec.divider x.nc (c id)).fwd x, .dense⟩) := by
        rw [g1]
        unfold HLayer.forwardprop
        simp only
        rw [Layer.forwardprop_ok hr hp rfl, ok_bind, divider_fwd]
      obtain ⟨y, s1, t1, e1, e2, d1, d2, d3, d4, d5⟩ := plainTwin_forward (junk := junk) (junk' := junk') (x := Spec.scaled x (c id)) hn.2 hp (chain_congr (hne s ⟨L', .norm (c id)⟩) hch)
        (plain_congr (hne s ⟨L', .norm (c id)⟩) (hne t ⟨(Spec.divider x.nc (c id)).fwd x, .dense⟩) g2) (divides_congr (hne s _) hd3) (by exact hr) rfl
      refine ⟨y, s1, t1, ?_, ?_, d1, d2, d3, ?_, ?_⟩
      · unfold Net.hiddenForward
        rw [hs, ok_bind]
        exact e1
      · unfold Net.hiddenForward
        rw [ht, ok_bind]
        exact e2
      · intro i hi
        rcases List.mem_cons.1 hi with rfl | hi
        · rw [(d5 i hn.1).1, (d5 i hn.1).2, put_same, put_same]
          exact ⟨Or.inr ⟨rfl, rfl, x.nc, hp, rfl, rfl, Layer.fwd_cached rfl⟩, fun h => (by rw [hk] at h; cases h), fun _ _ => rfl⟩
        · have := d4 i hi
          rw [hne s _ i hi] at this
          exact this
      · intro i hi
        simp only [List.mem_cons, not_or] at hi
        rw [(d5 i hi.2).1, (d5 i hi.2).2, put_other hi.1, put_other hi.1]
        exact ⟨rfl, rfl⟩

theorem divider_back {L : Layer} {m p : Nat} {v : ℝ} {d r : Mat ℝ} {L' : Layer} (ha : L.actfunc = Act.identity) (hW : L.W = (Spec.divider p v).W) (hL : L.Cached m) (hm : 0 < m) (hp : 0 < p)
    (h : L.backprop d = .ok (r, L')) : r = d.divS v := by
  have hd : d.nr = m ∧ d.nc = L.W.nc := by
    unfold Layer.backprop at h
    obtain ⟨delta, e, -⟩ := bind_eq_ok h
    unfold Mat.schur at e
    by_contra hne
    have hz1 := hL.z_nr
    have hz2 := hL.z_nc
    have h1 : (funcop L.z L.actfunc.actd).nr = L.z.nr := rfl
    have h2 : (funcop L.z L.actfunc.actd).nc = L.z.nc := rfl
    unfold Mat.zip at e
    rw [if_neg (by rw [h1, h2]; rintro ⟨a, b⟩; exact hne ⟨by omega, by omega⟩)] at e
    cases e
  have hnr : L.W.nr = p + 1 := by rw [hW]; rfl
  have hnc : L.W.nc = p := by rw [hW]; rfl
  rw [Layer.backprop_ok hL hm (by omega) hd.1 hd.2] at h
  cases h
  unfold Layer.backOf
  rw [divS_scaled]
  unfold Spec.scaled
  rw [hnr, Nat.add_sub_cancel]
  show Mat.of d.nr p _ = Mat.of d.nr d.nc _
  rw [hd.2, hnc]
  refine Mat.of_congr (fun i k hi hk => ?_)
  have e : (L.dz d).nc = p := by show d.nc = p; omega
  have f : ∀ j < p, (L.dz d).f i j = d.f i j := fun j hj => by
    unfold Layer.dz
    rw [Mat.of_f' hi (by omega), ha]
    show d.f i j * 1 = _
    rw [mul_one]
  rw [e, sum_eq_single k]
  · rw [f k hk, hW]
    unfold Spec.divider
    simp only
    rw [Mat.of_f' (by omega) hk, if_pos rfl, mul_one_div]
  · intro j hj hne
    have := mem_range.1 hj
    rw [hW]
    unfold Spec.divider
    simp only
    rw [Mat.of_f' (by omega) this, if_neg (by omega), mul_zero]
  · intro hh
    exact absurd (mem_range.2 hk) hh

theorem plainTwin_backward {junk junk' : Nat → Nat → ℝ} {c : Nat → ℝ} {m : Nat} (hm : 0 < m) : ∀ {ids : List Nat} {s t t2 : Store} {d : Mat ℝ}, ids.Nodup → (∀ id ∈ ids, PlainTwinAfter c m id (s id) (t id)) →
    Net.hiddenBackward junk' ids t d = .ok t2 → ∃ s2, Net.hiddenBackward junk ids s d = .ok s2 ∧
      (∀ id ∈ ids, ((s id).kind = .dense → s2 id = t2 id) ∧ ∀ v, (s id).kind = .norm v → (s2 id).kind = .norm 0) ∧ ∀ i, i ∉ ids → s2 i = s i ∧ t2 i = t i
  | [], s, t, t2, d, _, _, h => by
    cases h
    exact ⟨s, rfl, by simp, fun i _ => ⟨rfl, rfl⟩⟩
  | id :: ids, s, t, t2, d, hn, htw, h => by
    rw [List.nodup_cons] at hn
    have hne : ∀ (s : Store) (v : HLayer), ∀ i ∈ ids, s.put id v i = s i := fun s v i hi => put_other (fun e => hn.1 (e ▸ hi))
    unfold Net.hiddenBackward at h
    obtain ⟨⟨r, k2⟩, e, h⟩ := bind_eq_ok h
    have step : ∃ h2, (s id).backprop junk d = .ok (r, h2) ∧ ((s id).kind = .dense → h2 = k2) ∧ ∀ v, (s id).kind = .norm v → h2.kind = .norm 0 := by
      rcases htw id List.mem_cons_self with ⟨hk, heq⟩ | ⟨hk, hk', p, hp, ha, hW, hca⟩
      · refine ⟨k2, ?_, fun _ => rfl, fun v hv => by rw [hk] at hv; cases hv⟩
        rw [← heq] at e
        unfold HLayer.backprop at e ⊢
        rw [hk] at e ⊢
        exact e
      · unfold HLayer.backprop at e
        rw [hk'] at e
        simp only at e
        obtain ⟨⟨r', L'⟩, e1, e2⟩ := bind_eq_ok e
        cases e2
        have := divider_back ha hW hca hm hp e1
        refine ⟨⟨(s id).base, .norm 0⟩, ?_, fun h0 => (by rw [hk] at h0; cases h0), fun _ _ => rfl⟩
        unfold HLayer.backprop
        rw [hk, this]
        rfl
    obtain ⟨h2, a1, a2, a3⟩ := step
    obtain ⟨s2, b1, b2, b3⟩ := plainTwin_backward (junk := junk) hm (s := s.put id h2) (t := t.put id k2) hn.2 (fun i hi => by rw [hne s _ i hi, hne t _ i hi]; exact htw i (List.mem_cons_of_mem _ hi)) h
    refine ⟨s2, ?_, ?_, ?_⟩
    · unfold Net.hiddenBackward
      rw [a1, ok_bind]
      exact b1
    · intro i hi
      rcases List.mem_cons.1 hi with rfl | hi
      · rw [(b3 i hn.1).1, (b3 i hn.1).2, put_same, put_same]
        exact ⟨a2, a3⟩
      · have := b2 i hi
        rw [hne s _ i hi] at this
        exact this
    · intro i hi
      simp only [List.mem_cons, not_or] at hi
      rw [(b3 i hi.2).1, (b3 i hi.2).2, put_other hi.1, put_other hi.1]
      exact ⟨rfl, rfl⟩

/-- `s1` differs from `s` in the hidden layers `ids` at most in what passes leave behind, and the normalising ones of them hold the numbers `c`. -/
def Kin (s : Store) (c : Nat → ℝ) (ids : List Nat) (s1 : Store) : Prop :=
  ∀ id ∈ ids, ((s id).kind = .dense → (s1 id).kind = .dense ∧ (s1 id).base.W = (s id).base.W ∧ (s1 id).base.actfunc = (s id).base.actfunc) ∧ ∀ v, (s id).kind = .norm v → (s1 id).kind = .norm (c id)

theorem kin_trans {s s1 s2 : Store} {c : Nat → ℝ} {ids : List Nat} (h : Kin s c ids s1) (h' : Kin s1 c ids s2) : Kin s c ids s2 := by
  intro id hid
  obtain ⟨a, b⟩ := h id hid
  obtain ⟨a', b'⟩ := h' id hid
  refine ⟨fun hk => ?_, fun v hv => b' _ (b v hv)⟩
  obtain ⟨k1, k2, k3⟩ := a hk
  obtain ⟨l1, l2, l3⟩ := a' k1
  exact ⟨l1, l2.trans k2, l3.trans k3⟩

theorem kin_chain {s s1 : Store} {c : Nat → ℝ} : ∀ {ids : List Nat} {p r : Nat}, Kin s c ids s1 → Spec.Chain s p ids r → Spec.Chain s1 p ids r
  | [], _, _, _, h => h
  | id :: ids, p, r, hk, h => by
    have ih := fun {p r} => kin_chain (p := p) (r := r) (fun i hi => hk i (List.mem_cons_of_mem _ hi) : Kin s c ids s1)
    obtain ⟨a, b⟩ := hk id List.mem_cons_self
    unfold Spec.Chain at h ⊢
    cases e : (s id).kind <;> rw [e] at h <;> first | exact h.elim | skip
    · obtain ⟨k1, k2, k3⟩ := a e
      rw [k1, k2]
      exact ⟨h.1, h.2.1, ih h.2.2⟩
    · rw [b _ e]
      exact ih h

theorem kin_divides {s s1 : Store} {c : Nat → ℝ} : ∀ {ids : List Nat} {p r : Nat} (x : Mat ℝ), (∀ id ∈ ids, ∀ v, (s id).kind = .norm v → c id ≠ 0) → Kin s c ids s1 → Spec.Chain s p ids r → Spec.Divides s1 c ids x
  | [], _, _, _, _, _, _ => trivial
  | id :: ids, p, r, x, h0, hk, h => by
    have ih := fun {p r} x => kin_divides (p := p) (r := r) x (fun i hi => h0 i (List.mem_cons_of_mem _ hi)) (fun i hi => hk i (List.mem_cons_of_mem _ hi) : Kin s c ids s1)
    obtain ⟨a, b⟩ := hk id List.mem_cons_self
    unfold Spec.Chain at h
    unfold Spec.Divides
    cases e : (s id).kind <;> rw [e] at h <;> first | exact h.elim | skip
    · obtain ⟨k1, k2, k3⟩ := a e
      rw [k1]
      exact ih _ h.2.2
    · rw [b _ e]
      have := h0 id List.mem_cons_self _ e
      exact ⟨this, fun _ => rfl, fun h => absurd h this, ih _ h⟩

theorem divides_ne {s : Store} {c : Nat → ℝ} : ∀ {ids : List Nat} {x : Mat ℝ}, Spec.Divides s c ids x → ∀ id ∈ ids, ∀ v, (s id).kind = .norm v → c id ≠ 0
  | [], _, _ => by simp
  | id :: ids, x, h => by
    unfold Spec.Divides at h
    intro i hi v hv
    rcases List.mem_cons.1 hi with rfl | hi
    · rw [hv] at h
      exact h.1
    · split at h
      · exact divides_ne h.2.2.2 i hi v hv
      · exact divides_ne h i hi v hv

theorem kin_params {s t s1 t1 : Store} {c : Nat → ℝ} : ∀ {ids : List Nat} {p r : Nat}, Kin s c ids s1 → Spec.Chain s p ids r → Spec.Plain s t c p ids → Spec.Plain s1 t1 c p ids →
    ids.map (fun i => ((t1 i).base.actfunc.act, (t1 i).base.W)) = ids.map (fun i => ((t i).base.actfunc.act, (t i).base.W))
  | [], _, _, _, _, _, _ => rfl
  | id :: ids, p, r, hk, h, h1, h2 => by
    have ih := fun {p r} => kin_params (p := p) (r := r) (t := t) (t1 := t1) (fun i hi => hk i (List.mem_cons_of_mem _ hi) : Kin s c ids s1)
    obtain ⟨a, b⟩ := hk id List.mem_cons_self
    unfold Spec.Chain at h
    unfold Spec.Plain at h1 h2
    simp only [List.map_cons]
    cases e : (s id).kind <;> rw [e] at h h1 <;> first | exact h.elim | skip
    · obtain ⟨k1, k2, k3⟩ := a e
      rw [k1] at h2
      rw [ih h.2.2 h1.2 (by rw [← k2]; exact h2.2), h1.1, h2.1, k2, k3]
    · rw [b _ e] at h2
      rw [ih h h1.2 h2.2, h1.1, h2.1]

theorem plainTwin_net {junk junk' : Nat → Nat → ℝ} {s t : Store} {n : Net} {c : Nat → ℝ} {p q : Nat} {x : Mat ℝ} (h : n.WFN s p q) (hpl : Spec.Plain s t c p n.hidden) (hd : Spec.Divides s c n.hidden x)
    (hr : 0 < x.nr) (hc : x.nc = p) : ∃ s1 t1 n1, n.forwardprop junk s x = .ok (Spec.denseNet (n.params t) x, s1, n1) ∧ n.forwardprop junk' t x = .ok (Spec.denseNet (n.params t) x, t1, n1) ∧
      (∀ id ∈ n.hidden, PlainTwinAfter c x.nr id (s1 id) (t1 id)) ∧ Kin s c n.hidden s1 ∧ (∀ i, i ∉ n.hidden → s1 i = s i) ∧ n1.hidden = n.hidden ∧ n1.cost = n.cost ∧
      n1.output = { n.output with toLayer := n1.output.toLayer } ∧ n1.output.W = n.output.W ∧ n1.output.actfunc = n.output.actfunc := by
  obtain ⟨r, hch, h1, h2, h3⟩ := h.chain
  obtain ⟨y, s1, t1, e1, e2, d1, d2, d3, d4, d5⟩ := plainTwin_forward (junk := junk) (junk' := junk') h.nodup h.pos hch hpl hd hr hc
  obtain ⟨t', n', e3, -⟩ := C28_network (junk := junk') (plain_wf h hpl) hr hc
  have ho := OutputLayer.forwardprop_ok (o := n.output) (x := y) (by omega) (by omega) (by omega)
  unfold Net.forwardprop InputLayer.forwardprop at e3 ⊢
  simp only at e3 ⊢
  rw [e2, ok_bind] at e3 ⊢
  rw [e1, ok_bind]
  simp only at e3 ⊢
  rw [ho, ok_bind] at e3 ⊢
  have e4 : (n.output.toLayer.fwd y).a = Spec.denseNet (n.params t) x := congrArg Prod.fst (Except.ok.inj e3)
  rw [← e4]
  refine ⟨s1, _, _, rfl, rfl, fun id hid => (d4 id hid).1, fun id hid => (d4 id hid).2, fun i hi => (d5 i hi).1, rfl, rfl, rfl, rfl, rfl⟩

/-! ## Theorems -/

/-- **C122** (forward pass). A network of dense and normalising layers that meets a batch answers like a network of dense layers alone, with the same dense layers and, in the place of each normalising layer,
a layer that divides by a constant: the number the normalising layer holds, or the range of the values of this whole batch that reach it if it holds 0. Afterwards the normalising layers hold these constants. -/
theorem C122_forward {junk : Nat → Nat → ℝ} {s : Store} {n : Net} {c : Nat → ℝ} {p q : Nat} {x : Mat ℝ} (h : n.WFN s p q) (hd : Spec.Divides s c n.hidden x) (hr : 0 < x.nr) (hc : x.nc = p) :
    ∃ t, Spec.Plain s t c p n.hidden ∧ n.WF t p q ∧ ∃ s1 n1, n.forwardprop junk s x = .ok (Spec.denseNet (n.params t) x, s1, n1) ∧ n1.WFN s1 p q ∧ n1.hidden = n.hidden ∧
      ∀ id ∈ n.hidden, ∀ v, (s id).kind = .norm v → (s1 id).kind = .norm (c id) := by
  obtain ⟨t, hpl⟩ := plain_exists s c n.hidden p h.nodup
  obtain ⟨s1, t1, n1, e1, e2, -, hk, -, hh, hcst, ho, hW, ha⟩ := plainTwin_net (junk := junk) (junk' := junk) h hpl hd hr hc
  obtain ⟨r, hch, h1, h2, h3⟩ := h.chain
  exact ⟨t, hpl, plain_wf h hpl, s1, n1, e1, ⟨by rw [hh]; exact h.nodup, h.pos, r, by rw [hh]; exact kin_chain hk hch, by rw [hW]; exact h1, by rw [hW]; exact h2, h3⟩, hh,
    fun id hid v hv => (hk id hid).2 v hv⟩

/-- Ask the network for the outputs of several batches, one after the other. -/
def Spec.netAnswers (junk : Nat → Nat → ℝ) : Store → Net → List (Mat ℝ) → Res (List (Mat ℝ) × Store × Net)
  | s, n, [] => .ok ([], s, n)
  | s, n, x :: xs => do
    let (r, s, n) ← n.forwardprop junk s x
    let (rs, s, n) ← Spec.netAnswers junk s n xs
    .ok (r :: rs, s, n)

theorem netAnswers_armed {junk : Nat → Nat → ℝ} {s t : Store} {n : Net} {c : Nat → ℝ} {p q : Nat} (h : n.WFN s p q) (hpl : Spec.Plain s t c p n.hidden)
    (h0 : ∀ id ∈ n.hidden, ∀ v, (s id).kind = .norm v → c id ≠ 0) : ∀ (xs : List (Mat ℝ)) (s1 : Store) (n1 : Net), Kin s c n.hidden s1 → n1.hidden = n.hidden → n1.output.W = n.output.W →
    n1.output.actfunc = n.output.actfunc → (∀ x ∈ xs, 0 < x.nr ∧ x.nc = p) → ∃ s2 n2, Spec.netAnswers junk s1 n1 xs = .ok (xs.map (fun x => Spec.denseNet (n.params t) x), s2, n2)
  | [], s1, n1, _, _, _, _, _ => ⟨s1, n1, rfl⟩
  | x :: xs, s1, n1, hk, hh, hW, ha, hxs => by
    obtain ⟨r, hch, h1, h2, h3⟩ := h.chain
    have hwf : n1.WFN s1 p q := ⟨by rw [hh]; exact h.nodup, h.pos, r, by rw [hh]; exact kin_chain hk hch, by rw [hW]; exact h1, by rw [hW]; exact h2, h3⟩
    obtain ⟨t1, hpl1⟩ := plain_exists s1 c n1.hidden p hwf.nodup
    obtain ⟨s2, t2, n2, e1, -, -, hk2, -, hh2, -, -, hW2, ha2⟩ := plainTwin_net (junk := junk) (junk' := junk) (x := x) hwf hpl1 (by rw [hh]; exact kin_divides x h0 hk hch) (hxs x (by simp)).1 (hxs x (by simp)).2
    have hpar : n1.params t1 = n.params t := by
      have := kin_params hk hch hpl (by rw [← hh]; exact hpl1)
      unfold Net.params Net.layers Net.hiddenLayers
      rw [hh, List.map_append, List.map_append, List.map_map, List.map_map]
      simp only [List.map_cons, List.map_nil, hW, ha]
      congr 1
    obtain ⟨s3, n3, e3⟩ := netAnswers_armed h hpl h0 xs s2 n2 (kin_trans hk (by rw [← hh]; exact hk2)) (hh2.trans hh) (hW2.trans hW) (ha2.trans ha) (fun y hy => hxs y (by simp [hy]))
    refine ⟨s3, n3, ?_⟩
    unfold Spec.netAnswers
    rw [e1, ok_bind, hpar]
    simp only
    rw [e3, ok_bind]
    rfl

/-- **C122** (the first batch decides). All batches that follow are answered with the constants of the first one, up to the next `backprop`: their own ranges do not count. -/
theorem C122_later {junk : Nat → Nat → ℝ} {s : Store} {n : Net} {c : Nat → ℝ} {p q : Nat} {x : Mat ℝ} {xs : List (Mat ℝ)} (h : n.WFN s p q) (hd : Spec.Divides s c n.hidden x) (hr : 0 < x.nr) (hc : x.nc = p)
    (hxs : ∀ x' ∈ xs, 0 < x'.nr ∧ x'.nc = p) : ∃ t, Spec.Plain s t c p n.hidden ∧ n.WF t p q ∧ ∃ s2 n2, Spec.netAnswers junk s n (x :: xs) = .ok ((x :: xs).map (fun x' => Spec.denseNet (n.params t) x'), s2, n2) := by
  obtain ⟨t, hpl⟩ := plain_exists s c n.hidden p h.nodup
  obtain ⟨s1, t1, n1, e1, e2, -, hk, -, hh, hcst, ho, hW, ha⟩ := plainTwin_net (junk := junk) (junk' := junk) h hpl hd hr hc
  obtain ⟨s2, n2, e3⟩ := netAnswers_armed (junk := junk) h hpl (divides_ne hd) xs s1 n1 hk hh hW ha hxs
  refine ⟨t, hpl, plain_wf h hpl, s2, n2, ?_⟩
  unfold Spec.netAnswers
  rw [e1, ok_bind]
  simp only
  rw [e3, ok_bind]
  rfl

/-- **C122** (backward pass). `forwardprop(x); backprop(y)` computes for every dense layer, and for the output layer, exactly what it computes in the network with the constants in the place of the normalising
layers, and succeeds if it succeeds there; it sets the normalising layers back to 0, so that the next batch is divided by its own range. -/
theorem C122_backward {junk : Nat → Nat → ℝ} {s t t2 : Store} {n n2 : Net} {c : Nat → ℝ} {p q : Nat} {x y : Mat ℝ} (h : n.WFN s p q) (hd : Spec.Divides s c n.hidden x) (hr : 0 < x.nr) (hc : x.nc = p)
    (hpl : Spec.Plain s t c p n.hidden) (hb : n.gradPass junk t x y = .ok (t2, n2)) : ∃ s2, n.gradPass junk s x y = .ok (s2, n2) ∧
      (∀ id ∈ n.hidden, (s id).kind = .dense → s2 id = t2 id) ∧ (∀ id ∈ n.hidden, ∀ v, (s id).kind = .norm v → (s2 id).kind = .norm 0) ∧ ∀ i, i ∉ n.hidden → s2 i = s i := by
  obtain ⟨s1, t1, n1, e1, e2, htw, hk, hfr, hh, -⟩ := plainTwin_net (junk := junk) (junk' := junk) h hpl hd hr hc
  unfold Net.gradPass at hb ⊢
  rw [e2, ok_bind] at hb
  rw [e1, ok_bind]
  simp only at hb ⊢
  unfold Net.backprop at hb ⊢
  obtain ⟨⟨d, o⟩, a1, hb⟩ := bind_eq_ok hb
  obtain ⟨t2', a2, hb⟩ := bind_eq_ok hb
  cases hb
  rw [a1, ok_bind]
  simp only at a2 ⊢
  obtain ⟨s2, b1, b2, b3⟩ := plainTwin_backward (junk := junk) hr (s := s1) (List.nodup_reverse.2 (by rw [hh]; exact h.nodup)) (fun id hid => htw id (by rw [List.mem_reverse, hh] at hid; exact hid)) a2
  rw [b1, ok_bind]
  refine ⟨s2, rfl, fun id hid hkd => ?_, fun id hid v hv => ?_, fun i hi => ?_⟩
  · exact (b2 id (by rw [List.mem_reverse, hh]; exact hid)).1 ((hk id hid).1 hkd).1
  · exact (b2 id (by rw [List.mem_reverse, hh]; exact hid)).2 _ ((hk id hid).2 v hv)
  · rw [(b3 i (by rw [List.mem_reverse, hh]; exact hi)).1, hfr i hi]

/-- **C122** (gradient). The gradient that backpropagation reports for a weight of a dense layer is the derivative of the cost with the constants of this batch held fixed, plus `lambda` times the weight. -/
theorem C122_gradient {junk : Nat → Nat → ℝ} {s t : Store} {n : Net} {c : Nat → ℝ} {p q : Nat} {x y : Mat ℝ} (h : n.WFN s p q) (hd : Spec.Divides s c n.hidden x) (hr : 0 < x.nr) (hc : x.nc = p)
    (hpl : Spec.Plain s t c p n.hidden) (hyr : y.nr = x.nr) (hsm : Spec.SmoothAt (actW (n.hiddenLayers t)) x) (hm : Spec.OutputMatches n.output n.cost y (n.outputZ t x)) :
    ∃ s2 n2, n.gradPass junk s x y = .ok (s2, n2) ∧ ∀ l id L, n.hidden[l]? = some id → (s id).kind = .dense → n.gethidden s l = .ok L →
      ∃ L2, n2.gethidden s2 l = .ok L2 ∧ L2.W = L.W ∧ ∀ i < L.W.nr, ∀ j < L.W.nc, ∃ d,
        Spec.DerivOf (fun w => do let t' ← n.sethiddenw t l (L.W.put i j w); n.costOf junk t' x y) (L.W.f i j) d ∧ L2.grad.f i j = d + L.lambda * L.W.f i j := by
  obtain ⟨out, t1, n1, t2, n2, e1, e2, hG, -⟩ := C29_gradient (junk := junk) (plain_wf h hpl) hr hc hyr hsm hm
  have hb : n.gradPass junk t x y = .ok (t2, n2) := by
    unfold Net.gradPass
    rw [e1, ok_bind]
    exact e2
  obtain ⟨s2, a1, a2, -⟩ := C122_backward h hd hr hc hpl hb
  have hh : n2.hidden = n.hidden := by
    obtain ⟨s1', t1', n1', f1, f2, -, -, -, hh, -⟩ := plainTwin_net (junk := junk) (junk' := junk) h hpl hd hr hc
    rw [e1] at f2
    cases f2
    unfold Net.backprop at e2
    obtain ⟨⟨d, o⟩, -, e2⟩ := bind_eq_ok e2
    obtain ⟨_, -, e2⟩ := bind_eq_ok e2
    cases e2
    exact hh
  refine ⟨s2, n2, a1, fun l id L hl hk hL => ?_⟩
  have hmem : id ∈ n.hidden := List.mem_of_getElem? hl
  have hget : ∀ (s : Store) (n' : Net), n'.hidden = n.hidden → n'.gethidden s l = .ok (s id).base.copy := fun s n' e => by
    unfold Net.gethidden
    rw [e, vecAt_some hl]
    rfl
  have htd : t id = s id := by
    have : ∀ {ids : List Nat} {p : Nat}, Spec.Plain s t c p ids → id ∈ ids → t id = s id := by
      intro ids
      induction ids with
      | nil => intro p _ h; simp at h
      | cons i ids ih =>
        intro p h hm
        unfold Spec.Plain at h
        rcases List.mem_cons.1 hm with rfl | hm
        · rw [hk] at h; exact h.1
        · split at h
          · exact ih h.2 hm
          · exact ih h.2 hm
    exact this hpl hmem
  have hLt : n.gethidden t l = .ok L := by rw [hget t n rfl, htd, ← hget s n rfl]; exact hL
  obtain ⟨L2, g1, g2, -, g3⟩ := hG l L hLt
  refine ⟨L2, ?_, g2, fun i hi j hj => ?_⟩
  · rw [hget s2 n2 hh, a2 id hmem hk, ← hget t2 n2 hh]; exact g1
  · obtain ⟨d, d1, d2⟩ := g3 i hi j hj
    exact ⟨d, d1, by rw [d2, one_mul]⟩

/-- **C122** (common factor). A network whose first hidden layer is a normalising one that holds 0 does not see a common factor `a > 0` of all its inputs, whatever its other layers are. -/
theorem C122_factor {junk : Nat → Nat → ℝ} {s s1 : Store} {n n1 : Net} {id : Nat} {ids : List Nat} {x x' out : Mat ℝ} {a : ℝ} (hn : n.hidden = id :: ids) (hnd : id ∉ ids) (hk : (s id).kind = .norm 0)
    (ha : 0 < a) (hr : x'.nr = x.nr) (hc : x'.nc = x.nc) (hx : ∀ i < x.nr, ∀ j < x.nc, x'.f i j = a * x.f i j) (h : n.forwardprop junk s x = .ok (out, s1, n1)) :
    ∃ s2 n2, n.forwardprop junk s x' = .ok (out, s2, n2) := by
  have hpos : 0 < x.nr ∧ 0 < x.nc := by
    by_contra hne
    unfold Net.forwardprop InputLayer.forwardprop at h
    simp only at h
    rw [hn] at h
    unfold Net.hiddenForward HLayer.forwardprop at h
    rw [hk] at h
    simp only at h
    have : Norm.forwardprop (s id).base 0 x = .error .throw := by
      unfold Norm.forwardprop Mat.maxElem
      rw [dif_neg]
      · rfl
      · rintro ⟨⟨i, j⟩, hm⟩
        rw [Finset.mem_product, mem_range, mem_range] at hm
        exact hne ⟨by omega, by omega⟩
    rw [this] at h
    cases h
  obtain ⟨M, m, -, -, he⟩ := maxmin_ok hpos.1 hpos.2
  have he' : Spec.Extremes x' (a * M) (a * m) := by
    obtain ⟨b1, ⟨i, j, hi, hj, e1⟩, ⟨k, l, hk, hl, e2⟩⟩ := he
    refine ⟨fun i j hi hj => ?_, ⟨i, j, by omega, by omega, ?_⟩, ⟨k, l, by omega, by omega, ?_⟩⟩
    · rw [hx i (by omega) j (by omega)]
      obtain ⟨u, v⟩ := b1 i j (by omega) (by omega)
      exact ⟨mul_le_mul_of_nonneg_left u ha.le, mul_le_mul_of_nonneg_left v ha.le⟩
    · rw [hx i hi j hj, e1]
    · rw [hx k hk l hl, e2]
  obtain ⟨L1, f1⟩ := norm_forward junk (s id).base 0 hpos.1 hpos.2 he
  obtain ⟨L2, f2⟩ := norm_forward junk (s id).base 0 (x := x') (by omega) (by omega) he'
  have hs : s id = ⟨(s id).base, .norm 0⟩ := by rw [← hk]
  rw [← hs, if_pos rfl] at f1 f2
  have hmat : Spec.scaled x' (a * M - a * m) = Spec.scaled x (M - m) := by
    unfold Spec.scaled
    rw [hr, hc]
    refine Mat.of_congr (fun i j hi hj => ?_)
    rw [hx i hi j hj, ← mul_sub, mul_div_mul_left _ _ ha.ne']
  rw [hmat] at f2
  unfold Net.forwardprop InputLayer.forwardprop at h ⊢
  simp only at h ⊢
  rw [hn] at h ⊢
  unfold Net.hiddenForward at h ⊢
  rw [f1, ok_bind] at h
  rw [f2, ok_bind]
  simp only at h ⊢
  have hcg := hiddenForward_congr (junk := junk) ids (s.put id ⟨L1, .norm (M - m)⟩) (s.put id ⟨L2, .norm (a * M - a * m)⟩)
    (Spec.scaled x (M - m)) (fun i hi => by
      have hne : i ≠ id := fun e => hnd (e ▸ hi)
      rw [put_other hne, put_other hne])
  obtain ⟨⟨y, s3⟩, g1, h⟩ := bind_eq_ok h
  rw [g1] at hcg
  obtain ⟨⟨r, o⟩, g2, h⟩ := bind_eq_ok h
  cases h
  cases g3 : Net.hiddenForward junk ids (s.put id ⟨L2, .norm (a * M - a * m)⟩) (Spec.scaled x (M - m)) with
  | error e => rw [g3] at hcg; cases hcg
  | ok w =>
    rw [g3] at hcg
    obtain ⟨y', s4⟩ := w
    have : y' = y := by
      have : (Except.ok y' : Res (Mat ℝ)) = .ok y := hcg
      injection this
    subst this
    rw [ok_bind]
    simp only at g2 ⊢
    rw [g2, ok_bind]
    exact ⟨_, _, rfl⟩

/-- **C122** (predictions). The predictions for a batch are those of the network with the constants of the batch in the place of the normalising layers, which hold these constants afterwards. -/
theorem C122_predict {junk : Nat → Nat → ℝ} {s : Store} {n : Net} {c : Nat → ℝ} {p q : Nat} {x : Mat ℝ} (h : n.WFN s p q) (hd : Spec.Divides s c n.hidden x) (hr : 0 < x.nr) (hc : x.nc = p) :
    ∃ t, Spec.Plain s t c p n.hidden ∧ n.WF t p q ∧ ∃ r s1 n1 t1, n.predict junk s x = .ok (r, s1, n1) ∧ n.predict junk t x = .ok (r, t1, n1) ∧ n1.WFN s1 p q ∧ n1.hidden = n.hidden ∧
      n1.output.W = n.output.W ∧ n1.output.actfunc = n.output.actfunc ∧ ∀ id ∈ n.hidden, ∀ v, (s id).kind = .norm v → (s1 id).kind = .norm (c id) := by
  obtain ⟨t, hpl⟩ := plain_exists s c n.hidden p h.nodup
  obtain ⟨s1, t1, n1, e1, e2, -, hk, -, hh, hcst, ho, hW, ha⟩ := plainTwin_net (junk := junk) (junk' := junk) h hpl hd hr hc
  obtain ⟨r, hch, h1, h2, h3⟩ := h.chain
  obtain ⟨a, t', n', e3, -⟩ := C32_predict (junk := junk) (plain_wf h hpl) hr hc
  have e3' := e3
  unfold Net.predict at e3 ⊢
  rw [e2, ok_bind] at e3
  rw [e1, ok_bind]
  simp only at e3 ⊢
  obtain ⟨am, e4, e5⟩ := bind_eq_ok e3
  cases e5
  rw [e4, ok_bind]
  refine ⟨t, hpl, plain_wf h hpl, a, s1, _, t1, rfl, ?_, ⟨by rw [hh]; exact h.nodup, h.pos, r, by rw [hh]; exact kin_chain hk hch, by rw [hW]; exact h1, by rw [hW]; exact h2, h3⟩, hh, hW, ha,
    fun id hid v hv => (hk id hid).2 v hv⟩
  rw [e2, ok_bind]
  simp only
  rw [e4, ok_bind]

/-! ## A network whose answer for a sample depends on the company and on the past -/

/-- Two inputs, a normalising layer, two classes with the scores 3/4 and the second input. -/
def nrmNet : Net :=
  { result := .empty, cost := Quadratic.cost, costd := Quadratic.costd, input := exLayer Act.identity .empty, hidden := [0],
    output := { exLayer Act.identity (Mat.of 3 2 (fun i j => if i = 0 ∧ j = 0 then 3 / 4 else if i = 2 ∧ j = 1 then 1 else 0)) with cost := Quadratic.cost, costd := Quadratic.costd, y := .empty } }

/-- Its normalising layer, holding 0. -/
def nrmStore : Store := fun _ => ⟨exLayer Act.identity .empty, .norm 0⟩

theorem nrm_wfn : nrmNet.WFN nrmStore 2 2 := ⟨by simp [nrmNet], by omega, 2, by simp [nrmNet, nrmStore, Spec.Chain], rfl, rfl, by omega⟩

theorem nrm_scores {n : Net} {t : Store} {c : ℝ} {x : Mat ℝ} {i : Nat} (hh : n.hidden = [0]) (hW : n.output.W = nrmNet.output.W) (ha : n.output.actfunc = nrmNet.output.actfunc)
    (ht : t 0 = ⟨Spec.divider 2 c, .dense⟩) (hc : x.nc = 2) (hi : i < x.nr) : (Spec.denseNet (n.params t) x).f i 0 = 3 / 4 ∧ (Spec.denseNet (n.params t) x).f i 1 = x.f i 1 / c := by
  have e : Spec.denseNet (n.params t) x = Spec.dense (fun v => v) (Mat.of 3 2 (fun i j => if i = 0 ∧ j = 0 then (3 / 4 : ℝ) else if i = 2 ∧ j = 1 then 1 else 0)) (Spec.scaled x c) := by
    have : n.params t = [((fun v => v : ℝ → ℝ), (Spec.divider 2 c).W), ((fun v => v : ℝ → ℝ), (Mat.of 3 2 (fun i j => if i = 0 ∧ j = 0 then (3 / 4 : ℝ) else if i = 2 ∧ j = 1 then 1 else 0)))] := by
      unfold Net.params Net.layers Net.hiddenLayers
      rw [hh]
      simp only [List.map_cons, List.map_nil, List.cons_append, List.nil_append, hW, ha, ht]
      rfl
    rw [this, ← divider_pre, hc]
    rfl
  rw [e]
  unfold Spec.dense
  have hs : ∀ k < 2, (Spec.scaled x c).f i k = x.f i k / c := fun k hk => by unfold Spec.scaled; rw [Mat.of_f' hi (by omega)]
  have hn : (Spec.scaled x c).nc = 2 := hc
  constructor
  · rw [Mat.of_f' (by exact hi) (by simp), hn, sum_range_succ, sum_range_succ, sum_range_zero, Mat.of_f' (by omega) (by omega), Mat.of_f' (by omega) (by omega), Mat.of_f' (by omega) (by omega)]
    simp
  · rw [Mat.of_f' (by exact hi) (by simp), hn, sum_range_succ, sum_range_succ, sum_range_zero, Mat.of_f' (by omega) (by omega), Mat.of_f' (by omega) (by omega), Mat.of_f' (by omega) (by omega), hs 1 (by omega)]
    simp

theorem nrm_class {junk : Nat → Nat → ℝ} {n : Net} {s : Store} {v c : ℝ} {x : Mat ℝ} (hwf : n.WFN s 2 2) (hh : n.hidden = [0]) (hW : n.output.W = nrmNet.output.W) (ha : n.output.actfunc = nrmNet.output.actfunc)
    (hk : (s 0).kind = .norm v) (h0 : c ≠ 0) (hv : v ≠ 0 → c = v) (hv0 : v = 0 → ∃ M m, Spec.Extremes x M m ∧ c = M - m) (hr : 0 < x.nr) (hc : x.nc = 2) :
    ∃ r s1 n1, n.predict junk s x = .ok (r, s1, n1) ∧ n1.WFN s1 2 2 ∧ n1.hidden = [0] ∧ n1.output.W = nrmNet.output.W ∧ n1.output.actfunc = nrmNet.output.actfunc ∧ (s1 0).kind = .norm c ∧
      ∀ i < x.nr, (3 / 4 < x.f i 1 / c → r.f i 0 = 1) ∧ (x.f i 1 / c ≤ 3 / 4 → r.f i 0 = 0) := by
  obtain ⟨t, hpl, hwt, r, s1, n1, t1, e1, e2, w1, w2, w3, w4, w5⟩ := C122_predict (junk := junk) (c := fun _ => c) hwf (x := x) (by
    rw [hh]
    unfold Spec.Divides
    rw [hk]
    exact ⟨h0, hv, hv0, trivial⟩) hr hc
  refine ⟨r, s1, n1, e1, w1, w2.trans hh, w3.trans hW, w4.trans ha, w5 0 (by rw [hh]; simp) v hk, fun i hi => ?_⟩
  have ht : t 0 = ⟨Spec.divider 2 c, .dense⟩ := by
    rw [hh] at hpl
    unfold Spec.Plain at hpl
    rw [hk] at hpl
    exact hpl.1
  obtain ⟨r', t', n', e3, -, -, -, hcl⟩ := C32_predict (junk := junk) hwt hr hc
  rw [e2] at e3
  cases e3
  obtain ⟨k, k1, -, k3, k4, k5⟩ := hcl i hi
  obtain ⟨v0, v1⟩ := nrm_scores hh hW ha ht hc hi
  constructor
  · intro hlt
    have : k = 1 := by
      rcases Nat.lt_or_ge k 1 with hk0 | hk1
      · have : k = 0 := by omega
        subst this
        have := k4 1 (by omega)
        rw [v0, v1] at this
        linarith
      · omega
    rw [k1, this]
    norm_num
  · intro hle
    have : k = 0 := by
      rcases Nat.eq_zero_or_pos k with hk0 | hk1
      · exact hk0
      · have : k = 1 := by omega
        subst this
        have := k5 0 (by omega)
        rw [v0, v1] at this
        linarith
    rw [k1, this]
    norm_num

/-- The sample `(0, v)`. -/
def nrmX (v : ℝ) : Mat ℝ := Mat.of 1 2 (fun _ j => if j = 0 then 0 else v)
/-- The samples `(0, 1)` and `(0, 2)` in one batch. -/
def nrmXX : Mat ℝ := Mat.of 2 2 (fun i j => if j = 0 then 0 else (i : ℝ) + 1)

theorem nrmX_range {v : ℝ} (hv : 0 < v) : Spec.Extremes (nrmX v) v 0 := by
  have f : ∀ j < 2, (nrmX v).f 0 j = if j = 0 then 0 else v := fun j hj => by unfold nrmX; rw [Mat.of_f' (by omega) hj]
  refine ⟨fun i j hi hj => ?_, ⟨0, 1, by simp [nrmX], by simp [nrmX], by rw [f 1 (by omega)]; simp⟩, ⟨0, 0, by simp [nrmX], by simp [nrmX], by rw [f 0 (by omega)]; simp⟩⟩
  have hi : i < 1 := hi
  have : i = 0 := by omega
  subst this
  rw [f j hj]
  split <;> constructor <;> linarith

theorem nrmXX_range : Spec.Extremes nrmXX 2 0 := by
  have f : ∀ i < 2, ∀ j < 2, nrmXX.f i j = if j = 0 then 0 else (i : ℝ) + 1 := fun i hi j hj => by unfold nrmXX; rw [Mat.of_f' hi hj]
  refine ⟨fun i j hi hj => ?_, ⟨1, 1, by decide, by decide, by rw [f 1 (by omega) 1 (by omega)]; norm_num⟩, ⟨0, 0, by decide, by decide, by rw [f 0 (by omega) 0 (by omega)]; simp⟩⟩
  have hi : i < 2 := hi
  rw [f i hi j hj]
  have h1 : (i : ℝ) ≤ 1 := by exact_mod_cast (by omega : i ≤ 1)
  have h2 : (0 : ℝ) ≤ i := Nat.cast_nonneg i
  split <;> constructor <;> linarith

/-- **C122 is false without the constants**: one and the same sample `(0, 1)` is put into class 1 when it is predicted alone, into class 0 when it is predicted in a batch with `(0, 2)`, and into class 0 when it is
predicted alone after a prediction for `(0, 2)`. So predictions are neither made row by row (C28) nor without effect on the model (C55). -/
theorem C122_refuted (junk : Nat → Nat → ℝ) : ∃ (s : Store) (n : Net) (x x' both r1 r2 ra r3 : Mat ℝ) (s1 s2 sa s3 : Store) (n1 n2 na n3 : Net), n.WFN s 2 2 ∧ x.nr = 1 ∧ both.nr = 2 ∧
    (∀ j < 2, both.f 0 j = x.f 0 j) ∧ n.predict junk s x = .ok (r1, s1, n1) ∧ r1.f 0 0 = 1 ∧ n.predict junk s both = .ok (r2, s2, n2) ∧ r2.f 0 0 = 0 ∧
    n.predict junk s x' = .ok (ra, sa, na) ∧ na.predict junk sa x = .ok (r3, s3, n3) ∧ r3.f 0 0 = 0 := by
  have hx : (nrmX 1).f 0 1 = 1 := by unfold nrmX; rw [Mat.of_f' (by omega) (by omega)]; simp
  have hxx : nrmXX.f 0 1 = 1 := by unfold nrmXX; rw [Mat.of_f' (by omega) (by omega)]; simp
  obtain ⟨r1, s1, n1, e1, -, -, -, -, -, c1⟩ := nrm_class (junk := junk) (x := nrmX 1) (c := 1) nrm_wfn rfl rfl rfl (show (nrmStore 0).kind = .norm 0 from rfl) (by norm_num) (fun h => absurd rfl h)
    (fun _ => ⟨1, 0, nrmX_range (by norm_num), by norm_num⟩) (by decide) rfl
  obtain ⟨r2, s2, n2, e2, -, -, -, -, -, c2⟩ := nrm_class (junk := junk) (x := nrmXX) (c := 2) nrm_wfn rfl rfl rfl (show (nrmStore 0).kind = .norm 0 from rfl) (by norm_num) (fun h => absurd rfl h)
    (fun _ => ⟨2, 0, nrmXX_range, by norm_num⟩) (by decide) rfl
  obtain ⟨ra, sa, na, ea, a1, a2, a3, a4, a5, -⟩ := nrm_class (junk := junk) (x := nrmX 2) (c := 2) nrm_wfn rfl rfl rfl (show (nrmStore 0).kind = .norm 0 from rfl) (by norm_num) (fun h => absurd rfl h)
    (fun _ => ⟨2, 0, nrmX_range (by norm_num), by norm_num⟩) (by decide) rfl
  obtain ⟨r3, s3, n3, e3, -, -, -, -, -, c3⟩ := nrm_class (junk := junk) (x := nrmX 1) (c := 2) a1 a2 a3 a4 a5 (by norm_num) (fun _ => rfl) (fun h => by norm_num at h) (by decide) rfl
  refine ⟨nrmStore, nrmNet, nrmX 1, nrmX 2, nrmXX, r1, r2, ra, r3, s1, s2, sa, s3, n1, n2, na, n3, nrm_wfn, rfl, rfl, fun j hj => ?_, e1, (c1 0 (by decide)).1 (by rw [hx]; norm_num), e2,
    (c2 0 (by decide)).2 (by rw [hxx]; norm_num), ea, e3, (c3 0 (by decide)).2 (by rw [hx]; norm_num)⟩
  unfold nrmXX nrmX
  rw [Mat.of_f' (by omega) hj, Mat.of_f' (by omega) hj]
  simp

/-- A case of the hypotheses: the batch `(0, 1), (0, 2)` meets the normalising layer, which then divides by 2. -/
example (junk : Nat → Nat → ℝ) := C122_later (junk := junk) (c := fun _ => 2) (x := nrmXX) (xs := [nrmX 7]) nrm_wfn (by
    show Spec.Divides nrmStore _ [0] _
    unfold Spec.Divides
    exact ⟨by norm_num, fun h => absurd rfl h, fun _ => ⟨2, 0, nrmXX_range, by norm_num⟩, trivial⟩) (by decide) rfl (by simp [nrmX])

/-! ## The reported gradient is not the derivative of the cost -/

/-- One input, two units without activation of which the second has weight `w` (all other weights are 0), a normalising layer, one output that shows the second unit. -/
def nrgNet : Net :=
  { result := .empty, cost := Quadratic.cost, costd := Quadratic.costd, input := exLayer Act.identity .empty, hidden := [0, 1],
    output := { exLayer Act.identity (Mat.of 3 1 (fun i _ => if i = 2 then 1 else 0)) with cost := Quadratic.cost, costd := Quadratic.costd, y := .empty } }

/-- The weights of its first layer. -/
def nrgW (w : ℝ) : Mat ℝ := Mat.of 2 2 (fun i j => if i = 1 ∧ j = 1 then w else 0)

/-- Its hidden layers; the normalising one holds 0. -/
def nrgStore (w : ℝ) : Store := fun i => if i = 0 then ⟨exLayer Act.identity (nrgW w), .dense⟩ else ⟨exLayer Act.identity .empty, .norm 0⟩

/-- The matrix with the one entry `v`. -/
def nrgX (v : ℝ) : Mat ℝ := Mat.of 1 1 (fun _ _ => v)

theorem nrg_wfn (w : ℝ) : (nrgNet).WFN (nrgStore w) 1 1 := ⟨by simp [nrgNet], by omega, 2, by simp [nrgNet, nrgStore, Spec.Chain, exLayer, nrgW], rfl, rfl, by omega⟩

theorem nrg_first {V : Mat ℝ} (hV : V.nc = 2) {j : Nat} (hj : j < 2) : (Spec.dense (fun v => v) V (nrgX 1)).f 0 j = V.f 0 j + V.f 1 j := by
  unfold Spec.dense nrgX
  rw [Mat.of_f' (by simp) (by omega)]
  show V.f 0 j + ∑ k ∈ range 1, _ = _
  rw [sum_range_one, Mat.of_f' (by omega) (by omega), one_mul]

theorem nrg_out {t : Store} {c : ℝ} {V : Mat ℝ} (h0 : (t 0).base.actfunc = Act.identity) (h1 : (t 0).base.W = V) (hV : V.nc = 2) (ht : t 1 = ⟨Spec.divider 2 c, .dense⟩) :
    Spec.denseNet (nrgNet.params t) (nrgX 1) = nrgX ((V.f 0 1 + V.f 1 1) / c) := by
  have hp : nrgNet.params t = [((fun v => v : ℝ → ℝ), V), ((fun v => v : ℝ → ℝ), (Spec.divider 2 c).W), ((fun v => v : ℝ → ℝ), (Mat.of 3 1 (fun i _ => if i = 2 then (1 : ℝ) else 0)))] := by
    unfold Net.params Net.layers Net.hiddenLayers
    show (([0, 1] : List Nat).map (fun p => (t p).base) ++ [nrgNet.output.toLayer]).map _ = _
    simp only [List.map_cons, List.map_nil, List.cons_append, List.nil_append, ht, h0, h1]
    rfl
  rw [hp]
  show Spec.dense (fun v => v) _ (Spec.pre (Spec.divider 2 c).W (Spec.dense (fun v => v) V (nrgX 1))) = _
  have hn : (Spec.dense (fun v => v) V (nrgX 1)).nc = 2 := hV
  rw [show Spec.divider 2 c = Spec.divider (Spec.dense (fun v => v) V (nrgX 1)).nc c by rw [hn], divider_pre]
  have hs : ∀ k < 2, (Spec.scaled (Spec.dense (fun v => v) V (nrgX 1)) c).f 0 k = (V.f 0 k + V.f 1 k) / c := fun k hk => by
    unfold Spec.scaled
    rw [Mat.of_f' (by exact Nat.one_pos) (by omega), nrg_first hV hk]
  have hn' : (Spec.scaled (Spec.dense (fun v => v) V (nrgX 1)) c).nc = 2 := hV
  have hr' : (Spec.scaled (Spec.dense (fun v => v) V (nrgX 1)) c).nr = 1 := rfl
  generalize Spec.scaled (Spec.dense (fun v => v) V (nrgX 1)) c = Z at hs hn' hr'
  unfold Spec.dense
  conv_rhs => unfold nrgX
  rw [hr']
  show Mat.of 1 1 _ = _
  refine Mat.of_congr (fun i j hi hj => ?_)
  have : i = 0 := by omega
  subst this
  have : j = 0 := by omega
  subst this
  rw [hn', sum_range_succ, sum_range_succ, sum_range_zero, Mat.of_f' (by omega) (by omega), Mat.of_f' (by omega) (by omega), Mat.of_f' (by omega) (by omega), hs 1 (by omega)]
  simp

theorem nrg_cost (a : ℝ) : (do let J ← nrgNet.cost (nrgX 0) (nrgX a); .ok (sumall J) : Res ℝ) = .ok (a * a / 2) := by
  have : nrgNet.cost (nrgX 0) (nrgX a) = .ok _ := quadratic_cost (y := nrgX 0) (h := nrgX a) rfl rfl
  rw [this, ok_bind]
  congr 1
  unfold sumall
  show ∑ i ∈ range 1, ∑ j ∈ range 1, _ = _
  rw [sum_range_one, sum_range_one, Mat.of_f' (by exact Nat.one_pos) (by exact Nat.one_pos)]
  unfold nrgX
  rw [Mat.of_f' (by omega) (by omega), Mat.of_f' (by omega) (by omega)]
  simp

theorem nrg_divides {w : ℝ} (hw : 0 < w) : Spec.Divides (nrgStore w) (fun _ => w) nrgNet.hidden (nrgX 1) := by
  show Spec.Divides (nrgStore w) (fun _ => w) [0, 1] (nrgX 1)
  have f : ∀ i j, i < 2 → j < 2 → (nrgW w).f i j = if i = 1 ∧ j = 1 then w else 0 := fun i j hi hj => by unfold nrgW; rw [Mat.of_f' hi hj]
  have e0 : (Spec.dense (fun v => v) (nrgW w) (nrgX 1)).f 0 0 = 0 := by
    rw [nrg_first rfl (by omega), f 0 0 (by omega) (by omega), f 1 0 (by omega) (by omega)]; simp
  have e1 : (Spec.dense (fun v => v) (nrgW w) (nrgX 1)).f 0 1 = w := by
    rw [nrg_first rfl (by omega), f 0 1 (by omega) (by omega), f 1 1 (by omega) (by omega)]; simp
  refine ⟨hw.ne', fun h => absurd rfl h, fun _ => ⟨w, 0, ?_, by ring⟩, trivial⟩
  show Spec.Extremes (Spec.dense (fun v => v) (nrgW w) (nrgX 1)) w 0
  refine ⟨fun i j hi hj => ?_, ⟨0, 1, Nat.one_pos, Nat.one_lt_two, e1⟩, ⟨0, 0, Nat.one_pos, Nat.two_pos, e0⟩⟩
  have hi : i < 1 := hi
  have hj : j < 2 := hj
  have : i = 0 := by omega
  subst this
  rcases Nat.lt_or_ge j 1 with h | h
  · have : j = 0 := by omega
    subst this
    rw [e0]; constructor <;> linarith
  · have : j = 1 := by omega
    subst this
    rw [e1]; constructor <;> linarith

/-- **C122 (gradient) is false of the cost itself**: in a network of this kind the cost for the sample 1 with label 0 is 1/2 whatever the positive weight `w` of the second unit is, so its derivative is 0; but the
gradient that backpropagation reports for this weight at `w = 1` is 1. -/
theorem C122_gradient_refuted (junk : Nat → Nat → ℝ) : (∀ w > 0, nrgNet.costOf junk (nrgStore w) (nrgX 1) (nrgX 0) = .ok (1 / 2)) ∧
    ∃ s2 n2 L2, nrgNet.gradPass junk (nrgStore 1) (nrgX 1) (nrgX 0) = .ok (s2, n2) ∧ n2.gethidden s2 0 = .ok L2 ∧ L2.grad.f 1 1 = 1 := by
  have f : ∀ w : ℝ, ∀ i j, i < 2 → j < 2 → (nrgW w).f i j = if i = 1 ∧ j = 1 then w else 0 := fun w i j hi hj => by unfold nrgW; rw [Mat.of_f' hi hj]
  constructor
  · intro w hw
    obtain ⟨t, hpl⟩ := plain_exists (nrgStore w) (fun _ => w) nrgNet.hidden 1 (nrg_wfn w).nodup
    obtain ⟨s1, t1, n1, e1, -, -, -, -, -, hcst, -⟩ := plainTwin_net (junk := junk) (junk' := junk) (nrg_wfn w) hpl (nrg_divides hw) (show 0 < (nrgX 1).nr from Nat.one_pos) rfl
    have hpl' : t 0 = nrgStore w 0 ∧ t 1 = ⟨Spec.divider 2 w, .dense⟩ := ⟨hpl.1, hpl.2.1⟩
    unfold Net.costOf
    rw [e1, ok_bind]
    simp only
    unfold Net.computecost
    rw [hcst, nrg_out (V := nrgW w) (c := w) (by rw [hpl'.1]; rfl) (by rw [hpl'.1]; rfl) rfl hpl'.2, nrg_cost, f w 0 1 (by omega) (by omega), f w 1 1 (by omega) (by omega)]
    simp [hw.ne']
  · obtain ⟨t, hpl⟩ := plain_exists (nrgStore 1) (fun _ => 1) nrgNet.hidden 1 (nrg_wfn 1).nodup
    have hpl' : t 0 = nrgStore 1 0 ∧ t 1 = ⟨Spec.divider 2 1, .dense⟩ := ⟨hpl.1, hpl.2.1⟩
    have hwt : nrgNet.WF t 1 1 := plain_wf (nrg_wfn 1) hpl
    obtain ⟨d1, d2⟩ := outputZ_dims hwt (x := nrgX 1) rfl
    obtain ⟨D, e, -, hG⟩ := C30_quadratic (y := nrgX 0) (z := nrgNet.outputZ t (nrgX 1)) d1 d2
    obtain ⟨s2, n2, a1, a2⟩ := C122_gradient (junk := junk) (y := nrgX 0) (nrg_wfn 1) (nrg_divides one_pos) (show 0 < (nrgX 1).nr from Nat.one_pos) rfl hpl rfl (by
      show Spec.SmoothAt (actW (([0, 1] : List Nat).map (fun p => (t p).base))) (nrgX 1)
      simp only [actW, List.map_cons, List.map_nil, hpl'.1, hpl'.2]
      exact ⟨fun _ _ _ _ => Act.C25_identity _, fun _ _ _ _ => Act.C25_identity _, trivial⟩) ⟨D, e, hG⟩
    obtain ⟨L2, b1, b2, b3⟩ := a2 0 0 _ rfl rfl rfl
    refine ⟨s2, n2, L2, a1, b1, ?_⟩
    obtain ⟨d, ⟨φ, c1, c2⟩, c3⟩ := b3 1 (show 1 < 2 by omega) 1 (show 1 < 2 by omega)
    have hphi : φ = fun w => w * w / 2 := by
      funext w
      have hw := c1 w
      set V : Mat ℝ := ((nrgStore 1 0).base.copy.W).put 1 1 w with hV
      have hset : nrgNet.sethiddenw t (0 : Nat) V = .ok (t.put 0 ((t 0).setw V)) := by
        unfold Net.sethiddenw
        rw [vecAt_some (r := 0) rfl]
        rfl
      have hw : (do let t' ← nrgNet.sethiddenw t (0 : Nat) V; nrgNet.costOf junk t' (nrgX 1) (nrgX 0)) = .ok (φ w) := hw
      rw [hset, ok_bind] at hw
      have q0 : t.put 0 ((t 0).setw V) 0 = (t 0).setw V := put_same
      have q1 : t.put 0 ((t 0).setw V) 1 = ⟨Spec.divider 2 1, .dense⟩ := by rw [put_other (by omega)]; exact hpl'.2
      have hwf : nrgNet.WF (t.put 0 ((t 0).setw V)) 1 1 := by
        refine ⟨hwt.nodup, fun id hid => ?_, by omega, ?_⟩
        · by_cases h : id = 0
          · subst h; rw [q0]; exact hwt.dense 0 hid
          · rw [put_other h]; exact hwt.dense id hid
        · show Spec.Fits 1 ((([0, 1] : List Nat).map (fun p => (t.put 0 ((t 0).setw V) p).base) ++ [nrgNet.output.toLayer]).map (·.W)) 1
          simp only [List.map_cons, List.map_nil, List.cons_append, List.nil_append, q0, q1]
          exact ⟨rfl, Nat.two_pos, rfl, Nat.two_pos, rfl, Nat.one_pos, rfl⟩
      rw [costOf_eq hwf Nat.one_pos rfl, outL_eq_denseNet] at hw
      have := nrg_out (t := t.put 0 ((t 0).setw V)) (c := 1) (V := V) (by rw [q0, hpl'.1]; rfl) (by rw [q0]; rfl) rfl q1
      unfold Net.params at this
      rw [this, nrg_cost] at hw
      have v0 : V.f 0 1 = 0 := by
        rw [hV]
        show (Mat.of 2 2 (fun a b => if a = 1 ∧ b = 1 then w else (nrgStore 1 0).base.copy.W.f a b)).f _ 1 = _
        rw [Mat.of_f' Nat.two_pos Nat.one_lt_two, if_neg (by omega)]
        exact (f 1 0 1 (by omega) (by omega)).trans (by simp)
      have v1 : V.f 1 1 = w := by
        rw [hV]
        show (Mat.of 2 2 (fun a b => if a = 1 ∧ b = 1 then w else (nrgStore 1 0).base.copy.W.f a b)).f _ 1 = _
        rw [Mat.of_f' Nat.one_lt_two Nat.one_lt_two, if_pos ⟨rfl, rfl⟩]
      rw [v0, v1, zero_add, div_one] at hw
      exact (Except.ok.inj hw).symm
    have hval : ((nrgStore 1 0).base.copy.W).f 1 1 = 1 := (f 1 1 1 (by omega) (by omega)).trans (by simp)
    have hder : HasDerivAt (fun w : ℝ => w * w / 2) 1 1 := by
      have := ((hasDerivAt_id (1 : ℝ)).mul (hasDerivAt_id (1 : ℝ))).div_const 2
      simpa using this
    rw [hphi, hval] at c2
    have hd1 : d = 1 := c2.unique hder
    rw [c3, hd1]
    show 1 + 0 * _ = (1 : ℝ)
    ring

end
end Nnet.NN
